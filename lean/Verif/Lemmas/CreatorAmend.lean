import Verif.Lemmas.CreatorRemove
import Verif.Model.Amend

/-!
# An archive filled by strategies: writing the entry of an item again
-/

namespace Pyzim
open Zim (Row Stored Clustered Works Lists Art MimesIn catalogue marked clusterAt Redirect catalogue_snoc
  catalogue_other Once)

/-- an entry with another url does not matter -/
theorem catalogue_skip (m0 : Catalogue) {E1 E2 : List Entry} {e e' : Entry} (h : e'.fullUrl = e.fullUrl) {w : String} (hw : w ≠ e.fullUrl) :
    catalogue m0 (E1 ++ e' :: E2) w = catalogue m0 (E1 ++ e :: E2) w := by
  unfold catalogue
  rw [List.foldl_append, List.foldl_append, List.foldl_cons, List.foldl_cons]
  refine catalogue_congr (es := E2) ?_
  show (if w = e'.fullUrl then _ else if some w = some e'.fullUrl then _ else _) = (if w = e.fullUrl then _ else if some w = some e.fullUrl then _ else _)
  rw [h, if_neg hw, if_neg (by simpa using hw), if_neg hw]

theorem marked_left {S0 : String → Prop} {E1 E2 : List Entry} {w : String} (hw : w ∉ E2.map Entry.fullUrl) :
    marked S0 (E1 ++ E2) w ↔ marked S0 E1 w := by
  induction E2 using snoc_induction with
  | h0 => rw [List.append_nil]
  | h1 E2 x ih =>
    rw [List.map_append, List.mem_append, not_or] at hw
    have hx : w ≠ x.fullUrl := fun e => hw.2 (by simp [e])
    rw [← List.append_assoc, marked_snoc, ih hw.1]
    constructor
    · rintro (⟨h, -⟩ | ⟨h, -⟩)
      · exact h
      · exact absurd h hx
    · exact fun h => .inl ⟨h, hx⟩

theorem marked_skip {S0 : String → Prop} {E1 E2 : List Entry} {e e' : Entry} (h : e'.fullUrl = e.fullUrl)
    (hf : e'.forceIsArticle = e.forceIsArticle) (hn : e'.ns = e.ns) (ho : e'.oldFullUrl = e.oldFullUrl) :
    marked S0 (E1 ++ e' :: E2) = marked S0 (E1 ++ e :: E2) := by
  unfold marked
  rw [List.foldl_append, List.foldl_append, List.foldl_cons, List.foldl_cons]
  unfold Zim.MarksArticle
  rw [h, hf, hn, ho]

/-- An entry whose title and mimetype may have been changed. -/
structure Amends (ρ : Entry → Entry) : Prop where
  ns : ∀ e, (ρ e).ns = e.ns
  url : ∀ e, (ρ e).url = e.url
  kind : ∀ e, (ρ e).kind = e.kind
  force : ∀ e, (ρ e).forceIsArticle = e.forceIsArticle
  old : ∀ e, (ρ e).oldFullUrl = e.oldFullUrl
  view : ∀ e e', e.view = e'.view → (ρ e).view = (ρ e').view

theorem Amends.fullUrl {ρ : Entry → Entry} (h : Amends ρ) (e : Entry) : (ρ e).fullUrl = e.fullUrl := by
  unfold Entry.fullUrl; rw [h.ns, h.url]

/-- the groups after the last item with the url was changed -/
abbrev amendGroups (u : String) (g : Item → Item) (G : List (List Sourced)) : List (List Sourced) :=
  replaceLast (fun l => l.any (urlIs u)) (replaceLast (urlIs u) fun p => (g p.1, p.2)) G

section
variable {D K : Type} {X : Codecs D} {C : Compressors K} {ML : List Bytes} {reserve : Option Nat} {a a' : Archive}
  {G G' : List (List Sourced)} {rows : List Row} {cs : List Stored} {extra : Nat → Prop} {es : List Entry} {L : Bytes}
  {m0 : Catalogue} {R B : List Redirect} {d : Nat} {Z' : Zim}

/-- listing a mimetype -/
theorem Core.listMime (h : Core gh mp X C ML reserve a G rows cs extra es L m0 R B) {mt : Bytes} (hne : mt ≠ [])
    (h0 : (0 : UInt8) ∉ mt) (hmt : mt ∈ ML) {r : PyRes (Option Nat)} {m : MimeTypeList} (hg : a.zim.mimetypes.getIndex mt true = (r, m)) :
    Core gh mp X C ML reserve { a with zim := { a.zim with mimetypes := m } } G rows cs extra es L m0 R B ∧
      a.zim.mimetypes.mimetypes <+: m.mimetypes := by
  have hpre : a.zim.mimetypes.mimetypes <+: m.mimetypes := by
    rcases Zim.getIndex_changes hg with rfl | ⟨-, e⟩
    · exact List.prefix_rfl
    · rw [e]; exact List.prefix_append _ _
  obtain ⟨rows', hl⟩ := h.laid.works (O := ClusterObj.ops X C) (.step .refl (.mimetype hne h0 hg))
  have hr : rows' = rows := Zim.Rep.unique (h.laid.content.mimes m).rep hl.content.rep
  subst hr
  refine ⟨⟨hl, h.first, h.entries.imp fun _ _ k => k.mono hpre, h.other, h.lists, h.art, h.mimes.getIndex hmt hg, h.redirects,
    h.mainpage, h.listed, h.shown, h.only, fun x hx hO => ?_⟩, hpre⟩
  have h1 := h.leads x hx hO
  exact ⟨hl.content.rep.leads_iff.2 (h.laid.content.rep.leads_iff.1 h1.leads), h1.title⟩

/-- where the item and its entry are -/
structure Placed (gh : Bool) (m : MimeTypeList) (G : List (List Sourced)) (es : List Entry) (u : String) (e0 : Entry)
    (G1 : List (List Sourced)) (g1 : List Sourced) (p : Sourced) (g2 : List Sourced) (G2 : List (List Sourced))
    (E1 : List Entry) (ep : Entry) (E2 : List Entry) (A Z : List (Item × Nat × Nat)) : Prop where
  groups : G = G1 ++ (g1 ++ p :: g2) :: G2
  entries : es = E1 ++ ep :: E2
  url : p.1.fullUrl = u
  entryUrl : ep.fullUrl = u
  last : ep.fullUrl ∉ E2.map Entry.fullUrl
  view : e0.view = ep.view
  ne : u ≠ ""
  replace : ∀ f : Sourced → Sourced, replaceLast (fun l => l.any (urlIs u)) (replaceLast (urlIs u) f) G = G1 ++ (g1 ++ f p :: g2) :: G2
  slots : ∀ q : Sourced, q.1.fullUrl ≠ "" →
      slotsOf gh 1 (G1 ++ (g1 ++ q :: g2) :: G2) = A ++ (q.1, 1 + G1.length, g1.length) :: Z
  before : List.Forall₂ (fun (s : Item × Nat × Nat) e => EntryFor m s.1 s.2.1 s.2.2 e) ((Creator.placeholder, 0, 0) :: A) E1
  this : EntryFor m p.1 (1 + G1.length) g1.length ep
  after : List.Forall₂ (fun (s : Item × Nat × Nat) e => EntryFor m s.1 s.2.1 s.2.2 e) Z E2

theorem Core.place (h : Core gh mp X C ML reserve a G rows cs extra es L m0 R B) {u : String} (hu : u ≠ URL_ARTICLES)
    (hm : m0 u = none) {e0 : Entry} (he : a.zim.entryByFullUrl u = .ok e0) :
    (∃ r ∈ rows, r.2.fullUrl = u ∧ r.2 = e0) ∧ catalogue m0 es u = some e0.view ∧
    ∃ G1 g1 p g2 G2 E1 ep E2 A Z, Placed gh a.zim.mimetypes G es u e0 G1 g1 p g2 G2 E1 ep E2 A Z := by
  have hrep := h.laid.content.rep
  obtain ⟨r, hr, hru, rfl⟩ : ∃ r ∈ rows, r.2.fullUrl = u ∧ r.2 = e0 := by
    by_cases hh : ∃ r ∈ rows, r.2.fullUrl = u
    · obtain ⟨r, hr, hru⟩ := hh
      rw [← hru, hrep.entryByFullUrl hr] at he
      injection he with he
      exact ⟨r, hr, hru, he⟩
    · rw [hrep.entryByFullUrl_missing fun r hr e => hh ⟨r, hr, e⟩] at he
      cases he
  have hcat : catalogue m0 es u = some r.2.view := (h.lists _ _).2 ⟨r, hr, hru, rfl⟩
  refine ⟨⟨r, hr, hru, rfl⟩, hcat, ?_⟩
  have hin : u ∈ es.map Entry.fullUrl := by
    by_contra hno
    rw [catalogue_other m0 hno, hm] at hcat
    cases hcat
  have hany : G.any (fun l => l.any (urlIs u)) = true := by
    rcases h.urls hin with e | ⟨p, hp, e⟩
    · exact absurd e hu
    · obtain ⟨g, hg, hp⟩ := List.mem_flatten.1 hp
      exact List.any_eq_true.2 ⟨g, hg, List.any_eq_true.2 ⟨p, hp, decide_eq_true e⟩⟩
  have hclean := hrep.store.clean r hr
  have hu0 : u ≠ "" := by rw [← hru]; exact hclean.fullUrl_ne
  obtain ⟨G1, l, G2, hG, hl', hG2, -⟩ := replaceLast_at (f := id) hany
  obtain ⟨g1, p, g2, hgs, hp', hg2', -⟩ := replaceLast_at (f := id) hl'
  have hpu : p.1.fullUrl = u := of_decide_eq_true hp'
  subst hgs
  subst hG
  obtain ⟨A, Z, hAZ, hZ⟩ := slotsOf_split gh G1 G2 g1 g2
  have hent := h.entries
  rw [hAZ p (by rw [hpu]; exact hu0), ← List.cons_append] at hent
  obtain ⟨E1, ep, E2, rfl, k1, k2, k3⟩ := forall₂_split hent
  have hepu : ep.fullUrl = u := (show ep.fullUrl = p.1.fullUrl from EntryFor.fullUrl k2).trans hpu
  have hE2 : ep.fullUrl ∉ E2.map Entry.fullUrl := by
    intro hm
    obtain ⟨e, he, heu⟩ := List.mem_map.1 hm
    obtain ⟨s, hs, hse⟩ := forall₂_mem_right k3 he
    have hsu : s.1.fullUrl = u := (EntryFor.fullUrl hse).symm.trans (heu.trans hepu)
    rcases hZ s hs with ⟨q, hq, hqe⟩ | ⟨q, hq, hqe⟩
    · exact List.any_eq_false.1 hg2' q hq (decide_eq_true (by rw [hqe]; exact hsu))
    · obtain ⟨g', hg'm, hq⟩ := List.mem_flatten.1 hq
      exact List.any_eq_false.1 hG2 g' hg'm (List.any_eq_true.2 ⟨q, hq, decide_eq_true (by rw [hqe]; exact hsu)⟩)
  have hview : r.2.view = ep.view := by
    have := catalogue_at m0 (E1 := E1) hE2
    rw [hepu, hcat] at this
    injection this
  refine ⟨G1, g1, p, g2, G2, E1, ep, E2, A, Z, rfl, rfl, hpu, hepu, hE2, hview, hu0, fun f => ?_, hAZ, k1, k2, k3⟩
  have e1 : replaceLast (urlIs u) f (g1 ++ p :: g2) = g1 ++ f p :: g2 := by
    rw [replaceLast_append, if_pos (by rw [List.any_cons, hp']; rfl)]
    unfold replaceLast
    rw [if_neg (by rw [hg2']; simp), if_pos hp']
  rw [replaceLast_append, if_pos (by rw [List.any_cons, hl']; rfl)]
  unfold replaceLast
  rw [if_neg (by rw [hG2]; simp), if_pos hl', e1]

/-- The archive in which the entry of an item is shown with other attributes. -/
theorem Core.amended (h : Core gh mp X C ML reserve a G rows cs extra es L m0 R B) {u : String} (hu : u ≠ URL_ARTICLES)
    (hm : m0 u = none) {ρ : Entry → Entry} (hρ : Amends ρ)
    {g : Item → Item} (hg1 : ∀ it, (g it).ns = it.ns) (hg2 : ∀ it, (g it).url = it.url)
    (hE : ∀ it c b e, EntryFor a.zim.mimetypes it c b e → EntryFor a.zim.mimetypes (g it) c b (ρ e))
    {e0 : Entry} (he : a.zim.entryByFullUrl u = .ok e0)
    (hl : (∀ r ∈ R, r.2.1 ≠ u) ∨ ∀ e, (ρ e).title = e.title)
    {rows' : List Row} (hlaid : Archive.Laid reserve { a with zim := Z' } rows' cs extra)
    (hlists : Lists ((catalogue m0 es).write (ρ e0) (some u)) rows')
    (hart : Art Z'.articles rows' (marked (fun _ => False) es))
    (hleads : ∀ x ∈ R, x.1 ≠ u → Zim.Leads a.zim x.1 x.2.1 → Zim.Leads Z' x.1 x.2.1)
    (hmim : Z'.mimetypes = a.zim.mimetypes) (hred : Z'.bufferedRedirects = a.zim.bufferedRedirects)
    (hmain : Z'.bufferedMainpage = a.zim.bufferedMainpage) (hlisted : Z'.articles.dirty = false → Z'.articles.toBytes 4 = .ok L) :
    ∃ es', Core gh mp X C ML reserve { a with zim := Z' } (amendGroups u g G) rows' cs extra es' L m0 R B := by
  obtain ⟨⟨r, hr, hru, rfl⟩, hcat, G1, g1, p, g2, G2, E1, ep, E2, A, Z, P⟩ := h.place hu hm he
  have hPg := P.groups
  subst hPg
  have hPe := P.entries
  subst hPe
  unfold amendGroups
  rw [P.replace]
  have hρu : (ρ r.2).fullUrl = u := (hρ.fullUrl _).trans hru
  have hcat' : catalogue m0 (E1 ++ ρ ep :: E2) = (catalogue m0 (E1 ++ ep :: E2)).write (ρ r.2) (some u) := by
    funext w
    unfold Catalogue.write
    by_cases hw : w = u
    · rw [if_pos (hw.trans hρu.symm), hw, ← P.entryUrl, ← hρ.fullUrl ep, catalogue_at m0 (by rw [hρ.fullUrl]; exact P.last)]
      exact congrArg some (hρ.view _ _ P.view).symm
    · rw [if_neg (by rw [hρu]; exact hw), if_neg (by simpa using hw)]
      exact catalogue_skip m0 (hρ.fullUrl ep) (by rw [P.entryUrl]; exact hw)
  have hother : ∀ w, w ≠ u → catalogue m0 (E1 ++ ρ ep :: E2) w = catalogue m0 (E1 ++ ep :: E2) w :=
    fun w hw => catalogue_skip m0 (hρ.fullUrl ep) (by rw [P.entryUrl]; exact hw)
  have hmk : marked (fun _ => False) (E1 ++ ρ ep :: E2) = marked (fun _ => False) (E1 ++ ep :: E2) :=
    marked_skip (hρ.fullUrl ep) (hρ.force ep) (hρ.ns ep) (hρ.old ep)
  have hmap : (E1 ++ ρ ep :: E2).map Entry.fullUrl = (E1 ++ ep :: E2).map Entry.fullUrl := by
    simp [hρ.fullUrl ep]
  refine ⟨E1 ++ ρ ep :: E2, ⟨hlaid, ?_, ?_, ?_, ?_, ?_, ?_, hred.trans h.redirects, hmain.trans h.mainpage, hlisted, h.shown,
    h.only, ?_⟩⟩
  · obtain ⟨ext, cl, f1, f2, f3⟩ := h.first
    refine ⟨ext, cl, f1, f2, ?_⟩
    obtain ⟨cl1, b, cl2, rfl, f4, f5, f6⟩ := forall₂_split f3
    refine List.rel_append f4 (.cons ?_ f6)
    simpa using f5
  · rw [P.slots (g p.1, p.2) (show (g p.1).ns ++ (g p.1).url ≠ "" by
      rw [hg1, hg2, show p.1.ns ++ p.1.url = u from P.url]; exact P.ne), ← List.cons_append]
    show List.Forall₂ (fun (s : Item × Nat × Nat) e => EntryFor Z'.mimetypes s.1 s.2.1 s.2.2 e) _ _
    rw [hmim]
    exact List.rel_append P.before (.cons (hE _ _ _ _ P.this) P.after)
  · intro q hq
    simp only [List.flatten_append, List.flatten_cons, List.mem_append, List.mem_cons] at hq
    rcases hq with hq | (hq | rfl | hq) | hq
    · exact h.other q (by simp [hq])
    · exact h.other q (by simp [hq])
    · show (g p.1).ns ++ (g p.1).url ≠ _
      rw [hg1, hg2]
      exact h.other p (by simp)
    · exact h.other q (by simp [hq])
    · exact h.other q (by simp [hq])
  · rw [hcat']; exact hlists
  · rw [hmk]; exact hart
  · show MimesIn ML Z'.mimetypes
    rw [hmim]; exact h.mimes
  · intro x hx hO
    obtain ⟨v0, hv0, -⟩ := h.shown x hx
    have hsrc : x.1 ≠ u := fun e => by rw [e, hm] at hv0; cases hv0
    have hO' : Once m0 (E1 ++ ep :: E2) x.1 x.2.1 := by
      obtain ⟨o1, o2, o3⟩ := hO
      rw [hmap] at o1 o2 o3
      exact ⟨o1, o2, o3⟩
    have h1 := h.leads x hx hO'
    refine ⟨hleads x hx hsrc h1.leads, fun hn => ?_⟩
    obtain ⟨v, w, j1, j2, j3⟩ := h1.title hn
    by_cases ht : x.2.1 = u
    · rcases hl with hl | hti
      · exact absurd ht (hl x hx)
      refine ⟨v, (ρ ep).view, by rw [hother _ hsrc]; exact j1, ?_, ?_⟩
      · rw [ht, ← P.entryUrl, ← hρ.fullUrl ep, catalogue_at m0 (by rw [hρ.fullUrl]; exact P.last)]
      · rw [ht, hcat, P.view] at j2
        injection j2 with j2
        rw [← j2] at j3
        show v.title = if (ρ ep).title = "" then v.url else (ρ ep).title
        rw [hti]; exact j3
    · exact ⟨v, w, by rw [hother _ hsrc]; exact j1, by rw [hother _ ht]; exact j2, j3⟩

/-- nothing has to be written, as nothing changes -/
theorem Core.amendedSame (h : Core gh mp X C ML reserve a G rows cs extra es L m0 R B) {u : String} (hu : u ≠ URL_ARTICLES)
    (hm : m0 u = none) {ρ : Entry → Entry} (hρ : Amends ρ)
    {g : Item → Item} (hg1 : ∀ it, (g it).ns = it.ns) (hg2 : ∀ it, (g it).url = it.url)
    (hE : ∀ it c b e, EntryFor a.zim.mimetypes it c b e → EntryFor a.zim.mimetypes (g it) c b (ρ e))
    {e0 : Entry} (he : a.zim.entryByFullUrl u = .ok e0) (hv : (ρ e0).view = e0.view)
    (hl : (∀ r ∈ R, r.2.1 ≠ u) ∨ ∀ e, (ρ e).title = e.title) :
    ∃ es', Core gh mp X C ML reserve a (amendGroups u g G) rows cs extra es' L m0 R B := by
  obtain ⟨⟨r, hr, hru, rfl⟩, hcat, -⟩ := h.place hu hm he
  refine h.amended (Z' := a.zim) hu hm hρ hg1 hg2 hE he hl h.laid ?_ h.art (fun _ _ _ k => k) rfl rfl rfl h.listed
  have : (catalogue m0 es).write (ρ r.2) (some u) = catalogue m0 es := by
    funext w
    unfold Catalogue.write
    rw [hρ.fullUrl, hru, hv]
    by_cases hw : w = u
    · rw [if_pos hw, hw]; exact hcat.symm
    · rw [if_neg hw, if_neg (by simpa using hw)]
  rw [this]
  exact h.lists

/-- writing the entry of an item again -/
theorem Core.rewrite (h : Core gh mp X C ML reserve a G rows cs extra es L m0 R B) {u : String} (hu : u ≠ URL_ARTICLES)
    (hm : m0 u = none) (hC : ∀ p ∈ G.flatten, p.1.fullUrl = u → p.1.isArticle = true → p.1.ns = "C") {ρ : Entry → Entry} (hρ : Amends ρ)
    {g : Item → Item} (hg1 : ∀ it, (g it).ns = it.ns) (hg2 : ∀ it, (g it).url = it.url)
    (hE : ∀ it c b e, EntryFor a.zim.mimetypes it c b e → EntryFor a.zim.mimetypes (g it) c b (ρ e))
    {e0 e' : Entry} (he : a.zim.entryByFullUrl u = .ok e0) (hp : (ρ e0).Proper)
    (hl : (∀ r ∈ R, r.2.1 ≠ u) ∨ ((ρ e0).getDiskSize = e0.getDiskSize ∧ ∀ e, (ρ e).title = e.title))
    (hok : Zim.writeEntry d (ρ e0) true true a.zim = (.ok e', Z')) :
    ∃ rows' es', Core gh mp X C ML reserve { a with zim := Z' } (amendGroups u g G) rows' cs extra es' L m0 R B ∧
      Z'.mimetypes = a.zim.mimetypes ∧ (({ a with zim := Z' } : Archive).isDirty = false → a.isDirty = false) := by
  have hrep := h.laid.content.rep
  obtain ⟨⟨r, hr, hru, rfl⟩, hcat, G1, g1, p, g2, G2, E1, ep, E2, A, Z, P⟩ := h.place hu hm he
  have hclean := hrep.store.clean r hr
  have hfr : r.2.fresh = r.2 := hclean.fresh
  have hro : r.2.oldFullUrl = some u := by
    rw [← hru]
    conv_lhs => rw [← hfr]
    rfl
  have hrf : r.2.forceIsArticle = none := by rw [← hfr]; rfl
  have hρu : (ρ r.2).fullUrl = u := (hρ.fullUrl _).trans hru
  have hρo : (ρ r.2).oldFullUrl = some (ρ r.2).fullUrl := by rw [hρ.old, hro, hρu]
  have hρo' : (ρ r.2).oldFullUrl = some u := by rw [hρ.old, hro]
  have hA : Zim.Accepts a.zim (ρ r.2) := ⟨hp, fun _ => hρo⟩
  obtain ⟨old, rows', f, hold, hw, hrep', hF, -, -, -, hart⟩ := hrep.writeEntry_ok hp (fun _ => hρo) hok
  have hou : old = u := by
    rw [hρo'] at hold
    injection hold with hold
    exact hold.symm
  subst hou
  obtain ⟨rows'', hl1⟩ := h.laid.works (O := ClusterObj.ops X C) (.step .refl (.entry hA hok))
  have hrr : rows'' = rows' := Zim.Rep.unique hrep' hl1.content.rep
  subst hrr
  have hart' := Zim.keeps_writeEntry a.zim.articles d (ρ r.2) true true a.zim (Or.inl rfl)
  rw [hok] at hart'
  obtain ⟨es', k⟩ := h.amended (Z' := Z') hu hm hρ hg1 hg2 hE he (hl.imp id And.right) hl1
    (Lists.write h.lists (Zim.distinct_of_sorted hrep'.sorted) (hw.written hrep.store.clean (Zim.distinct_of_sorted hrep.sorted))) (by
      refine (hart _ h.art).congr fun w => ?_
      have has : Zim.asArticle (ρ r.2) (marked (fun _ => False) es) ↔ marked (fun _ => False) es old := by
        unfold Zim.asArticle
        rw [hρ.force, hrf, hρ.ns, hρo']
        constructor
        · rintro ⟨-, w, hw1, hw2⟩
          injection hw1 with hw1
          rw [hw1]; exact hw2
        · intro hmk
          refine ⟨?_, old, rfl, hmk⟩
          have hns : r.2.ns = p.1.ns := (congrArg View.ns P.view).trans P.this.ns
          rw [hns]
          refine hC p (by rw [P.groups]; simp) P.url ?_
          have hs : es = (E1 ++ [ep]) ++ E2 := by rw [P.entries]; simp
          rw [hs, ← P.entryUrl, marked_left P.last, marked_snoc] at hmk
          rcases hmk with ⟨-, h2⟩ | ⟨-, h2⟩
          · exact absurd rfl h2
          · exact (EntryFor.marks P.this _).1 h2
      rw [has]
      constructor
      · rintro (⟨h1, -⟩ | ⟨h1, -, h2⟩)
        · exact h1
        · rw [h1, hρu]; exact h2
      · intro hw
        by_cases e : w = old
        · exact .inr ⟨e.trans hρu.symm, rfl, by rw [← e]; exact hw⟩
        · exact .inl ⟨hw, by rw [hρu]; exact e, e⟩)
    (fun x hx hsrc hle => by
      by_cases ht : x.2.1 = old
      · rcases hl with hl | ⟨hs, -⟩
        · exact absurd ht (hl x hx)
        · exact Zim.C34_write_same_size_partial ⟨rows, _, hrep⟩ hp hρo (by rw [hρu]; exact he) hs.symm hok hle (by rw [hρu]; exact hsrc)
      · exact Zim.C34_write_other_partial ⟨rows, _, hrep⟩ hA hok hle (by rw [hρo']; simpa using hsrc) (by rw [hρo']; simpa using ht))
    hF.mimetypes hF.redirects hF.mainpage (fun hd => by
      rcases hart' with e | e
      · simp only at hd e ⊢
        rw [e] at hd ⊢
        exact h.listed hd
      · simp only at hd e
        rw [e] at hd; cases hd)
  refine ⟨rows'', es', k, hF.mimetypes, fun hd => ?_⟩
  unfold Archive.isDirty at hd ⊢
  simp only [Bool.or_eq_false_iff] at hd ⊢
  obtain ⟨⟨⟨⟨⟨d1, d2⟩, d3⟩, d4⟩, d5⟩, d6⟩ := hd
  refine ⟨⟨⟨⟨⟨d1, ?_⟩, ?_⟩, ?_⟩, ?_⟩, ?_⟩
  · rcases hF.header with e | ⟨m, e⟩
    · rw [← e]; exact d2
    · rw [e] at d2; cases d2
  · rw [← hF.mimetypes]; exact d3
  · rcases hF.urls with e | e
    · rw [← e]; exact d4
    · rw [e] at d4; cases d4
  · rw [← hF.clusters]; exact d5
  · rcases hart' with e | e
    · simp only at e; rw [← e]; exact d6
    · simp only at e; rw [e] at d6; cases d6

end
end Pyzim
