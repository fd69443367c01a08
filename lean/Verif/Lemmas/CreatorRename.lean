import Verif.Lemmas.HasAmend
import Verif.Lemmas.OperationBuffer

/-!
# An archive filled by strategies: giving an item another url
-/

namespace Pyzim
open Zim (Row Stored Clustered Works Lists Art MimesIn catalogue marked clusterAt Redirect catalogue_snoc
  catalogue_other Once)

/-- an entry with another url -/
abbrev Entry.named (n : String) (e : Entry) : Entry := { e with url := n, dirty := true }

/-- entries with other urls do not matter -/
theorem catalogue_skip₂ (m0 : Catalogue) {E1 E2 : List Entry} {e e' : Entry} {w : String} (hw : w ≠ e.fullUrl) (hw' : w ≠ e'.fullUrl) :
    catalogue m0 (E1 ++ e' :: E2) w = catalogue m0 (E1 ++ e :: E2) w := by
  unfold catalogue
  rw [List.foldl_append, List.foldl_append, List.foldl_cons, List.foldl_cons]
  refine catalogue_congr (es := E2) ?_
  show (if w = e'.fullUrl then _ else if some w = some e'.fullUrl then _ else _) = (if w = e.fullUrl then _ else if some w = some e.fullUrl then _ else _)
  rw [if_neg hw', if_neg (by simpa using hw'), if_neg hw, if_neg (by simpa using hw)]

/-- a url that no entry has -/
theorem marked_none {es : List Entry} {w : String} (hw : w ∉ es.map Entry.fullUrl) : ¬ marked (fun _ => False) es w := by
  have := marked_left (S0 := fun _ => False) (E1 := []) (E2 := es) hw
  rw [List.nil_append] at this
  rw [this]
  exact id

theorem marked_skip₂ {E1 E2 : List Entry} {e e' : Entry} (hE : ∀ x ∈ E1 ++ E2, x.forceIsArticle ≠ none)
    {w : String} (hw : w ≠ e.fullUrl) (hw' : w ≠ e'.fullUrl) :
    marked (fun _ => False) (E1 ++ e' :: E2) w ↔ marked (fun _ => False) (E1 ++ e :: E2) w := by
  induction E2 using snoc_induction with
  | h0 =>
    rw [marked_snoc, marked_snoc]
    constructor
    · rintro (⟨h, -⟩ | ⟨h, -⟩)
      · exact .inl ⟨h, hw⟩
      · exact absurd h hw'
    · rintro (⟨h, -⟩ | ⟨h, -⟩)
      · exact .inl ⟨h, hw'⟩
      · exact absurd h hw
  | h1 E2 x ih =>
    have ih := ih fun y hy => hE y (by rw [← List.append_assoc]; exact List.mem_append_left _ hy)
    have hx := hE x (by simp)
    rw [← List.cons_append, ← List.append_assoc, marked_snoc, ← List.cons_append, ← List.append_assoc, marked_snoc, ih]
    unfold Zim.MarksArticle
    cases hf : x.forceIsArticle with
    | none => exact absurd hf hx
    | some b => exact Iff.rfl

section
variable {D K : Type} {X : Codecs D} {C : Compressors K} {ML : List Bytes} {reserve : Option Nat} {a a' : Archive}
  {G G' : List (List Sourced)} {rows : List Row} {cs : List Stored} {extra : Nat → Prop} {es : List Entry} {L : Bytes}
  {m0 : Catalogue} {R B rs : List Redirect} {d : Nat} {Z' : Zim} {S : Setup D K} {c c' : Creator D} {recent : List Sourced}
  {done : List (List Sourced)} {Gb : List (List (List Sourced))} {u w n : String}

/-- giving an item another url -/
theorem Core.renamed (h : Core gh mp X C ML reserve a G rows cs extra es L m0 R B) (hu : u ≠ URL_ARTICLES) (hwA : w ≠ URL_ARTICLES)
    (hm : m0 u = none) (hmw : m0 w = none) (hw0 : w ≠ "") (hone : (es.map Entry.fullUrl).count u ≤ 1)
    (hwn : w ∉ es.map Entry.fullUrl) (hR : ∀ x ∈ R, x.2.1 ≠ u ∧ x.2.1 ≠ w)
    (hC : ∀ p ∈ G.flatten, p.1.fullUrl = u → p.1.isArticle = true → p.1.ns = "C")
    (hname : ∀ p ∈ G.flatten, p.1.fullUrl = u → p.1.ns ++ n = w)
    (htit : ∀ p ∈ G.flatten, p.1.fullUrl = u → p.1.title ≠ "" ∧ p.1.title ≠ p.1.url)
    {e0 e' : Entry} (he : a.zim.entryByFullUrl u = .ok e0) (hp : (Entry.named n e0).Proper)
    (hok : Zim.writeEntry d (Entry.named n e0) true true a.zim = (.ok e', Z')) :
    ∃ rows' es', Core gh mp X C ML reserve { a with zim := Z' } (amendGroups u (Item.renamed n) G) rows' cs extra es' L m0 R B ∧
      Z'.mimetypes = a.zim.mimetypes ∧ (({ a with zim := Z' } : Archive).isDirty = false → a.isDirty = false) := by
  have hrep := h.laid.content.rep
  obtain ⟨⟨r, hr, hru, rfl⟩, hcat, G1, g1, p, g2, G2, E1, ep, E2, A, Z, P⟩ := h.place hu hm he
  have hclean := hrep.store.clean r hr
  have hfr : r.2.fresh = r.2 := hclean.fresh
  have hPg := P.groups
  subst hPg
  have hPe := P.entries
  subst hPe
  have hpG : p ∈ (G1 ++ (g1 ++ p :: g2) :: G2).flatten := by simp
  have hpn : p.1.ns ++ n = w := hname p hpG P.url
  obtain ⟨ht0, htu⟩ := htit p hpG P.url
  have hro : r.2.oldFullUrl = some u := by
    rw [← hru]
    conv_lhs => rw [← hfr]
    rfl
  have hrf : r.2.forceIsArticle = none := by rw [← hfr]; rfl
  have hns : r.2.ns = p.1.ns := (congrArg View.ns P.view).trans P.this.ns
  have hurl : r.2.url = p.1.url := (congrArg View.url P.view).trans P.this.url
  have hnu : (Entry.named n r.2).fullUrl = w := by
    show r.2.ns ++ n = w
    rw [hns]; exact hpn
  have hepu : (Entry.named n ep).fullUrl = w := by
    show ep.ns ++ n = w
    rw [P.this.ns]; exact hpn
  have hwu : w ≠ u := fun e => hwn (by rw [e, ← P.entryUrl]; simp)
  -- the title
  have hept : ep.title = p.1.title := by
    unfold Entry.title
    rw [P.this.title]
    simp only
    rw [if_neg ht0]
  have hrt : r.2.titleRaw = some p.1.title := by
    have h1 : r.2.title = p.1.title := (congrArg View.title P.view).trans hept
    unfold Entry.title at h1
    cases ht : r.2.titleRaw with
    | none => rw [ht] at h1; exact absurd (h1.symm.trans hurl) htu
    | some t =>
      rw [ht] at h1
      simp only at h1
      split at h1
      · exact absurd (h1.symm.trans hurl) htu
      · rw [h1]
  have hview : (Entry.named n r.2).view = (Entry.named n ep).view := by
    have h1 : r.2.ns = ep.ns := congrArg View.ns P.view
    have h3 : r.2.mimetypeId = ep.mimetypeId := congrArg View.mimetype P.view
    have h4 := congrArg View.body P.view
    unfold Entry.view at h4 ⊢
    rw [View.mk.injEq]
    refine ⟨h1, rfl, ?_, h3, h4⟩
    unfold Entry.title
    show (match r.2.titleRaw with | none => _ | some t => _) = (match ep.titleRaw with | none => _ | some t => _)
    rw [hrt, P.this.title]
  -- which urls the entries have
  have hmapE : (E1 ++ ep :: E2).map Entry.fullUrl = E1.map Entry.fullUrl ++ u :: E2.map Entry.fullUrl := by simp [P.entryUrl]
  have hmapE' : (E1 ++ Entry.named n ep :: E2).map Entry.fullUrl = E1.map Entry.fullUrl ++ w :: E2.map Entry.fullUrl := by simp [hepu]
  rw [hmapE] at hone hwn
  have hu1 : u ∉ E1.map Entry.fullUrl ∧ u ∉ E2.map Entry.fullUrl := by
    rw [List.count_append, List.count_cons_self] at hone
    exact ⟨List.count_eq_zero.1 (by omega), List.count_eq_zero.1 (by omega)⟩
  have hw1 : w ∉ E1.map Entry.fullUrl ∧ w ∉ E2.map Entry.fullUrl :=
    ⟨fun e => hwn (List.mem_append_left _ e), fun e => hwn (List.mem_append_right _ (List.mem_cons_of_mem _ e))⟩
  have huno : u ∉ (E1 ++ Entry.named n ep :: E2).map Entry.fullUrl := by
    rw [hmapE', List.mem_append, List.mem_cons, not_or, not_or]
    exact ⟨hu1.1, hwu.symm, hu1.2⟩
  have hcat' : catalogue m0 (E1 ++ Entry.named n ep :: E2) = (catalogue m0 (E1 ++ ep :: E2)).write (Entry.named n r.2) (some u) := by
    funext v
    unfold Catalogue.write
    by_cases hv : v = w
    · rw [if_pos (hv.trans hnu.symm), hv]
      conv_lhs => rw [← hepu]
      rw [catalogue_at m0 (by rw [hepu]; exact hw1.2), hview]
    · rw [if_neg (by rw [hnu]; exact hv)]
      by_cases hv' : v = u
      · rw [if_pos (by rw [hv']), hv', catalogue_other m0 huno, hm]
      · rw [if_neg (by simpa using hv')]
        exact catalogue_skip₂ m0 (by rw [P.entryUrl]; exact hv') (by rw [hepu]; exact hv)
  have hno : ¬ Zim.HasUrl rows (Entry.named n r.2).fullUrl := by
    rw [hnu]
    rintro ⟨x, hx, hxu⟩
    have hc : catalogue m0 (E1 ++ ep :: E2) w = some x.2.view := (h.lists _ _).2 ⟨x, hx, hxu, rfl⟩
    rw [catalogue_other m0 (by rw [hmapE]; exact hwn), hmw] at hc
    cases hc
  obtain ⟨old, rows', f, hold, hw, hrep', hF, -, -, -, hart⟩ := hrep.writeEntry_ok hp (fun k => absurd k hno) hok
  have hou : old = u := by
    rw [show (Entry.named n r.2).oldFullUrl = r.2.oldFullUrl from rfl, hro] at hold
    injection hold with hold
    exact hold.symm
  subst hou
  have hA : Zim.Accepts a.zim (Entry.named n r.2) := ⟨hp, fun k => by
    rw [hrep.hasEntry_false hno] at k; cases k⟩
  obtain ⟨rows'', hl1⟩ := h.laid.works (O := ClusterObj.ops X C) (.step .refl (.entry hA hok))
  have hrr : rows'' = rows' := Zim.Rep.unique hrep' hl1.content.rep
  subst hrr
  have hart' := Zim.keeps_writeEntry a.zim.articles d (Entry.named n r.2) true true a.zim (Or.inl rfl)
  rw [hok] at hart'
  have hforced : ∀ x ∈ E1 ++ ep :: E2, x.forceIsArticle ≠ none := by
    intro e he
    obtain ⟨s, -, hs⟩ := forall₂_mem_right h.entries he
    rw [hs.forced]; simp
  have hmk : ∀ v, marked (fun _ => False) (E1 ++ Entry.named n ep :: E2) v ↔
      (marked (fun _ => False) (E1 ++ ep :: E2) v ∧ v ≠ (Entry.named n r.2).fullUrl ∧ v ≠ old) ∨
        (v = (Entry.named n r.2).fullUrl ∧ true = true ∧ Zim.asArticle (Entry.named n r.2) (marked (fun _ => False) (E1 ++ ep :: E2))) := by
    intro v
    have hsE : E1 ++ ep :: E2 = (E1 ++ [ep]) ++ E2 := by simp
    have hsE' : E1 ++ Entry.named n ep :: E2 = (E1 ++ [Entry.named n ep]) ++ E2 := by simp
    have hmo : marked (fun _ => False) (E1 ++ ep :: E2) old ↔ p.1.isArticle = true := by
      rw [hsE, ← P.entryUrl, marked_left P.last, marked_snoc]
      constructor
      · rintro (⟨-, h2⟩ | ⟨-, h2⟩)
        · exact absurd rfl h2
        · exact (EntryFor.marks P.this _).1 h2
      · exact fun k => .inr ⟨rfl, (EntryFor.marks P.this _).2 k⟩
    rw [hnu]
    by_cases hv : v = w
    · subst hv
      have e1 : marked (fun _ => False) (E1 ++ Entry.named n ep :: E2) v ↔ p.1.isArticle = true := by
        rw [hsE', marked_left hw1.2, marked_snoc]
        constructor
        · rintro (⟨-, h2⟩ | ⟨-, h2⟩)
          · exact absurd hepu.symm h2
          · exact (EntryFor.marks P.this _).1 h2
        · exact fun k => .inr ⟨hepu.symm, (EntryFor.marks P.this (marked (fun _ => False) E1)).2 k⟩
      rw [e1]
      have e2 : Zim.asArticle (Entry.named n r.2) (marked (fun _ => False) (E1 ++ ep :: E2)) ↔ p.1.isArticle = true := by
        unfold Zim.asArticle
        show (match r.2.forceIsArticle with | some b => _ | none => _) ↔ _
        rw [hrf]
        simp only
        rw [show (Entry.named n r.2).oldFullUrl = some old from hro, hns]
        constructor
        · rintro ⟨-, y, hy1, hy2⟩
          injection hy1 with hy1
          rw [← hy1] at hy2
          exact hmo.1 hy2
        · exact fun k => ⟨hC p hpG P.url k, old, rfl, hmo.2 k⟩
      rw [e2]
      constructor
      · exact fun k => .inr ⟨rfl, rfl, k⟩
      · rintro (⟨-, k, -⟩ | ⟨-, -, k⟩)
        · exact absurd rfl k
        · exact k
    · by_cases hv' : v = old
      · subst hv'
        constructor
        · exact fun k => absurd k (marked_none huno)
        · rintro (⟨-, -, k⟩ | ⟨k, -⟩)
          · exact absurd rfl k
          · exact absurd k hv
      · rw [marked_skip₂ (e := ep) (e' := Entry.named n ep) (fun x hx => hforced x (by
          rcases List.mem_append.1 hx with hx | hx
          · exact List.mem_append_left _ hx
          · exact List.mem_append_right _ (List.mem_cons_of_mem _ hx)))
          (by rw [P.entryUrl]; exact hv') (by rw [hepu]; exact hv)]
        constructor
        · exact fun k => .inl ⟨k, hv, hv'⟩
        · rintro (⟨k, -⟩ | ⟨k, -⟩)
          · exact k
          · exact absurd k hv
  refine ⟨rows'', E1 ++ Entry.named n ep :: E2, ?_, hF.mimetypes, ?_⟩
  · unfold amendGroups
    rw [P.replace]
    refine ⟨hl1, ?_, ?_, ?_, ?_, ?_, ?_, hF.redirects.trans h.redirects, hF.mainpage.trans h.mainpage, ?_, h.shown, h.only, ?_⟩
    · obtain ⟨ext, cl, f1, f2, f3⟩ := h.first
      refine ⟨ext, cl, f1, f2, ?_⟩
      obtain ⟨cl1, b, cl2, rfl, f4, f5, f6⟩ := forall₂_split f3
      refine List.rel_append f4 (.cons ?_ f6)
      simpa using f5
    · rw [P.slots (Item.renamed n p.1, p.2) (show p.1.ns ++ n ≠ "" by rw [hpn]; exact hw0), ← List.cons_append]
      show List.Forall₂ (fun (s : Item × Nat × Nat) e => EntryFor Z'.mimetypes s.1 s.2.1 s.2.2 e) _ _
      rw [hF.mimetypes]
      exact List.rel_append P.before (.cons ⟨P.this.ns, rfl, P.this.title, P.this.article, P.this.mimetype, P.this.location⟩ P.after)
    · intro q hq
      simp only [List.flatten_append, List.flatten_cons, List.mem_append, List.mem_cons] at hq
      rcases hq with hq | (hq | rfl | hq) | hq
      · exact h.other q (by simp [hq])
      · exact h.other q (by simp [hq])
      · show p.1.ns ++ n ≠ _
        rw [hpn]; exact hwA
      · exact h.other q (by simp [hq])
      · exact h.other q (by simp [hq])
    · rw [hcat']
      exact Lists.write h.lists (Zim.distinct_of_sorted hrep'.sorted) (hw.written hrep.store.clean (Zim.distinct_of_sorted hrep.sorted))
    · exact (hart _ h.art).congr fun v => (hmk v).symm
    · show MimesIn ML Z'.mimetypes
      rw [hF.mimetypes]; exact h.mimes
    · intro hd
      rcases hart' with e | e
      · simp only at hd e ⊢
        rw [e] at hd ⊢
        exact h.listed hd
      · simp only at hd e
        rw [e] at hd; cases hd
    · intro x hx hO
      obtain ⟨v0, hv0, -⟩ := h.shown x hx
      have hsrc : x.1 ≠ old := fun e => by rw [e, hm] at hv0; cases hv0
      have hsrcw : x.1 ≠ w := fun e => by rw [e, hmw] at hv0; cases hv0
      obtain ⟨ht, htw⟩ := hR x hx
      have hO' : Once m0 (E1 ++ ep :: E2) x.1 x.2.1 := by
        obtain ⟨o1, o2, o3⟩ := hO
        rw [hmapE'] at o1 o2 o3
        refine ⟨?_, ?_, fun k => ?_⟩ <;> rw [hmapE]
        · simp only [List.mem_append, List.mem_cons, not_or] at o1 ⊢
          exact ⟨o1.1, hsrc, o1.2.2⟩
        · rw [List.count_append, List.count_cons_of_ne (Ne.symm htw)] at o2
          rw [List.count_append, List.count_cons_of_ne (Ne.symm ht)]
          exact o2
        · have o3 := o3 k
          simp only [List.mem_append, List.mem_cons, not_or] at o3 ⊢
          exact ⟨o3.1, ht, o3.2.2⟩
      have h1 := h.leads x hx hO'
      have hoth : ∀ v, v ≠ old → v ≠ w → catalogue m0 (E1 ++ Entry.named n ep :: E2) v = catalogue m0 (E1 ++ ep :: E2) v :=
        fun v k1 k2 => catalogue_skip₂ m0 (by rw [P.entryUrl]; exact k1) (by rw [hepu]; exact k2)
      refine ⟨Zim.C34_write_other_partial ⟨rows, _, hrep⟩ hA hok h1.leads (by rw [show (Entry.named n r.2).oldFullUrl = some old from hro]; simpa using hsrc)
        (by rw [show (Entry.named n r.2).oldFullUrl = some old from hro]; simpa using ht), fun hn => ?_⟩
      obtain ⟨v, w', j1, j2, j3⟩ := h1.title hn
      exact ⟨v, w', by rw [hoth _ hsrc hsrcw]; exact j1, by rw [hoth _ ht htw]; exact j2, j3⟩
  · intro hd
    unfold Archive.isDirty at hd ⊢
    simp only [Bool.or_eq_false_iff] at hd ⊢
    obtain ⟨⟨⟨⟨⟨d1, d2⟩, d3⟩, d4⟩, d5⟩, d6⟩ := hd
    refine ⟨⟨⟨⟨⟨d1, ?_⟩, ?_⟩, ?_⟩, ?_⟩, ?_⟩
    · rcases hF.header with e | ⟨m, e⟩
      · rw [← e]; exact d2
      · rw [e] at d2; cases d2
    · rw [← hF.mimetypes]; exact d3
    · rcases hF.urls with e | e
      · rw [← e]; exact d4
      · rw [e] at d4; cases d4
    · rw [← hF.clusters]; exact d5
    · rcases hart' with e | e
      · rw [← e]; exact d6
      · simp only at e d6
        rw [e] at d6; cases d6

theorem replaceLast_filter₂ {α : Type} {h : α → Bool} {f : α → α} {q : α → Bool} (hq : ∀ x, h x = true → q x = true)
    (hf : ∀ x, h x = true → q (f x) = true) (l : List α) : (replaceLast h f l).filter q = replaceLast h f (l.filter q) := by
  cases hl : l.any h with
  | false =>
    rw [replaceLast_none hl, replaceLast_none]
    rw [List.any_eq_false] at hl ⊢
    exact fun x hx => hl x (List.mem_of_mem_filter hx)
  | true =>
    obtain ⟨l1, x, l2, rfl, h1, h2, h3⟩ := replaceLast_at (f := f) hl
    have h4 : (l2.filter q).any h = false := by
      rw [List.any_eq_false] at h2 ⊢
      exact fun x hx => h2 x (List.mem_of_mem_filter hx)
    rw [h3, List.filter_append, List.filter_append, List.filter_cons_of_pos (hf x h1),
      List.filter_cons_of_pos (hq x h1), replaceLast_append, if_pos (by simp [h1])]
    congr 1
    rw [replaceLast, if_neg (by rw [h4]; simp), if_pos h1]

/-- the groups of items, one list of groups for each list of items -/
theorem renameIn_groups (hn0 : n ≠ "") (hu : u ≠ "")
    (h : List.Forall₂ (fun G l => (present true G).Perm l) Gb done) (hn : ∀ l ∈ done, (l.map fun p => p.1.fullUrl).Nodup) :
    ∃ Gb', List.Forall₂ (fun G l => (present true G).Perm l) Gb' (amendIn u (Item.renamed n) done) ∧
      Gb'.flatten = amendGroups u (Item.renamed n) Gb.flatten := by
  refine ⟨replaceLast (fun G => G.any fun l => l.any (urlIs u)) (amendGroups u (Item.renamed n)) Gb, ?_, replaceLast_flatten⟩
  have hmem : ∀ {G : List (List Sourced)} {p : Sourced}, p.1.fullUrl = u → (p ∈ present true G ↔ p ∈ G.flatten) := by
    intro G p hp
    unfold present
    simp only
    rw [List.mem_filter]
    exact ⟨fun h => h.1, fun h => ⟨h, decide_eq_true (by rw [show p.1.ns ++ p.1.url = u from hp]; exact hu)⟩⟩
  refine replaceLast_forall₂ h ?_ ?_
  · intro G l hp
    rw [Bool.eq_iff_iff]
    constructor
    · intro hG
      obtain ⟨g, hg, hany⟩ := List.any_eq_true.1 hG
      obtain ⟨p, hp1, hp2⟩ := List.any_eq_true.1 hany
      exact List.any_eq_true.2 ⟨p, hp.subset ((hmem (of_decide_eq_true hp2)).2 (List.mem_flatten.2 ⟨g, hg, hp1⟩)), hp2⟩
    · intro hl
      obtain ⟨p, hp1, hp2⟩ := List.any_eq_true.1 hl
      obtain ⟨g, hg, hpg⟩ := List.mem_flatten.1 ((hmem (of_decide_eq_true hp2)).1 (hp.mem_iff.2 hp1))
      exact List.any_eq_true.2 ⟨g, hg, List.any_eq_true.2 ⟨p, hpg, hp2⟩⟩
  · intro G l _ hl hp
    have e : present true (amendGroups u (Item.renamed n) G) =
        replaceLast (urlIs u) (fun p => (Item.renamed n p.1, p.2)) (present true G) := by
      unfold amendGroups present
      simp only
      rw [replaceLast_flatten]
      refine replaceLast_filter₂ (f := fun p : Sourced => (Item.renamed n p.1, p.2)) (q := fun p : Sourced => decide (p.1.ns ++ p.1.url ≠ ""))
        (fun p hp => decide_eq_true ?_) (fun p _ => decide_eq_true ?_) _
      · rw [show p.1.ns ++ p.1.url = u from of_decide_eq_true hp]
        exact hu
      · show p.1.ns ++ n ≠ ""
        intro h0
        have := congrArg String.length h0
        simp at this
        exact hn0 (by rw [this.2])
    show (present true (amendGroups u (Item.renamed n) G)).Perm _
    rw [e, replaceLast_unique (key := fun p : Sourced => p.1.fullUrl) ((hp.map _).nodup_iff.2 (hn l hl))]
    exact hp.map _

theorem Core.entryUrls (h : Core gh mp X C ML reserve a G rows cs extra es L m0 R B) :
    es.map Entry.fullUrl = URL_ARTICLES :: (present gh G).map urlOf := by
  rw [Creator.entryFor_urls h.entries, List.map_cons, slotsOf_located, List.map_map, ← locatedOf_fst (base := 1) (G := G), List.map_map]
  rfl

theorem present_flatten (h1 : List.Forall₂ (fun G l => (present gh G).Perm l) Gb done) : (present gh Gb.flatten).Perm done.flatten := by
  induction h1 with
  | nil => cases gh <;> exact .nil
  | cons h _ ih =>
    rw [List.flatten_cons, present_append, List.flatten_cons]
    exact h.append ih

theorem Creator.setUrl_ok {v : StrArg} (hok : Creator.setUrl S u v c = (.ok (), c')) :
    ∃ e0 e' z', c.arch.zim.entryByFullUrl u = .ok e0 ∧ e0.setUrl v = (.ok (), e') ∧
      Zim.flushEntry S.depth e' c.arch.zim = (.ok (), z') ∧ c' = { c with arch := { c.arch with zim := z' } } := by
  unfold Creator.setUrl Creator.onArch Archive.onZim at hok
  simp only [PyM.of_apply] at hok
  rw [PyM.get_bind] at hok
  cases he : c.arch.zim.entryByFullUrl u with
  | error x => rw [he] at hok; cases hok
  | ok e0 =>
    rw [he, PyM.lift_ok_bind] at hok
    generalize hs : e0.setUrl v = y at hok
    obtain ⟨rr, e'⟩ := y
    cases rr with
    | error x => cases hok
    | ok _ =>
      simp only at hok
      generalize hx : Zim.flushEntry S.depth e' c.arch.zim = x at hok
      obtain ⟨r, z'⟩ := x
      injection hok with h1 h2
      simp only at h1 h2
      exact ⟨e0, e', z', rfl, hs, by rw [hx, h1], h2.symm⟩

/-- giving an item another url -/
theorem Has.rename (h : Has true none S ML reserve Gb.flatten recent rs c)
    (h1 : List.Forall₂ (fun G l => (present true G).Perm l) Gb done) (hn : ∀ l ∈ done, (l.map fun p => p.1.fullUrl).Nodup)
    (hC : ∀ l ∈ done, ∀ p ∈ l, p.1.isArticle = true → p.1.ns = "C") (hrn : Renamable u w n done recent rs)
    {v : StrArg} {b : Bytes} (hb : v.both = .ok (b, n)) (hok : Creator.setUrl S u v c = (.ok (), c')) :
    ∃ Gb', List.Forall₂ (fun G l => (present true G).Perm l) Gb' (amendIn u (Item.renamed n) done) ∧
      Has true none S ML reserve Gb'.flatten recent rs c' := by
  obtain ⟨e0, e', Z', he, hs, hfl, rfl⟩ := Creator.setUrl_ok hok
  have hdirty := h.clean_read he
  obtain ⟨G, P1, P2, ⟨rows, cs, extra, es, L, m0, R, B, hc, hB⟩, w1, w2, w3, w4, hperm, hcl⟩ := h
  have hGr : ∀ p ∈ G.flatten, p ∈ recent := fun p hp => hperm.subset (List.mem_append_right _ hp)
  have hGu : ∀ p ∈ G.flatten, p.1.fullUrl ≠ u := fun p hp => (hrn.flushed p (hGr p hp)).1
  have hRs : ∀ x ∈ R, x ∈ rs := fun x hx => hB.subset (List.mem_append_left _ hx)
  have hm0 : m0 u = none := by
    cases hm : m0 u with
    | none => rfl
    | some v =>
      obtain ⟨x, hx, hxu⟩ := hc.only _ _ hm
      exact absurd hxu (hrn.redirects x (hRs x hx)).1.1
  have hmw : m0 w = none := by
    cases hm : m0 w with
    | none => rfl
    | some v =>
      obtain ⟨x, hx, hxu⟩ := hc.only _ _ hm
      exact absurd hxu (hrn.redirects x (hRs x hx)).1.2
  obtain ⟨⟨r, hr, hru, rfl⟩, -, G1, g1, p, g2, G2, E1, ep, E2, A, Z, P⟩ := hc.place hrn.other.1 hm0 he
  have hu0 : u ≠ "" := P.ne
  have hclean := hc.laid.content.rep.store.clean r hr
  have hkind : ∃ i j, r.2.kind = .content i j := by
    have hb := congrArg View.body P.view
    unfold Entry.view at hb
    cases hk : r.2.kind with
    | content i j => exact ⟨i, j, rfl⟩
    | redirect i => rw [hk, P.this.location] at hb; cases hb
  -- the items
  have hin : ∀ {p : Sourced}, p ∈ (Gb.flatten ++ G).flatten → p.1.fullUrl = u → ∃ l ∈ done, p ∈ l := by
    intro p hp hpu
    rw [List.flatten_append] at hp
    rcases List.mem_append.1 hp with hp | hp
    · obtain ⟨gr, hgr, hpg⟩ := List.mem_flatten.1 hp
      obtain ⟨Gx, hGx, hgx⟩ := List.mem_flatten.1 hgr
      obtain ⟨l, hl, hpl⟩ := forall₂_mem_left h1 hGx
      refine ⟨l, hl, hpl.subset ?_⟩
      refine List.mem_filter.2 ⟨List.mem_flatten.2 ⟨gr, hgx, hpg⟩, decide_eq_true ?_⟩
      rw [show p.1.ns ++ p.1.url = u from hpu]; exact hu0
    · exact absurd hpu (hGu p hp)
  have hpG : p ∈ (Gb.flatten ++ G).flatten := by rw [P.groups]; simp
  obtain ⟨lp, hlp, hplp⟩ := hin hpG P.url
  have hpn := hrn.named.2 lp hlp p hplp P.url
  have hw0 : w ≠ "" := by
    rw [← hpn]
    intro h0
    have := congrArg String.length h0
    simp at this
    exact hrn.named.1 (by rw [this.2])
  have hpres : (present true (Gb.flatten ++ G)).Sublist (present true Gb.flatten ++ G.flatten) := by
    rw [present_append]
    exact List.Sublist.append (List.Sublist.refl _) List.filter_sublist
  have hone : (es.map Entry.fullUrl).count u ≤ 1 := by
    rw [hc.entryUrls, List.count_cons_of_ne (Ne.symm hrn.other.1)]
    refine Nat.le_trans ((hpres.map urlOf).count_le u) ?_
    rw [List.map_append, List.count_append, ((present_flatten h1).map urlOf).count_eq,
      List.count_eq_zero_of_not_mem (l := G.flatten.map urlOf) (fun hm => by
        obtain ⟨p, hp, hpu⟩ := List.mem_map.1 hm
        exact hGu p hp hpu)]
    exact hrn.once
  have hwn : w ∉ es.map Entry.fullUrl := by
    rw [hc.entryUrls, List.mem_cons, not_or]
    refine ⟨hrn.other.2, fun hm => ?_⟩
    have hm := (hpres.map urlOf).subset hm
    obtain ⟨p, hp, hpu⟩ := List.mem_map.1 hm
    rcases List.mem_append.1 hp with hp | hp
    · obtain ⟨l, hl1, hl2⟩ := List.mem_flatten.1 ((present_flatten h1).subset hp)
      exact hrn.unused l hl1 p hl2 hpu
    · exact (hrn.flushed p (hGr p hp)).2 hpu
  have hurl : r.2.url = p.1.url := (congrArg View.url P.view).trans P.this.url
  have hnu : n ≠ r.2.url := by
    intro e
    refine hrn.unused lp hlp p hplp ?_
    show p.1.ns ++ p.1.url = w
    rw [← hurl, ← e]; exact hpn
  -- the setter
  unfold Entry.setUrl at hs
  rw [hb] at hs
  simp only at hs
  split at hs
  · cases hs
  rename_i h0
  split at hs
  · cases hs
  injection hs with _ hs
  subst hs
  have hp : (Entry.named n r.2).Proper := by
    refine ⟨by rw [← Entry.both_inv hb]; exact h0, ?_, hclean.kind, fun hf => ?_⟩
    · exact hclean.storable.title
    · rw [show (Entry.named n r.2).forceIsArticle = r.2.forceIsArticle from rfl, ← hclean.fresh] at hf
      cases hf
  obtain ⟨e', hw⟩ : ∃ e', Zim.writeEntry S.depth (Entry.named n r.2) true true c.arch.zim = (.ok e', Z') := by
    rcases Zim.flushEntry_ok hfl with ⟨k, -⟩ | ⟨-, k⟩
    · cases k
    · exact k
  obtain ⟨rows', es', k1, k2, k3⟩ := hc.renamed hrn.other.1 hrn.other.2 hm0 hmw hw0 hone hwn (fun x hx => (hrn.redirects x (hRs x hx)).2)
    (fun p hp hpu => by obtain ⟨l, hl, hpl⟩ := hin hp hpu; exact hC l hl p hpl)
    (fun p hp hpu => by obtain ⟨l, hl, hpl⟩ := hin hp hpu; exact hrn.named.2 l hl p hpl hpu)
    (fun p hp hpu => by obtain ⟨l, hl, hpl⟩ := hin hp hpu; exact hrn.titled l hl p hpl hpu) he hp hw
  obtain ⟨Gb', j1, j2⟩ := renameIn_groups hrn.named.1 hu0 h1 hn
  rw [amendGroups_append hGu, ← j2] at k1
  refine ⟨Gb', j1, G, P1, P2, ⟨rows', cs, extra, es', L, m0, R, B, k1, hB⟩, ?_, ?_, w3, w4, hperm, ?_⟩
  · obtain ⟨t, mx, W, hw⟩ := w1
    exact ⟨t, mx, W, by simp only [k2]; exact hw⟩
  · obtain ⟨mx, hw⟩ := w2
    exact ⟨mx, by simp only [k2]; exact hw⟩
  · intro hd
    obtain ⟨i1, i2, i3⟩ := hcl (k3 hd)
    refine ⟨i1, i2, fun _ => ?_⟩
    exact (k1.redirects.trans hc.redirects.symm).trans (i3 rfl)

end
end Pyzim
