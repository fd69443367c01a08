import Verif.Lemmas.CreatorNew
import Verif.Lemmas.SetAny
import Verif.Lemmas.ReplaceLast

/-!
# An archive filled by strategies: setting contents
-/

namespace Pyzim
open Zim (Row Stored Clustered Works Lists Art MimesIn catalogue marked clusterAt Redirect catalogue_snoc
  catalogue_other)
open SpaceAllocator (InBlock)

variable {D K : Type} {X : Codecs D} {C : Compressors K} {ML : List Bytes} {reserve : Option Nat} {a a' : Archive}
  {G G' : List (List Sourced)} {rows : List Row} {cs : List Stored} {extra : Nat → Prop} {es : List Entry} {L : Bytes}
  {S : Setup D K} {G0 : List (List Sourced)} {items : List Sourced} {rs : List Redirect}
  {c c' : Creator D} {m0 : Catalogue} {R B : List Redirect}

/-- the place of an item -/
theorem slots_split (G1 G2 : List (List Sourced)) (g1 g2 : List Sourced) : ∃ A Z : List (Item × Nat × Nat),
    (∀ q : Sourced, slots 1 (G1 ++ (g1 ++ q :: g2) :: G2) = A ++ (q.1, 1 + G1.length, g1.length) :: Z) ∧
    ∀ s ∈ Z, (∃ p ∈ g2, p.1 = s.1) ∨ ∃ p ∈ G2.flatten, p.1 = s.1 := by
  refine ⟨slots 1 G1 ++ g1.zipIdx.map (fun p => (p.1.1, 1 + G1.length, p.2)),
    (g2.zipIdx (g1.length + 1)).map (fun p => (p.1.1, 1 + G1.length, p.2)) ++ slots (1 + G1.length + 1) G2, ?_, ?_⟩
  · intro q
    rw [slots_append, slots, List.zipIdx_append, List.zipIdx_cons, List.map_append, List.map_cons]
    simp
  · intro s hs
    rcases List.mem_append.1 hs with hs | hs
    · obtain ⟨q, hq, rfl⟩ := List.mem_map.1 hs
      exact .inl ⟨q.1, List.fst_mem_of_mem_zipIdx hq, rfl⟩
    · exact .inr (slots_item hs)

theorem slotsOf_split (gh : Bool) (G1 G2 : List (List Sourced)) (g1 g2 : List Sourced) : ∃ A Z : List (Item × Nat × Nat),
    (∀ q : Sourced, q.1.fullUrl ≠ "" →
      slotsOf gh 1 (G1 ++ (g1 ++ q :: g2) :: G2) = A ++ (q.1, 1 + G1.length, g1.length) :: Z) ∧
    ∀ s ∈ Z, (∃ p ∈ g2, p.1 = s.1) ∨ ∃ p ∈ G2.flatten, p.1 = s.1 := by
  obtain ⟨A, Z, h1, h2⟩ := slots_split G1 G2 g1 g2
  cases gh with
  | false => exact ⟨A, Z, fun q _ => h1 q, h2⟩
  | true =>
    refine ⟨A.filter fun s => s.1.ns ++ s.1.url ≠ "", Z.filter fun s => s.1.ns ++ s.1.url ≠ "", fun q hq => ?_,
      fun s hs => h2 s (List.mem_of_mem_filter hs)⟩
    unfold slotsOf
    simp only
    rw [h1 q, List.filter_append, List.filter_cons_of_pos (by exact decide_eq_true hq)]

theorem catalogue_at (m0 : Catalogue) {E1 E2 : List Entry} {e : Entry} (hu : e.fullUrl ∉ E2.map Entry.fullUrl) :
    catalogue m0 (E1 ++ e :: E2) e.fullUrl = some e.view := by
  have : E1 ++ e :: E2 = (E1 ++ [e]) ++ E2 := by simp
  rw [this]
  unfold catalogue
  rw [List.foldl_append]
  refine (catalogue_other _ hu).trans ?_
  rw [List.foldl_append]
  simp [Catalogue.write]

theorem getElem?_split {α : Type} (l1 l2 : List α) (x : α) : (l1 ++ x :: l2)[l1.length]? = some x := by simp

theorem forall₂_split {α β : Type} {Q : α → β → Prop} {l1 l2 : List α} {x : α} {m : List β}
    (h : List.Forall₂ Q (l1 ++ x :: l2) m) : ∃ m1 y m2, m = m1 ++ y :: m2 ∧ List.Forall₂ Q l1 m1 ∧ Q x y ∧
      List.Forall₂ Q l2 m2 := by
  induction l1 generalizing m with
  | nil => cases h with | cons h1 h2 => exact ⟨[], _, _, rfl, .nil, h1, h2⟩
  | cons a l1 ih =>
    cases h with
    | cons h1 h2 =>
      obtain ⟨m1, y, m2, rfl, k1, k2, k3⟩ := ih h2
      exact ⟨_ :: m1, y, m2, rfl, .cons h1 k1, k2, k3⟩

/-- has the full url -/
abbrev urlIs (u : String) (p : Sourced) : Bool := p.1.fullUrl = u

/-- the item with another content -/
abbrev sourced (src : BlobSource) (content : Bytes) (p : Sourced) : Sourced := ({ p.1 with source := src }, content)

/-- the groups after the content of the last item with the url was set -/
abbrev setGroups (u : String) (src : BlobSource) (content : Bytes) (G : List (List Sourced)) : List (List Sourced) :=
  replaceLast (fun l => l.any (urlIs u)) (replaceLast (urlIs u) (sourced src content)) G

theorem EntryFor.source {m : MimeTypeList} {it : Item} {c b : Nat} {e : Entry} (h : EntryFor m it c b e) (src : BlobSource) :
    EntryFor m { it with source := src } c b e :=
  ⟨h.ns, h.url, h.title, h.article, h.mimetype, h.location⟩

theorem Core.setContent (hR : Replaceable X C) (h : Core gh mp X C ML reserve a G rows cs extra es L m0 R B) {u : String}
    {src : BlobSource} {content : Bytes} (hd : Delivers src content) (hu : u ≠ URL_ARTICLES) {kind : ClusterKind} {calls : Nat}
    {z' : Zim}
    (hok : (PyM.get >>= fun z : Zim => PyM.lift (z.entryByFullUrl u) >>= fun e => Zim.setContent X C kind calls e src) a.zim =
      (.ok (), z')) :
    G.any (fun l => l.any (urlIs u)) = true ∧ u ≠ "" ∧
    ∃ cs', Core gh mp X C ML reserve { a with zim := z' } (setGroups u src content G) rows cs' extra es L m0 R B ∧
      z'.mimetypes = a.zim.mimetypes ∧ z'.clusters.dirty = true ∧ ∀ k, Zim.Filled k a.zim → Zim.Filled k z' := by
  rw [PyM.get_bind] at hok
  have hrow : ∃ r ∈ rows, r.2.fullUrl = u := by
    by_contra hno
    rw [h.laid.content.rep.entryByFullUrl_missing fun r hr e => hno ⟨r, hr, e⟩] at hok
    cases hok
  obtain ⟨r, hr, hru⟩ := hrow
  rw [← hru, h.laid.content.rep.entryByFullUrl hr, PyM.lift_ok_bind] at hok
  have hcat : catalogue m0 es u = some r.2.view := (h.lists _ _).2 ⟨r, hr, hru, rfl⟩
  have hin : u ∈ es.map Entry.fullUrl := by
    by_contra hno
    rw [catalogue_other m0 hno] at hcat
    obtain ⟨q, hq, hqu⟩ := h.only _ _ hcat
    obtain ⟨v, hv1, hv2⟩ := h.shown q hq
    rw [hqu, hcat] at hv1
    injection hv1 with hv1
    have hb := hv2.body
    rw [← hv1] at hb
    unfold Entry.view at hb
    unfold Zim.setContent at hok
    cases hk : r.2.kind with
    | content c b => rw [hk] at hb; cases hb
    | redirect i => rw [hk] at hok; cases hok
  have hany : G.any (fun l => l.any (urlIs u)) = true := by
    rcases h.urls hin with e | ⟨p, hp, e⟩
    · exact absurd e hu
    · obtain ⟨g, hg, hp⟩ := List.mem_flatten.1 hp
      exact List.any_eq_true.2 ⟨g, hg, List.any_eq_true.2 ⟨p, hp, decide_eq_true e⟩⟩
  have hu0 : u ≠ "" := by rw [← hru]; exact (h.laid.content.rep.store.clean r hr).fullUrl_ne
  refine ⟨hany, hu0, ?_⟩
  obtain ⟨G1, g, G2, hG, hg, hG2, hG'⟩ := replaceLast_at (f := replaceLast (urlIs u) (sourced src content)) hany
  obtain ⟨g1, p, g2, hgs, hp, hg2, hg'⟩ := replaceLast_at (f := sourced src content) hg
  have hpu : p.1.fullUrl = u := of_decide_eq_true hp
  subst hgs
  subst hG
  rw [hg'] at hG'
  unfold setGroups
  rw [hG']
  obtain ⟨A, Z, hAZ, hZ⟩ := slotsOf_split gh G1 G2 g1 g2
  have hent := h.entries
  rw [hAZ p (by rw [hpu]; exact hu0), ← List.cons_append] at hent
  obtain ⟨E1, ep, E2, rfl, k1, k2, k3⟩ := forall₂_split hent
  have hepu : ep.fullUrl = u := (show ep.fullUrl = p.1.fullUrl from EntryFor.fullUrl k2).trans hpu
  have hE2 : ep.fullUrl ∉ E2.map Entry.fullUrl := by
    intro hm
    obtain ⟨e, he, heu⟩ := List.mem_map.1 hm
    obtain ⟨s, hs, hse⟩ := forall₂_mem_right k3 he
    have hsu : s.1.fullUrl = u := (EntryFor.fullUrl hse).symm.trans (heu.trans hepu)
    rcases hZ s hs with ⟨q, hq, hqe⟩ | ⟨q, hq, hqe⟩
    · exact List.any_eq_false.1 hg2 q hq (decide_eq_true (by rw [hqe]; exact hsu))
    · obtain ⟨g', hg'm, hq⟩ := List.mem_flatten.1 hq
      exact List.any_eq_false.1 hG2 g' hg'm (List.any_eq_true.2 ⟨q, hq, decide_eq_true (by rw [hqe]; exact hsu)⟩)
  have hview : r.2.view = ep.view := by
    have := catalogue_at m0 (E1 := E1) hE2
    rw [hepu, hcat] at this
    injection this
  have hk : r.2.kind = .content (1 + G1.length) g1.length := by
    have hb : r.2.view.body = ep.view.body := by rw [hview]
    unfold Entry.view at hb
    rw [EntryFor.location k2] at hb
    simp only at hb
    cases hk : r.2.kind with
    | content c b => rw [hk] at hb; injection hb with h1 h2; rw [h1, h2]
    | redirect i => rw [hk] at hb; cases hb
  obtain ⟨ext, cl, f1, f2, f3⟩ := h.first
  obtain ⟨cl1, bytes, cl2, rfl, f4, ⟨-, -, t, hne, hwa⟩, f5⟩ := forall₂_split f3
  have hlen : cl1.length = G1.length := f4.length_eq.symm
  obtain ⟨st, c3, c4⟩ : ∃ st, cs[1 + G1.length]? = some st ∧ st.2 = bytes := by
    have : (cs.map Prod.snd)[1 + G1.length]? = some bytes := by
      rw [f1, Nat.add_comm, List.getElem?_cons_succ, ← hlen, getElem?_split]
    rw [List.getElem?_map] at this
    cases hc : cs[1 + G1.length]? with
    | none => rw [hc] at this; cases this
    | some st => rw [hc] at this; injection this with this; exact ⟨st, rfl, this⟩
  obtain ⟨off', b', w1, w2, w3, w4⟩ := Zim.setContent_any hR h.laid.content (i := 1 + G1.length) (off := st.1) (b := bytes)
    (by rw [c3, ← c4]) hne hwa hk (by simp) hd hok
  have hset : ((g1 ++ p :: g2).map Prod.snd).set g1.length content =
      (g1 ++ sourced src content p :: g2).map Prod.snd := by
    simp [List.set_append]
  rw [hset] at w1 w2
  obtain ⟨v1, v2, -, -⟩ := h.laid.content.write w3
  obtain ⟨rows', p1⟩ := h.laid.works (.step .refl (.cluster w3))
  have hrr : rows' = rows := Zim.Rep.unique v1.rep p1.content.rep
  subst hrr
  refine ⟨_, ⟨p1, ⟨ext, cl1 ++ b' :: cl2, ?_, f2, ?_⟩, ?_, ?_, h.lists, ?_, ?_, v2.redirects.trans h.redirects,
    v2.mainpage.trans h.mainpage, ?_, h.shown, h.only, ?_⟩, v2.mimetypes, w4,
    fun _ hz => h.laid.content.filled w3 hz⟩
  · rw [List.map_set, f1, Nat.add_comm, List.set_cons_succ, ← hlen]
    simp [List.set_append]
  · exact List.rel_append f4 (.cons ⟨w2, by simp, t, hne, w1⟩ f5)
  · rw [hAZ (sourced src content p) (show p.1.fullUrl ≠ "" by rw [hpu]; exact hu0), ← List.cons_append]
    show List.Forall₂ (fun (s : Item × Nat × Nat) e => EntryFor z'.mimetypes s.1 s.2.1 s.2.2 e) _ _
    rw [v2.mimetypes]
    exact List.rel_append k1 (.cons (EntryFor.source k2 src) k3)
  · intro q hq
    simp only [List.flatten_append, List.flatten_cons, List.mem_append, List.mem_cons] at hq
    rcases hq with hq | (hq | rfl | hq) | hq
    · exact h.other q (by simp [hq])
    · exact h.other q (by simp [hq])
    · exact h.other p (by simp)
    · exact h.other q (by simp [hq])
    · exact h.other q (by simp [hq])
  · show Art z'.articles _ _
    rw [v2.articles]; exact h.art
  · show MimesIn ML z'.mimetypes
    rw [v2.mimetypes]; exact h.mimes
  · show z'.articles.dirty = false → z'.articles.toBytes 4 = _
    rw [v2.articles]; exact h.listed
  · intro q hq hO
    have h1 := h.leads q hq hO
    exact ⟨p1.content.rep.leads_iff.2 (h.laid.content.rep.leads_iff.1 h1.leads), h1.title⟩

theorem Creator.setContent_ok {u : String} {src : BlobSource} (hok : Creator.setContent S u src c = (.ok (), c')) :
    ∃ z', (PyM.get >>= fun z : Zim => PyM.lift (z.entryByFullUrl u) >>= fun e => Zim.setContent S.X S.C S.kind S.calls e src)
      c.arch.zim = (.ok (), z') ∧ c' = { c with arch := { c.arch with zim := z' } } := by
  unfold Creator.setContent Creator.onArch Archive.onZim at hok
  simp only [PyM.of_apply] at hok
  generalize hx : ((PyM.get >>= fun z : Zim => PyM.lift (z.entryByFullUrl u) >>= fun e => Zim.setContent S.X S.C S.kind S.calls e src)
      c.arch.zim) = x at hok
  obtain ⟨r, z'⟩ := x
  injection hok with h1 h2
  simp only at h1 h2
  exact ⟨z', by rw [h1], h2.symm⟩

theorem any_urlIs {G : List (List Sourced)} {u : String} (h : ∀ p ∈ G.flatten, p.1.fullUrl ≠ u) :
    G.any (fun l => l.any (urlIs u)) = false := by
  rw [List.any_eq_false]
  intro g hg hany
  obtain ⟨p, hp, hpu⟩ := List.any_eq_true.1 hany
  exact h p (List.mem_flatten.2 ⟨g, hg, hp⟩) (of_decide_eq_true hpu)

theorem Has.set (hR : Replaceable S.X S.C) (h : Has gh mp S ML reserve G0 items rs c) {u : String} {src : BlobSource} {content : Bytes}
    (hd : Delivers src content) (hu : u ≠ URL_ARTICLES) (hn : ∀ p ∈ items, p.1.fullUrl ≠ u)
    (hok : Creator.setContent S u src c = (.ok (), c')) :
    u ≠ "" ∧ Has gh mp S ML reserve (setGroups u src content G0) items rs c' := by
  obtain ⟨G, P1, P2, ⟨rows, cs, extra, es, L, m0, R, B, hc, hB⟩, h1, h2, h3, h4, h5, h6⟩ := h
  obtain ⟨z', hz, rfl⟩ := Creator.setContent_ok hok
  obtain ⟨-, hu0, cs', k1, k2, k3, -⟩ := hc.setContent hR hd hu hz
  have hG : G.any (fun l => l.any (urlIs u)) = false :=
    any_urlIs fun p hp => hn p (h5.subset (List.mem_append_right _ hp))
  have e : setGroups u src content (G0 ++ G) = setGroups u src content G0 ++ G := by
    unfold setGroups
    rw [replaceLast_append, if_neg (by rw [hG]; simp)]
  rw [e] at k1
  refine ⟨hu0, G, P1, P2, ⟨rows, cs', extra, es, L, m0, R, B, k1, hB⟩, ?_, ?_, h3, h4, h5, ?_⟩
  · simp only [k2]; exact h1
  · simp only [k2]; exact h2
  · intro hcl
    exfalso
    unfold Archive.isDirty at hcl
    simp [k3] at hcl

theorem withContent_url (u : String) (src : BlobSource) (content : Bytes) (p : Sourced) :
    (withContent u src content p).1.fullUrl = p.1.fullUrl := by
  unfold withContent; split <;> rfl

theorem withContent_mimetype (u : String) (src : BlobSource) (content : Bytes) (p : Sourced) :
    (withContent u src content p).1.mimetype = p.1.mimetype := by
  unfold withContent; split <;> rfl

/-- the lists from which the new ones are made -/
theorem setContentIn_old {u : String} {src : BlobSource} {content : Bytes} {lists : List (List Sourced)} {l : List Sourced}
    (h : l ∈ lists) : l ∈ setContentIn u src content lists ∨ l.map (withContent u src content) ∈ setContentIn u src content lists := by
  unfold setContentIn
  cases hany : lists.any fun l => l.any fun p => decide (p.1.fullUrl = u) with
  | false => rw [replaceLast_none hany]; exact .inl h
  | true =>
    obtain ⟨l1, x, l2, e1, -, -, e4⟩ := replaceLast_at (f := fun l => l.map (withContent u src content)) hany
    rw [e4]
    rw [e1] at h
    rcases List.mem_append.1 h with h | h
    · exact .inl (List.mem_append_left _ h)
    · rcases List.mem_cons.1 h with h | h
      · exact .inr (by rw [h]; simp)
      · exact .inl (List.mem_append_right _ (List.mem_cons_of_mem _ h))

theorem setContentIn_new {u : String} {src : BlobSource} {content : Bytes} {lists : List (List Sourced)} {l : List Sourced}
    (h : l ∈ setContentIn u src content lists) : l ∈ lists ∨ ∃ l' ∈ lists, l = l'.map (withContent u src content) := by
  rcases replaceLast_mem h with h | ⟨x, hx, -, rfl⟩
  · exact .inl h
  · exact .inr ⟨x, hx, rfl⟩

/-- the groups of items, one list of groups for each list of items -/
theorem setContentIn_groups {Gb : List (List (List Sourced))} {lists : List (List Sourced)} (u : String) (hu : u ≠ "")
    (src : BlobSource) (content : Bytes) (h : List.Forall₂ (fun G l => (present gh G).Perm l) Gb lists)
    (hn : ∀ l ∈ lists, (l.map fun p => p.1.fullUrl).Nodup) :
    ∃ Gb', List.Forall₂ (fun G l => (present gh G).Perm l) Gb' (setContentIn u src content lists) ∧
      Gb'.flatten = setGroups u src content Gb.flatten := by
  refine ⟨replaceLast (fun G => G.any fun l => l.any (urlIs u)) (setGroups u src content) Gb, ?_, replaceLast_flatten⟩
  have hmem : ∀ {G : List (List Sourced)} {p : Sourced}, p.1.fullUrl = u → (p ∈ present gh G ↔ p ∈ G.flatten) := by
    intro G p hp
    cases gh with
    | false => exact Iff.rfl
    | true =>
      unfold present
      simp only
      rw [List.mem_filter]
      exact ⟨fun h => h.1, fun h => ⟨h, decide_eq_true (by rw [show p.1.ns ++ p.1.url = u from hp]; exact hu)⟩⟩
  refine replaceLast_forall₂ h ?_ ?_
  · intro G l hp
    rw [Bool.eq_iff_iff]
    constructor
    · intro hG
      obtain ⟨g, hg, hany⟩ := List.any_eq_true.1 hG
      obtain ⟨p, hp1, hp2⟩ := List.any_eq_true.1 hany
      exact List.any_eq_true.2 ⟨p, hp.subset ((hmem (of_decide_eq_true hp2)).2 (List.mem_flatten.2 ⟨g, hg, hp1⟩)), hp2⟩
    · intro hl
      obtain ⟨p, hp1, hp2⟩ := List.any_eq_true.1 hl
      obtain ⟨g, hg, hpg⟩ := List.mem_flatten.1 ((hmem (of_decide_eq_true hp2)).1 (hp.mem_iff.2 hp1))
      exact List.any_eq_true.2 ⟨g, hg, List.any_eq_true.2 ⟨p, hpg, hp2⟩⟩
  · intro G l _ hl hp
    have e : present gh (setGroups u src content G) = replaceLast (urlIs u) (sourced src content) (present gh G) := by
      unfold setGroups
      cases gh with
      | false => exact replaceLast_flatten
      | true =>
        unfold present
        simp only
        rw [replaceLast_flatten]
        refine replaceLast_filter (f := sourced src content) (q := fun p : Sourced => decide (p.1.ns ++ p.1.url ≠ "")) (fun p hp => decide_eq_true ?_)
          (fun p => rfl) _
        rw [show p.1.ns ++ p.1.url = u from of_decide_eq_true hp]
        exact hu
    show (present gh (setGroups u src content G)).Perm _
    rw [e, replaceLast_unique (key := fun p : Sourced => p.1.fullUrl) ((hp.map _).nodup_iff.2 (hn l hl))]
    exact hp.map _

end Pyzim
