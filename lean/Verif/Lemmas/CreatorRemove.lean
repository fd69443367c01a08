import Verif.Lemmas.CreatorMain
import Verif.Model.Remove

/-!
# An archive filled by strategies: removing its entries
-/

namespace Pyzim
open Zim (Row Stored Clustered Works Lists Art MimesIn Mirrored catalogue marked Redirect Leads Once catalogue_snoc
  catalogue_other)

/-- what is left of an item whose entry was removed: its content -/
def ghostItem (u : String) (it : Item) : Item := if it.ns ++ it.url = u then { it with ns := "", url := "" } else it

def ghost (u : String) (p : Sourced) : Sourced := (ghostItem u p.1, p.2)

def ghostGroups (u : String) (G : List (List Sourced)) : List (List Sourced) := G.map fun g => g.map (ghost u)

theorem ghostItem_ne {u : String} {it : Item} : (ghostItem u it).ns ++ (ghostItem u it).url ≠ "" ↔
    it.ns ++ it.url ≠ "" ∧ it.ns ++ it.url ≠ u := by
  unfold ghostItem
  by_cases h : it.ns ++ it.url = u
  · simp [h]
  · simp [h]

theorem ghostItem_other {u : String} {it : Item} (h : it.ns ++ it.url ≠ u) : ghostItem u it = it := by
  unfold ghostItem; rw [if_neg h]

theorem slots_ghost (u : String) (G : List (List Sourced)) (base : Nat) :
    slots base (ghostGroups u G) = (slots base G).map fun s => (ghostItem u s.1, s.2) := by
  induction G generalizing base with
  | nil => rfl
  | cons g G ih =>
    have ih := ih (base + 1)
    unfold ghostGroups at ih ⊢
    rw [List.map_cons, slots, slots, List.map_append, ih, List.zipIdx_map, List.map_map, List.map_map]
    rfl

theorem filter_map_ghost {α : Type} (f : α → α) (q r : α → Bool) (h1 : ∀ x, q (f x) = (r x && q x)) (h2 : ∀ x, r x = true → f x = x)
    (l : List α) : (l.map f).filter q = (l.filter q).filter r := by
  induction l with
  | nil => rfl
  | cons x l ih =>
    rw [List.map_cons, List.filter_cons, List.filter_cons, h1, ih]
    cases hr : r x <;> cases hq : q x <;> simp [List.filter_cons, hr, h2]

theorem slotsOf_ghost (u : String) (G : List (List Sourced)) (base : Nat) :
    slotsOf true base (ghostGroups u G) = (slotsOf true base G).filter fun s => s.1.ns ++ s.1.url ≠ u := by
  unfold slotsOf
  simp only
  rw [slots_ghost]
  refine filter_map_ghost (fun s => (ghostItem u s.1, s.2)) _ _ (fun x => ?_) (fun x hx => ?_) _
  · rw [← Bool.decide_and]
    exact decide_eq_decide.2 (ghostItem_ne.trans And.comm)
  · have hx : x.1.ns ++ x.1.url ≠ u := of_decide_eq_true hx
    simp only [ghostItem_other hx]

theorem present_ghost (u : String) (G : List (List Sourced)) :
    present true (ghostGroups u G) = (present true G).filter fun p => p.1.ns ++ p.1.url ≠ u := by
  unfold present
  simp only
  rw [show (ghostGroups u G).flatten = G.flatten.map (ghost u) by unfold ghostGroups; rw [← List.map_flatten]]
  refine filter_map_ghost (ghost u) _ _ (fun x => ?_) (fun x hx => ?_) _
  · rw [← Bool.decide_and]
    exact decide_eq_decide.2 (ghostItem_ne.trans And.comm)
  · have hx : x.1.ns ++ x.1.url ≠ u := of_decide_eq_true hx
    unfold ghost
    rw [ghostItem_other hx]

theorem ghost_flatten {u : String} {G : List (List Sourced)} {p : Sourced} (hp : p ∈ (ghostGroups u G).flatten) :
    p ∈ G.flatten ∨ p.1.ns ++ p.1.url = "" := by
  rw [show (ghostGroups u G).flatten = G.flatten.map (ghost u) by unfold ghostGroups; rw [← List.map_flatten]] at hp
  obtain ⟨q, hq, rfl⟩ := List.mem_map.1 hp
  by_cases h : q.1.ns ++ q.1.url = u
  · right
    unfold ghost ghostItem
    simp [h]
  · left
    unfold ghost
    rw [ghostItem_other h]
    exact hq

theorem ghostGroups_other {u : String} {G : List (List Sourced)} (h : ∀ p ∈ G.flatten, p.1.ns ++ p.1.url ≠ u) : ghostGroups u G = G := by
  unfold ghostGroups
  rw [show (fun g : List Sourced => g.map (ghost u)) = List.map (ghost u) from rfl]
  conv_rhs => rw [← List.map_id G]
  refine List.map_congr_left fun g hg => ?_
  show _ = g
  conv_rhs => rw [← List.map_id g]
  refine List.map_congr_left fun p hp => ?_
  unfold ghost
  rw [ghostItem_other (h p (List.mem_flatten.2 ⟨g, hg, hp⟩))]
  rfl

/-- the entries that are not at a url -/
def without (u : String) (es : List Entry) : List Entry := es.filter fun e => e.fullUrl ≠ u

theorem without_snoc (u : String) (es : List Entry) (e : Entry) :
    without u (es ++ [e]) = if e.fullUrl = u then without u es else without u es ++ [e] := by
  unfold without
  rw [List.filter_append]
  by_cases h : e.fullUrl = u <;> simp [h]

theorem catalogue_without {m0 : Catalogue} {u : String} (h : m0 u = none) (es : List Entry) :
    catalogue m0 (without u es) = (catalogue m0 es).drop u := by
  induction es using snoc_induction with
  | h0 =>
    funext w
    show m0 w = if w = u then none else m0 w
    split
    · rename_i e; rw [e, h]
    · rfl
  | h1 es x ih =>
    rw [without_snoc, catalogue_snoc]
    split
    · rename_i e
      rw [ih]
      funext w
      unfold Catalogue.drop Catalogue.write
      by_cases hw : w = u
      · rw [if_pos hw, if_pos hw]
      · simp only [if_neg hw, e, Option.some.injEq]
    · rename_i e
      rw [catalogue_snoc, ih]
      funext w
      unfold Catalogue.drop Catalogue.write
      by_cases hw : w = u
      · have : ¬ u = x.fullUrl := fun h => e h.symm
        simp only [if_pos hw, Option.some.injEq, hw, if_neg this]
      · simp only [if_neg hw, Option.some.injEq]

theorem marked_without {u : String} {es : List Entry} (h : ∀ e ∈ es, e.forceIsArticle ≠ none) (w : String) :
    marked (fun _ => False) (without u es) w ↔ marked (fun _ => False) es w ∧ w ≠ u := by
  induction es using snoc_induction generalizing w with
  | h0 => simp [without, marked]
  | h1 es x ih =>
    have ih := ih fun e he => h e (List.mem_append_left _ he)
    have hx := h x (by simp)
    have hm : ∀ S, Zim.MarksArticle x S ↔ x.forceIsArticle = some true := by
      intro S
      unfold Zim.MarksArticle
      cases hf : x.forceIsArticle with
      | none => exact absurd hf hx
      | some b => simp
    rw [without_snoc, marked_snoc, hm]
    split
    · rename_i e
      rw [ih]
      constructor
      · rintro ⟨h1, h2⟩
        exact ⟨.inl ⟨h1, by rw [e]; exact h2⟩, h2⟩
      · rintro ⟨h1 | h1, h2⟩
        · exact ⟨h1.1, h2⟩
        · exact absurd (h1.1.trans e) h2
    · rename_i e
      rw [marked_snoc, hm, ih]
      constructor
      · rintro (⟨⟨h1, h2⟩, h3⟩ | ⟨h1, h2⟩)
        · exact ⟨.inl ⟨h1, h3⟩, h2⟩
        · exact ⟨.inr ⟨h1, h2⟩, by rw [h1]; exact e⟩
      · rintro ⟨⟨h1, h2⟩ | h1, h3⟩
        · exact .inl ⟨⟨h1, h3⟩, h2⟩
        · exact .inr h1

theorem without_urls (u : String) (es : List Entry) : (without u es).map Entry.fullUrl = (es.map Entry.fullUrl).filter (· ≠ u) := by
  unfold without
  rw [List.filter_map]
  rfl

theorem Once.with {m0 : Catalogue} {es : List Entry} {u s t : String} (h : Once m0 (without u es) s t) (hs : s ≠ u) (ht : t ≠ u) :
    Once m0 es s t := by
  obtain ⟨h1, h2, h3⟩ := h
  rw [without_urls] at h1 h2 h3
  refine ⟨fun hm => h1 (List.mem_filter.2 ⟨hm, decide_eq_true hs⟩), ?_, fun hm hm' => h3 hm (List.mem_filter.2 ⟨hm', decide_eq_true ht⟩)⟩
  rwa [List.count_filter (p := fun x => decide (x ≠ u)) (decide_eq_true ht)] at h2

section
variable {D K : Type} {X : Codecs D} {C : Compressors K} {ML : List Bytes} {reserve : Option Nat} {a a' : Archive}
  {G G' : List (List Sourced)} {rows : List Row} {cs : List Stored} {extra : Nat → Prop} {es : List Entry} {L : Bytes}
  {m0 : Catalogue} {R B : List Redirect} {r : Redirect} {d : Nat} {Z' : Zim}

theorem Core.forced (h : Core gh mp X C ML reserve a G rows cs extra es L m0 R B) : ∀ e ∈ es, e.forceIsArticle ≠ none := by
  intro e he
  obtain ⟨s, -, hse⟩ := forall₂_mem_right h.entries he
  rw [hse.forced]; simp

/-- removing an item that no redirect leads to; it is an article, or no articles follow it; its blob is left alone -/
theorem Core.removed (h : Core true mp X C ML reserve a G rows cs extra es L m0 R B) {w : String} (hw : w ≠ URL_ARTICLES)
    (hm : m0 w = none) (hno : ∀ s, ¬ Leads a.zim s w) (htgt : ∀ r ∈ R, r.2.1 ≠ w)
    (hart0 : marked (fun _ => False) es w ∨ ∀ u, marked (fun _ => False) es u → encode u ≤ encode w)
    {bd blob : Entry → PyM Zim Unit} (hblob : ∀ e z1, a.zim.entryByFullUrl w = .ok e → blob e a.zim = (.ok (), z1) → z1 = a.zim)
    (hok : Zim.removeEntry bd d blob w a.zim = (.ok (), Z')) :
    w ∈ es.map Entry.fullUrl ∧
    ∃ rows', Core true mp X C ML reserve { a with zim := Z' } (ghostGroups w G) rows' cs extra (without w es) L m0 R B ∧
      Z'.mimetypes = a.zim.mimetypes ∧ Z'.urls.dirty = true := by
  have hrep := h.laid.content.rep
  have hdist := Zim.distinct_of_sorted hrep.sorted
  have hrow : ∃ q ∈ rows, q.2.fullUrl = w := by
    by_contra hno'
    cases d with
    | zero => cases hok
    | succ d =>
      rw [hrep.removeEntry_missing (fun r hr e => hno' ⟨r, hr, e⟩)] at hok
      cases hok
  obtain ⟨⟨o, e0⟩, hq, hqu⟩ := hrow
  simp only at hqu
  have hin : w ∈ es.map Entry.fullUrl := by
    by_contra hno'
    have := (h.lists w e0.view).2 ⟨_, hq, hqu, rfl⟩
    rw [catalogue_other m0 hno', hm] at this
    cases this
  refine ⟨hin, ?_⟩
  have hred : e0.isRedirect = false := by
    have hcat := (h.lists w e0.view).2 ⟨_, hq, hqu, rfl⟩
    rcases (catalogue_iff m0 es w _).1 hcat with ⟨e, he, heu, hev⟩ | ⟨-, h2⟩
    · have he' : e ∈ es := lastOnes_sub he
      obtain ⟨s, -, hse⟩ := forall₂_mem_right h.entries he'
      rw [Bool.eq_false_iff]
      intro hr
      obtain ⟨i, hi⟩ := (hrep.store.clean _ hq).isRedirect.1 hr
      have hb : e.view.body = e0.view.body := by rw [hev]
      unfold Entry.view at hb
      simp only at hi
      rw [hse.location, hi] at hb
      cases hb
    · rw [hm] at h2; cases h2
  obtain ⟨k, hk⟩ := List.getElem?_of_mem hq
  cases d with
  | zero => cases hok
  | succ d =>
  have hok0 := hok
  rw [← hqu, hrep.removeEntry_eq hk, hred] at hok
  simp only [Bool.false_eq_true, if_false] at hok
  obtain ⟨⟨⟩, Zb, h0, hok⟩ := PyM.bind_ok_iff.1 hok
  have hZb : Zb = a.zim := hblob e0 Zb (by rw [← hqu]; exact hrep.entryByFullUrl hq) h0
  rw [hZb] at hok
  obtain ⟨us, Z1, h1, h2⟩ := PyM.bind_ok_iff.1 hok
  obtain ⟨hus, hrep', hfr, -, hrange, hart⟩ := hrep.removeTail_ok hk d h1
  have hnil : us = [] := by
    rw [List.eq_nil_iff_forall_not_mem]
    intro u hu
    obtain ⟨-, q, hq1, hq2, hq3⟩ := (hus u).1 hu
    refine hno u (hrep.leads_iff.2 ⟨q, hq1, hq2, k, _, hq3, hk, hqu⟩)
  subst hnil
  have e1 : Z1 = Z' := by
    have : Zim.removeAll (Zim.removeEntry bd d bd) [] Z1 = (.ok (), Z1) := rfl
    rw [this] at h2
    exact congrArg Prod.snd h2
  subst e1
  have hcut := Zim.cut_erased hdist hk (D := (· = w)) hqu hrange
  have hgone := Zim.not_mem_erased hdist hk
  obtain ⟨rows', hl⟩ := h.laid.works (O := ClusterObj.ops X C) (.step .refl (.remove (bd := bd) (blob := blob) (fun e z1 he _ hb =>
    hblob e z1 he hb) hok0))
  have hr : rows' = Zim.erased rows k := Zim.Rep.unique hrep' hl.content.rep
  subst hr
  have hcat : catalogue m0 (without w es) = (catalogue m0 es).drop w := catalogue_without hm es
  have hother : ∀ u, u ≠ w → catalogue m0 (without w es) u = catalogue m0 es u := by
    intro u hu
    rw [hcat]; unfold Catalogue.drop; rw [if_neg hu]
  refine ⟨Zim.erased rows k, ⟨hl, ?_, ?_, ?_, ?_, ?_, ?_, hfr.redirects.trans h.redirects,
    hfr.mainpage.trans h.mainpage, ?_, h.shown, h.only, ?_⟩, hfr.mimetypes, ?_⟩
  · obtain ⟨ext, cl, f1, f2, f3⟩ := h.first
    refine ⟨ext, cl, f1, f2, ?_⟩
    unfold ghostGroups
    rw [List.forall₂_map_left_iff]
    refine f3.imp fun g b hgb => ?_
    rw [List.map_map]
    exact hgb
  · show List.Forall₂ (fun (s : Item × Nat × Nat) e => EntryFor Z1.mimetypes s.1 s.2.1 s.2.2 e) _ _
    rw [hfr.mimetypes, slotsOf_ghost]
    have := forall₂_filter (f := fun s => decide (s.1.ns ++ s.1.url ≠ w)) (g := fun e => decide (e.fullUrl ≠ w)) h.entries
      (fun s e hse => by rw [hse.fullUrl])
    rw [List.filter_cons, if_pos (show decide (Creator.placeholder.ns ++ Creator.placeholder.url ≠ w) = true from
      decide_eq_true (show URL_ARTICLES ≠ w from Ne.symm hw))] at this
    exact this
  · intro p hp
    rcases ghost_flatten hp with hp | hp
    · exact h.other p hp
    · rw [hp]; decide
  · intro u v1
    by_cases hu : u = w
    · rw [hcat]
      unfold Catalogue.drop
      rw [if_pos hu]
      constructor
      · intro hh; cases hh
      · rintro ⟨q, hq1, hq2, -⟩
        exact absurd (hq2.trans hu) (by rw [← hqu]; exact hgone q hq1)
    · rw [hother u hu, h.lists u v1]
      constructor
      · rintro ⟨q, hq1, hq2, hq3⟩
        obtain ⟨q', hq1', hq2'⟩ := hcut.keep q hq1 (by rw [hq2]; exact hu)
        obtain ⟨q0, h01, -, h03⟩ := hcut.sub q' hq1'
        have := hdist.row_eq h01 hq1 (by rw [Entry.blank_fullUrl h03, hq2'])
        subst this
        exact ⟨q', hq1', by rw [hq2', hq2], by rw [← hq3]; exact Entry.view_of_blank h03.symm⟩
      · rintro ⟨q', hq1', hq2', hq3'⟩
        obtain ⟨q0, h01, -, h03⟩ := hcut.sub q' hq1'
        exact ⟨q0, h01, by rw [Entry.blank_fullUrl h03, hq2'], by rw [← hq3']; exact Entry.view_of_blank h03⟩
  · have := hart _ h.art (by
      rw [hqu]
      refine hart0.imp (fun h => h) fun hlast i s hi hs hS => ?_
      have h1 := hlast _ hS
      obtain ⟨hki, hrk⟩ := List.getElem?_eq_some_iff.1 hk
      obtain ⟨hii, hri⟩ := List.getElem?_eq_some_iff.1 hs
      have h2 := List.pairwise_iff_getElem.1 hrep.sorted k i hki hii hi
      rw [hrk, hri] at h2
      simp only [hqu] at h2
      exact Std.lt_irrefl (Std.lt_of_lt_of_le h2 h1))
    refine this.congr fun u => ?_
    rw [marked_without h.forced, hqu]
  · show MimesIn ML Z1.mimetypes
    rw [hfr.mimetypes]; exact h.mimes
  · intro hd
    have := Zim.keeps_removeTail d k o e0 e0.fullUrl a.zim (A := a.zim.articles) (Or.inl rfl)
    rw [h1] at this
    rcases this with e | e
    · simp only at hd e ⊢
      rw [e] at hd ⊢
      exact h.listed hd
    · simp only at hd e
      rw [e] at hd; cases hd
  · intro r' hr' hO
    obtain ⟨v0, hv0, -⟩ := h.shown r' hr'
    have hsrc : r'.1 ≠ w := fun e => by rw [e, hm] at hv0; cases hv0
    have h3 := htgt r' hr'
    have hO' : Once m0 es r'.1 r'.2.1 := Once.with hO hsrc h3
    have hl1 := h.leads r' hr' hO'
    have hR := hrep.leads_iff.1 hl1.leads
    refine ⟨hrep'.leads_iff.2 (hcut.leads _ _ ?_ ?_ hR), fun hn => ?_⟩
    · obtain ⟨q, hq1, hq2, -⟩ := hR
      rw [← hq2]
      exact hcut.keep q hq1 (by rw [hq2]; exact hsrc)
    · obtain ⟨_, _, _, _, q, _, hq1, hq2⟩ := hR
      rw [← hq2]
      exact hcut.keep q (List.mem_of_getElem? hq1) (by rw [hq2]; exact h3)
    · obtain ⟨v1, v2, k1, k2, k3⟩ := hl1.title hn
      exact ⟨v1, v2, by rw [hother _ hsrc]; exact k1, by rw [hother _ h3]; exact k2, k3⟩
  · rcases hfr.urls with e | e
    · exfalso
      have h1 := hrep.len
      have h2 := hrep'.len
      rw [e, h1, Zim.erased_length (List.getElem?_eq_some_iff.1 hk).1] at h2
      have := (List.getElem?_eq_some_iff.1 hk).1
      omega
    · exact e

/-- what emptying the blob of an entry does is setting its content -/
theorem Zim.treatBlob_empty {kind : ClusterKind} {calls : Nat} {e : Entry} (he : e.mutable = true) {c b : Nat} (hk : e.kind = .content c b)
    {z z1 : Zim} (hok : Zim.treatBlob X C kind calls .empty e z = (.ok (), z1)) :
    Zim.setContent X C kind calls e BlobSourceObj.empty.toSource z = (.ok (), z1) := by
  unfold Zim.treatBlob at hok
  unfold Zim.setContent
  rw [hk] at hok ⊢
  simp only [reduceCtorEq, if_false, PyM.get_bind, if_true, he, PyM.require_true_bind] at hok ⊢
  cases ho : Zim.openCluster X kind calls z c with
  | error x => rw [ho] at hok; cases hok
  | ok o =>
    rw [ho, PyM.lift_ok_bind] at hok
    rw [PyM.lift_ok_bind]
    unfold MCluster.emptyBlob at hok
    cases hm : o.m.isMutable with
    | false =>
      rw [PyM.get_bind, hm, PyM.require_false_bind] at hok
      cases hok
    | true =>
      rw [PyM.get_bind, hm, PyM.require_true_bind] at hok
      exact hok

theorem Delivers.nothing : Delivers BlobSourceObj.empty.toSource [] := Blob.C52_pieces_complete .empty trivial

/-- No redirect leads to `w`. -/
theorem Core.unused (h : Core gh mp X C ML reserve a G rows cs extra es L m0 R B) {w : String}
    (hR : ∀ r ∈ R, r.2.1 ≠ w ∧ Once m0 es r.1 r.2.1) (s : String) : ¬ Leads a.zim s w := by
  intro hl
  have hrep := h.laid.content.rep
  have hdist := Zim.distinct_of_sorted hrep.sorted
  obtain ⟨q, hq, hqs, i, p, hi, hp, hpu⟩ := hrep.leads_iff.1 hl
  have hcat := (h.lists s q.2.view).2 ⟨q, hq, hqs, rfl⟩
  rcases (catalogue_iff m0 es s _).1 hcat with ⟨e, he, heu, hev⟩ | ⟨-, h2⟩
  · obtain ⟨t, -, hse⟩ := forall₂_mem_right h.entries (lastOnes_sub he)
    have hb : e.view.body = q.2.view.body := by rw [hev]
    unfold Entry.view at hb
    rw [hse.location, hi] at hb
    cases hb
  · obtain ⟨r, hr, hrs⟩ := h.only _ _ h2
    obtain ⟨h3, h4⟩ := hR r hr
    obtain ⟨q', hq', hqs', i', p', hi', hp', hpu'⟩ := hrep.leads_iff.1 (h.leads r hr h4).leads
    have e : q = q' := hdist.row_eq hq hq' (by rw [hqs, hqs', hrs])
    subst e
    rw [hi] at hi'
    injection hi' with hi'
    rw [← hi', hp] at hp'
    injection hp' with hp'
    rw [← hp', hpu] at hpu'
    exact h3 hpu'.symm

/-- how the groups change when an entry is removed -/
def removedGroups (mode : BlobMode) (u : String) (G : List (List Sourced)) : List (List Sourced) :=
  ghostGroups u (if mode = .empty then setGroups u BlobSourceObj.empty.toSource [] G else G)

/-- removing an item that no redirect leads to; it is an article, or no articles follow it -/
theorem Core.remove (h : Core true mp X C ML reserve a G rows cs extra es L m0 R B) {w : String} (hw : w ≠ URL_ARTICLES)
    (hm : m0 w = none) (hR : ∀ r ∈ R, r.2.1 ≠ w ∧ Once m0 es r.1 r.2.1)
    (hart0 : marked (fun _ => False) es w ∨ ∀ u, marked (fun _ => False) es u → encode u ≤ encode w) {mode : BlobMode}
    (hmode : mode ≠ .remove) (hrep : mode = .empty → Replaceable X C) {bd : Entry → PyM Zim Unit} {kind : ClusterKind} {calls : Nat}
    (hok : Zim.removeEntry bd d (Zim.treatBlob X C kind calls mode) w a.zim = (.ok (), Z')) :
    w ∈ es.map Entry.fullUrl ∧
    ∃ rows' cs', Core true mp X C ML reserve { a with zim := Z' } (removedGroups mode w G) rows' cs' extra (without w es) L m0 R B ∧
      Z'.mimetypes = a.zim.mimetypes ∧ Z'.urls.dirty = true := by
  cases mode with
  | remove => exact absurd rfl hmode
  | keep =>
    obtain ⟨h1, rows', h2⟩ := h.removed hw hm (h.unused hR) (fun r hr => (hR r hr).1) hart0 (fun e z1 _ hb => by
      have : Zim.treatBlob X C kind calls .keep e a.zim = (.ok (), a.zim) := by
        unfold Zim.treatBlob; cases e.kind <;> rfl
      rw [this] at hb
      exact (congrArg Prod.snd hb).symm) hok
    exact ⟨h1, rows', cs, h2⟩
  | empty =>
    have hRp := h.laid.content.rep
    have hrow : ∃ q ∈ rows, q.2.fullUrl = w := by
      by_contra hno'
      cases d with
      | zero => cases hok
      | succ d =>
        rw [hRp.removeEntry_missing (fun r hr e => hno' ⟨r, hr, e⟩)] at hok
        cases hok
    obtain ⟨⟨o, e0⟩, hq, hqu⟩ := hrow
    simp only at hqu
    have hkind : ∃ c b, e0.kind = .content c b := by
      have hcat := (h.lists w e0.view).2 ⟨_, hq, hqu, rfl⟩
      rcases (catalogue_iff m0 es w _).1 hcat with ⟨e, he, heu, hev⟩ | ⟨-, h2⟩
      · obtain ⟨s, -, hse⟩ := forall₂_mem_right h.entries (lastOnes_sub he)
        have hb : e.view.body = e0.view.body := by rw [hev]
        unfold Entry.view at hb
        rw [hse.location] at hb
        cases hk : e0.kind with
        | content c b => exact ⟨c, b, rfl⟩
        | redirect i => rw [hk] at hb; cases hb
      · rw [hm] at h2; cases h2
    obtain ⟨c, b, hk0⟩ := hkind
    have hclean := hRp.store.clean _ hq
    have hred : e0.isRedirect = false := by
      rw [Bool.eq_false_iff]
      intro hr
      obtain ⟨i, hi⟩ := hclean.isRedirect.1 hr
      simp only at hi
      rw [hk0] at hi
      cases hi
    obtain ⟨k, hk⟩ := List.getElem?_of_mem hq
    cases d with
    | zero => cases hok
    | succ d =>
    rw [← hqu, hRp.removeEntry_eq hk, hred] at hok
    simp only [Bool.false_eq_true, if_false] at hok
    obtain ⟨⟨⟩, z1, h0, hok⟩ := PyM.bind_ok_iff.1 hok
    have hset := Zim.treatBlob_empty hclean.mutable hk0 h0
    obtain ⟨-, -, cs', k1, k2, -, -⟩ := h.setContent (hrep rfl) Delivers.nothing hw (kind := kind) (calls := calls) (z' := z1)
      (u := w) (by
        rw [PyM.get_bind, ← hqu, hRp.entryByFullUrl hq, PyM.lift_ok_bind]
        exact hset)
    have hok1 : Zim.removeEntry bd (d + 1) (fun _ => pure ()) w z1 = (.ok (), Z') := by
      rw [← hqu, k1.laid.content.rep.removeEntry_eq hk, hred]
      simp only [Bool.false_eq_true, if_false, PyM.pure_bind_fn]
      exact hok
    obtain ⟨g1, rows', g2, g3, g4⟩ := k1.removed hw hm (k1.unused hR) (fun r hr => (hR r hr).1) hart0 (fun e z2 _ hb =>
      (congrArg Prod.snd hb).symm) hok1
    exact ⟨g1, rows', cs', g2, g3.trans k2, g4⟩

end

end Pyzim
