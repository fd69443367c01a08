import Verif.Lemmas.CreatorRemove

/-!
# An archive filled by strategies: removing its redirects
-/

namespace Pyzim
open Zim (Row Stored Clustered Works Lists Art MimesIn Mirrored catalogue marked Redirect Leads Once catalogue_snoc
  catalogue_other)

section
variable {D K : Type} {X : Codecs D} {C : Compressors K} {ML : List Bytes} {reserve : Option Nat} {a a' : Archive}
  {G G' : List (List Sourced)} {rows : List Row} {cs : List Stored} {extra : Nat → Prop} {es : List Entry} {L : Bytes}
  {m0 : Catalogue} {R B : List Redirect} {r : Redirect} {d : Nat} {Z' : Zim}

/-- removing a redirect that no other redirect leads to and that no articles follow -/
theorem Core.unredirected (h : Core gh mp X C ML reserve a G rows cs extra es L m0 R B) {w : String}
    (hw : w ∉ es.map Entry.fullUrl) (hno : ∀ s, ¬ Leads a.zim s w) (htgt : ∀ r ∈ R, r.2.1 ≠ w)
    (hart0 : ∀ u, marked (fun _ => False) es u → encode u ≤ encode w)
    {bd blob : Entry → PyM Zim Unit} (hok : Zim.removeEntry bd d blob w a.zim = (.ok (), Z')) :
    (∃ r ∈ R, r.1 = w) ∧
    ∃ rows', Core gh mp X C ML reserve { a with zim := Z' } G rows' cs extra es L (m0.drop w) (R.filter fun r => r.1 ≠ w) B ∧
      Z'.mimetypes = a.zim.mimetypes ∧ Z'.urls.dirty = true := by
  have hrep := h.laid.content.rep
  have hdist := Zim.distinct_of_sorted hrep.sorted
  have hrow : ∃ q ∈ rows, q.2.fullUrl = w := by
    by_contra hno'
    cases d with
    | zero => cases hok
    | succ d =>
      rw [hrep.removeEntry_missing (fun r hr e => hno' ⟨r, hr, e⟩)] at hok
      cases hok
  obtain ⟨⟨o, e0⟩, hq, hqu⟩ := hrow
  simp only at hqu
  obtain ⟨r0, hr0, hr0w, v0, hv0, hsh⟩ : ∃ r ∈ R, r.1 = w ∧ ∃ v, catalogue m0 es w = some v ∧ r.Shown v := by
    have hcat := (h.lists w e0.view).2 ⟨_, hq, hqu, rfl⟩
    rw [catalogue_other m0 hw] at hcat
    obtain ⟨r, hr, hrw⟩ := h.only _ _ hcat
    obtain ⟨v, k1, k2⟩ := h.shown r hr
    exact ⟨r, hr, hrw, v, by rw [catalogue_other m0 hw, ← hrw]; exact k1, k2⟩
  refine ⟨⟨r0, hr0, hr0w⟩, ?_⟩
  have hred : e0.isRedirect = true := by
    have hcat := (h.lists w e0.view).2 ⟨_, hq, hqu, rfl⟩
    rw [hv0] at hcat
    injection hcat with hcat
    have := hsh.body
    rw [hcat] at this
    unfold Entry.view at this
    refine (hrep.store.clean _ hq).isRedirect.2 ?_
    cases hk : e0.kind with
    | content c b => rw [hk] at this; cases this
    | redirect i => exact ⟨i, rfl⟩
  obtain ⟨k, hk⟩ := List.getElem?_of_mem hq
  cases d with
  | zero => cases hok
  | succ d =>
  have hok0 := hok
  rw [← hqu, hrep.removeEntry_eq hk, hred] at hok
  simp only [if_true, PyM.pure_bind_fn] at hok
  obtain ⟨us, Z1, h1, h2⟩ := PyM.bind_ok_iff.1 hok
  obtain ⟨hus, hrep', hfr, -, hrange, hart⟩ := hrep.removeTail_ok hk d h1
  have hnil : us = [] := by
    rw [List.eq_nil_iff_forall_not_mem]
    intro u hu
    obtain ⟨-, q, hq1, hq2, hq3⟩ := (hus u).1 hu
    refine hno u (hrep.leads_iff.2 ⟨q, hq1, hq2, k, _, hq3, hk, hqu⟩)
  subst hnil
  have e1 : Z1 = Z' := by
    have : Zim.removeAll (Zim.removeEntry bd d bd) [] Z1 = (.ok (), Z1) := rfl
    rw [this] at h2
    exact congrArg Prod.snd h2
  subst e1
  have hcut := Zim.cut_erased hdist hk (D := (· = w)) hqu hrange
  have hgone := Zim.not_mem_erased hdist hk
  obtain ⟨rows', hl⟩ := h.laid.works (O := ClusterObj.ops X C) (.step .refl (.remove (bd := bd) (blob := blob) (fun e z1 he hir hb => by
    rw [← hqu, hrep.entryByFullUrl hq] at he
    injection he with he
    rw [← he, hred] at hir
    cases hir) hok0))
  have hr : rows' = Zim.erased rows k := Zim.Rep.unique hrep' hl.content.rep
  subst hr
  have hcat : catalogue (m0.drop w) es = (catalogue m0 es).drop w := catalogue_drop m0 hw
  have hother : ∀ u, u ≠ w → catalogue (m0.drop w) es u = catalogue m0 es u := by
    intro u hu
    rw [hcat]; unfold Catalogue.drop; rw [if_neg hu]
  have hunmarked : ¬ marked (fun _ => False) es w := by
    rw [marked_iff h.forced]
    rintro ⟨e, he, heu, -⟩
    exact hw (by rw [← heu]; exact List.mem_map_of_mem (lastOnes_sub he))
  refine ⟨Zim.erased rows k, ⟨hl, h.first, ?_, h.other, ?_, ?_, ?_, hfr.redirects.trans h.redirects,
    hfr.mainpage.trans h.mainpage, ?_, ?_, ?_, ?_⟩, hfr.mimetypes, ?_⟩
  · show List.Forall₂ (fun (s : Item × Nat × Nat) e => EntryFor Z1.mimetypes s.1 s.2.1 s.2.2 e) _ _
    rw [hfr.mimetypes]
    exact h.entries
  · intro u v1
    by_cases hu : u = w
    · rw [hcat]
      unfold Catalogue.drop
      rw [if_pos hu]
      constructor
      · intro hh; cases hh
      · rintro ⟨q, hq1, hq2, -⟩
        exact absurd (hq2.trans hu) (by rw [← hqu]; exact hgone q hq1)
    · rw [hother u hu, h.lists u v1]
      constructor
      · rintro ⟨q, hq1, hq2, hq3⟩
        obtain ⟨q', hq1', hq2'⟩ := hcut.keep q hq1 (by rw [hq2]; exact hu)
        obtain ⟨q0, h01, -, h03⟩ := hcut.sub q' hq1'
        have := hdist.row_eq h01 hq1 (by rw [Entry.blank_fullUrl h03, hq2'])
        subst this
        exact ⟨q', hq1', by rw [hq2', hq2], by rw [← hq3]; exact Entry.view_of_blank h03.symm⟩
      · rintro ⟨q', hq1', hq2', hq3'⟩
        obtain ⟨q0, h01, -, h03⟩ := hcut.sub q' hq1'
        exact ⟨q0, h01, by rw [Entry.blank_fullUrl h03, hq2'], by rw [← hq3']; exact Entry.view_of_blank h03⟩
  · have := hart _ h.art (by
      rw [hqu]
      refine .inr fun i s hi hs hS => ?_
      have h1 := hart0 _ hS
      obtain ⟨hki, hrk⟩ := List.getElem?_eq_some_iff.1 hk
      obtain ⟨hii, hri⟩ := List.getElem?_eq_some_iff.1 hs
      have h2 := List.pairwise_iff_getElem.1 hrep.sorted k i hki hii hi
      rw [hrk, hri] at h2
      simp only [hqu] at h2
      exact Std.lt_irrefl (Std.lt_of_lt_of_le h2 h1))
    refine this.congr fun u => ?_
    rw [hqu]
    exact ⟨fun hh => hh.1, fun hh => ⟨hh, fun e => hunmarked (by rw [← e]; exact hh)⟩⟩
  · show MimesIn ML Z1.mimetypes
    rw [hfr.mimetypes]; exact h.mimes
  · intro hd
    have := Zim.keeps_removeTail d k o e0 e0.fullUrl a.zim (A := a.zim.articles) (Or.inl rfl)
    rw [h1] at this
    rcases this with e | e
    · simp only at hd e ⊢
      rw [e] at hd ⊢
      exact h.listed hd
    · simp only at hd e
      rw [e] at hd; cases hd
  · intro r' hr'
    obtain ⟨hr1, hr2⟩ := List.mem_filter.1 hr'
    obtain ⟨v, k1, k2⟩ := h.shown r' hr1
    exact ⟨v, by unfold Catalogue.drop; rw [if_neg (of_decide_eq_true hr2)]; exact k1, k2⟩
  · intro u v hv
    unfold Catalogue.drop at hv
    by_cases hu : u = w
    · rw [if_pos hu] at hv; cases hv
    · rw [if_neg hu] at hv
      obtain ⟨r', hr', e⟩ := h.only u v hv
      exact ⟨r', List.mem_filter.2 ⟨hr', decide_eq_true (by rw [e]; exact hu)⟩, e⟩
  · intro r' hr' hO
    obtain ⟨hr1, hr2⟩ := List.mem_filter.1 hr'
    have hsrc : r'.1 ≠ w := of_decide_eq_true hr2
    have h3 := htgt r' hr1
    have hO' : Once m0 es r'.1 r'.2.1 := ⟨hO.source, hO.target, fun hm => hO.new (by
      unfold Catalogue.drop; rw [if_neg h3]; exact hm)⟩
    have hl1 := h.leads r' hr1 hO'
    have hR := hrep.leads_iff.1 hl1.leads
    refine ⟨hrep'.leads_iff.2 (hcut.leads _ _ ?_ ?_ hR), fun hn => ?_⟩
    · obtain ⟨q, hq1, hq2, -⟩ := hR
      rw [← hq2]
      exact hcut.keep q hq1 (by rw [hq2]; exact hsrc)
    · obtain ⟨_, _, _, _, q, _, hq1, hq2⟩ := hR
      rw [← hq2]
      exact hcut.keep q (List.mem_of_getElem? hq1) (by rw [hq2]; exact h3)
    · obtain ⟨v1, v2, k1, k2, k3⟩ := hl1.title hn
      exact ⟨v1, v2, by rw [hother _ hsrc]; exact k1, by rw [hother _ h3]; exact k2, k3⟩
  · rcases hfr.urls with e | e
    · exfalso
      have h1 := hrep.len
      have h2 := hrep'.len
      rw [e, h1, Zim.erased_length (List.getElem?_eq_some_iff.1 hk).1] at h2
      have := (List.getElem?_eq_some_iff.1 hk).1
      omega
    · exact e

end

end Pyzim
