import Verif.Lemmas.Work

/-!
# Entries stay where they are while others are written
-/

namespace Pyzim
namespace Zim

/-- The rows, except those with urls in `U`, are still where they were; at most redirects have other indices. -/
def Stays (U : String → Prop) (rows rows' : List Row) : Prop :=
  ∀ r ∈ rows, ¬ U r.2.fullUrl → ∃ r' ∈ rows', r'.1 = r.1 ∧ r'.2.blank = r.2.blank

variable {rows rows' rows'' : List Row} {U V : String → Prop}

theorem Stays.refl (U : String → Prop) (rows : List Row) : Stays U rows rows := fun r hr _ => ⟨r, hr, rfl, rfl⟩

theorem Stays.mono (h : Stays U rows rows') (hV : ∀ u, U u → V u) : Stays V rows rows' :=
  fun r hr hn => h r hr fun hu => hn (hV _ hu)

theorem Stays.trans (h1 : Stays U rows rows') (h2 : Stays U rows' rows'') : Stays U rows rows'' := by
  intro r hr hn
  obtain ⟨r1, h3, h4, h5⟩ := h1 r hr hn
  obtain ⟨r2, h6, h7, h8⟩ := h2 r1 h3 (by rw [Entry.blank_fullUrl h5]; exact hn)
  exact ⟨r2, h6, h7.trans h4, h8.trans h5⟩

theorem Wrote.stays (hc : ∀ r ∈ rows, r.2.Clean) (hd : DistinctUrls rows) {e : Entry} {old : String} {upd : Bool}
    {f : Header → Header} (h : Wrote rows e old upd rows' f) : Stays (fun u => u = old ∨ u = e.fullUrl) rows rows' := by
  intro r hr hn
  rw [not_or] at hn
  obtain ⟨hne, hne'⟩ := hn
  cases h with
  | new n off hno hnu hn hi hr' => exact ⟨_, (mem_inserted hn.le).2 (Or.inr ⟨r, hr, rfl⟩), rfl, sh_blank _ _ _ _⟩
  | same k o e0 hk ho hu hs hi =>
    obtain ⟨i, hi⟩ := List.getElem?_of_mem hr
    have hik : k ≠ i := by
      rintro rfl; rw [hk] at hi; cases hi; exact hne ho.symm
    exact ⟨r, List.mem_of_getElem? (i := i) (by rw [List.getElem?_set_ne hik]; exact hi), rfl, rfl⟩
  | moved k o e0 n off us hk ho hch hn hus hi hr1 hr2 hr3 =>
    have hcut := cut_erased (row := (o, e0)) hd hk (D := (· = e0.fullUrl)) rfl hr1
    obtain ⟨s, hs, hsu⟩ := hcut.keep r hr (by rw [← ho]; exact hne)
    obtain ⟨r0, hr0, h0, hb0⟩ := hcut.sub s hs
    have : r0 = r := hd.row_eq hr0 hr (by rw [Entry.blank_fullUrl hb0, hsu])
    subst this
    have hin := (mem_inserted hn.le (off := off) (e := e)).2 (Or.inr ⟨s, hs, rfl⟩)
    have hbl : (rtRow us n (shRow n 1 [e.fullUrl] s)).2.blank = (shRow n 1 [e.fullUrl] s).2.blank := by
      refine rtRow_blank fun hm => ?_
      rw [hus] at hm
      split at hm
      · obtain ⟨r1, hr1', hr1u, hr1k⟩ := (mem_urlsTo' hc).1 hm
        have : r0 = r1 := hd.row_eq hr0 hr1' (by rw [hr1u, shRow_fullUrl]; exact Entry.blank_fullUrl hb0)
        subst this
        exact (Entry.blank_redirect (sh_blank n 1 [e.fullUrl] s.2)).2 ((Entry.blank_redirect hb0).1 ⟨k, hr1k⟩)
      · cases hm
    have hr1 : (rtRow us n (shRow n 1 [e.fullUrl] s)).1 = s.1 := by
      unfold rtRow
      split <;> rfl
    unfold retargeted
    split
    · exact ⟨_, List.mem_map_of_mem hin, hr1.trans h0.symm, hbl.trans ((sh_blank _ _ _ _).trans hb0.symm)⟩
    · exact ⟨_, hin, h0.symm, (sh_blank _ _ _ _).trans hb0.symm⟩

end Zim
end Pyzim
