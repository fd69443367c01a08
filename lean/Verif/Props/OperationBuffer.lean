import Verif.Lemmas.OperationBuffer

/-!
# Buffered redirects (C31)

The specification is in `Verif/Spec/OperationBuffer.lean`.
-/

namespace Pyzim
namespace Zim

variable {z : Zim} {S : String → Prop} {L : Nat}

/-- C31: redirects with new, pairwise different sources may be buffered in any order. Applying them makes at most one
pass more than there are redirects. Exactly the redirects are written from which an entry can be reached, each leads to
its target, everything else is as before, and `UnresolvedRedirect` is raised iff other redirects remain. -/
theorem C31_redirects (h : Roomy z S L) (hv : ∀ r ∈ z.bufferedRedirects, Redirect.Valid r)
    (hnd : (z.bufferedRedirects.map (·.1)).Nodup) (hnew : ∀ r ∈ z.bufferedRedirects, ¬ Has z r.1)
    (hroom : z.urls.len + z.bufferedRedirects.length < L) (d passes : Nat)
    (hp : z.bufferedRedirects.length + 1 ≤ passes) :
    ∃ z' res, applyRedirects (d + 2) passes z = (res, z') ∧ (∃ S', Roomy z' S' L) ∧
      (∀ u, Has z' u ↔ Resolvable z z.bufferedRedirects u) ∧
      (∀ s t title, (s, t, title) ∈ z.bufferedRedirects → Resolvable z z.bufferedRedirects t → Leads z' s t) ∧
      (∀ s t, Leads z s t → Leads z' s t) ∧
      (∀ s t, Leads z' s t → Leads z s t ∨ ∃ title, (s, t, title) ∈ z.bufferedRedirects) ∧
      (∀ r, r ∈ z'.bufferedRedirects ↔ r ∈ z.bufferedRedirects ∧ ¬ Resolvable z z.bufferedRedirects r.2.1) ∧
      z'.bufferedRedirects.Sublist z.bufferedRedirects ∧
      ((∀ r ∈ z.bufferedRedirects, Resolvable z z.bufferedRedirects r.2.1) → res = .ok ()) ∧
      ((∃ r ∈ z.bufferedRedirects, ¬ Resolvable z z.bufferedRedirects r.2.1) → res = .error .unresolvedRedirect) := by
  obtain ⟨z', S', hl, hr, hpass, hstuck⟩ := h.redirectLoop d passes z S ⟨hv, hnd, hnew, hroom⟩ hp
  have hready := hr.ready
  have hsound : ∀ u, Has z' u → Resolvable z z.bufferedRedirects u :=
    hpass.sound _ (fun u hu => .entry hu) (fun r hr ht => .redirect hr ht)
  have hcomplete : ∀ u, Resolvable z z.bufferedRedirects u → Has z' u := by
    intro u hu
    induction hu with
    | entry hu => exact hpass.ext.has _ hu
    | @redirect s t title hr _ ih =>
      by_cases hU : (s, t, title) ∈ z'.bufferedRedirects
      · exact absurd ih (hstuck _ hU)
      · exact Leads.has_left hready (hpass.leads _ hr hU)
  have hmem : ∀ r, r ∈ z'.bufferedRedirects ↔ r ∈ z.bufferedRedirects ∧ ¬ Resolvable z z.bufferedRedirects r.2.1 := by
    intro r
    constructor
    · exact fun hr => ⟨hpass.sub.subset hr, fun hh => hstuck r hr (hcomplete _ hh)⟩
    · rintro ⟨hr, hn⟩
      by_contra hU
      obtain ⟨rows, other, hrep⟩ := hready
      obtain ⟨_, _, _, _, q, _, hq, hqu⟩ := hrep.leads_iff.1 (hpass.leads r hr hU)
      exact hn (hsound _ ((hrep.has_iff _).2 ⟨q, List.mem_of_getElem? hq, hqu⟩))
  refine ⟨z', if z'.bufferedRedirects.length = 0 then .ok () else .error .unresolvedRedirect, ?_, ⟨S', hr⟩,
    fun u => ⟨hsound u, hcomplete u⟩, ?_, hpass.ext.leads, ?_, hmem, hpass.sub, ?_, ?_⟩
  · unfold applyRedirects
    rw [PyM.bind_ok hl, PyM.get_bind]
    unfold PyM.require
    simp
  · intro s t title hin ht
    exact hpass.leads _ hin (fun hU => ((hmem _).1 hU).2 ht)
  · intro s t hst
    by_cases hs : ∃ r ∈ z.bufferedRedirects, r.1 = s
    · obtain ⟨⟨s', t', title⟩, hr', rfl⟩ := hs
      simp only at hst
      have hU : (s', t', title) ∉ z'.bufferedRedirects := by
        intro hU
        have h1 := hsound _ (Leads.has_left hready hst)
        cases h1 with
        | entry h1 => exact hnew _ hr' h1
        | @redirect _ t2 title2 hin h1 =>
          have := List.inj_on_of_nodup_map hnd hin hr' rfl
          injection this with _ this
          injection this with this
          subst this
          exact ((hmem _).1 hU).2 h1
      have h2 := hpass.leads _ hr' hU
      obtain ⟨rows, other, hrep⟩ := hready
      have := LeadsR.unique (distinct_of_sorted hrep.sorted) (hrep.leads_iff.1 hst) (hrep.leads_iff.1 h2)
      exact Or.inr ⟨title, this ▸ hr'⟩
    · exact Or.inl (hpass.back s t (fun r hr' hh => hs ⟨r, hr', hh⟩) hst)
  · intro hall
    have : z'.bufferedRedirects = [] := by
      rw [List.eq_nil_iff_forall_not_mem]
      exact fun r hr' => ((hmem r).1 hr').2 (hall r ((hmem r).1 hr').1)
    rw [if_pos (by rw [this]; rfl)]
  · rintro ⟨r, hr', hn⟩
    have := (hmem r).2 ⟨hr', hn⟩
    rw [if_neg]
    intro h0
    rw [List.length_eq_zero_iff] at h0
    rw [h0] at this
    cases this

/-- C31, for any redirects, also with sources that exist already or occur several times: if applying them succeeds,
then there is an entry for each source, from each target an entry could be reached, and no redirect remains. -/
theorem C31_any_redirects (h : Ready z) (hv : ∀ r ∈ z.bufferedRedirects, Redirect.Valid r) (d passes : Nat) {z' : Zim}
    (hok : applyRedirects d passes z = (.ok (), z')) :
    Ready z' ∧ z'.bufferedRedirects = [] ∧ (∀ u, Has z' u ↔ Resolvable z z.bufferedRedirects u) ∧
      ∀ r ∈ z.bufferedRedirects, Has z' r.1 := by
  unfold applyRedirects at hok
  obtain ⟨⟨⟩, z1, h1, h2⟩ := PyM.bind_ok_iff.1 hok
  rw [PyM.get_bind] at h2
  obtain ⟨hr, hsub, hk, hw, hs⟩ := redirectLoop_ok d passes z z1 h hv h1
  unfold PyM.require at h2
  by_cases h0 : z1.bufferedRedirects.length = 0
  · have hz : z1 = z' := by injection h2
    subst hz
    rw [List.length_eq_zero_iff] at h0
    have hall : ∀ r ∈ z.bufferedRedirects, Has z1 r.1 := fun r hr => hw r hr (by rw [h0]; simp)
    refine ⟨hr, h0, fun u => ⟨hs _ (fun u hu => .entry hu) (fun r hr ht => .redirect hr ht) u, fun hu => ?_⟩, hall⟩
    cases hu with
    | entry hu => exact hk _ hu
    | redirect hin _ => exact hall _ hin
  · simp only [h0, decide_false, Bool.false_eq_true, if_false] at h2
    cases h2

/-- C31: the loop over the buffered redirects never goes on forever: if the number of passes exceeds the number of
redirects, then only adding a single redirect could fail to return. -/
theorem C31_terminates (h : Ready z) (hv : ∀ r ∈ z.bufferedRedirects, Redirect.Valid r) (d passes : Nat)
    (hp : z.bufferedRedirects.length + 1 ≤ passes) {z' : Zim} (hh : redirectLoop d passes z = (.error .hang, z')) :
    ∃ (z1 : Zim) (r : Redirect), addFullUrlRedirect d r.1 r.2.1 r.2.2 z1 = (.error .hang, z') :=
  redirectLoop_hang d passes z z' h hv hp hh

/-- adding a redirect to an entry that does not exist yet puts it into the buffer -/
theorem C31_buffered {r : Redirect} (h : Ready z) (hv : r.Valid) (ht : ¬ Has z r.2.1) (d : Nat) :
    addFullUrlRedirect d r.1 r.2.1 r.2.2 z = (.ok (), z.withBuffer (z.bufferedRedirects ++ [r])) := by
  obtain ⟨rows, other, h⟩ := h
  rw [h.has_iff] at ht
  exact h.addRedirect_missing hv ht d

/-- three redirects, in the wrong order, of which the last one has no target -/
def someRedirects : List Redirect := [("Cz", "Cy", none), ("Cy", "Cr", some "Y"), ("Cx", "Cw", none)]

theorem someRedirects_valid : ∀ r ∈ someRedirects, Redirect.Valid r := by
  intro r hr
  simp only [someRedirects, List.mem_cons, List.not_mem_nil, or_false] at hr
  rcases hr with rfl | rfl | rfl
  · exact ⟨⟨'C', "z", by decide +kernel, by decide, by decide +kernel⟩, by decide, by simp, by decide⟩
  · refine ⟨⟨'C', "y", by decide +kernel, by decide, by decide +kernel⟩, by decide, ?_, by decide⟩
    intro t ht
    injection ht with ht
    subst ht
    decide +kernel
  · exact ⟨⟨'C', "x", by decide +kernel, by decide, by decide +kernel⟩, by decide, by simp, by decide⟩

/-- The hypotheses are met by the sample archive; the first two redirects are resolvable, the third is not. -/
example : ∃ S z' res, Roomy (sample.withBuffer someRedirects) S 80 ∧
    applyRedirects 9 4 (sample.withBuffer someRedirects) = (res, z') ∧ res = .error .unresolvedRedirect ∧
    Leads z' "Cz" "Cy" ∧ Leads z' "Cy" "Cr" ∧ z'.bufferedRedirects = [("Cx", "Cw", none)] := by
  obtain ⟨S, hS, -⟩ := sample_roomy
  have hS' := hS.withBuffer someRedirects
  have hnew : ∀ r ∈ someRedirects, ¬ Has (sample.withBuffer someRedirects) r.1 := by
    unfold Has
    intro r hr
    simp only [someRedirects, List.mem_cons, List.not_mem_nil, or_false] at hr
    rcases hr with rfl | rfl | rfl <;> decide +kernel
  obtain ⟨z', res, h1, hr, h2, h3, -, -, h5, h6, -, h8⟩ := C31_redirects hS' someRedirects_valid (by decide +kernel)
    hnew (by decide +kernel) 7 4 (by decide +kernel)
  have r2 : Resolvable (sample.withBuffer someRedirects) someRedirects "Cr" := .entry (by unfold Has; decide +kernel)
  have r1 : Resolvable (sample.withBuffer someRedirects) someRedirects "Cy" :=
    .redirect (t := "Cr") (title := some "Y") (by decide +kernel) r2
  have r3 : ¬ Resolvable (sample.withBuffer someRedirects) someRedirects "Cw" := by
    intro hh
    cases hh with
    | entry hh => exact absurd hh (by unfold Has; decide +kernel)
    | redirect hin _ => simp [someRedirects] at hin
  refine ⟨S, z', res, hS', h1, h8 ⟨("Cx", "Cw", none), by decide +kernel, r3⟩,
    h3 "Cz" "Cy" none (by decide +kernel) r1, h3 "Cy" "Cr" (some "Y") (by decide +kernel) r2, ?_⟩
  have hf : z'.bufferedRedirects = someRedirects.filter (fun r => decide (r ∈ z'.bufferedRedirects)) := by
    have hnd : someRedirects.Nodup := by decide +kernel
    have hperm : (someRedirects.filter (fun r => decide (r ∈ z'.bufferedRedirects))).Perm z'.bufferedRedirects := by
      rw [List.perm_ext_iff_of_nodup (hnd.filter _) (h6.nodup hnd)]
      intro r
      rw [List.mem_filter, decide_eq_true_eq]
      exact ⟨fun h => h.2, fun h => ⟨h6.subset h, h⟩⟩
    have hs : z'.bufferedRedirects.Sublist (someRedirects.filter (fun r => decide (r ∈ z'.bufferedRedirects))) := by
      have := h6.filter (fun r => decide (r ∈ z'.bufferedRedirects))
      rwa [List.filter_eq_self.2 (by simp)] at this
    exact hs.eq_of_length hperm.length_eq.symm
  have m1 : ("Cz", "Cy", none) ∉ z'.bufferedRedirects := fun hh => ((h5 _).1 hh).2 r1
  have m2 : ("Cy", "Cr", some "Y") ∉ z'.bufferedRedirects := fun hh => ((h5 _).1 hh).2 r2
  have m3 : ("Cx", "Cw", none) ∈ z'.bufferedRedirects := (h5 _).2 ⟨by decide +kernel, r3⟩
  rw [hf]
  simp [someRedirects, m1, m2, m3]

theorem run_eq {f : PyM Zim Unit} {z : Zim} (h : (f z).1 = .ok ()) : f z = (.ok (), (f z).2) := Prod.ext h rfl

/-- The statement without the restriction to new sources: each applied redirect leads to its target. -/
def C31Full : Prop := ∀ (z z' : Zim) (d passes : Nat), Ready z → (∀ r ∈ z.bufferedRedirects, Redirect.Valid r) →
  (z.bufferedRedirects.map (·.1)).Nodup → applyRedirects d passes z = (.ok (), z') →
  ∀ s t title, (s, t, title) ∈ z.bufferedRedirects → Leads z' s t

/-- a redirect "C0" → "Cb" is there, and is to get another title -/
def replacing : Zim := (write (red "0" 1) sample).withBuffer [("C0", "Cb", some "another title")]

theorem replacing_ready : Ready replacing := by
  obtain ⟨m, hm, -⟩ := sample_hist
  obtain ⟨_, h1⟩ := write_eq (e := red "0" 1) (z := sample) (by decide +kernel)
  have hist := Hist.write hm ⟨red_proper (u := "0") (i := 1) (by decide +kernel), fun _ => rfl⟩ h1
  obtain ⟨rows, other, h⟩ := (C33_map blank_ready blank_shows hist).1
  exact ⟨rows, other, h.withBuffer _⟩

/-- That is not true: a redirect that replaces another one of another size does not lead to its target. -/
theorem C31_replacing_false : ¬ C31Full := by
  intro hall
  have hrun : (applyRedirects 9 9 replacing).1 = .ok () := by decide +kernel
  have heq : applyRedirects 9 9 replacing = (.ok (), (applyRedirects 9 9 replacing).2) := run_eq hrun
  have := hall replacing _ 9 9 replacing_ready (fun r hr => by
    have hr' : r = ("C0", "Cb", some "another title") := by simpa [replacing, withBuffer] using hr
    subst hr'
    refine ⟨⟨'C', "0", by decide +kernel, by decide, by decide +kernel⟩, by decide, ?_, by decide⟩
    intro t ht
    injection ht with ht
    subst ht
    decide +kernel) (by decide +kernel) heq "C0" "Cb" (some "another title") (by decide +kernel)
  have h2 := leadsTo_of_leads this
  exact absurd h2 (by decide +kernel)

/-- It leads to "Cr" instead. -/
example : replacing.leadsTo "C0" = some "Cb" ∧ (applyRedirects 9 9 replacing).2.leadsTo "C0" = some "Cr" := by
  decide +kernel

end Zim
end Pyzim
