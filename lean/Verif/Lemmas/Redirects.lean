import Verif.Model.Metadata
import Verif.Lemmas.ArchiveShows
import Verif.Lemmas.OperationBuffer
import Mathlib.Data.List.Perm.Basic
import Mathlib.Data.List.Perm.Subperm

namespace Pyzim
namespace Zim

variable {z : Zim} {rows : List Row} {other : Nat → Prop}

theorem Rep.resolveLoop_content (h : Rep z rows other) {r : Row} (hr : r ∈ rows) (hk : ∀ i, r.2.kind ≠ .redirect i)
    (n : Nat) : z.resolveLoop (n + 1) r.2 = .ok r.2 := by
  have : r.2.isRedirect = false := by
    rw [Bool.eq_false_iff]
    intro hh
    obtain ⟨i, hi⟩ := (h.store.clean r hr).isRedirect.1 hh
    exact hk i hi
  rw [resolveLoop, this]
  simp

theorem Rep.resolveLoop_follow (h : Rep z rows other) {r q : Row} (hr : r ∈ rows) {i : Nat} (hk : r.2.kind = .redirect i)
    (hq : rows[i]? = some q) (n : Nat) : z.resolveLoop (n + 1) r.2 = z.resolveLoop n q.2 := by
  rw [resolveLoop, (h.store.clean r hr).isRedirect.2 ⟨i, hk⟩, hk]
  simp only [if_true]
  rw [h.entryByIndex hq]

theorem Rep.resolveLoop_out (h : Rep z rows other) {r : Row} (hr : r ∈ rows) {i : Nat} (hk : r.2.kind = .redirect i)
    (hi : rows.length ≤ i) (n : Nat) : z.resolveLoop (n + 1) r.2 = .error .entryNotFound := by
  rw [resolveLoop, (h.store.clean r hr).isRedirect.2 ⟨i, hk⟩, hk]
  simp only [if_true]
  rw [h.entryByIndex_out hi]

/-- the three cases for a row -/
theorem Rep.row_cases (h : Rep z rows other) {r : Row} (hr : r ∈ rows) :
    (∀ i, r.2.kind ≠ .redirect i) ∨ (∃ i q, r.2.kind = .redirect i ∧ rows[i]? = some q ∧ q ∈ rows ∧
      Leads z r.2.fullUrl q.2.fullUrl) ∨ ∃ i, r.2.kind = .redirect i ∧ rows.length ≤ i := by
  cases hk : r.2.kind with
  | content c b => exact Or.inl fun i hi => by cases hi
  | redirect i =>
    right
    cases hq : rows[i]? with
    | none => exact Or.inr ⟨i, rfl, List.getElem?_eq_none_iff.1 hq⟩
    | some q =>
      exact Or.inl ⟨i, q, rfl, hq, List.mem_of_getElem? hq, h.leads_iff.2 ⟨r, hr, rfl, i, q, hk, hq, rfl⟩⟩

theorem Rep.resolveLoop_mono (h : Rep z rows other) (n : Nat) : ∀ r ∈ rows, z.resolveLoop n r.2 ≠ .error .hang →
    z.resolveLoop (n + 1) r.2 = z.resolveLoop n r.2 := by
  induction n with
  | zero => exact fun r _ hh => absurd rfl hh
  | succ n ih =>
    intro r hr hne
    rcases h.row_cases hr with hk | ⟨i, q, hk, hq, hqm, -⟩ | ⟨i, hk, hi⟩
    · rw [h.resolveLoop_content hr hk, h.resolveLoop_content hr hk]
    · rw [h.resolveLoop_follow hr hk hq] at hne ⊢
      rw [h.resolveLoop_follow hr hk hq]
      exact ih q hqm hne
    · rw [h.resolveLoop_out hr hk hi, h.resolveLoop_out hr hk hi]

theorem Rep.resolveLoop_mono' (h : Rep z rows other) {n m : Nat} (hnm : n ≤ m) {r : Row} (hr : r ∈ rows)
    (hne : z.resolveLoop n r.2 ≠ .error .hang) : z.resolveLoop m r.2 = z.resolveLoop n r.2 := by
  induction hnm with
  | refl => rfl
  | @step m _ ih => rw [h.resolveLoop_mono m r hr (by rw [ih]; exact hne), ih]

/-- what the loop finds -/
theorem Rep.resolveLoop_cases (h : Rep z rows other) (n : Nat) : ∀ r ∈ rows, z.resolveLoop n r.2 = .error .hang ∨
    (∃ q ∈ rows, z.resolveLoop n r.2 = .ok q.2 ∧ Reaches z q.2.fullUrl r.2.fullUrl ∧ ∀ i, q.2.kind ≠ .redirect i) ∨
    (z.resolveLoop n r.2 = .error .entryNotFound ∧ ∃ q ∈ rows, Reaches z q.2.fullUrl r.2.fullUrl ∧
      ∃ i, q.2.kind = .redirect i ∧ rows.length ≤ i) := by
  induction n with
  | zero => exact fun r _ => Or.inl rfl
  | succ n ih =>
    intro r hr
    rcases h.row_cases hr with hk | ⟨i, q, hk, hq, hqm, hl⟩ | ⟨i, hk, hi⟩
    · exact Or.inr (Or.inl ⟨r, hr, h.resolveLoop_content hr hk n, .refl, hk⟩)
    · rw [h.resolveLoop_follow hr hk hq]
      rcases ih q hqm with hh | ⟨q', hq', hh, hre, hk'⟩ | ⟨hh, q', hq', hre, hk'⟩
      · exact Or.inl hh
      · exact Or.inr (Or.inl ⟨q', hq', hh, .step hl hre, hk'⟩)
      · exact Or.inr (Or.inr ⟨hh, q', hq', .step hl hre, hk'⟩)
    · exact Or.inr (Or.inr ⟨h.resolveLoop_out hr hk hi n, r, hr, .refl, i, hk, hi⟩)

theorem Rep.row_of_url (h : Rep z rows other) {r s : Row} (hr : r ∈ rows) (hs : s ∈ rows)
    (hu : r.2.fullUrl = s.2.fullUrl) : r = s := (distinct_of_sorted h.sorted).row_eq hr hs hu

/-- from a row the loop gets to every row that is reached -/
theorem Rep.resolveLoop_reaches (h : Rep z rows other) {u v : String} (hre : Reaches z v u) :
    ∀ r ∈ rows, r.2.fullUrl = u → ∃ q ∈ rows, q.2.fullUrl = v ∧
      ∃ k, ∀ n, z.resolveLoop (n + k) r.2 = z.resolveLoop n q.2 := by
  induction hre with
  | refl => exact fun r hr hu => ⟨r, hr, hu, 0, fun n => rfl⟩
  | step hl _ ih =>
    intro r hr hu
    obtain ⟨r', hr', hru', i, q, hk, hq, hqu⟩ := h.leads_iff.1 hl
    have := h.row_of_url hr' hr (by rw [hru', hu])
    subst this
    obtain ⟨q', hq', hqu', k, hn⟩ := ih q (List.mem_of_getElem? hq) hqu
    refine ⟨q', hq', hqu', k + 1, fun n => ?_⟩
    rw [← Nat.add_assoc, h.resolveLoop_follow hr' hk hq, hn]

/-- a loop that ends passes as many different rows as it makes turns -/
theorem Rep.resolveLoop_rows (h : Rep z rows other) (m : Nat) : ∀ r ∈ rows, z.resolveLoop (m + 1) r.2 ≠ .error .hang →
    z.resolveLoop m r.2 = .error .hang → ∃ l : List Row, l.Nodup ∧ l ⊆ rows ∧ l.length = m + 1 ∧
      ∀ x ∈ l, z.resolveLoop (m + 1) x.2 ≠ .error .hang := by
  induction m with
  | zero =>
    intro r hr hne _
    exact ⟨[r], by simp, by simpa using hr, rfl, by simpa using hne⟩
  | succ m ih =>
    intro r hr hne hhang
    rcases h.row_cases hr with hk | ⟨i, q, hk, hq, hqm, hl⟩ | ⟨i, hk, hi⟩
    · rw [h.resolveLoop_content hr hk] at hhang; cases hhang
    · have hne' := hne
      have hhang' := hhang
      rw [h.resolveLoop_follow hr hk hq] at hne' hhang'
      obtain ⟨l, hnd, hsub, hlen, hall⟩ := ih q hqm hne' hhang'
      refine ⟨r :: l, List.nodup_cons.2 ⟨fun hin => hall r hin hhang, hnd⟩, ?_, by rw [List.length_cons, hlen], ?_⟩
      · intro x hx
        rcases List.mem_cons.1 hx with rfl | hx
        · exact hr
        · exact hsub hx
      · intro x hx
        rcases List.mem_cons.1 hx with rfl | hx
        · exact hne
        · rw [h.resolveLoop_mono _ x (hsub hx) (hall x hx)]
          exact hall x hx
    · rw [h.resolveLoop_out hr hk hi] at hhang; cases hhang

/-- The loop makes at most as many turns as there are rows, or never ends. -/
theorem Rep.resolveLoop_bound (h : Rep z rows other) {r : Row} (hr : r ∈ rows) {n m : Nat} (hn : rows.length ≤ n)
    (hhang : z.resolveLoop n r.2 = .error .hang) : z.resolveLoop m r.2 = .error .hang := by
  by_contra hne
  have hex : ∃ k, z.resolveLoop (k + 1) r.2 ≠ .error .hang ∧ z.resolveLoop k r.2 = .error .hang ∧ n ≤ k := by
    by_cases hnm : n ≤ m
    · clear hn
      induction hnm with
      | refl => exact absurd hhang hne
      | @step m hm ih =>
        by_cases hh : z.resolveLoop m r.2 = .error .hang
        · exact ⟨m, hne, hh, hm⟩
        · exact ih hh
    · exact absurd (by rw [h.resolveLoop_mono' (by omega) hr hne] at hhang; exact hhang) hne
  obtain ⟨k, h1, h2, h3⟩ := hex
  obtain ⟨l, hnd, hsub, hlen, -⟩ := h.resolveLoop_rows k r hr h1 h2
  have := (List.subperm_of_subset hnd hsub).length_le
  omega

end Zim
end Pyzim
