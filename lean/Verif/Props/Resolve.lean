import Verif.Model.Resolve
import Mathlib.Data.List.Perm.Subperm

/-!
# Property C17: resolving redirects
-/

namespace Pyzim.Entry

/-- All entries have the mimetype id matching their kind (true for everything read from a file,
`C15_kinds`). -/
def KindFits (e : Entry) : Prop := e.isRedirect = true ↔ ∃ i, e.kind = .redirect i

/-- `e` is a redirect to `e'`. -/
def PointsTo (entries : List Entry) (e e' : Entry) : Prop :=
  ∃ i, e.kind = .redirect i ∧ entries[i]? = some e'

/-- Chains of `n` redirects. -/
inductive Chain (entries : List Entry) : Nat → Entry → Entry → Prop
  | nil (e : Entry) : Chain entries 0 e e
  | cons {e e' e'' : Entry} {n : Nat} : PointsTo entries e e' → Chain entries n e' e'' →
      Chain entries (n + 1) e e''

theorem follow_of_pointsTo {entries : List Entry} {e e' : Entry} (h : PointsTo entries e e') :
    follow entries e = .ok e' := by
  obtain ⟨i, h1, h2⟩ := h
  simp [follow, h1, getByUrlIndex, h2]

theorem pointsTo_of_follow {entries : List Entry} {e e' : Entry} (h : follow entries e = .ok e') :
    PointsTo entries e e' := by
  unfold follow at h
  split at h
  · rename_i i hk
    refine ⟨i, hk, ?_⟩
    unfold getByUrlIndex at h
    rw [if_neg (by omega)] at h
    simp only [Int.toNat_natCast] at h
    split at h
    · rename_i h2; injection h with h; rw [h2, h]
    · cases h
  · cases h

/-- the loop returns `e'` iff a chain leads there and it is not a redirect -/
theorem resolveLoop_ok {entries : List Entry} (he : ∀ e ∈ entries, KindFits e) (fuel : Nat)
    (e e' : Entry) (hp : KindFits e) :
    resolveLoop entries fuel e = some (.ok e') ↔
      ∃ n, n < fuel ∧ Chain entries n e e' ∧ e'.isRedirect = false := by
  induction fuel generalizing e with
  | zero => simp [resolveLoop]
  | succ k ih =>
    unfold resolveLoop
    cases hr : e.isRedirect with
    | false =>
      simp only [Bool.false_eq_true, if_false, Option.some.injEq, Except.ok.injEq]
      constructor
      · rintro rfl; exact ⟨0, by omega, .nil _, hr⟩
      · rintro ⟨n, _, hc, _⟩
        cases hc with
        | nil => rfl
        | cons h _ =>
          obtain ⟨i, h1, _⟩ := h
          have := hp.2 ⟨i, h1⟩
          rw [hr] at this; cases this
    | true =>
      simp only [if_true]
      cases hf : follow entries e with
      | error x =>
        simp only [Option.some.injEq, reduceCtorEq, false_iff]
        rintro ⟨n, _, hc, hn⟩
        cases hc with
        | nil => rw [hr] at hn; cases hn
        | cons h _ => rw [follow_of_pointsTo h] at hf; cases hf
      | ok e1 =>
        have h1 := pointsTo_of_follow hf
        have hp1 : KindFits e1 := by
          obtain ⟨i, _, h⟩ := h1
          exact he _ (List.mem_of_getElem? h)
        simp only
        rw [ih e1 hp1]
        constructor
        · rintro ⟨n, hn, hc, hx⟩; exact ⟨n + 1, by omega, .cons h1 hc, hx⟩
        · rintro ⟨n, hn, hc, hx⟩
          cases hc with
          | nil => rw [hr] at hx; cases hx
          | cons h hc' =>
            rw [follow_of_pointsTo h] at hf
            injection hf with hf
            subst hf
            exact ⟨_, by omega, hc', hx⟩

theorem chain_proper {entries : List Entry} (he : ∀ e ∈ entries, KindFits e) {n : Nat}
    {e e' : Entry} (hc : Chain entries n e e') (hp : KindFits e) : KindFits e' := by
  induction hc with
  | nil => exact hp
  | cons h _ ih =>
    obtain ⟨j, _, hj⟩ := h
    exact ih (he _ (List.mem_of_getElem? hj))

theorem Chain.snoc {entries : List Entry} {n : Nat} {e e' e'' : Entry} (hc : Chain entries n e e')
    (h : PointsTo entries e' e'') : Chain entries (n + 1) e e'' := by
  induction hc with
  | nil => exact .cons h (.nil _)
  | cons h' _ ih => exact .cons h' (ih h)

/-- C17. If following redirects from `e` reaches a content entry, `resolve` returns it. -/
theorem C17_resolves (entries : List Entry) (he : ∀ e ∈ entries, KindFits e) (e e' : Entry)
    (hp : KindFits e) (n : Nat) (hc : Chain entries n e e') (c b : Nat)
    (hk : e'.kind = .content c b) (hp' : KindFits e') (fuel : Nat) (hfuel : n < fuel) :
    resolve entries fuel e = some (.ok e') := by
  have hn : e'.isRedirect = false := by
    cases h : e'.isRedirect with
    | false => rfl
    | true => obtain ⟨i, h2⟩ := hp'.1 h; rw [hk] at h2; cases h2
  unfold resolve
  cases hke : e.kind with
  | content c b =>
    cases hc with
    | nil => rfl
    | cons h _ => obtain ⟨i, h1, _⟩ := h; rw [hke] at h1; cases h1
  | redirect i => exact (resolveLoop_ok he fuel e e' hp).2 ⟨n, hfuel, hc, hn⟩

/-- C17. `resolve` returns only content entries, and only the end of the chain. -/
theorem C17_only_content (entries : List Entry) (he : ∀ e ∈ entries, KindFits e) (e e' : Entry)
    (hp : KindFits e) (fuel : Nat) (h : resolve entries fuel e = some (.ok e')) :
    (∃ c b, e'.kind = .content c b) ∧ ∃ n, Chain entries n e e' := by
  unfold resolve at h
  cases hke : e.kind with
  | content c b =>
    rw [hke] at h
    simp only [Option.some.injEq, Except.ok.injEq] at h
    subst h
    exact ⟨⟨c, b, hke⟩, 0, .nil _⟩
  | redirect i =>
    rw [hke] at h
    obtain ⟨n, _, hc, hn⟩ := (resolveLoop_ok he fuel e e' hp).1 h
    have hp' : KindFits e' := chain_proper he hc hp
    refine ⟨?_, n, hc⟩
    cases hk : e'.kind with
    | content c b => exact ⟨c, b, rfl⟩
    | redirect j => have := hp'.2 ⟨j, hk⟩; rw [hn] at this; cases this

/-- No entry of the archive leads back to itself. -/
def Acyclic (entries : List Entry) : Prop :=
  ∀ e ∈ entries, ∀ n, ¬ Chain entries (n + 1) e e

theorem resolveLoop_terminates {entries : List Entry} (ha : Acyclic entries) (fuel : Nat)
    (vis : List Nat) (e : Entry) (hnd : vis.Nodup)
    (hvis : ∀ i ∈ vis, ∃ a, entries[i]? = some a ∧ ∃ n, Chain entries n a e)
    (hlen : entries.length < fuel + vis.length) : resolveLoop entries fuel e ≠ none := by
  induction fuel generalizing vis e with
  | zero =>
    have hsub : vis ⊆ List.range entries.length := by
      intro i hi
      obtain ⟨a, h, _⟩ := hvis i hi
      exact List.mem_range.2 (List.getElem?_eq_some_iff.1 h).1
    have := (List.subperm_of_subset hnd hsub).length_le
    simp at this
    omega
  | succ k ih =>
    unfold resolveLoop
    split
    · split
      · simp
      · rename_i e1 hf
        have hpt := pointsTo_of_follow hf
        obtain ⟨i, hk, hi⟩ := id hpt
        refine ih (i :: vis) e1 ?_ ?_ (by simp; omega)
        · refine List.nodup_cons.2 ⟨?_, hnd⟩
          intro hmem
          obtain ⟨a, h1, n, hc⟩ := hvis i hmem
          rw [hi] at h1
          injection h1 with h1
          subst h1
          exact ha _ (List.mem_of_getElem? hi) n (hc.snoc hpt)
        · intro j hj
          rcases List.mem_cons.1 hj with rfl | hj
          · exact ⟨e1, hi, 0, .nil _⟩
          · obtain ⟨a, h1, n, hc⟩ := hvis j hj
            exact ⟨a, h1, n + 1, hc.snoc hpt⟩
    · simp

/-- C17. On an archive without redirect cycles `resolve` always returns, after at most one
iteration per entry. -/
theorem C17_terminates (entries : List Entry) (ha : Acyclic entries) (e : Entry) :
    resolve entries (entries.length + 1) e ≠ none := by
  unfold resolve
  split
  · simp
  · exact resolveLoop_terminates ha _ [] e (by simp) (by simp) (by simp)

/-- C17. If moreover all redirects of the archive lead to existing entries, `resolve` of an entry of
the archive returns a content entry (it does not raise). -/
theorem C17_total (entries : List Entry) (ha : Acyclic entries) (he : ∀ e ∈ entries, KindFits e)
    (hr : ∀ e ∈ entries, ∀ i, e.kind = .redirect i → i < entries.length) (e : Entry)
    (hmem : e ∈ entries) :
    ∃ e' c b, resolve entries (entries.length + 1) e = some (.ok e') ∧ e'.kind = .content c b := by
  have noerr : ∀ fuel e, e ∈ entries → ∀ x, resolveLoop entries fuel e ≠ some (.error x) := by
    intro fuel
    induction fuel with
    | zero => intro e _ x; simp [resolveLoop]
    | succ k ih =>
      intro e hmem x
      unfold resolveLoop
      split
      · rename_i hred
        obtain ⟨i, hk⟩ := (he e hmem).1 hred
        have hlt := hr e hmem i hk
        have hpt : PointsTo entries e entries[i] := ⟨i, hk, List.getElem?_eq_getElem hlt⟩
        rw [follow_of_pointsTo hpt]
        exact ih _ (List.getElem_mem hlt) x
      · simp
  have hne := C17_terminates entries ha e
  cases hres : resolve entries (entries.length + 1) e with
  | none => exact absurd hres hne
  | some r =>
    cases r with
    | ok e' =>
      obtain ⟨⟨c, b, h⟩, _⟩ := C17_only_content entries he e e' (he e hmem) _ hres
      exact ⟨e', c, b, rfl, h⟩
    | error x =>
      unfold resolve at hres
      split at hres
      · cases hres
      · exact absurd hres (noerr _ e hmem x)

/-- C17. The only way not to return is a redirect cycle: from an entry that leads into one,
`resolve` never returns, whatever the number of iterations. -/
theorem C17_cycle_diverges (entries : List Entry) (he : ∀ e ∈ entries, KindFits e) (e e0 : Entry)
    (hp : KindFits e) (n m : Nat) (hc : Chain entries n e e0) (hcyc : Chain entries (m + 1) e0 e0)
    (fuel : Nat) : resolve entries fuel e = none := by
  have loop : ∀ fuel e n, KindFits e → Chain entries n e e0 → resolveLoop entries fuel e = none := by
    intro fuel
    induction fuel with
    | zero => intros; rfl
    | succ k ih =>
      intro e n hp hc
      have step : ∃ e1 j, PointsTo entries e e1 ∧ Chain entries j e1 e0 := by
        cases hc with
        | nil =>
          cases hcyc with
          | cons h hc' => exact ⟨_, _, h, hc'⟩
        | cons h hc' => exact ⟨_, _, h, hc'⟩
      obtain ⟨e1, j, h1, h2⟩ := step
      obtain ⟨i, hk, hi⟩ := id h1
      unfold resolveLoop
      rw [if_pos (hp.2 ⟨i, hk⟩), follow_of_pointsTo h1]
      exact ih e1 j (he _ (List.mem_of_getElem? hi)) h2
  unfold resolve
  cases hk : e.kind with
  | redirect i => exact loop fuel e n hp hc
  | content c b =>
    cases hc with
    | nil =>
      cases hcyc with
      | cons h _ => obtain ⟨i, hi, _⟩ := h; rw [hk] at hi; cases hi
    | cons h _ => obtain ⟨i, hi, _⟩ := h; rw [hk] at hi; cases hi

/-- an archive: 0 → 2 → 1 (content), 3 ↔ 4 a cycle -/
def sampleArchive : List Entry :=
  [ { mimetypeId := 0xffff, ns := "C", url := "a", titleRaw := some "", kind := .redirect 2 },
    { mimetypeId := 1, ns := "C", url := "b", titleRaw := some "", kind := .content 0 0 },
    { mimetypeId := 0xffff, ns := "C", url := "c", titleRaw := some "", kind := .redirect 1 },
    { mimetypeId := 0xffff, ns := "C", url := "d", titleRaw := some "", kind := .redirect 4 },
    { mimetypeId := 0xffff, ns := "C", url := "e", titleRaw := some "", kind := .redirect 3 } ]

example : (resolve sampleArchive 6 sampleArchive[0]) = some (.ok sampleArchive[1]) := by decide +kernel
example : (resolve sampleArchive 6 sampleArchive[3]) = none := by decide +kernel
example : Chain sampleArchive 2 sampleArchive[0] sampleArchive[1] :=
  .cons ⟨2, rfl, rfl⟩ (.cons ⟨1, rfl, rfl⟩ (.nil _))
example : Chain sampleArchive 2 sampleArchive[3] sampleArchive[3] :=
  .cons ⟨4, rfl, rfl⟩ (.cons ⟨3, rfl, rfl⟩ (.nil _))
example : ∀ e ∈ sampleArchive, KindFits e := by
  intro e he
  simp only [sampleArchive, List.mem_cons, List.not_mem_nil, or_false] at he
  rcases he with rfl | rfl | rfl | rfl | rfl <;> simp [KindFits, isRedirect, MIMETYPE_ID_REDIRECT]
/-- the first three entries form an acyclic archive with all redirects in range -/
example : Acyclic (sampleArchive.take 3) ∧
    ∀ e ∈ sampleArchive.take 3, ∀ i, e.kind = .redirect i → i < (sampleArchive.take 3).length := by
  have hp : ∀ n e e', Chain (sampleArchive.take 3) (n + 1) e e' → e ∈ sampleArchive.take 3 →
      (e = sampleArchive[0] ∧ e' ≠ sampleArchive[0]) ∨
      (e = sampleArchive[2] ∧ e' = sampleArchive[1]) := by
    intro n
    induction n with
    | zero =>
      intro e e' hc hm
      cases hc with
      | cons h hc' =>
        cases hc' with
        | nil =>
          obtain ⟨i, h1, h2⟩ := h
          simp only [sampleArchive, List.take, List.mem_cons, List.not_mem_nil, or_false] at hm
          rcases hm with rfl | rfl | rfl <;> simp at h1 <;> subst h1 <;>
            simp [sampleArchive] at h2 <;> subst h2 <;> simp [sampleArchive]
    | succ n ih =>
      intro e e' hc hm
      cases hc with
      | cons h hc' =>
        obtain ⟨i, h1, h2⟩ := h
        have := ih _ _ hc' (List.mem_of_getElem? h2)
        simp only [sampleArchive, List.take, List.mem_cons, List.not_mem_nil, or_false] at hm
        rcases hm with rfl | rfl | rfl <;> simp at h1 <;> subst h1 <;>
            simp [sampleArchive] at h2 <;> subst h2 <;> simp [sampleArchive] at this ⊢ <;>
            simp [this]
  refine ⟨fun e he n hc => ?_, ?_⟩
  · rcases hp n e e hc he with ⟨h1, h2⟩ | ⟨h1, h2⟩
    · exact h2 h1
    · rw [h1] at h2; simp [sampleArchive] at h2
  · intro e he i hi
    simp only [sampleArchive, List.take, List.mem_cons, List.not_mem_nil, or_false] at he
    rcases he with rfl | rfl | rfl <;> simp at hi <;> subst hi <;> simp [sampleArchive]

end Pyzim.Entry
