import Verif.Lemmas.SpaceAllocator

/-!
# Properties C01–C03: the space allocator
-/

namespace Pyzim.SpaceAllocator

/-! ## C01: allocated space never overlaps space in use -/

/-- C01. After any history, allocating `n` bytes returns a range in which no byte is in use, and
which ends at or before the new file end. -/
theorem C01_allocate_fresh {e : Nat} {s : SpaceAllocator} {used : Nat → Prop}
    (h : History e s used) (n : Nat) :
    ∀ x, (s.allocate n).1 ≤ x → x < (s.allocate n).1 + n →
      ¬ used x ∧ x < (s.allocate n).2.fileEnd := by
  intro x h1 h2
  have inv := inv_of_history h
  obtain ⟨hc, hlt⟩ := (allocate_spec s n (by omega) inv.wf).2.2.1 x h1 h2
  refine ⟨fun hu => ?_, hlt⟩
  rcases hc with hc | hc
  · exact inv.excl x ⟨hu, hc⟩
  · have := inv.used_lt hu; omega

/-- C01. Bytes in use always lie below the file end. -/
theorem C01_used_below_end {e : Nat} {s : SpaceAllocator} {used : Nat → Prop}
    (h : History e s used) : ∀ x, used x → x < s.fileEnd :=
  fun _ hx => (inv_of_history h).used_lt hx

/-- C01, for clients which free whole ranges: whatever the client does, the ranges it holds are
pairwise disjoint, disjoint from the initial content of the file, and below the file end. -/
theorem C01_live_ranges_disjoint (e : Nat) (calls : List Call) :
    (runCalls e calls).2.Pairwise Disjoint ∧
    ∀ b ∈ (runCalls e calls).2, ∀ x, InBlock b x → e ≤ x ∧ x < (runCalls e calls).1.fileEnd := by
  obtain ⟨used, h, hpw, hin, -⟩ := run_history e calls
  exact ⟨hpw, fun b hb x hx => ⟨(hin b hb x hx).2, (inv_of_history h).used_lt (hin b hb x hx).1⟩⟩

/-- a concrete history: allocate 10, 4 and 7 bytes behind a 100 byte file, free the first two
(they are merged), allocate 12 -/
example : ((runCalls 100 [.alloc 10, .alloc 4, .alloc 7, .freeNth 2, .freeNth 1, .alloc 12]) =
    (⟨[(112, 2)], 121⟩, [(100, 12), (114, 7)])) := by decide

example : ∃ used, History 100
    (runCalls 100 [.alloc 10, .alloc 4, .alloc 7, .freeNth 2, .freeNth 1]).1 used ∧
    used 114 ∧ ¬ used 100 := by
  obtain ⟨used, h, -, -, hu⟩ :=
    run_history 100 [.alloc 10, .alloc 4, .alloc 7, .freeNth 2, .freeNth 1]
  have hl : (runCalls 100 [.alloc 10, .alloc 4, .alloc 7, .freeNth 2, .freeNth 1]).2 = [(114, 7)] :=
    by decide
  refine ⟨used, h, (hu 114).2 (Or.inr ?_), fun h' => ?_⟩
  · rw [hl]; exact ⟨(114, 7), by simp, by simp [InBlock]⟩
  · rcases (hu 100).1 h' with h' | ⟨b, hb, hx⟩
    · omega
    · rw [hl] at hb; simp at hb; subst hb; simp [InBlock] at hx

/-! ## C02: no space is leaked or counted twice -/

/-- C02. After any history every byte below the file end is in use or free, none is both, and
nothing beyond the file end is either. -/
theorem C02_partition {e : Nat} {s : SpaceAllocator} {used : Nat → Prop}
    (h : History e s used) :
    (∀ x, x < s.fileEnd ↔ used x ∨ Covered s.freeBlocks x) ∧
    (∀ x, ¬ (used x ∧ Covered s.freeBlocks x)) :=
  ⟨(inv_of_history h).part, (inv_of_history h).excl⟩

/-- C02. The free blocks are non-empty, in file order, and between two of them there is a byte in
use. -/
theorem C02_blocks_merged {e : Nat} {s : SpaceAllocator} {used : Nat → Prop}
    (h : History e s used) :
    (∀ b ∈ s.freeBlocks, 0 < b.2) ∧
    s.freeBlocks.Pairwise (fun a b => a.1 + a.2 < b.1 ∧ used (a.1 + a.2)) := by
  have inv := inv_of_history h
  refine ⟨inv.wf.sep.pos, ?_⟩
  -- the byte behind a block is not free, as later blocks start later and earlier ones end earlier
  have key : ∀ bs pre : List Block, s.freeBlocks = pre ++ bs →
      bs.Pairwise (fun a b => a.1 + a.2 < b.1 ∧ used (a.1 + a.2)) := by
    intro bs
    induction bs with
    | nil => intro _ _; exact List.Pairwise.nil
    | cons a rest ih =>
      intro pre hpre
      refine List.pairwise_cons.2 ⟨fun b hb => ?_, ih (pre ++ [a]) (by simp [hpre])⟩
      have hs := inv.wf.sep.pw
      have hbd := inv.wf.bound
      rw [hpre] at hs hbd
      have h1 := List.pairwise_append.1 hs
      have h2 := List.pairwise_cons.1 h1.2.1
      have hab := h2.1 b hb
      have hbe := hbd b (by simp [hb])
      refine ⟨hab, ?_⟩
      have hlt : a.1 + a.2 < s.fileEnd := by omega
      rcases (inv.part _).1 hlt with hu | ⟨c, hc, hx⟩
      · exact hu
      · exfalso
        rw [hpre] at hc
        have hx1 := hx.1
        have hx2 := hx.2
        rcases List.mem_append.1 hc with hc | hc
        · have := h1.2.2 c hc a (by simp); omega
        · rcases List.mem_cons.1 hc with rfl | hc
          · omega
          · have := h2.1 c hc; omega
  exact key s.freeBlocks [] rfl

/-- C02. Marking space as free adds exactly this space to the free space, even if parts of it were
free already. -/
theorem C02_mark_free_union {e : Nat} {s : SpaceAllocator} {used : Nat → Prop}
    (h : History e s used) (start length x : Nat) :
    Covered (s.markFree start length).freeBlocks x ↔
      (start ≤ x ∧ x < start + length) ∨ Covered s.freeBlocks x :=
  markFree_covered s start length (inv_of_history h).wf.sep x

/-- C02, for clients which free whole ranges: the free bytes are exactly those which are neither
initial content nor part of a live range. -/
theorem C02_client_conservation (e : Nat) (calls : List Call) (x : Nat) :
    Covered (runCalls e calls).1.freeBlocks x ↔
      x < (runCalls e calls).1.fileEnd ∧ e ≤ x ∧ ¬ Covered (runCalls e calls).2 x := by
  obtain ⟨used, h, -, -, hu⟩ := run_history e calls
  have inv := inv_of_history h
  constructor
  · intro hc
    have hnu : ¬ used x := fun hux => inv.excl x ⟨hux, hc⟩
    rw [hu] at hnu
    exact ⟨inv.wf.covered_lt hc, by
      rcases Nat.lt_or_ge x e with h' | h'
      · exact absurd (Or.inl h') hnu
      · exact h', fun h' => hnu (Or.inr h')⟩
  · rintro ⟨hlt, hle, hnc⟩
    rcases (inv.part x).1 hlt with hux | hc
    · rcases (hu x).1 hux with h' | h'
      · omega
      · exact absurd h' hnc
    · exact hc

example : (runCalls 5 [.alloc 3, .alloc 2, .alloc 4, .freeNth 2, .freeNth 1]).1 =
    ⟨[(5, 5)], 14⟩ := by decide

/-! ## C03: best fit, minimal growth -/

/-- C03. If some free block is large enough, the result is the start of a free block `b` which is
large enough, no large enough block is smaller, no block before it is both large enough and as
small, and the file does not grow. -/
theorem C03_best_fit {e : Nat} {s : SpaceAllocator} {used : Nat → Prop}
    (_h : History e s used) (n : Nat) (hn : 0 < n) (hfit : ∃ b ∈ s.freeBlocks, n ≤ b.2) :
    ∃ pre b post, s.freeBlocks = pre ++ b :: post ∧ (s.allocate n).1 = b.1 ∧ n ≤ b.2 ∧
      (∀ c ∈ s.freeBlocks, n ≤ c.2 → b.2 ≤ c.2) ∧ (∀ c ∈ pre, n ≤ c.2 → b.2 < c.2) ∧
      (s.allocate n).2.fileEnd = s.fileEnd := by
  unfold allocate
  rw [if_neg (by omega)]
  cases hf : findBest n s.freeBlocks 0 none with
  | none =>
    obtain ⟨b, hb, hle⟩ := hfit
    have := findBest_none hf b hb; omega
  | some ib =>
    obtain ⟨i, ⟨start, length⟩⟩ := ib
    obtain ⟨hget, hge, hmin, hfirst⟩ := findBest_some hf
    obtain ⟨pre, post, hbs, hlen⟩ := split_at hget
    refine ⟨pre, (start, length), post, hbs, ?_, hge, hmin, ?_, ?_⟩
    · simp only; split <;> rfl
    · intro c hc hnc
      obtain ⟨j, hj, hjc⟩ := List.getElem_of_mem hc
      refine hfirst j c (by omega) ?_ hnc
      rw [hbs, List.getElem?_append_left hj, List.getElem?_eq_getElem hj, hjc]
    · simp only; split <;> rfl

/-- C03. If no free block is large enough, the range returned ends exactly at the new file end, and
the file grows by `n` minus the size of the free block touching the old file end (if there is
one). -/
theorem C03_minimal_growth {e : Nat} {s : SpaceAllocator} {used : Nat → Prop}
    (h : History e s used) (n : Nat) (hn : 0 < n) (hfit : ∀ b ∈ s.freeBlocks, b.2 < n) :
    (s.allocate n).1 + n = (s.allocate n).2.fileEnd ∧
    ((∃ b ∈ s.freeBlocks, b.1 + b.2 = s.fileEnd ∧
        (s.allocate n).2.fileEnd = s.fileEnd + (n - b.2)) ∨
     ((∀ b ∈ s.freeBlocks, b.1 + b.2 ≠ s.fileEnd) ∧
        (s.allocate n).2.fileEnd = s.fileEnd + n)) := by
  have inv := inv_of_history h
  unfold allocate
  rw [if_neg (by omega)]
  cases hf : findBest n s.freeBlocks 0 none with
  | some ib =>
    obtain ⟨i, b⟩ := ib
    obtain ⟨hget, hge, -, -⟩ := findBest_some hf
    have := hfit b (List.mem_of_getElem? hget); omega
  | none =>
    simp only
    cases hl : s.freeBlocks.getLast? with
    | none =>
      have hnil : s.freeBlocks = [] := List.getLast?_eq_none_iff.1 hl
      simp [hnil]
    | some b =>
      obtain ⟨start, length⟩ := b
      obtain ⟨pre, hbs⟩ := List.getLast?_eq_some_iff.1 hl
      have hsm := hfit (start, length) (by rw [hbs]; simp)
      simp only at hsm ⊢
      split
      · rename_i hend
        refine ⟨by simp only; omega, Or.inl ⟨(start, length), by rw [hbs]; simp, hend, ?_⟩⟩
        simp only; omega
      · rename_i hend
        refine ⟨rfl, Or.inr ⟨fun c hc hce => ?_, rfl⟩⟩
        have hpw := inv.wf.sep.pw
        have hbd := inv.wf.bound (start, length) (by rw [hbs]; simp)
        rw [hbs] at hpw hc
        rcases List.mem_append.1 hc with hc | hc
        · have := (List.pairwise_append.1 hpw).2.2 c hc (start, length) (by simp)
          simp only at *; omega
        · simp at hc; subst hc; exact hend hce

/-- C03. The file end never decreases. -/
theorem C03_file_end_monotone {e : Nat} {s : SpaceAllocator} {used : Nat → Prop}
    (h : History e s used) (n start length : Nat) :
    e ≤ s.fileEnd ∧ s.fileEnd ≤ (s.allocate n).2.fileEnd ∧
      (s.markFree start length).fileEnd = s.fileEnd := by
  refine ⟨initial_le h, ?_, markFree_fileEnd s start length⟩
  by_cases hn : n = 0
  · subst hn; simp [allocate]
  · exact (allocate_spec s n (by omega) (inv_of_history h).wf).2.1

/-- the smallest sufficient block is chosen: holes of 6, 3 and 4 bytes, request 3 bytes -/
example : ((runCalls 0 [.alloc 6, .alloc 1, .alloc 3, .alloc 1, .alloc 4, .alloc 1,
    .freeNth 5, .freeNth 3, .freeNth 1]).1.allocate 3).1 = 7 := by decide

/-- growth reuses the block at the file end: 100 bytes used, 5 free behind, request 8 -/
example : ((runCalls 100 [.alloc 5, .freeNth 0]).1.allocate 8) = (100, ⟨[], 108⟩) := by decide

end Pyzim.SpaceAllocator
