import Verif.Spec.SpaceAllocator

/-! Helper lemmas about the space allocator. -/

namespace Pyzim.SpaceAllocator

/-- sorted, non-empty, separated by at least one byte -/
structure Sep (bs : List Block) : Prop where
  pw : bs.Pairwise (fun a b => a.1 + a.2 < b.1)
  pos : ∀ b ∈ bs, 0 < b.2

/-- sorted by start -/
def SortedStart (bs : List Block) : Prop := bs.Pairwise (fun a b => a.1 ≤ b.1)

theorem Sep.sortedStart {bs : List Block} (h : Sep bs) : SortedStart bs :=
  h.pw.imp (by intro a b hab; omega)

@[simp] theorem covered_nil (x : Nat) : Covered [] x ↔ False := by simp [Covered]
@[simp] theorem covered_cons (b : Block) (bs : List Block) (x : Nat) :
    Covered (b :: bs) x ↔ InBlock b x ∨ Covered bs x := by simp [Covered]
theorem covered_append (as bs : List Block) (x : Nat) :
    Covered (as ++ bs) x ↔ Covered as x ∨ Covered bs x := by
  simp [Covered, or_and_right, exists_or]

theorem Sep.tail {b : Block} {bs : List Block} (h : Sep (b :: bs)) : Sep bs :=
  ⟨(List.pairwise_cons.1 h.pw).2, fun c hc => h.pos c (List.mem_cons_of_mem _ hc)⟩

/-! ### merging -/

theorem mergeFrom_covered (prev : Block) (bs : List Block) (x : Nat)
    (hs : SortedStart (prev :: bs)) :
    Covered (mergeFrom prev bs) x ↔ InBlock prev x ∨ Covered bs x := by
  induction bs generalizing prev with
  | nil => simp [mergeFrom]
  | cons b rest ih =>
    simp only [mergeFrom]
    have h1 := List.pairwise_cons.1 hs
    have hb : prev.1 ≤ b.1 := h1.1 b (by simp)
    split
    · rename_i hge
      rw [ih]
      · simp only [covered_cons, InBlock]
        constructor
        · rintro (h | h)
          · by_cases hx : x < prev.1 + prev.2
            · left; omega
            · right; left; omega
          · right; right; exact h
        · rintro (h | h | h)
          · left; omega
          · left; omega
          · right; exact h
      · refine List.pairwise_cons.2 ⟨fun c hc => ?_, (List.pairwise_cons.1 h1.2).2⟩
        exact h1.1 c (List.mem_cons_of_mem _ hc)
    · simp only [covered_cons]
      rw [ih b h1.2]

theorem mergeFrom_ge (prev : Block) (bs : List Block)
    (hs : SortedStart (prev :: bs)) : ∀ c ∈ mergeFrom prev bs, prev.1 ≤ c.1 := by
  induction bs generalizing prev with
  | nil => simp [mergeFrom]
  | cons b rest ih =>
    simp only [mergeFrom]
    have h1 := List.pairwise_cons.1 hs
    have hb : prev.1 ≤ b.1 := h1.1 b (by simp)
    split
    · intro c hc
      have := ih (prev.1, max (prev.1 + prev.2) (b.1 + b.2) - prev.1) (by
        refine List.pairwise_cons.2 ⟨fun c hc => ?_, (List.pairwise_cons.1 h1.2).2⟩
        exact h1.1 c (List.mem_cons_of_mem _ hc)) c hc
      exact this
    · intro c hc
      rcases List.mem_cons.1 hc with rfl | hc
      · exact Nat.le_refl _
      · exact Nat.le_trans hb (ih b h1.2 c hc)

theorem mergeFrom_sep (prev : Block) (bs : List Block)
    (hs : SortedStart (prev :: bs)) (hp : ∀ b ∈ prev :: bs, 0 < b.2) :
    Sep (mergeFrom prev bs) := by
  induction bs generalizing prev with
  | nil => exact ⟨by simp [mergeFrom], by simpa [mergeFrom] using hp⟩
  | cons b rest ih =>
    simp only [mergeFrom]
    have h1 := List.pairwise_cons.1 hs
    have hb : prev.1 ≤ b.1 := h1.1 b (by simp)
    have hpp := hp prev (by simp)
    have hpb := hp b (by simp)
    split
    · apply ih
      · refine List.pairwise_cons.2 ⟨fun c hc => ?_, (List.pairwise_cons.1 h1.2).2⟩
        exact h1.1 c (List.mem_cons_of_mem _ hc)
      · intro c hc
        rcases List.mem_cons.1 hc with rfl | hc
        · simp only; omega
        · exact hp c (by simp [hc])
    · rename_i hlt
      have ih' := ih b h1.2 (fun c hc => hp c (by simp [List.mem_cons.1 hc]))
      refine ⟨List.pairwise_cons.2 ⟨fun c hc => ?_, ih'.pw⟩, fun c hc => ?_⟩
      · have := mergeFrom_ge b rest h1.2 c hc
        omega
      · rcases List.mem_cons.1 hc with rfl | hc
        · exact hpp
        · exact ih'.pos c hc

/-! ### insertion -/

/-- `insertIndex` on a list sorted by start gives a split point. -/
theorem insertIndex_spec (start : Nat) (bs : List Block) (i idx : Nat)
    (hs : SortedStart bs) :
    insertIndex start bs i idx =
      (if ∃ b ∈ bs, b.1 ≤ start then i + (bs.filter (fun b => b.1 ≤ start)).length else idx) := by
  induction bs generalizing i idx with
  | nil => simp [insertIndex]
  | cons b rest ih =>
    have h1 := List.pairwise_cons.1 hs
    obtain ⟨b1, b2⟩ := b
    simp only [insertIndex]
    rw [ih _ _ h1.2]
    by_cases hb : b1 ≤ start
    · simp only [hb, if_true]
      by_cases hr : ∃ c ∈ rest, c.1 ≤ start
      · rw [if_pos hr, if_pos ⟨(b1, b2), by simp, hb⟩]
        simp [hb]; omega
      · rw [if_neg hr, if_pos ⟨(b1, b2), by simp, hb⟩]
        have : rest.filter (fun b => b.1 ≤ start) = [] := by
          rw [List.filter_eq_nil_iff]
          intro c hc h2
          exact hr ⟨c, hc, by simpa using h2⟩
        simp [hb, this]
    · have hr : ¬ ∃ c ∈ rest, c.1 ≤ start := by
        rintro ⟨c, hc, h⟩; have := h1.1 c hc; simp at this; omega
      have hr' : ¬ ∃ c ∈ (b1, b2) :: rest, c.1 ≤ start := by
        rintro ⟨c, hc, h⟩
        rcases List.mem_cons.1 hc with rfl | hc
        · exact hb h
        · exact hr ⟨c, hc, h⟩
      rw [if_neg hr, if_neg hr', if_neg hb]

theorem insert_mem (bs : List Block) (i : Nat) (hi : i ≤ bs.length) (b c : Block) :
    c ∈ bs.insertIdx i b ↔ c = b ∨ c ∈ bs := List.mem_insertIdx hi

theorem insert_sorted (start length : Nat) (bs : List Block) (hs : SortedStart bs) :
    SortedStart (bs.insertIdx (insertIndex start bs 0 0) (start, length)) ∧
      insertIndex start bs 0 0 ≤ bs.length := by
  have key : insertIndex start bs 0 0 = (bs.filter (fun b => b.1 ≤ start)).length := by
    rw [insertIndex_spec _ _ _ _ hs]
    split
    · omega
    · rename_i h
      have : bs.filter (fun b => b.1 ≤ start) = [] := by
        rw [List.filter_eq_nil_iff]
        intro c hc h2
        exact h ⟨c, hc, by simpa using h2⟩
      simp [this]
  rw [key]
  refine ⟨?_, List.length_filter_le _ _⟩
  clear key
  induction bs with
  | nil => simp [SortedStart]
  | cons b rest ih =>
    have h1 := List.pairwise_cons.1 hs
    by_cases hb : b.1 ≤ start
    · simp only [List.filter_cons, hb, decide_true, if_true, List.length_cons,
        List.insertIdx_succ_cons]
      refine List.pairwise_cons.2 ⟨fun c hc => ?_, ih h1.2⟩
      rw [insert_mem _ _ (List.length_filter_le _ _)] at hc
      rcases hc with rfl | hc
      · exact hb
      · exact h1.1 c hc
    · have hf : (b :: rest).filter (fun b => b.1 ≤ start) = [] := by
        rw [List.filter_eq_nil_iff]
        intro c hc
        rcases List.mem_cons.1 hc with rfl | hc
        · simpa using hb
        · have := h1.1 c hc; simp; omega
      rw [hf]
      simp only [List.length_nil, List.insertIdx_zero]
      refine List.pairwise_cons.2 ⟨fun c hc => ?_, hs⟩
      rcases List.mem_cons.1 hc with rfl | hc
      · simp only; omega
      · have := h1.1 c hc; simp only; omega

theorem insert_covered (bs : List Block) (i : Nat) (hi : i ≤ bs.length) (b : Block) (x : Nat) :
    Covered (bs.insertIdx i b) x ↔ InBlock b x ∨ Covered bs x := by
  simp only [Covered, insert_mem bs i hi]
  constructor
  · rintro ⟨c, rfl | hc, h⟩
    · exact Or.inl h
    · exact Or.inr ⟨c, hc, h⟩
  · rintro (h | ⟨c, hc, h⟩)
    · exact ⟨b, Or.inl rfl, h⟩
    · exact ⟨c, Or.inr hc, h⟩

/-! ### markFree -/

theorem markFree_covered (s : SpaceAllocator) (start length : Nat) (hs : Sep s.freeBlocks)
    (x : Nat) : Covered (s.markFree start length).freeBlocks x ↔
      InBlock (start, length) x ∨ Covered s.freeBlocks x := by
  unfold markFree
  split
  · rename_i h; subst h
    simp only [InBlock]
    constructor
    · exact Or.inr
    · rintro (h | h)
      · omega
      · exact h
  · have h1 := insert_sorted start length s.freeBlocks hs.sortedStart
    simp only
    rw [← insert_covered _ _ h1.2]
    cases hl : s.freeBlocks.insertIdx (insertIndex start s.freeBlocks 0 0) (start, length) with
    | nil => simp [mergeBlocks]
    | cons b rest =>
      simp only [mergeBlocks]
      rw [mergeFrom_covered _ _ _ (hl ▸ h1.1)]
      simp

theorem markFree_sep (s : SpaceAllocator) (start length : Nat) (hs : Sep s.freeBlocks) :
    Sep (s.markFree start length).freeBlocks := by
  unfold markFree
  split
  · exact hs
  · rename_i hpos
    have h1 := insert_sorted start length s.freeBlocks hs.sortedStart
    simp only
    cases hl : s.freeBlocks.insertIdx (insertIndex start s.freeBlocks 0 0) (start, length) with
    | nil => exact ⟨by simp [mergeBlocks], by simp [mergeBlocks]⟩
    | cons b rest =>
      simp only [mergeBlocks]
      refine mergeFrom_sep _ _ (hl ▸ h1.1) (fun c hc => ?_)
      rw [← hl, insert_mem _ _ h1.2] at hc
      rcases hc with rfl | hc
      · simp only; omega
      · exact hs.pos c hc

theorem markFree_fileEnd (s : SpaceAllocator) (start length : Nat) :
    (s.markFree start length).fileEnd = s.fileEnd := by
  unfold markFree; split <;> rfl

/-! ### best fit search -/

/-- what the search loop computes -/
theorem findBest_spec (n : Nat) (pre rest : List Block) (best : Option (Nat × Block))
    (hbest : match best with
      | none => ∀ b ∈ pre, b.2 < n
      | some (i, b) => pre[i]? = some b ∧ n ≤ b.2 ∧ (∀ c ∈ pre, n ≤ c.2 → b.2 ≤ c.2) ∧
          (∀ j c, j < i → pre[j]? = some c → n ≤ c.2 → b.2 < c.2)) :
    match findBest n rest pre.length best with
    | none => ∀ b ∈ pre ++ rest, b.2 < n
    | some (i, b) => (pre ++ rest)[i]? = some b ∧ n ≤ b.2 ∧
        (∀ c ∈ pre ++ rest, n ≤ c.2 → b.2 ≤ c.2) ∧
        (∀ j c, j < i → (pre ++ rest)[j]? = some c → n ≤ c.2 → b.2 < c.2) := by
  induction rest generalizing pre best with
  | nil => simpa [findBest] using hbest
  | cons b rest ih =>
    obtain ⟨st, len⟩ := b
    have step : ∀ best', (match best' with
      | none => ∀ b ∈ pre ++ [(st, len)], b.2 < n
      | some (i, b) => (pre ++ [(st, len)])[i]? = some b ∧ n ≤ b.2 ∧
          (∀ c ∈ pre ++ [(st, len)], n ≤ c.2 → b.2 ≤ c.2) ∧
          (∀ j c, j < i → (pre ++ [(st, len)])[j]? = some c → n ≤ c.2 → b.2 < c.2)) →
        match findBest n rest (pre.length + 1) best' with
        | none => ∀ b ∈ pre ++ (st, len) :: rest, b.2 < n
        | some (i, b) => (pre ++ (st, len) :: rest)[i]? = some b ∧ n ≤ b.2 ∧
            (∀ c ∈ pre ++ (st, len) :: rest, n ≤ c.2 → b.2 ≤ c.2) ∧
            (∀ j c, j < i → (pre ++ (st, len) :: rest)[j]? = some c → n ≤ c.2 → b.2 < c.2) := by
      intro best' h
      have := ih (pre ++ [(st, len)]) best' h
      simpa using this
    simp only [findBest]
    cases best with
    | none =>
      simp only at hbest
      by_cases hge : len ≥ n
      · rw [if_pos (by simp [hge])]
        apply step
        refine ⟨by simp, hge, ?_, ?_⟩
        · intro c hc hn
          rcases List.mem_append.1 hc with hc | hc
          · have := hbest c hc; omega
          · simp at hc; subst hc; exact Nat.le_refl _
        · intro j c hj hc hn
          rw [List.getElem?_append_left hj] at hc
          have := hbest c (List.mem_of_getElem? hc); omega
      · rw [if_neg (by simp [hge])]
        apply step
        intro c hc
        rcases List.mem_append.1 hc with hc | hc
        · exact hbest c hc
        · simp at hc; subst hc; simp only; omega
    | some ib =>
      obtain ⟨i, ⟨bs, bl⟩⟩ := ib
      simp only at hbest
      obtain ⟨h1, h2, h3, h4⟩ := hbest
      have hi : i < pre.length := by
        rcases Nat.lt_or_ge i pre.length with h | h
        · exact h
        · rw [List.getElem?_eq_none h] at h1; simp at h1
      by_cases hge : len ≥ n ∧ len < bl
      · rw [if_pos (by simpa using hge)]
        apply step
        refine ⟨by simp, hge.1, ?_, ?_⟩
        · intro c hc hn
          rcases List.mem_append.1 hc with hc | hc
          · have := h3 c hc hn; simp only; omega
          · simp at hc; subst hc; exact Nat.le_refl _
        · intro j c hj hc hn
          rw [List.getElem?_append_left hj] at hc
          have := h3 c (List.mem_of_getElem? hc) hn; simp only at this ⊢; omega
      · rw [if_neg (by simpa using hge)]
        apply step
        refine ⟨by rw [List.getElem?_append_left hi]; exact h1, h2, ?_, ?_⟩
        · intro c hc hn
          rcases List.mem_append.1 hc with hc | hc
          · exact h3 c hc hn
          · simp at hc; subst hc; simp only at hn ⊢; omega
        · intro j c hj hc hn
          rw [List.getElem?_append_left (by omega)] at hc
          exact h4 j c hj hc hn

theorem findBest_none {n : Nat} {bs : List Block} (h : findBest n bs 0 none = none) :
    ∀ b ∈ bs, b.2 < n := by
  have := findBest_spec n [] bs none (by simp)
  simpa [h] using this

theorem findBest_some {n : Nat} {bs : List Block} {i : Nat} {b : Block}
    (h : findBest n bs 0 none = some (i, b)) :
    bs[i]? = some b ∧ n ≤ b.2 ∧ (∀ c ∈ bs, n ≤ c.2 → b.2 ≤ c.2) ∧
      (∀ j c, j < i → bs[j]? = some c → n ≤ c.2 → b.2 < c.2) := by
  have := findBest_spec n [] bs none (by simp)
  simpa [h] using this

/-! ### allocate -/

theorem split_at {bs : List Block} {i : Nat} {b : Block} (h : bs[i]? = some b) :
    ∃ pre post, bs = pre ++ b :: post ∧ pre.length = i := by
  obtain ⟨hi, hb⟩ := List.getElem?_eq_some_iff.1 h
  refine ⟨bs.take i, bs.drop (i + 1), ?_, by simp; omega⟩
  rw [← hb, List.getElem_cons_drop, List.take_append_drop]

/-- The state invariant of an allocator by itself. -/
structure WF (s : SpaceAllocator) : Prop where
  sep : Sep s.freeBlocks
  bound : ∀ b ∈ s.freeBlocks, b.1 + b.2 ≤ s.fileEnd

theorem WF.covered_lt {s : SpaceAllocator} (h : WF s) {x : Nat} (hx : Covered s.freeBlocks x) :
    x < s.fileEnd := by
  obtain ⟨b, hb, h1⟩ := hx
  have := h.bound b hb
  have := h1.2
  omega

/-- Everything about one allocation of a positive number of bytes. -/
theorem allocate_spec (s : SpaceAllocator) (n : Nat) (hn : 0 < n) (h : WF s) :
    WF (s.allocate n).2 ∧
    s.fileEnd ≤ (s.allocate n).2.fileEnd ∧
    (∀ x, (s.allocate n).1 ≤ x → x < (s.allocate n).1 + n →
      (Covered s.freeBlocks x ∨ s.fileEnd ≤ x) ∧ x < (s.allocate n).2.fileEnd) ∧
    (∀ x, Covered (s.allocate n).2.freeBlocks x ↔
      Covered s.freeBlocks x ∧ ¬ ((s.allocate n).1 ≤ x ∧ x < (s.allocate n).1 + n)) ∧
    (∀ x, s.fileEnd ≤ x → x < (s.allocate n).2.fileEnd →
      (s.allocate n).1 ≤ x ∧ x < (s.allocate n).1 + n) := by
  unfold allocate
  rw [if_neg (by omega)]
  split
  · -- a free block was found
    rename_i i start length hf
    obtain ⟨hget, hge, -, -⟩ := findBest_some hf
    obtain ⟨pre, post, hbs, hlen⟩ := split_at hget
    simp only at hge
    have hsep := h.sep
    rw [hbs] at hsep
    have hpw := List.pairwise_append.1 hsep.pw
    have hpost := List.pairwise_cons.1 hpw.2.1
    have hbound := h.bound (start, length) (by rw [hbs]; simp)
    simp only at hbound
    have disjPre : ∀ x, Covered pre x → x < start := by
      rintro x ⟨c, hc, hx⟩
      have := hpw.2.2 c hc (start, length) (by simp)
      have := hx.2
      simp only at *; omega
    have disjPost : ∀ x, Covered post x → start + length < x ∨ start + length = x := by
      rintro x ⟨c, hc, hx⟩
      have := hpost.1 c hc
      have := hx.1
      simp only at *; omega
    split
    · -- shrink
      rename_i hgt
      have hset : s.freeBlocks.set i (start + n, length - n) =
          pre ++ (start + n, length - n) :: post := by
        rw [hbs, ← hlen, List.set_append_right _ _ (Nat.le_refl _)]; simp
      simp only [hset]
      refine ⟨⟨⟨?_, ?_⟩, ?_⟩, Nat.le_refl _, ?_, ?_, by intro x; omega⟩
      · refine List.pairwise_append.2 ⟨hpw.1, List.pairwise_cons.2 ⟨?_, hpost.2⟩, ?_⟩
        · intro c hc; have := hpost.1 c hc; simp only at *; omega
        · intro a ha c hc
          rcases List.mem_cons.1 hc with rfl | hc
          · have := hpw.2.2 a ha (start, length) (by simp); simp only at *; omega
          · exact hpw.2.2 a ha c (by simp [hc])
      · intro c hc
        rcases List.mem_append.1 hc with hc | hc
        · exact hsep.pos c (by simp [hc])
        · rcases List.mem_cons.1 hc with rfl | hc
          · simp only; omega
          · exact hsep.pos c (by simp [hc])
      · intro c hc
        rcases List.mem_append.1 hc with hc | hc
        · exact h.bound c (by rw [hbs]; simp [hc])
        · rcases List.mem_cons.1 hc with rfl | hc
          · simp only; omega
          · exact h.bound c (by rw [hbs]; simp [hc])
      · intro x h1 h2
        refine ⟨Or.inl ⟨(start, length), by rw [hbs]; simp, ?_⟩, by omega⟩
        simp only [InBlock]; omega
      · intro x
        rw [hbs]
        simp only [covered_append, covered_cons]
        have d1 := disjPre x
        have d2 := disjPost x
        simp only [InBlock]
        constructor
        · rintro (hx | hx | hx)
          · have := d1 hx; exact ⟨Or.inl hx, by omega⟩
          · exact ⟨Or.inr (Or.inl (by omega)), by omega⟩
          · have := d2 hx; exact ⟨Or.inr (Or.inr hx), by omega⟩
        · rintro ⟨hx | hx | hx, hne⟩
          · exact Or.inl hx
          · exact Or.inr (Or.inl (by omega))
          · exact Or.inr (Or.inr hx)
    · -- remove
      rename_i hgt
      have hlen' : length = n := by omega
      subst hlen'
      have hset : s.freeBlocks.eraseIdx i = pre ++ post := by
        rw [hbs, ← hlen, List.eraseIdx_append_of_length_le (Nat.le_refl _)]; simp
      simp only [hset]
      refine ⟨⟨⟨?_, ?_⟩, ?_⟩, Nat.le_refl _, ?_, ?_, by intro x; omega⟩
      · exact List.pairwise_append.2 ⟨hpw.1, hpost.2,
          fun a ha c hc => hpw.2.2 a ha c (by simp [hc])⟩
      · intro c hc
        exact hsep.pos c (by rcases List.mem_append.1 hc with hc | hc <;> simp [hc])
      · intro c hc
        exact h.bound c (by rw [hbs]; rcases List.mem_append.1 hc with hc | hc <;> simp [hc])
      · intro x h1 h2
        refine ⟨Or.inl ⟨(start, length), by rw [hbs]; simp, ?_⟩, by omega⟩
        simp only [InBlock]; omega
      · intro x
        rw [hbs]
        simp only [covered_append, covered_cons]
        have d1 := disjPre x
        have d2 := disjPost x
        simp only [InBlock]
        constructor
        · rintro (hx | hx)
          · have := d1 hx; exact ⟨Or.inl hx, by omega⟩
          · have := d2 hx; exact ⟨Or.inr (Or.inr hx), by omega⟩
        · rintro ⟨hx | hx | hx, hne⟩
          · exact Or.inl hx
          · omega
          · exact Or.inr hx
  · -- nothing found
    rename_i hf
    have hsmall := findBest_none hf
    have grow : WF { s with fileEnd := s.fileEnd + n } ∧ s.fileEnd ≤ s.fileEnd + n ∧
        (∀ x, s.fileEnd ≤ x → x < s.fileEnd + n →
          (Covered s.freeBlocks x ∨ s.fileEnd ≤ x) ∧ x < s.fileEnd + n) ∧
        (∀ x, Covered s.freeBlocks x ↔
          Covered s.freeBlocks x ∧ ¬ (s.fileEnd ≤ x ∧ x < s.fileEnd + n)) ∧
        (∀ x, s.fileEnd ≤ x → x < s.fileEnd + n → s.fileEnd ≤ x ∧ x < s.fileEnd + n) := by
      refine ⟨⟨h.sep, fun b hb => ?_⟩, by omega, ?_, ?_, ?_⟩
      · have := h.bound b hb; simp only; omega
      · intro x h1 h2; exact ⟨Or.inr h1, h2⟩
      · intro x
        constructor
        · intro hx; have := h.covered_lt hx; exact ⟨hx, by omega⟩
        · exact fun hx => hx.1
      · intro x h1 h2; exact ⟨h1, h2⟩
    split
    · rename_i start length hlast
      split
      · rename_i hend
        obtain ⟨pre, hbs⟩ := List.getLast?_eq_some_iff.1 hlast
        have hdrop : s.freeBlocks.dropLast = pre := by rw [hbs]; simp
        have hsm := hsmall (start, length) (by rw [hbs]; simp)
        simp only at hsm
        have hsep := h.sep
        rw [hbs] at hsep
        have hpw := List.pairwise_append.1 hsep.pw
        have disjPre : ∀ x, Covered pre x → x < start := by
          rintro x ⟨c, hc, hx⟩
          have := hpw.2.2 c hc (start, length) (by simp)
          have := hx.2
          simp only at *; omega
        simp only [hdrop]
        refine ⟨⟨⟨hpw.1, fun c hc => hsep.pos c (by simp [hc])⟩, fun c hc => ?_⟩, ?_, ?_, ?_, ?_⟩
        · have := h.bound c (by rw [hbs]; simp [hc]); simp only at *; omega
        · omega
        · intro x h1 h2
          refine ⟨?_, by omega⟩
          by_cases hx : x < s.fileEnd
          · exact Or.inl ⟨(start, length), by rw [hbs]; simp, by simp only [InBlock]; omega⟩
          · exact Or.inr (by omega)
        · intro x
          rw [hbs]
          simp only [covered_append, covered_cons, covered_nil, or_false, InBlock]
          constructor
          · intro hx; have := disjPre x hx; exact ⟨Or.inl hx, by omega⟩
          · rintro ⟨hx | hx, hne⟩
            · exact hx
            · omega
        · intro x h1 h2; omega
      · exact grow
    · exact grow

/-! ### the history invariant -/

structure Inv (s : SpaceAllocator) (used : Nat → Prop) : Prop where
  wf : WF s
  part : ∀ x, x < s.fileEnd ↔ (used x ∨ Covered s.freeBlocks x)
  excl : ∀ x, ¬ (used x ∧ Covered s.freeBlocks x)

theorem Inv.used_lt {s : SpaceAllocator} {used : Nat → Prop} (h : Inv s used) {x : Nat}
    (hx : used x) : x < s.fileEnd := (h.part x).2 (Or.inl hx)

theorem inv_new (e : Nat) : Inv (SpaceAllocator.new e) (fun x => x < e) :=
  ⟨⟨⟨by simp [new], by simp [new]⟩, by simp [new]⟩, by simp [new], by simp [new]⟩

theorem inv_alloc {s : SpaceAllocator} {used : Nat → Prop} (h : Inv s used) (n : Nat) :
    Inv (s.allocate n).2 (fun x => used x ∨ InBlock ((s.allocate n).1, n) x) := by
  by_cases hn : n = 0
  · subst hn
    have hs : s.allocate 0 = (s.fileEnd, s) := by simp [allocate]
    have : (fun x => used x ∨ InBlock ((s.allocate 0).1, 0) x) = used := by
      funext x; simp only [InBlock, eq_iff_iff]
      constructor
      · rintro (h | h)
        · exact h
        · omega
      · exact Or.inl
    rw [this, hs]; exact h
  · obtain ⟨hwf, hle, hin, hcov, hnew⟩ := allocate_spec s n (by omega) h.wf
    refine ⟨hwf, fun x => ?_, fun x => ?_⟩
    · rw [hcov]
      constructor
      · intro hx
        by_cases hb : InBlock ((s.allocate n).1, n) x
        · exact Or.inl (Or.inr hb)
        · by_cases hlt : x < s.fileEnd
          · rcases (h.part x).1 hlt with hu | hc
            · exact Or.inl (Or.inl hu)
            · exact Or.inr ⟨hc, hb⟩
          · exact absurd (hnew x (by omega) hx) hb
      · rintro ((hu | hb) | hc)
        · have := h.used_lt hu; omega
        · exact (hin x hb.1 hb.2).2
        · have := h.wf.covered_lt hc.1; omega
    · rw [hcov]
      rintro ⟨hu | hb, hc, hnb⟩
      · exact h.excl x ⟨hu, hc⟩
      · exact hnb hb

theorem inv_free {s : SpaceAllocator} {used : Nat → Prop} (h : Inv s used) (start length : Nat)
    (hu : ∀ x, InBlock (start, length) x → used x) :
    Inv (s.markFree start length) (fun x => used x ∧ ¬ InBlock (start, length) x) := by
  have hcov := markFree_covered s start length h.wf.sep
  have hsep := markFree_sep s start length h.wf.sep
  have hfe := markFree_fileEnd s start length
  refine ⟨⟨hsep, fun b hb => ?_⟩, fun x => ?_, fun x => ?_⟩
  · -- the last byte of b is covered, hence below the file end
    have hpos := hsep.pos b hb
    have hc : Covered (s.markFree start length).freeBlocks (b.1 + b.2 - 1) :=
      ⟨b, hb, by simp only [InBlock]; omega⟩
    rw [hcov] at hc
    have : b.1 + b.2 - 1 < s.fileEnd := by
      rcases hc with hc | hc
      · exact h.used_lt (hu _ hc)
      · exact h.wf.covered_lt hc
    omega
  · rw [hfe, hcov, h.part]
    constructor
    · rintro (hx | hx)
      · by_cases hb : InBlock (start, length) x
        · exact Or.inr (Or.inl hb)
        · exact Or.inl ⟨hx, hb⟩
      · exact Or.inr (Or.inr hx)
    · rintro (hx | hx | hx)
      · exact Or.inl hx.1
      · exact Or.inl (hu x hx)
      · exact Or.inr hx
  · rw [hcov]
    rintro ⟨⟨hx, hnb⟩, hb | hc⟩
    · exact hnb hb
    · exact h.excl x ⟨hx, hc⟩

theorem inv_of_history {e : Nat} {s : SpaceAllocator} {used : Nat → Prop}
    (h : History e s used) : Inv s used := by
  induction h with
  | start => exact inv_new e
  | alloc n _ ih => exact inv_alloc ih n
  | free start length _ hu ih => exact inv_free ih start length hu

theorem initial_le {e : Nat} {s : SpaceAllocator} {used : Nat → Prop}
    (h : History e s used) : e ≤ s.fileEnd := by
  induction h with
  | start => exact Nat.le_refl _
  | @alloc s used n h ih =>
    by_cases hn : n = 0
    · subst hn; simpa [allocate] using ih
    · exact Nat.le_trans ih (allocate_spec s n (by omega) (inv_of_history h).wf).2.1
  | free start length _ hu ih => rw [markFree_fileEnd]; exact ih

/-- the bytes of live ranges and of the initial file, as a history -/
theorem run_history (e : Nat) (calls : List Call) :
    ∃ used, History e (runCalls e calls).1 used ∧
      (runCalls e calls).2.Pairwise Disjoint ∧
      (∀ b ∈ (runCalls e calls).2, ∀ x, InBlock b x → used x ∧ e ≤ x) ∧
      (∀ x, used x ↔ x < e ∨ Covered (runCalls e calls).2 x) := by
  unfold runCalls
  suffices H : ∀ (calls : List Call) (st : SpaceAllocator × List Block) (used : Nat → Prop),
      History e st.1 used → st.2.Pairwise Disjoint →
      (∀ b ∈ st.2, ∀ x, InBlock b x → used x ∧ e ≤ x) →
      (∀ x, used x ↔ x < e ∨ Covered st.2 x) →
      ∃ used', History e (calls.foldl runCall st).1 used' ∧
        (calls.foldl runCall st).2.Pairwise Disjoint ∧
        (∀ b ∈ (calls.foldl runCall st).2, ∀ x, InBlock b x → used' x ∧ e ≤ x) ∧
        (∀ x, used' x ↔ x < e ∨ Covered (calls.foldl runCall st).2 x) by
    exact H calls (new e, []) (fun x => x < e) .start List.Pairwise.nil (by simp) (by simp)
  intro calls
  induction calls with
  | nil => intro st used h1 h2 h3 h4; exact ⟨used, h1, h2, h3, h4⟩
  | cons c cs ih =>
    rintro ⟨s, live⟩ used h1 h2 h3 h4
    simp only [List.foldl_cons]
    simp only at h1 h2 h3 h4
    have inv := inv_of_history h1
    cases c with
    | alloc n =>
      simp only [runCall]
      have hfresh : ∀ x, InBlock ((s.allocate n).1, n) x → ¬ used x := by
        intro x hx hux
        have hn : n ≠ 0 := by rintro rfl; simp only [InBlock] at hx; omega
        rcases ((allocate_spec s n (by omega) inv.wf).2.2.1 x hx.1 hx.2).1 with hc | hc
        · exact inv.excl x ⟨hux, hc⟩
        · have := inv.used_lt hux; omega
      refine ih _ _ (History.alloc n h1) (List.pairwise_cons.2 ⟨?_, h2⟩) ?_ ?_
      · intro b hb x hx; exact hfresh x hx.1 (h3 b hb x hx.2).1
      · intro b hb x hx
        rcases List.mem_cons.1 hb with rfl | hb
        · refine ⟨Or.inr hx, ?_⟩
          have := hfresh x hx
          rw [h4] at this
          by_cases hlt : x < e
          · exact absurd (Or.inl hlt) this
          · omega
        · exact ⟨Or.inl (h3 b hb x hx).1, (h3 b hb x hx).2⟩
      · intro x
        rw [h4, covered_cons]
        constructor
        · rintro ((h | h) | h)
          · exact Or.inl h
          · exact Or.inr (Or.inr h)
          · exact Or.inr (Or.inl h)
        · rintro (h | h | h)
          · exact Or.inl (Or.inl h)
          · exact Or.inr h
          · exact Or.inl (Or.inr h)
    | freeNth k =>
      simp only [runCall]
      split
      · rename_i start length hk
        obtain ⟨pre, post, hl, hlen⟩ := split_at hk
        have her : live.eraseIdx k = pre ++ post := by
          rw [hl, ← hlen, List.eraseIdx_append_of_length_le (Nat.le_refl _)]; simp
        rw [her]
        have hmem : (start, length) ∈ live := by rw [hl]; simp
        rw [hl] at h2
        have hpw := List.pairwise_append.1 h2
        have hpc := List.pairwise_cons.1 hpw.2.1
        have hdis : ∀ b ∈ pre ++ post, ∀ x, InBlock b x → ¬ InBlock (start, length) x := by
          intro b hb x hx hx'
          rcases List.mem_append.1 hb with hb | hb
          · exact hpw.2.2 b hb (start, length) (by simp) x ⟨hx, hx'⟩
          · exact hpc.1 b hb x ⟨hx', hx⟩
        have hsub : ∀ b ∈ pre ++ post, b ∈ live := by
          intro b hb; rw [hl]
          rcases List.mem_append.1 hb with hb | hb <;> simp [hb]
        refine ih _ _ (History.free start length h1 (fun x hx => (h3 _ hmem x hx).1)) ?_ ?_ ?_
        · exact List.pairwise_append.2 ⟨hpw.1, hpc.2, fun a ha b hb => hpw.2.2 a ha b (by simp [hb])⟩
        · intro b hb x hx
          have := h3 b (hsub b hb) x hx
          exact ⟨⟨this.1, hdis b hb x hx⟩, this.2⟩
        · intro x
          rw [h4]
          constructor
          · rintro ⟨h | ⟨b, hb, hx⟩, hnb⟩
            · exact Or.inl h
            · refine Or.inr ⟨b, ?_, hx⟩
              rw [hl] at hb
              rcases List.mem_append.1 hb with hb | hb
              · simp [hb]
              · rcases List.mem_cons.1 hb with rfl | hb
                · exact absurd hx hnb
                · simp [hb]
          · rintro (h | ⟨b, hb, hx⟩)
            · refine ⟨Or.inl h, fun hb => ?_⟩
              have := (h3 _ hmem x hb).2; omega
            · exact ⟨Or.inr ⟨b, hsub b hb, hx⟩, hdis b hb x hx⟩
      · exact ih _ _ h1 h2 h3 h4

end Pyzim.SpaceAllocator
