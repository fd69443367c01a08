import Verif.Model.Ioutil

namespace Pyzim

theorem PyFile.read_one_cons {f : PyFile} {c : UInt8} {rest : Bytes}
    (h : f.data.drop f.pos = c :: rest) :
    f.read 1 = ([c], { f with pos := f.pos + 1 }) := by
  simp [PyFile.read, h]

theorem drop_succ_of_drop {α : Type} {l : List α} {n : Nat} {c : α} {rest : List α}
    (h : l.drop n = c :: rest) : l.drop (n + 1) = rest := by
  have := congrArg List.tail h
  simpa [List.tail_drop] using this

/-- Reading a NUL-free prefix, with any reader that delivers single bytes. -/
theorem readUntilZeroLoop_spec {F : Type} {read : F → Nat → Bytes × F} {rem : F → Bytes}
    (hr : ∀ f c rest, rem f = c :: rest → (read f 1).1 = [c] ∧ rem (read f 1).2 = rest)
    (s acc tail : Bytes) (hs : (0 : UInt8) ∉ s) (f : F) (hf : rem f = s ++ 0 :: tail)
    (fuel : Nat) (hfuel : s.length < fuel) :
    ∃ f', readUntilZeroLoop read fuel acc f = some (acc ++ s, f') ∧ rem f' = tail := by
  induction s generalizing acc f fuel with
  | nil =>
    obtain ⟨h1, h2⟩ := hr f 0 tail hf
    cases fuel with
    | zero => simp at hfuel
    | succ n =>
      refine ⟨(read f 1).2, ?_, h2⟩
      unfold readUntilZeroLoop
      simp [h1]
  | cons c cs ih =>
    obtain ⟨h1, h2⟩ := hr f c _ hf
    cases fuel with
    | zero => simp at hfuel
    | succ n =>
      have hc : c ≠ 0 := fun h => hs (by simp [h])
      obtain ⟨f', h3, h4⟩ := ih (acc ++ [c]) (fun h => hs (by simp [h])) _ h2 n
        (by simp at hfuel; omega)
      refine ⟨f', ?_, h4⟩
      unfold readUntilZeroLoop
      simp only [h1]
      rw [if_neg (by simpa using hc), h3]
      simp

/-- The file position after reading from a `PyFile`. -/
theorem readUntilZeroLoop_pyfile (s acc tail : Bytes) (hs : (0 : UInt8) ∉ s) (f : PyFile)
    (hf : f.data.drop f.pos = s ++ 0 :: tail) (fuel : Nat) (hfuel : s.length < fuel) :
    readUntilZeroLoop PyFile.read fuel acc f =
      some (acc ++ s, { f with pos := f.pos + s.length + 1 }) := by
  induction s generalizing acc f fuel with
  | nil =>
    cases fuel with
    | zero => simp at hfuel
    | succ n =>
      unfold readUntilZeroLoop
      rw [PyFile.read_one_cons hf]
      simp
  | cons c cs ih =>
    cases fuel with
    | zero => simp at hfuel
    | succ n =>
      have hc : c ≠ 0 := fun h => hs (by simp [h])
      unfold readUntilZeroLoop
      rw [PyFile.read_one_cons (rest := cs ++ 0 :: tail) (by simpa using hf)]
      simp only
      rw [if_neg (by simpa using hc),
        ih (acc ++ [c]) (fun h => hs (by simp [h])) _ (by
          simpa using drop_succ_of_drop (rest := cs ++ 0 :: tail) (by simpa using hf)) n
          (by simp at hfuel; omega)]
      simp; omega

/-- Without a zero byte left the loop never ends. -/
theorem readUntilZeroLoop_diverges (f : PyFile) (hf : (0 : UInt8) ∉ f.data.drop f.pos)
    (fuel : Nat) (acc : Bytes) : readUntilZeroLoop PyFile.read fuel acc f = none := by
  induction fuel generalizing acc f with
  | zero => rfl
  | succ n ih =>
    unfold readUntilZeroLoop
    cases hd : f.data.drop f.pos with
    | nil =>
      have hr : f.read 1 = ([], f) := by simp [PyFile.read, hd]
      rw [hr]
      simp only
      rw [if_neg (by simp), ih f hf]
    | cons c rest =>
      rw [PyFile.read_one_cons hd]
      simp only
      have hc : c ≠ 0 := fun h => hf (by simp [hd, h])
      rw [if_neg (by simpa using hc), ih]
      rw [show ({ f with pos := f.pos + 1 } : PyFile).data.drop
        ({ f with pos := f.pos + 1 } : PyFile).pos = rest from drop_succ_of_drop hd]
      exact fun h => hf (by simp [hd, h])

/-- A byte list that contains a zero splits at the first one. -/
theorem split_at_zero (l : Bytes) (h : (0 : UInt8) ∈ l) :
    ∃ s tail, (0 : UInt8) ∉ s ∧ l = s ++ 0 :: tail := by
  induction l with
  | nil => simp at h
  | cons c cs ih =>
    by_cases hc : c = 0
    · exact ⟨[], cs, by simp, by simp [hc]⟩
    · have : (0 : UInt8) ∈ cs := by
        rcases List.mem_cons.1 h with h | h
        · exact absurd h.symm hc
        · exact h
      obtain ⟨s, tail, h1, h2⟩ := ih this
      exact ⟨c :: s, tail, by simp [h1]; exact fun h => hc h.symm, by simp [h2]⟩

theorem readUntilZero_ok (s tail : Bytes) (hs : (0 : UInt8) ∉ s) (f : PyFile)
    (hf : f.data.drop f.pos = s ++ 0 :: tail) :
    readUntilZero f = some (s, { f with pos := f.pos + s.length + 1 }) := by
  have hl : s.length < f.data.length + 1 := by
    have := congrArg List.length hf
    simp at this; omega
  simpa [readUntilZero] using readUntilZeroLoop_pyfile s [] tail hs f hf _ hl

/-- `read_n_bytes` for every reader which consumes what it returns, never returns more than asked
for and returns nothing only at the end. -/
theorem readNBytesLoop_spec {F : Type} {read : F → Nat → Bytes × F} {rem : F → Bytes}
    (hr : ∀ f n, rem f = (read f n).1 ++ rem (read f n).2 ∧ (read f n).1.length ≤ n ∧
      ((read f n).1 = [] → n = 0 ∨ rem f = []))
    (raise : Bool) (fuel : Nat) (acc : Bytes) (n : Nat) (hfuel : n < fuel) (f : F) :
    ∃ r f', readNBytesLoop read raise fuel acc n f = some (r, f') ∧
      rem f' = (rem f).drop n ∧
      r = if raise = true ∧ (rem f).length < n then .error .ioError
        else .ok (acc ++ (rem f).take n) := by
  induction fuel generalizing acc n f with
  | zero => simp at hfuel
  | succ k ih =>
    unfold readNBytesLoop
    by_cases hn : 0 < n
    · rw [if_pos hn]
      obtain ⟨h1, h2, h3⟩ := hr f n
      generalize read f n = p at h1 h2 h3
      obtain ⟨d, f'⟩ := p
      simp only at h1 h2 h3 ⊢
      by_cases hd : d = []
      · rw [if_pos hd]
        have hrem : rem f = [] := by
          rcases h3 hd with h | h
          · omega
          · exact h
        have hrem' : rem f' = [] := by rw [hrem, hd] at h1; simpa using h1.symm
        cases raise with
        | true => exact ⟨_, f', rfl, by simp [hrem, hrem'], by simp [hrem, hn]⟩
        | false => exact ⟨_, f', rfl, by simp [hrem, hrem'], by simp [hrem]⟩
      · rw [if_neg hd]
        have hpos : 0 < d.length := List.length_pos_iff.2 hd
        obtain ⟨r, f'', h4, h5, h6⟩ := ih (acc ++ d) (n - d.length) (by omega) f'
        refine ⟨r, f'', h4, ?_, ?_⟩
        · rw [h5, h1, List.drop_append_of_le_length' h2]
        · rw [h6, h1]
          have e1 : (rem f').length < n - d.length ↔ (d ++ rem f').length < n := by
            simp; omega
          simp only [e1]
          rw [List.take_append]
          simp [List.take_of_length_le h2]
    · rw [if_neg hn]
      have : n = 0 := by omega
      subst this
      exact ⟨_, f, rfl, by simp, by simp⟩
where
  List.drop_append_of_le_length' {α : Type} {l₁ l₂ : List α} {n : Nat} (h : l₁.length ≤ n) :
      l₂.drop (n - l₁.length) = (l₁ ++ l₂).drop n := by
    rw [List.drop_append, List.drop_of_length_le h]; simp

/-- Both kinds of files satisfy the assumptions on readers. -/
theorem PyFile.read_spec (f : PyFile) (n : Nat) :
    f.data.drop f.pos = (f.read n).1 ++ (f.read n).2.data.drop (f.read n).2.pos ∧
    (f.read n).1.length ≤ n ∧
    ((f.read n).1 = [] → n = 0 ∨ f.data.drop f.pos = []) := by
  refine ⟨?_, ?_, ?_⟩
  · simp only [PyFile.read]
    rw [← List.drop_drop, List.length_take]
    generalize f.data.drop f.pos = l
    by_cases h : n ≤ l.length
    · rw [Nat.min_eq_left h, List.take_append_drop]
    · rw [Nat.min_eq_right (by omega), List.take_of_length_le (by omega)]; simp
  · simp only [PyFile.read, List.length_take]; omega
  · intro h
    simp only [PyFile.read] at h
    rcases List.take_eq_nil_iff.1 h with h | h
    · exact .inl h
    · exact .inr h

theorem ShortFile.read_spec (f : ShortFile) (n : Nat) :
    f.data.drop f.pos = (f.read n).1 ++ (f.read n).2.data.drop (f.read n).2.pos ∧
    (f.read n).1.length ≤ n ∧
    ((f.read n).1 = [] → n = 0 ∨ f.data.drop f.pos = []) := by
  refine ⟨?_, ?_, ?_⟩
  · simp only [ShortFile.read]
    generalize min n (max 1 (f.limit f.calls)) = n
    rw [← List.drop_drop, List.length_take]
    generalize f.data.drop f.pos = l
    by_cases h : n ≤ l.length
    · rw [Nat.min_eq_left h, List.take_append_drop]
    · rw [Nat.min_eq_right (by omega), List.take_of_length_le (by omega)]; simp
  · simp only [ShortFile.read, List.length_take]; omega
  · intro h
    simp only [ShortFile.read] at h
    rcases List.take_eq_nil_iff.1 h with h | h
    · left; omega
    · exact .inr h

end Pyzim
