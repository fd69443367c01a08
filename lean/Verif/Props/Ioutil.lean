import Verif.Lemmas.Ioutil

/-!
# Property C51: reading strings and blocks from files
-/

namespace Pyzim

/-- C51. `read_until_zero` returns the bytes up to the first zero byte and leaves the file right
behind it. -/
theorem C51_read_until_zero (f : PyFile) (s tail : Bytes) (hs : (0 : UInt8) ∉ s)
    (hf : f.data.drop f.pos = s ++ 0 :: tail) :
    readUntilZero f = some (s, { f with pos := f.pos + s.length + 1 }) :=
  readUntilZero_ok s tail hs f hf

/-- C51. The same for a file whose reads may be short, whatever the schedule. -/
theorem C51_read_until_zero_short (f : ShortFile) (s tail : Bytes) (hs : (0 : UInt8) ∉ s)
    (hf : f.data.drop f.pos = s ++ 0 :: tail) (fuel : Nat) (hfuel : s.length < fuel) :
    ∃ f', readUntilZeroLoop ShortFile.read fuel [] f = some (s, f') ∧
      f'.data.drop f'.pos = tail := by
  have := readUntilZeroLoop_spec (read := ShortFile.read) (rem := fun f => f.data.drop f.pos)
    (by
      intro f c rest h
      have h1 : (f.read 1).1 = [c] := by
        simp only [ShortFile.read, h, Nat.min_eq_left (Nat.le_max_left 1 (f.limit f.calls))]
        rfl
      have h2 := (ShortFile.read_spec f 1).1
      rw [h1, h] at h2
      exact ⟨h1, by simpa using h2.symm⟩)
    s [] tail hs f hf fuel hfuel
  simpa using this

/-- C51. `read_until_zero` returns iff there is a zero byte left; otherwise it loops for ever
(no number of iterations is enough). -/
theorem C51_read_until_zero_total (f : PyFile) :
    ((0 : UInt8) ∈ f.data.drop f.pos ↔ (readUntilZero f).isSome) ∧
    ((readUntilZero f).isSome ↔
      ∃ fuel, (readUntilZeroLoop PyFile.read fuel [] f).isSome) := by
  by_cases h : (0 : UInt8) ∈ f.data.drop f.pos
  · obtain ⟨s, tail, hs, hf⟩ := split_at_zero _ h
    have := readUntilZero_ok s tail hs f hf
    refine ⟨⟨fun _ => by simp [this], fun _ => h⟩, ⟨fun h => ⟨_, h⟩, fun _ => by simp [this]⟩⟩
  · refine ⟨⟨fun h' => absurd h' h, fun h' => ?_⟩, ⟨fun h' => ⟨_, h'⟩, fun ⟨fuel, h'⟩ => ?_⟩⟩
    · rw [readUntilZero, readUntilZeroLoop_diverges f h] at h'; cases h'
    · rw [readUntilZeroLoop_diverges f h] at h'; cases h'

/-- C51. `read_n_bytes` returns the next `n` bytes, or what is left (or raises `IOError`, if asked
to), however the file object splits its reads; and it consumes exactly what it returns. -/
theorem C51_read_n_bytes (f : ShortFile) (n : Nat) (raise : Bool) :
    ∃ r f', readNBytes ShortFile.read n raise f = some (r, f') ∧
      f'.data.drop f'.pos = (f.data.drop f.pos).drop n ∧
      r = if raise = true ∧ (f.data.drop f.pos).length < n then .error .ioError
        else .ok ((f.data.drop f.pos).take n) := by
  have := readNBytesLoop_spec (read := ShortFile.read) (rem := fun f => f.data.drop f.pos)
    ShortFile.read_spec raise (n + 1) [] n (by omega) f
  simpa [readNBytes] using this

/-- C51. The same for every reader that consumes what it returns, returns at most what it was
asked for, and returns nothing only at its end. -/
theorem C51_read_n_bytes_any {F : Type} (read : F → Nat → Bytes × F) (rem : F → Bytes)
    (hr : ∀ f n, rem f = (read f n).1 ++ rem (read f n).2 ∧ (read f n).1.length ≤ n ∧
      ((read f n).1 = [] → n = 0 ∨ rem f = []))
    (f : F) (n : Nat) (raise : Bool) :
    ∃ r f', readNBytes read n raise f = some (r, f') ∧ rem f' = (rem f).drop n ∧
      r = if raise = true ∧ (rem f).length < n then .error .ioError
        else .ok ((rem f).take n) := by
  have := readNBytesLoop_spec (read := read) (rem := rem) hr raise (n + 1) [] n (by omega) f
  simpa [readNBytes] using this

/-- witness: a file with a string in the middle -/
example : readUntilZero ⟨[9, 65, 66, 0, 67], 1⟩ = some ([65, 66], ⟨[9, 65, 66, 0, 67], 4⟩) := by
  decide
/-- witness: reads of 1, 2, 1, 2 … bytes -/
example : ((readNBytes ShortFile.read 5 false
    ⟨[1, 2, 3, 4, 5, 6, 7], 1, 0, fun k => k % 2 + 1⟩).map (·.1)) =
    some (.ok [2, 3, 4, 5, 6]) := by decide
/-- witness: not enough bytes -/
example : ((readNBytes ShortFile.read 5 true ⟨[1, 2, 3], 1, 0, fun _ => 1⟩).map (·.1)) =
    some (.error .ioError) := by decide

end Pyzim
