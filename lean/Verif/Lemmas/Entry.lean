import Verif.Model.Entry
import Verif.Lemmas.Struct
import Verif.Lemmas.Str
import Verif.Lemmas.Ioutil

namespace Pyzim

theorem Fmt.pack_append {fs gs : List Fmt} {vs ws : List FVal} {b : Bytes}
    (hl : fs.length = vs.length) (h : Fmt.pack (fs ++ gs) (vs ++ ws) = .ok b) :
    ∃ b1 b2, Fmt.pack fs vs = .ok b1 ∧ Fmt.pack gs ws = .ok b2 ∧ b = b1 ++ b2 := by
  induction fs generalizing vs b with
  | nil =>
    cases vs with
    | nil => exact ⟨[], b, rfl, h, rfl⟩
    | cons v vs => simp at hl
  | cons f fs ih =>
    cases vs with
    | nil => simp at hl
    | cons v vs =>
      simp only [List.cons_append, Fmt.pack] at h ⊢
      cases ha : Fmt.packOne f v with
      | error e => rw [ha] at h; cases h
      | ok a =>
        rw [ha] at h
        simp only at h ⊢
        cases hb : Fmt.pack (fs ++ gs) (vs ++ ws) with
        | error e => rw [hb] at h; cases h
        | ok c =>
          rw [hb] at h
          simp only at h
          injection h with h
          obtain ⟨b1, b2, h1, h2, h3⟩ := ih (by simpa using hl) hb
          exact ⟨a ++ b1, b2, by rw [h1], h2, by rw [← h, h3]; simp⟩

theorem Fmt.pack_append_ok {fs gs : List Fmt} {vs ws : List FVal} {b1 b2 : Bytes}
    (h1 : Fmt.pack fs vs = .ok b1) (h2 : Fmt.pack gs ws = .ok b2) :
    Fmt.pack (fs ++ gs) (vs ++ ws) = .ok (b1 ++ b2) := by
  induction fs generalizing vs b1 with
  | nil =>
    cases vs with
    | nil => simp only [Fmt.pack] at h1; injection h1 with h1; subst h1; simpa using h2
    | cons v vs => simp [Fmt.pack] at h1
  | cons f fs ih =>
    cases vs with
    | nil => simp [Fmt.pack] at h1
    | cons v vs =>
      simp only [List.cons_append, Fmt.pack] at h1 ⊢
      cases ha : Fmt.packOne f v with
      | error e => rw [ha] at h1; cases h1
      | ok a =>
        rw [ha] at h1
        simp only at h1 ⊢
        cases hb : Fmt.pack fs vs with
        | error e => rw [hb] at h1; cases h1
        | ok c =>
          rw [hb] at h1
          simp only at h1
          injection h1 with h1
          rw [ih hb]
          simp [← h1]

theorem Fmt.unpack_pack {fs : List Fmt} {vs : List FVal} {b : Bytes} (h : Fmt.pack fs vs = .ok b) :
    Fmt.unpack fs b = .ok vs ∧ b.length = Fmt.calcsize fs := by
  obtain ⟨c, h1, h2, h3⟩ := Fmt.pack_ok (Fmt.pack_fits h)
  rw [h] at h1
  injection h1 with h1
  subst h1
  exact ⟨h3, h2⟩

/-- Reading what is known to be next. -/
theorem PyFile.read_append {f : PyFile} {a rest : Bytes} {n : Nat} (hf : f.data.drop f.pos = a ++ rest)
    (hn : a.length = n) : f.read n = (a, { f with pos := f.pos + n }) := by
  subst hn
  simp [PyFile.read, hf]

theorem PyFile.drop_pos {f : PyFile} {a rest : Bytes} {n : Nat} (hf : f.data.drop f.pos = a ++ rest)
    (hn : a.length = n) : f.data.drop (f.pos + n) = rest := by
  rw [← List.drop_drop, hf, List.drop_left' hn]

namespace Entry

theorem readStr_ok {f : PyFile} {s : String} {rest : Bytes} (hs : (0 : UInt8) ∉ encode s)
    (hf : f.data.drop f.pos = encode s ++ [0] ++ rest) :
    readStr f = some (.ok s, { f with pos := f.pos + ((encode s).length + 1) }) := by
  unfold readStr
  rw [readUntilZero_ok (encode s) rest hs f (by simpa using hf)]
  simp [Nat.add_assoc]

theorem readTail_zero_ok {f : PyFile} {url title : String} {rest : Bytes}
    (hu : (0 : UInt8) ∉ encode url) (ht : (0 : UInt8) ∉ encode title)
    (hf : f.data.drop f.pos = (encode url ++ [0]) ++ (encode title ++ [0]) ++ rest) :
    readTail 0 f = some (.ok (url, title, []),
      { f with pos := f.pos + ((encode url).length + 1 + ((encode title).length + 1)) }) := by
  unfold readTail
  rw [readStr_ok (rest := (encode title ++ [0]) ++ rest) hu (by rw [hf]; simp)]
  simp only
  rw [readStr_ok (f := { f with pos := f.pos + ((encode url).length + 1) }) (rest := rest) ht (by
    simp only
    rw [PyFile.drop_pos (a := encode url ++ [0]) (rest := encode title ++ [0] ++ rest)
      (by rw [hf]; simp) (by simp)])]
  simp [readStrs, Nat.add_assoc]

/-- what `read_until_zero` returned was there -/
theorem readUntilZero_inv {f f' : PyFile} {b : Bytes} (h : readUntilZero f = some (b, f')) :
    (0 : UInt8) ∉ b ∧ f.data.drop f.pos = b ++ [0] ++ f'.data.drop f'.pos ∧ f'.data = f.data ∧
    f'.pos = f.pos + (b.length + 1) := by
  by_cases hz : (0 : UInt8) ∈ f.data.drop f.pos
  · obtain ⟨s, tail, hs, hf⟩ := split_at_zero _ hz
    rw [readUntilZero_ok s tail hs f hf] at h
    injection h with h
    injection h with h1 h2
    subst h1; subst h2
    refine ⟨hs, ?_, rfl, by simp [Nat.add_assoc]⟩
    simp only
    rw [Nat.add_assoc, PyFile.drop_pos (a := s ++ [0]) (rest := tail) (by rw [hf]; simp) (by simp), hf]
    simp
  · rw [readUntilZero, readUntilZeroLoop_diverges f hz] at h
    cases h

theorem readStr_inv {f f' : PyFile} {s : String} (h : readStr f = some (.ok s, f')) :
    (0 : UInt8) ∉ encode s ∧ f.data.drop f.pos = encode s ++ [0] ++ f'.data.drop f'.pos ∧
    f'.data = f.data ∧ f'.pos = f.pos + ((encode s).length + 1) := by
  unfold readStr at h
  split at h
  · cases h
  · rename_i b f'' hr
    injection h with h
    injection h with h1 h2
    subst h2
    have := encode_of_decode h1
    subst this
    exact readUntilZero_inv hr

theorem readStrs_length {n : Nat} {f f' : PyFile} {l : List String}
    (h : readStrs n f = some (.ok l, f')) : l.length = n := by
  induction n generalizing f f' l with
  | zero => simp only [readStrs] at h; injection h with h; injection h with h _; injection h with h; simp [← h]
  | succ n ih =>
    simp only [readStrs] at h
    split at h
    · cases h
    · cases h
    · split at h
      · cases h
      · cases h
      · rename_i hr
        injection h with h; injection h with h _; injection h with h
        subst h
        simp [ih hr]

theorem readTail_inv {n : Nat} {f f' : PyFile} {url title : String} {ps : List String}
    (h : readTail n f = some (.ok (url, title, ps), f')) (hps : ps = []) :
    n = 0 ∧ (0 : UInt8) ∉ encode url ∧ (0 : UInt8) ∉ encode title ∧
    f.data.drop f.pos = (encode url ++ [0]) ++ (encode title ++ [0]) ++ f'.data.drop f'.pos ∧
    f'.data = f.data ∧
    f'.pos = f.pos + ((encode url).length + 1 + ((encode title).length + 1)) := by
  unfold readTail at h
  split at h
  · cases h
  · cases h
  · rename_i u f1 h1
    split at h
    · cases h
    · cases h
    · rename_i t f2 h2
      split at h
      · cases h
      · cases h
      · rename_i l f3 h3
        simp only [Option.some.injEq, Prod.mk.injEq, Except.ok.injEq] at h
        obtain ⟨⟨rfl, rfl, rfl⟩, rfl⟩ := h
        subst hps
        have hn := readStrs_length h3
        simp at hn
        subst hn
        simp only [readStrs, Option.some.injEq, Prod.mk.injEq, true_and] at h3
        subst h3
        obtain ⟨a1, a2, a3, a4⟩ := readStr_inv h1
        obtain ⟨b1, b2, b3, b4⟩ := readStr_inv h2
        refine ⟨rfl, a1, b1, ?_, by rw [b3, a3], by rw [b4, a4]; omega⟩
        rw [a2, b2]; simp

end Entry
end Pyzim
