import Verif.Lemmas.Str

/-!
# UTF-8 preserves the order of code points

The pointer lists compare encoded keys; Python compares strings by code points. Both orders agree.
-/

namespace Pyzim

theorem ofNat_lt {x y : Nat} (h : x < y) (hy : y < 256) : UInt8.ofNat x < UInt8.ofNat y := by
  rw [UInt8.lt_iff_toNat_lt]
  simp only [UInt8.toNat_ofNat']
  omega

theorem cons_lt_of_lt {x y : Nat} {a b : Bytes} (h : x < y) (hy : y < 256) :
    UInt8.ofNat x :: a < UInt8.ofNat y :: b := List.cons_lt_cons_iff.2 (.inl (ofNat_lt h hy))

theorem cons_lt_of_eq {x y : Nat} {a b : Bytes} (h : x = y) (hab : a < b) :
    UInt8.ofNat x :: a < UInt8.ofNat y :: b := List.cons_lt_cons_iff.2 (.inr ⟨by rw [h], hab⟩)

theorem char_le (c : Char) : c.val.toNat ≤ 0x10ffff := by
  have := c.valid
  unfold UInt32.isValidChar Nat.isValidChar at this
  omega

/-- The encodings of different characters differ before either of them ends, as the characters do. -/
theorem utf8_lt {c d : Char} (h : c.val.toNat < d.val.toNat) (r s : Bytes) :
    String.utf8EncodeChar c ++ r < String.utf8EncodeChar d ++ s := by
  have hd := char_le d
  unfold String.utf8EncodeChar
  generalize c.val.toNat = v at *
  generalize d.val.toNat = w at *
  simp only
  by_cases h1 : v ≤ 0x7f
  · rw [if_pos h1]
    by_cases g1 : w ≤ 0x7f
    · rw [if_pos g1]; exact cons_lt_of_lt h (by omega)
    rw [if_neg g1]
    by_cases g2 : w ≤ 0x7ff
    · rw [if_pos g2]; exact cons_lt_of_lt (by omega) (by omega)
    rw [if_neg g2]
    by_cases g3 : w ≤ 0xffff
    · rw [if_pos g3]; exact cons_lt_of_lt (by omega) (by omega)
    rw [if_neg g3]; exact cons_lt_of_lt (by omega) (by omega)
  rw [if_neg h1, if_neg (by omega : ¬ w ≤ 0x7f)]
  by_cases h2 : v ≤ 0x7ff
  · rw [if_pos h2]
    by_cases g2 : w ≤ 0x7ff
    · rw [if_pos g2]
      by_cases q : v / 64 = w / 64
      · exact cons_lt_of_eq (by omega) (cons_lt_of_lt (by omega) (by omega))
      · exact cons_lt_of_lt (by omega) (by omega)
    rw [if_neg g2]
    by_cases g3 : w ≤ 0xffff
    · rw [if_pos g3]; exact cons_lt_of_lt (by omega) (by omega)
    rw [if_neg g3]; exact cons_lt_of_lt (by omega) (by omega)
  rw [if_neg h2, if_neg (by omega : ¬ w ≤ 0x7ff)]
  by_cases h3 : v ≤ 0xffff
  · rw [if_pos h3]
    by_cases g3 : w ≤ 0xffff
    · rw [if_pos g3]
      by_cases q : v / 4096 = w / 4096
      · by_cases q2 : v / 64 = w / 64
        · exact cons_lt_of_eq (by omega) (cons_lt_of_eq (by omega) (cons_lt_of_lt (by omega) (by omega)))
        · exact cons_lt_of_eq (by omega) (cons_lt_of_lt (by omega) (by omega))
      · exact cons_lt_of_lt (by omega) (by omega)
    rw [if_neg g3]; exact cons_lt_of_lt (by omega) (by omega)
  rw [if_neg h3, if_neg (by omega : ¬ w ≤ 0xffff)]
  by_cases q : v / 262144 = w / 262144
  · by_cases q1 : v / 4096 = w / 4096
    · by_cases q2 : v / 64 = w / 64
      · exact cons_lt_of_eq (by omega) (cons_lt_of_eq (by omega)
          (cons_lt_of_eq (by omega) (cons_lt_of_lt (by omega) (by omega))))
      · exact cons_lt_of_eq (by omega) (cons_lt_of_eq (by omega) (cons_lt_of_lt (by omega) (by omega)))
    · exact cons_lt_of_eq (by omega) (cons_lt_of_lt (by omega) (by omega))
  · exact cons_lt_of_lt (by omega) (by omega)

theorem append_lt_append {a b c : Bytes} : a ++ b < a ++ c ↔ b < c := by
  induction a with
  | nil => rfl
  | cons x a ih =>
    rw [List.cons_append, List.cons_append, List.cons_lt_cons_iff]
    constructor
    · rintro (h | ⟨-, h⟩)
      · exact absurd h (UInt8.lt_irrefl _)
      · exact ih.1 h
    · exact fun h => .inr ⟨rfl, ih.2 h⟩

/-- Python's comparison of strings: by code points, a prefix first. -/
def codeLt : List Char → List Char → Prop
  | _, [] => False
  | [], _ :: _ => True
  | c :: s, d :: t => c.val.toNat < d.val.toNat ∨ (c = d ∧ codeLt s t)

theorem char_eq {c d : Char} (h : c.val.toNat = d.val.toNat) : c = d := by
  apply Char.ext
  exact UInt32.toNat.inj h

theorem utf8_ne_nil (c : Char) : ∃ x l, String.utf8EncodeChar c = x :: l := by
  cases h : String.utf8EncodeChar c with
  | nil =>
    have : (String.utf8EncodeChar c).length = 0 := by rw [h]; rfl
    rw [String.length_utf8EncodeChar] at this
    have := Char.utf8Size_pos c
    omega
  | cons x l => exact ⟨x, l, rfl⟩

theorem flatMap_lt (s t : List Char) :
    s.flatMap String.utf8EncodeChar < t.flatMap String.utf8EncodeChar ↔ codeLt s t := by
  induction s generalizing t with
  | nil =>
    cases t with
    | nil => simp [codeLt]
    | cons d t =>
      obtain ⟨x, l, hx⟩ := utf8_ne_nil d
      simp [codeLt, hx, List.flatMap_cons]
  | cons c s ih =>
    cases t with
    | nil => simp [codeLt]
    | cons d t =>
      rw [List.flatMap_cons, List.flatMap_cons]
      unfold codeLt
      rcases Nat.lt_trichotomy c.val.toNat d.val.toNat with h | h | h
      · exact iff_of_true (utf8_lt h _ _) (.inl h)
      · have := char_eq h
        subst this
        rw [append_lt_append, ih]
        constructor
        · exact fun h => .inr ⟨rfl, h⟩
        · rintro (h | ⟨-, h⟩)
          · omega
          · exact h
      · refine iff_of_false ?_ ?_
        · intro hlt
          exact absurd (utf8_lt h _ _) (fun h2 => Std.lt_irrefl (Std.lt_trans hlt h2))
        · rintro (h' | ⟨rfl, -⟩) <;> omega

theorem encode_lt (s t : String) : encode s < encode t ↔ codeLt s.toList t.toList := by
  rw [encode_eq, encode_eq, flatMap_lt]

/-- The strings that start with `p c` are those between `p c` and `p d`, if `d` is the character after `c`. -/
theorem prefix_iff_between (p : List Char) (c d : Char) (hd : d.val.toNat = c.val.toNat + 1) (s : List Char) :
    (¬ codeLt s (p ++ [c]) ∧ codeLt s (p ++ [d])) ↔ (p ++ [c]) <+: s := by
  induction p generalizing s with
  | nil =>
    cases s with
    | nil => simp [codeLt]
    | cons x s =>
      simp only [List.nil_append, codeLt, and_false, or_false, List.cons_prefix_cons, List.nil_prefix, and_true]
      constructor
      · rintro ⟨h1, h2⟩; exact (char_eq (by omega)).symm
      · rintro rfl; omega
  | cons y p ih =>
    cases s with
    | nil => simp [codeLt]
    | cons x s =>
      simp only [List.cons_append, codeLt, List.cons_prefix_cons, ← ih s]
      constructor
      · rintro ⟨h1, h2⟩
        rw [not_or] at h1
        rcases h2 with h2 | ⟨rfl, h2⟩
        · exact absurd h2 h1.1
        · exact ⟨rfl, fun h => h1.2 ⟨rfl, h⟩, h2⟩
      · rintro ⟨rfl, h1, h2⟩
        refine ⟨?_, .inr ⟨rfl, h2⟩⟩
        rintro (h | ⟨-, h⟩)
        · omega
        · exact h1 h

end Pyzim
