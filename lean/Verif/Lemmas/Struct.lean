import Verif.Model.Struct
import Verif.Lemmas.Base

/-! Round trip of `struct` packing. -/

namespace Pyzim.Fmt

/-- the value can be packed in this format character -/
def Fits : Fmt → FVal → Prop
  | uint w, .int v => 0 ≤ v ∧ v < 256 ^ w
  | raw n, .raw b => b.length = n
  | _, _ => False

/-- the values can be packed in this format -/
def FitsAll : List Fmt → List FVal → Prop
  | [], [] => True
  | f :: fs, v :: vs => Fits f v ∧ FitsAll fs vs
  | _, _ => False

theorem packOne_ok {f : Fmt} {v : FVal} (h : Fits f v) :
    ∃ b, packOne f v = .ok b ∧ b.length = f.size ∧ unpackOne f b = v := by
  cases f with
  | uint w =>
    cases v with
    | int v =>
      refine ⟨leBytes w v.toNat, packUInt_ok h.1 h.2, by simp [size], ?_⟩
      have : v.toNat < 256 ^ w := by
        have h2 := h.2
        have : ((v.toNat : Nat) : Int) < ((256 ^ w : Nat) : Int) := by
          rw [Int.toNat_of_nonneg h.1, Int.natCast_pow]; exact h2
        exact Int.ofNat_lt.1 this
      simp only [unpackOne, leNat_leBytes _ _ this, Int.toNat_of_nonneg h.1]
    | raw b => exact h.elim
  | raw n =>
    cases v with
    | int v => exact h.elim
    | raw b =>
      have h' : b.length = n := h
      exact ⟨b, by simp [packOne, h'], h', rfl⟩

theorem packOne_fits {f : Fmt} {v : FVal} {b : Bytes} (h : packOne f v = .ok b) : Fits f v := by
  cases f with
  | uint w =>
    cases v with
    | int v => have := packUInt_eq_ok h; exact ⟨this.1, this.2.1⟩
    | raw b => cases h
  | raw n =>
    cases v with
    | int v => cases h
    | raw b =>
      simp only [packOne] at h
      split at h
      · assumption
      · cases h

theorem pack_ok {fs : List Fmt} {vs : List FVal} (h : FitsAll fs vs) :
    ∃ b, pack fs vs = .ok b ∧ b.length = calcsize fs ∧ unpack fs b = .ok vs := by
  induction fs generalizing vs with
  | nil =>
    cases vs with
    | nil => exact ⟨[], rfl, rfl, rfl⟩
    | cons v vs => exact h.elim
  | cons f fs ih =>
    cases vs with
    | nil => exact h.elim
    | cons v vs =>
      obtain ⟨a, ha1, ha2, ha3⟩ := packOne_ok h.1
      obtain ⟨b, hb1, hb2, hb3⟩ := ih h.2
      refine ⟨a ++ b, by simp [pack, ha1, hb1], by simp [calcsize, ha2, hb2], ?_⟩
      simp only [unpack]
      rw [if_neg (by simp [ha2])]
      have h1 : (a ++ b).drop f.size = b := by rw [← ha2]; simp
      have h2 : (a ++ b).take f.size = a := by rw [← ha2]; simp
      rw [h1, h2, hb3, ha3]

theorem pack_fits {fs : List Fmt} {vs : List FVal} {b : Bytes} (h : pack fs vs = .ok b) :
    FitsAll fs vs := by
  induction fs generalizing vs b with
  | nil =>
    cases vs with
    | nil => trivial
    | cons v vs => cases h
  | cons f fs ih =>
    cases vs with
    | nil => cases h
    | cons v vs =>
      simp only [pack] at h
      cases h1 : packOne f v with
      | error e => rw [h1] at h; cases h
      | ok a =>
        cases h2 : pack fs vs with
        | error e => rw [h1, h2] at h; cases h
        | ok c => exact ⟨packOne_fits h1, ih h2⟩

theorem unpackOne_spec (f : Fmt) (s : Bytes) (h : s.length = f.size) :
    Fits f (unpackOne f s) ∧ packOne f (unpackOne f s) = .ok s := by
  cases f with
  | uint w =>
    have hl : s.length = w := h
    have hlt : leNat s < 256 ^ w := by have := leNat_lt s; rwa [hl] at this
    refine ⟨⟨Int.natCast_nonneg _, ?_⟩, ?_⟩
    · have := Int.ofNat_lt.2 hlt
      rwa [Int.natCast_pow] at this
    · simp only [unpackOne, packOne, packUInt_nat hlt]
      congr 1
      rw [← hl, leBytes_leNat]
  | raw n =>
    have hl : s.length = n := h
    exact ⟨hl, by simp [unpackOne, packOne, hl]⟩

theorem unpack_ok {fs : List Fmt} {s : Bytes} (h : s.length = calcsize fs) :
    ∃ vs, unpack fs s = .ok vs ∧ FitsAll fs vs ∧ pack fs vs = .ok s := by
  induction fs generalizing s with
  | nil =>
    have : s = [] := List.eq_nil_of_length_eq_zero h
    subst this; exact ⟨[], rfl, trivial, rfl⟩
  | cons f fs ih =>
    have hl : s.length = f.size + calcsize fs := by simpa [calcsize] using h
    obtain ⟨vs, h1, h2, h3⟩ := ih (s := s.drop f.size) (by simp; omega)
    obtain ⟨h4, h5⟩ := unpackOne_spec f (s.take f.size) (by simp; omega)
    refine ⟨unpackOne f (s.take f.size) :: vs, ?_, ⟨h4, h2⟩, ?_⟩
    · simp only [unpack]; rw [if_neg (by omega), h1]
    · simp [pack, h5, h3]

theorem unpack_err {fs : List Fmt} {s : Bytes} (h : s.length ≠ calcsize fs) :
    unpack fs s = .error .structError := by
  induction fs generalizing s with
  | nil =>
    cases s with
    | nil => exact absurd rfl h
    | cons a s => rfl
  | cons f fs ih =>
    simp only [unpack]
    split
    · rfl
    · rename_i hlt
      have hl : calcsize (f :: fs) = f.size + calcsize fs := by simp [calcsize]
      rw [ih (by simp; omega)]

end Pyzim.Fmt
