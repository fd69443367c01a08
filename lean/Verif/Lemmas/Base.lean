import Verif.Model.Base

/-! Lemmas about byte strings and integer packing. -/

namespace Pyzim

@[simp] theorem leBytes_length (w v : Nat) : (leBytes w v).length = w := by
  induction w generalizing v with
  | zero => rfl
  | succ w ih => simp [leBytes, ih]

theorem leNat_leBytes (w v : Nat) (h : v < 256 ^ w) : leNat (leBytes w v) = v := by
  induction w generalizing v with
  | zero => simp at h; subst h; rfl
  | succ w ih =>
    have : v / 256 < 256 ^ w := by
      rw [Nat.div_lt_iff_lt_mul (by decide)]; rw [Nat.pow_succ] at h; omega
    simp only [leBytes, leNat, ih _ this, UInt8.toNat_ofNat']
    omega

theorem leNat_lt (b : Bytes) : leNat b < 256 ^ b.length := by
  induction b with
  | nil => simp [leNat]
  | cons x xs ih =>
    simp only [leNat, List.length_cons, Nat.pow_succ]
    have := x.toNat_lt
    omega

theorem leBytes_leNat (b : Bytes) : leBytes b.length (leNat b) = b := by
  induction b with
  | nil => rfl
  | cons x xs ih =>
    have hx : x.toNat < 256 := x.toNat_lt
    simp only [List.length_cons, leBytes, leNat]
    have h1 : (x.toNat + 256 * leNat xs) / 256 = leNat xs := by omega
    have h2 : (x.toNat + 256 * leNat xs) % 256 = x.toNat := by omega
    rw [h1, h2, ih]
    simp

theorem packUInt_ok {w : Nat} {v : Int} (h0 : 0 ≤ v) (h : v < 256 ^ w) :
    packUInt w v = .ok (leBytes w v.toNat) := by unfold packUInt; rw [if_pos ⟨h0, h⟩]

theorem packUInt_nat {w v : Nat} (h : v < 256 ^ w) :
    packUInt w (v : Int) = .ok (leBytes w v) := by
  have h' : (v : Int) < 256 ^ w := by
    have := Int.ofNat_lt.2 h
    rwa [Int.natCast_pow] at this
  rw [packUInt_ok (Int.natCast_nonneg v) h', Int.toNat_natCast]

theorem packUInt_eq_ok {w : Nat} {v : Int} {b : Bytes} (h : packUInt w v = .ok b) :
    0 ≤ v ∧ v < 256 ^ w ∧ b = leBytes w v.toNat := by
  unfold packUInt at h
  split at h
  · rename_i h1; injection h with h; exact ⟨h1.1, h1.2, h.symm⟩
  · cases h

end Pyzim
