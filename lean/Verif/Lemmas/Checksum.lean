import Verif.Spec.Checksum
import Verif.Lemmas.PyM
import Verif.Lemmas.ArchiveWrite

namespace Pyzim

theorem Holds.drop_take {file : Bytes} {off : Nat} {b : Bytes} (h : Holds file off b) :
    (file.drop off).take b.length = b := by
  refine List.ext_getElem? fun i => ?_
  by_cases hi : i < b.length
  · rw [List.getElem?_take_of_lt hi, List.getElem?_drop, h i hi]
  · rw [List.getElem?_take_eq_none (by omega), List.getElem?_eq_none (by omega)]

namespace Zim

theorem checksumLoop_ok (H : Hasher) {short : Nat → Nat → Nat} (hs : Delivering short) {chunksize : Nat}
    (hc : 0 < chunksize) (file : Bytes) {end_ : Nat} (he : end_ ≤ file.length) :
    ∀ (fuel pos : Nat) (s : H.State), pos ≤ end_ → end_ - pos ≤ fuel → ∃ pieces : List Bytes,
      checksumLoop H short chunksize file end_ fuel pos s = .ok (pieces.foldl H.update s) ∧
      pieces.flatten = (file.drop pos).take (end_ - pos) := by
  intro fuel
  induction fuel with
  | zero =>
    intro pos s hp hf
    refine ⟨[], ?_, ?_⟩
    · unfold checksumLoop
      rw [if_neg (by omega)]; rfl
    · rw [show end_ - pos = 0 by omega]; rfl
  | succ fuel ih =>
    intro pos s hp hf
    unfold checksumLoop
    by_cases hlt : pos < end_
    · rw [if_pos hlt]
      simp only [PyFile.seek, PyFile.read]
      generalize hn : min (min chunksize (end_ - pos)) (short pos (min chunksize (end_ - pos))) = n
      have h0 : 0 < n := by
        have := hs pos (min chunksize (end_ - pos)) (by omega)
        omega
      have hle : n ≤ end_ - pos := by omega
      have hl : ((file.drop pos).take n).length = n := by simp; omega
      rw [hl]
      obtain ⟨ps, h1, h2⟩ := ih (pos + n) (H.update s ((file.drop pos).take n)) (by omega) (by omega)
      refine ⟨(file.drop pos).take n :: ps, h1, ?_⟩
      rw [List.flatten_cons, h2, ← List.drop_drop]
      conv => rhs; rw [show end_ - pos = n + (end_ - (pos + n)) by omega, List.take_add]
    · rw [if_neg hlt]
      exact ⟨[], rfl, by rw [show end_ - pos = 0 by omega]; rfl⟩

/-- a successful run has read all bytes -/
theorem checksumLoop_length (H : Hasher) {short : Nat → Nat → Nat} {chunksize : Nat} (file : Bytes) {end_ : Nat} :
    ∀ (fuel pos : Nat) (s s' : H.State), pos ≤ file.length →
      checksumLoop H short chunksize file end_ fuel pos s = .ok s' → end_ ≤ file.length := by
  intro fuel
  induction fuel with
  | zero =>
    intro pos s s' hp h
    unfold checksumLoop at h
    by_cases hlt : pos < end_
    · rw [if_pos hlt] at h; cases h
    · omega
  | succ fuel ih =>
    intro pos s s' hp h
    unfold checksumLoop at h
    by_cases hlt : pos < end_
    · rw [if_pos hlt] at h
      refine ih _ _ _ ?_ h
      simp [PyFile.seek, PyFile.read]; omega
    · omega

theorem calculateChecksum_ok {H : Hasher} {md5 : Bytes → Bytes} (hH : H.Computes md5) {short : Nat → Nat → Nat}
    (hs : Delivering short) {chunksize : Nat} (hc : 0 < chunksize) {z : Zim} (hz : z.closed = false)
    (hlen : z.header.checksumPosition ≤ z.file.length) :
    calculateChecksum H short chunksize z = .ok (md5 (z.file.take z.header.checksumPosition)) := by
  obtain ⟨ps, h1, h2⟩ := checksumLoop_ok H hs hc z.file hlen z.header.checksumPosition 0 H.init (by omega) (by omega)
  unfold calculateChecksum
  rw [hz, h1]
  simp only [Bool.false_eq_true, if_false, hH.incremental, h2, List.drop_zero, Nat.sub_zero]

theorem calculateChecksum_length {H : Hasher} {short : Nat → Nat → Nat} {chunksize : Nat} {z : Zim} {b : Bytes}
    (h : calculateChecksum H short chunksize z = .ok b) :
    z.closed = false ∧ z.header.checksumPosition ≤ z.file.length := by
  unfold calculateChecksum at h
  cases hz : z.closed with
  | true => rw [hz] at h; cases h
  | false =>
    refine ⟨rfl, ?_⟩
    rw [hz] at h
    simp only [Bool.false_eq_true, if_false] at h
    cases hl : checksumLoop H short chunksize z.file z.header.checksumPosition z.header.checksumPosition 0 H.init with
    | error x => rw [hl] at h; cases h
    | ok s => exact checksumLoop_length H z.file _ _ _ _ (by omega) hl

theorem wr_take {file : Bytes} {off : Nat} {d : Bytes} (h : off ≤ file.length) : (wr file off d).take off = file.take off := by
  by_cases hd : d = []
  · subst hd; rfl
  refine List.ext_getElem? fun x => ?_
  by_cases hx : x < off
  · rw [List.getElem?_take_of_lt hx, List.getElem?_take_of_lt hx, wr_getElem? _ _ hd, if_pos hx, if_pos (by omega)]
  · rw [List.getElem?_take_eq_none (by omega), List.getElem?_take_eq_none (by omega)]

/-- a successful `update_checksum` -/
theorem updateChecksum_ok {H : Hasher} {md5 : Bytes → Bytes} (hH : H.Computes md5) {short : Nat → Nat → Nat}
    (hs : Delivering short) {chunksize : Nat} (hc : 0 < chunksize) {z z' : Zim}
    (h : updateChecksum H short chunksize z = (.ok (), z')) :
    z.closed = false ∧ z.header.checksumPosition ≤ z.file.length ∧
      z' = { z with file := wr z.file z.header.checksumPosition (md5 (z.file.take z.header.checksumPosition)) } := by
  unfold updateChecksum at h
  rw [PyM.get_bind] at h
  obtain ⟨c, s1, h1, h2⟩ := PyM.bind_ok_iff.1 h
  rw [PyM.lift_apply] at h1
  injection h1 with h1 h1'
  subst h1'
  obtain ⟨hz, hlen⟩ := calculateChecksum_length h1
  rw [calculateChecksum_ok hH hs hc hz hlen] at h1
  injection h1 with h1
  subst h1
  refine ⟨hz, hlen, ?_⟩
  rw [writeAt_ok hz] at h2
  injection h2 with _ h2
  exact h2.symm

theorem checksummed_wr {md5 : Bytes → Bytes} (hl : ∀ b, (md5 b).length = 16) {z : Zim}
    (hlen : z.header.checksumPosition ≤ z.file.length) :
    Checksummed { z with file := wr z.file z.header.checksumPosition (md5 (z.file.take z.header.checksumPosition)) } md5 := by
  refine ⟨by rw [wr_length _ _ (fun h => by have := hl (z.file.take z.header.checksumPosition); rw [h] at this; simp at this), hl]; exact Nat.le_max_right _ _, ?_⟩
  have h1 := (holds_wr z.file z.header.checksumPosition (md5 (z.file.take z.header.checksumPosition))).drop_take
  rw [hl] at h1
  exact h1.trans (by rw [wr_take hlen])

end Zim
end Pyzim
