import Verif.Lemmas.Checksum
import Verif.Props.Archive

/-!
# C38: the stored checksum is correct after a flush
-/

namespace Pyzim
namespace Zim
open Archive

variable {H : Hasher} {md5 : Bytes → Bytes} {short : Nat → Nat → Nat} {chunksize : Nat}

/-- The chunk-wise calculation gives the hash of the whole prefix, for every length of the prefix and every size of the
chunks, however little each read delivers. -/
theorem C38_chunked (hH : H.Computes md5) (hs : Delivering short) (hc : 0 < chunksize) {z : Zim}
    (hz : z.closed = false) (hlen : z.header.checksumPosition ≤ z.file.length) :
    calculateChecksum H short chunksize z = .ok (md5 (z.file.take z.header.checksumPosition)) :=
  calculateChecksum_ok hH hs hc hz hlen

theorem checksumLoop_cases (H : Hasher) (short : Nat → Nat → Nat) (chunksize : Nat) (file : Bytes) (end_ : Nat) :
    ∀ (fuel pos : Nat) (s : H.State), checksumLoop H short chunksize file end_ fuel pos s = .error .hang ∨
      ∃ s', checksumLoop H short chunksize file end_ fuel pos s = .ok s' := by
  intro fuel
  induction fuel with
  | zero =>
    intro pos s
    unfold checksumLoop
    split
    · exact Or.inl rfl
    · exact Or.inr ⟨_, rfl⟩
  | succ fuel ih =>
    intro pos s
    unfold checksumLoop
    split
    · exact ih _ _
    · exact Or.inr ⟨_, rfl⟩

/-- In a file that ends before the checksum position, the calculation never ends. -/
theorem C38_short_file_hangs (H : Hasher) (short : Nat → Nat → Nat) (chunksize : Nat) {z : Zim}
    (hz : z.closed = false) (hlen : z.file.length < z.header.checksumPosition) :
    calculateChecksum H short chunksize z = .error .hang := by
  rcases checksumLoop_cases H short chunksize z.file z.header.checksumPosition z.header.checksumPosition 0 H.init
    with h | ⟨s, h⟩
  · unfold calculateChecksum
    rw [hz, h]; rfl
  · have := checksumLoop_length H z.file _ _ _ _ (by omega) h
    omega

theorem getChecksum_eq {z : Zim} (hz : z.closed = false) (h : z.Checksummed md5) :
    z.getChecksum = .ok (md5 (z.file.take z.header.checksumPosition)) := by
  unfold getChecksum
  rw [hz]
  simp only [Bool.false_eq_true, if_false, PyFile.seek, PyFile.read, h.hash]

/-- `update_checksum`: if it returns, the file has the right checksum, and nothing before it has changed. -/
theorem C38_update (hH : H.Computes md5) (hs : Delivering short) (hc : 0 < chunksize) {z z' : Zim}
    (h : updateChecksum H short chunksize z = (.ok (), z')) :
    z'.Checksummed md5 ∧ z'.header = z.header ∧
      z'.file.take z.header.checksumPosition = z.file.take z.header.checksumPosition := by
  obtain ⟨hz, hlen, rfl⟩ := updateChecksum_ok hH hs hc h
  exact ⟨checksummed_wr hH.length hlen, rfl, wr_take hlen⟩

theorem onZim_ok {α : Type} {m : PyM Zim α} {a a' : Archive} {x : α} (h : onZim m a = (.ok x, a')) :
    m a.zim = (.ok x, a'.zim) ∧ a' = { a with zim := a'.zim } := by
  unfold onZim at h
  simp only at h
  injection h with h1 h2
  subst h2
  exact ⟨by rw [← h1], rfl⟩

/-- `flush`, whatever is done to the entries and clusters: if there was anything to write and it returns, the file has
the right checksum, which is what `get_checksum` and `calculate_checksum` return. With the policy `truncate` the file ends
behind the checksum. -/
theorem C38_flush (hH : H.Computes md5) (hs : Delivering short) (hc : 0 < chunksize) {policy : FlushPolicy}
    {content : PyM Zim Unit} {setContent : Bytes → PyM Zim Unit} {a a' : Archive}
    (h : flush H short chunksize policy content setContent a = (.ok (), a')) (hd : a.isDirty = true) :
    a'.zim.Checksummed md5 ∧
      a'.zim.getChecksum = .ok (md5 (a'.zim.file.take a'.zim.header.checksumPosition)) ∧
      calculateChecksum H short chunksize a'.zim = a'.zim.getChecksum ∧
      (policy.truncate = true → a'.zim.file.length = a'.zim.header.checksumPosition + 16) := by
  unfold flush at h
  rw [PyM.get_bind] at h
  obtain ⟨⟨⟩, s1, h1, h⟩ := PyM.bind_ok_iff.1 h
  obtain rfl : s1 = a := by unfold PyM.require at h1; injection h1 with _ h1; exact h1.symm
  obtain ⟨⟨⟩, s2, h2, h⟩ := PyM.bind_ok_iff.1 h
  obtain rfl : s2 = s1 := by unfold PyM.require at h2; injection h2 with _ h2; exact h2.symm
  rw [if_pos hd] at h
  unfold flushDirty at h
  obtain ⟨⟨⟩, a1, -, h⟩ := PyM.bind_ok_iff.1 h
  obtain ⟨⟨⟩, a2, -, h⟩ := PyM.bind_ok_iff.1 h
  obtain ⟨⟨⟩, a3, -, h⟩ := PyM.bind_ok_iff.1 h
  obtain ⟨⟨⟩, a4, -, h⟩ := PyM.bind_ok_iff.1 h
  obtain ⟨⟨⟩, a5, -, h⟩ := PyM.bind_ok_iff.1 h
  obtain ⟨⟨⟩, a6, -, h⟩ := PyM.bind_ok_iff.1 h
  obtain ⟨⟨⟩, a7, h7, h⟩ := PyM.bind_ok_iff.1 h
  rw [PyM.get_bind] at h
  obtain ⟨⟨⟩, a8, h8, h⟩ := PyM.bind_ok_iff.1 h
  rw [PyM.modify_apply] at h
  injection h with _ h
  subst h
  obtain ⟨h7, -⟩ := onZim_ok h7
  obtain ⟨hz, hlen, hz7⟩ := updateChecksum_ok hH hs hc h7
  have hck := checksummed_wr (md5 := md5) hH.length hlen
  rw [← hz7] at hck
  have hcl : a7.zim.closed = false := by rw [hz7]; exact hz
  -- it is enough that the checksum is right
  have key : ∀ z : Zim, z.closed = false → z.Checksummed md5 →
      z.getChecksum = .ok (md5 (z.file.take z.header.checksumPosition)) ∧
      calculateChecksum H short chunksize z = z.getChecksum := by
    intro z hz hk
    have h1 := getChecksum_eq hz hk
    exact ⟨h1, by rw [h1]; exact calculateChecksum_ok hH hs hc hz (by have := hk.complete; omega)⟩
  cases ht : policy.truncate with
  | false =>
    rw [ht] at h8
    simp only [Bool.false_eq_true, if_false, PyM.pure_apply] at h8
    injection h8 with _ h8
    subst h8
    obtain ⟨k1, k2⟩ := key _ hcl hck
    exact ⟨hck, k1, k2, by simp⟩
  | true =>
    rw [ht] at h8
    simp only [if_true] at h8
    obtain ⟨h8, -⟩ := onZim_ok h8
    unfold truncateAt at h8
    rw [hcl] at h8
    simp only [Bool.false_eq_true, if_false] at h8
    injection h8 with _ h8
    have hle := hck.complete
    rw [Nat.sub_eq_zero_of_le hle, List.replicate_zero, List.append_nil] at h8
    have hfile : a8.zim.file = a7.zim.file.take (a7.zim.header.checksumPosition + 16) := by rw [← h8]
    have hheader : a8.zim.header = a7.zim.header := by rw [← h8]
    have hopen : a8.zim.closed = false := by rw [← h8]
    have hck' : a8.zim.Checksummed md5 := by
      constructor
      · rw [hfile, hheader]; simp; omega
      · have := hck.hash
        rw [hfile, hheader]
        simp only [List.take_take, Nat.min_eq_left (Nat.le_add_right _ 16), List.drop_take]
        rw [show a7.zim.header.checksumPosition + 16 - a7.zim.header.checksumPosition = 16 by omega, Nat.min_self]
        exact this
    obtain ⟨k1, k2⟩ := key _ hopen hck'
    refine ⟨hck', k1, k2, fun _ => ?_⟩
    show a8.zim.file.length = a8.zim.header.checksumPosition + 16
    rw [hfile, hheader]
    simp; omega

/-- `flush` of an archive without changes does nothing; in particular the checksum stays right. -/
theorem C38_clean {policy : FlushPolicy} {content : PyM Zim Unit} {setContent : Bytes → PyM Zim Unit} {a : Archive}
    (hz : a.zim.closed = false) (hm : a.zim.mutable = true) (hd : a.isDirty = false) :
    flush H short chunksize policy content setContent a = (.ok (), a) := by
  unfold flush
  rw [PyM.get_bind, hz, hm, hd]
  rfl

/-- a hash function for the examples: a mixing of the bytes into 16 bytes -/
def toyHash : Bytes → Bytes := fun b => b.foldl (fun s x => (s.drop 1) ++ [s.headD 0 * 3 + x]) (List.replicate 16 0)

theorem toyHash_step (b : Bytes) (s : Bytes) (h : s.length = 16) :
    (b.foldl (fun s x => (s.drop 1) ++ [s.headD 0 * 3 + x]) s).length = 16 := by
  induction b generalizing s with
  | nil => exact h
  | cons x b ih => exact ih _ (by simp; omega)

/-- the incremental form of the hash function -/
def toyHasher : Hasher where
  State := Bytes
  init := List.replicate 16 0
  update s b := b.foldl (fun s x => (s.drop 1) ++ [s.headD 0 * 3 + x]) s
  digest s := s

theorem toyHasher_computes : toyHasher.Computes toyHash where
  incremental bs := by
    suffices h : ∀ s : Bytes, bs.foldl toyHasher.update s =
        bs.flatten.foldl (fun (s : Bytes) x => (s.drop 1) ++ [s.headD 0 * 3 + x]) s from h _
    intro s
    induction bs generalizing s with
    | nil => rfl
    | cons b bs ih =>
      rw [List.flatten_cons, List.foldl_append]
      exact ih _
  length b := toyHash_step b _ (by simp)

/-- An archive with three entries is flushed, in chunks of at most 7 bytes of which two are missing at every odd
position. The hypotheses of `C38_flush` hold. -/
def sampleFlush : PyRes Unit × Archive :=
  flush toyHasher (fun pos n => if pos % 2 = 1 then 1 else n) 7 { truncate := true, reserveMimetypeSpace := none }
    (pure ()) (fun _ => pure ()) { zim := sample, dirty := true, mimeSize := 0, urlSize := 0, clusterSize := 0 }

example : Delivering (fun pos n => if pos % 2 = 1 then 1 else n) := by
  intro pos n hn
  dsimp only
  split <;> omega

example : sampleFlush.1 = .ok () := by decide +kernel
example : sampleFlush.2.zim.header.checksumPosition = 159 ∧ sampleFlush.2.zim.file.length = 175 ∧
    sampleFlush.2.zim.getChecksum = .ok [100, 102, 200, 252, 204, 39, 13, 247, 134, 151, 247, 0, 91, 0, 0, 0] ∧
    sampleFlush.2.isDirty = false := by decide +kernel

/-- A flush whose last step, the checksum, would read a file that is too short: it never returns. -/
example : calculateChecksum toyHasher (fun _ n => n) 7 
      { blank with header := { blank.header with checksumPosition := 81 } } =
    .error .hang := C38_short_file_hangs _ _ _ rfl (by decide)

end Zim
end Pyzim
