import Verif.Model.Flush

/-!
# What is expected of the hash function and of a checksum (independent of the code)
-/

namespace Pyzim

/-- The hasher computes the hash function `md5` incrementally: however the input is cut into pieces, the digest is the
hash, of 16 bytes, of all of it. -/
structure Hasher.Computes (H : Hasher) (md5 : Bytes → Bytes) : Prop where
  incremental : ∀ pieces : List Bytes, H.digest (pieces.foldl H.update H.init) = md5 pieces.flatten
  length : ∀ b, (md5 b).length = 16

/-- A read from the file may deliver less than asked for, but not nothing. -/
def Delivering (short : Nat → Nat → Nat) : Prop := ∀ pos n, 0 < n → 0 < short pos n

/-- The file contains, at the position stated in the header, the hash of all bytes before it. -/
structure Zim.Checksummed (z : Zim) (md5 : Bytes → Bytes) : Prop where
  complete : z.header.checksumPosition + 16 ≤ z.file.length
  hash : (z.file.drop z.header.checksumPosition).take 16 = md5 (z.file.take z.header.checksumPosition)

end Pyzim
