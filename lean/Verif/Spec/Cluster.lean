import Verif.Model.Cluster
import Verif.Spec.Stream

/-!
# The cluster format (independent of the code)

A cluster is an information byte followed by a possibly compressed body. The body is a table of
offsets, one more than there are blobs, each 4 or 8 bytes little-endian and counted from the start
of the body, followed by the blobs.
-/

namespace Pyzim

/-- Offset of blob `k` in the body (of the end of the data for `k = blobs.length`). -/
def blobOffset (w : Nat) (blobs : List Bytes) (k : Nat) : Nat :=
  w * (blobs.length + 1) + ((blobs.take k).flatten).length

/-- The offset table. -/
def offsetTable (w : Nat) (blobs : List Bytes) : Bytes :=
  ((List.range (blobs.length + 1)).map fun k => leBytes w (blobOffset w blobs k)).flatten

/-- The uncompressed body of a cluster. -/
def clusterBody (w : Nat) (blobs : List Bytes) : Bytes := offsetTable w blobs ++ blobs.flatten

/-- `file` holds at position `o` a well-formed cluster with the given blobs: an information byte
announcing compression and offset width, and data that decompresses to the body. Uncompressed
clusters do not end by themselves, so the "decompressed" data may go on behind the body (`tail`). -/
structure ClusterAt {D : Type} (X : Codecs D) (file : Bytes) (o : Nat) (blobs : List Bytes) where
  ext : Bool
  comp : CompressionType
  info : UInt8
  raw : Bytes
  tail : Bytes
  d₀ : D
  R : D → Nat → Nat → Prop
  info_comp : ((info.toNat % 16 : Nat) : Int) = comp.value
  info_ext : (info.toNat / 16 % 2 = 1) ↔ ext = true
  file_eq : file.drop o = info :: raw
  new_eq : X.new comp = .ok d₀
  streams : Streams X.ops d₀ raw (clusterBody (if ext then 8 else 4) blobs ++ tail) R
  fits : blobOffset (if ext then 8 else 4) blobs blobs.length < 256 ^ (if ext then 8 else 4)

/-- Bytes `[start, min(end, size))` of a blob, everything from `start` on if there is no `end`. -/
def partOf (blob : Bytes) (start stop : Option Nat) : Bytes :=
  (blob.drop (start.getD 0)).take ((match stop with | some e => min e blob.length | none => blob.length)
    - start.getD 0)

/-- A range that starts within a blob (or right behind it) and does not end before it starts. -/
def RangeIn (blob : Bytes) (start stop : Option Nat) : Prop :=
  (∀ a b, start = some a → stop = some b → a ≤ b) ∧ ∀ a, start = some a → a ≤ blob.length

/-- The first `calls` pieces of a part of a blob, read in pieces of at most `bs` bytes: they are the beginning of the part;
it is all of it when the iteration has come to its end, which happens after at most one piece for each byte and one more. -/
def PiecesOf (part : Bytes) (bs calls : Nat) (r : PyRes (List Bytes × Bool)) : Prop :=
  ∃ cs fin, r = .ok (cs, fin) ∧ cs.flatten <+: part ∧ (∀ c ∈ cs, c.length ≤ bs) ∧ (fin = true → cs.flatten = part) ∧
    (part.length + 1 < calls → fin = true)

/-- The cluster object has `blob` as its blob `i`: its size, the whole of it and every part of it, at once or in pieces. -/
structure Cluster.Gives {D : Type} (X : Codecs D) (s : CSt D) (i : Nat) (blob : Bytes) : Prop where
  size : (Cluster.getBlobSize X i s).1 = .ok (blob.length : Int)
  whole : (Cluster.readBlob X i none none s).1 = .ok blob
  part : ∀ start stop, RangeIn blob start stop → (Cluster.readBlob X i start stop s).1 = .ok (partOf blob start stop)
  pieces : ∀ bs, 0 < bs → ∀ start stop, RangeIn blob start stop → ∀ calls,
    PiecesOf (partOf blob start stop) bs calls (Cluster.iterReadBlob X i bs start stop calls s).1

end Pyzim
