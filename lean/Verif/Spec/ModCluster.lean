import Verif.Model.ModCluster
import Verif.Spec.Cluster

/-!
# What is expected of blob sources and of modified clusters (independent of the code)
-/

namespace Pyzim

/-- The source delivers `content`: that is what the pieces form, however large they are asked for,
and the announced size is right. -/
structure Delivers (src : BlobSource) (content : Bytes) : Prop where
  size : src.size = content.length
  content : ∀ n, 0 < n → (src.pieces n).flatten = content
  nonempty : ∀ n, 0 < n → ∀ p ∈ src.pieces n, p ≠ []

/-- Modifications of a cluster: a blob source together with the content it delivers. -/
inductive ModOp
  | set (i : Nat) (src : BlobSource) (c : Bytes)
  | append (src : BlobSource) (c : Bytes)
  | empty (i : Nat)

/-- The sources deliver the content. -/
def ModOp.Sound : ModOp → Prop
  | .set _ src c => Delivers src c
  | .append src c => Delivers src c
  | .empty _ => True

/-- What a modification means for the list of blobs; `none`: it is refused. -/
def ModOp.apply (blobs : List Bytes) : ModOp → Option (List Bytes)
  | .set i _ c =>
    if i < blobs.length then some (blobs.set i c)
    else if i = blobs.length then some (blobs ++ [c])
    else none
  | .append _ c => some (blobs ++ [c])
  | .empty i =>
    if i < blobs.length then some (blobs.set i [])
    else if i = blobs.length then some (blobs ++ [[]])
    else none

/-- The corresponding call. -/
def ModOp.exec {D : Type} (X : Codecs D) : ModOp → PyM (MCluster D) Unit
  | .set i src _ => MCluster.setBlob X i src
  | .append src _ => do
    let _ ← MCluster.appendBlob X src
    pure ()
  | .empty i => MCluster.emptyBlob X i

/-- To its users the cluster is this list of blobs: their number, their sizes and their contents. -/
structure Shows {D : Type} (X : Codecs D) (blobs : List Bytes) (m : MCluster D) : Prop where
  number : (MCluster.getNumberOfBlobs X m).1 = .ok (blobs.length : Int)
  size : ∀ i (hi : i < blobs.length), (MCluster.getBlobSize X i m).1 = .ok (blobs[i].length : Int)
  read : ∀ i (hi : i < blobs.length), (MCluster.readBlob X i none none m).1 = .ok blobs[i]
  beyond : ∀ i, blobs.length ≤ i → (MCluster.getBlobSize X i m).1 = .error .blobNotFound ∧
    (MCluster.readBlob X i none none m).1 = .error .blobNotFound

/-- Compressing the chunks one after the other with a compressor in state `k` and flushing it at the
end produces the bytes `out`. -/
inductive Compresses {K : Type} (C : Compressors K) : K → List Bytes → Bytes → Prop
  | flush {k : K} {out : Bytes} : C.flush k = .ok out → Compresses C k [] out
  | chunk {k k' : K} {c o out : Bytes} {cs : List Bytes} : C.compress k c = (.ok o, k') →
      Compresses C k' cs out → Compresses C k (c :: cs) (o ++ out)

/-- A compressor and a decompressor fit: whatever chunks were compressed, the output, followed by any
other data, is a stream of their concatenation. `tail` is what is delivered behind it (everything
that follows, if the format does not know its end; nothing otherwise). -/
def Lossless {D K : Type} (X : Codecs D) (C : Compressors K) (t : CompressionType) : Prop :=
  ∀ k, C.new t = .ok k → ∀ chunks out, Compresses C k chunks out →
    ∀ rest : Bytes, rest ≠ [] → ∃ d₀ tail R, X.new t = .ok d₀ ∧
      Streams X.ops d₀ (out ++ rest) (chunks.flatten ++ tail) R

/-- A compressor and a decompressor fit, and the compressed data can be replaced: the decompressor knows the end of the
data, whatever follows (also if nothing does), and reports what follows as unused; what the compressor makes of the data does
not depend on the pieces it is given. -/
structure Sealed {D K : Type} (X : Codecs D) (C : Compressors K) (t : CompressionType) : Prop where
  streams : ∀ k, C.new t = .ok k → ∀ chunks out, Compresses C k chunks out → ∀ rest : Bytes, ∃ d₀ R, X.new t = .ok d₀ ∧
    Streams X.ops d₀ (out ++ rest) chunks.flatten R ∧ Closed X.ops (out ++ rest) R ∧ Occupies X.ops (out ++ rest) R out.length
  works : ∀ k, C.new t = .ok k → ∀ chunks, ∃ out, Compresses C k chunks out
  even : ∀ k, C.new t = .ok k → ∀ chunks chunks' out out', Compresses C k chunks out → Compresses C k chunks' out' →
    chunks.flatten = chunks'.flatten → out = out'

/-- Data of uncompressed clusters is stored as it is: "compressing" delivers the chunks, "decompressing" delivers the
data, up to the end of the file. -/
structure Passthrough {D K : Type} (X : Codecs D) (C : Compressors K) : Prop where
  works : ∀ k, C.new .none = .ok k → ∀ chunks, ∃ out, Compresses C k chunks out
  same : ∀ k, C.new .none = .ok k → ∀ chunks out, Compresses C k chunks out → out = chunks.flatten
  reads : ∀ raw, ∃ d₀ R, X.new .none = .ok d₀ ∧ Streams X.ops d₀ raw raw R

/-- Clusters can be replaced: uncompressed data is stored as it is, and other compressed data knows its end. -/
structure Replaceable {D K : Type} (X : Codecs D) (C : Compressors K) : Prop where
  plain : Passthrough X C
  other : ∀ t, t ≠ .none → Sealed X C t

/-- The bytes of an uncompressed cluster. -/
def plainBytes (ext : Bool) (blobs : List Bytes) : Bytes :=
  (if ext then 0x11 else 0x01) :: clusterBody (if ext then 8 else 4) blobs

/-- The offsets fit. -/
def PlainFits (ext : Bool) (blobs : List Bytes) : Prop :=
  blobOffset (if ext then 8 else 4) blobs blobs.length < 256 ^ (if ext then 8 else 4)

end Pyzim
