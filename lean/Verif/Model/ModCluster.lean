import Verif.Model.Cluster
import Verif.Model.Blob

/-!
# Model of `ModifiableClusterWrapper` and `EmptyCluster` of `pyzim/cluster.py`

The wrapper and the cluster it wraps are one state. Indexes are natural numbers (`set_blob` and
`remove_blob` do not refuse all negative ones; that is not modelled). Dictionaries are association
lists with at most one pair per key.
-/

namespace Pyzim

/-- Compressor objects (external): `compress(chunk)` and `flush()`; `pyzim/compression.py:78-82`,
`436-469`. -/
structure Compressors (K : Type) where
  new : CompressionType → PyRes K
  compress : K → Bytes → PyRes Bytes × K
  flush : K → PyRes Bytes

/-- The wrapped cluster: an `EmptyCluster` or a cluster in a file; `pyzim/cluster.py:642-710`. The
attributes of an `EmptyCluster` are constant: `NONE`, not extended. -/
inductive Inner (D : Type)
  | empty
  | real (s : CSt D)

/-- State of a `ModifiableClusterWrapper`; `pyzim/cluster.py:739-761`. -/
structure MCluster (D : Type) where
  inner : Inner D
  blobs : List (Nat × BlobSource) := []
  added : List Nat := []
  removed : List Nat := []
  forceExt : Option Bool := none
  forceComp : Option CompressionType := none
  bound : Bool := true
  isMutable : Bool := true
  dirty : Bool := false

namespace MCluster
variable {D : Type} (X : Codecs D)

/-- `d[i] = x` on the dictionary. -/
def dictSet (i : Nat) (x : BlobSource) : List (Nat × BlobSource) → List (Nat × BlobSource)
  | [] => [(i, x)]
  | (j, y) :: rest => if j = i then (i, x) :: rest else (j, y) :: dictSet i x rest

/-- Insert into a sorted list (`append` followed by `sort`; `pyzim/cluster.py:902-903`). -/
def insertSorted (i : Nat) : List Nat → List Nat
  | [] => [i]
  | j :: rest => if i ≤ j then i :: j :: rest else j :: insertSorted i rest

/-- `_has_modifications`; `pyzim/cluster.py:784-792`. -/
def hasModifications (m : MCluster D) : Bool :=
  !m.blobs.isEmpty || !m.added.isEmpty || !m.removed.isEmpty

/-- `_adjust_index`; `pyzim/cluster.py:794-819`. -/
def adjustIndex (removed : List Nat) (i : Nat) : Nat :=
  removed.foldl (fun i r => if r ≤ i then i + 1 else i) i

/-- Call a method of the wrapped cluster; `e` is what an `EmptyCluster` answers. -/
def onInner {α : Type} (g : PyM (CSt D) α) (e : PyRes α) : PyM (MCluster D) α := fun m =>
  match m.inner with
  | .empty => (e, m)
  | .real s => let (x, s) := g s; (x, { m with inner := .real s })

/-- `self._cluster.get_number_of_blobs()`; `pyzim/cluster.py:319-329`, `677-678`. -/
def innerNumBlobs : PyM (MCluster D) Int := onInner (Cluster.getNumberOfBlobs X) (.ok 0)

/-- `self._cluster.get_blob_size(i)`; `pyzim/cluster.py:408-426`, `661-663`. -/
def innerBlobSize (i : Nat) : PyM (MCluster D) Int :=
  onInner (Cluster.getBlobSize X i) (.error .blobNotFound)

/-- `self._cluster.read_blob(i, start, end)`; `pyzim/cluster.py:428-470`, `701-703`. -/
def innerReadBlob (i : Nat) (start stop : Option Nat) : PyM (MCluster D) Bytes :=
  onInner (Cluster.readBlob X i start stop) (.error .blobNotFound)

/-- `self._cluster.iter_read_blob(...)`; `pyzim/cluster.py:472-518`, `696-699`. -/
def innerIterReadBlob (i bs : Nat) (start stop : Option Nat) (calls : Nat) :
    PyM (MCluster D) (List Bytes × Bool) :=
  onInner (Cluster.iterReadBlob X i bs start stop calls)
    (if calls = 0 then .ok ([], false) else .error .blobNotFound)

/-- `read_infobyte_if_needed` of the wrapper and of the wrapped cluster;
`pyzim/cluster.py:144-150`, `709-711`, `1154-1166`. -/
def readInfobyteIfNeeded : PyM (MCluster D) Unit := onInner Cluster.readInfobyteIfNeeded (.ok ())

/-- `self._cluster.is_extended`. -/
def innerIsExtended (m : MCluster D) : Option Bool :=
  match m.inner with | .empty => some false | .real s => s.c.isExtended

/-- `self._cluster.compression`. -/
def innerCompression (m : MCluster D) : Option CompressionType :=
  match m.inner with | .empty => some .none | .real s => s.c.compression

/-- `compression`; `pyzim/cluster.py:1121-1131`. -/
def compression (m : MCluster D) : Option CompressionType :=
  match m.forceComp with | some t => some t | none => m.innerCompression

/-- Setting `compression` to a compression type or `None`; `pyzim/cluster.py:1133-1152`. -/
def setCompression (t : Option CompressionType) (m : MCluster D) : MCluster D :=
  { m with forceComp := t, dirty := m.dirty || t.isSome }

/-- Setting `is_extended`; `pyzim/cluster.py:1087-1098`. -/
def setExtended (e : Option Bool) (m : MCluster D) : MCluster D := { m with forceExt := e }

/-- `get_number_of_offsets`; `pyzim/cluster.py:1196-1206`. -/
def getNumberOfOffsets : PyM (MCluster D) Int := do
  let n ← innerNumBlobs X
  let m ← PyM.get
  pure (n - m.removed.length + m.added.length + 1)

/-- `get_number_of_blobs` (inherited); `pyzim/cluster.py:319-329`. -/
def getNumberOfBlobs : PyM (MCluster D) Int := do
  let n ← getNumberOfOffsets X
  pure (n - 1)

/-- `get_blob_size`; `pyzim/cluster.py:1168-1176`. -/
def getBlobSize (i : Nat) : PyM (MCluster D) Int := do
  let m ← PyM.get
  match m.blobs.lookup i with
  | some src => pure src.size
  | none => innerBlobSize X (adjustIndex m.removed i)

/-- The sizes of the given blobs, one after the other. -/
def sizesLoop : List Nat → PyM (MCluster D) (List Int)
  | [] => pure []
  | i :: rest => do
    let s ← getBlobSize X i
    let l ← sizesLoop rest
    pure (s :: l)

/-- `_iter_blob_sizes`; `pyzim/cluster.py:1021-1035`. -/
def blobSizes : PyM (MCluster D) (List Int) := do
  let n ← getNumberOfBlobs X
  sizesLoop X (List.range n.toNat)

/-- `is_extended`; `pyzim/cluster.py:1051-1085`. -/
def isExtended : PyM (MCluster D) (Option Bool) := do
  let m ← PyM.get
  match m.forceExt with
  | some b => pure (some b)
  | none =>
    if m.hasModifications = false then pure m.innerIsExtended
    else do
      readInfobyteIfNeeded
      let n ← getNumberOfOffsets X
      let sizes ← blobSizes X
      pure (some (decide (2 ^ 32 ≤ 4 * n + sizes.sum)))

/-- `struct.calcsize(self._pointer_format)`; `pyzim/cluster.py:81-96`. The code evaluates
`is_extended` twice, with the same result. -/
def pointerSize : PyM (MCluster D) Nat := do
  let e ← isExtended X
  match e with
  | none => PyM.raise .runtimeError
  | some true => pure 8
  | some false => pure 4

/-- `get_content_size`; `pyzim/cluster.py:1178-1191`. -/
def getContentSize : PyM (MCluster D) Int := do
  let sizes ← blobSizes X
  pure sizes.sum

/-- `get_total_offset_size`; `pyzim/cluster.py:1218-1222`. -/
def getTotalOffsetSize : PyM (MCluster D) Int := do
  let m ← PyM.get
  PyM.require m.bound .bindRequired
  let w ← pointerSize X
  let n ← getNumberOfOffsets X
  pure (w * n)

/-- `get_total_decompressed_size`; `pyzim/cluster.py:1193-1194`. -/
def getTotalDecompressedSize : PyM (MCluster D) Int := do
  let a ← getTotalOffsetSize X
  let b ← getContentSize X
  pure (a + b)

/-- The loop of `iter_blob_offsets` over the given indexes; `pyzim/cluster.py:1248-1264`. With
`first` the consumer stops at the first offset (`get_offset`). -/
def offsetsLoop (numbers : Option (List Nat)) (first : Bool) (numOffsets : Int) :
    List Nat → Int → PyM (MCluster D) (List Int)
  | [], _ => pure []
  | i :: rest, cur => do
    let hit := match numbers with | none => true | some ns => ns.contains i
    if hit && first then pure [cur]
    else do
      let tail ←
        if (i : Int) = numOffsets - 1 then pure []
        else do
          let size ← getBlobSize X i
          offsetsLoop numbers first numOffsets rest (cur + size)
      pure (if hit then cur :: tail else tail)

/-- `iter_blob_offsets`; `pyzim/cluster.py:1224-1264`. -/
def iterBlobOffsets (numbers : Option (List Nat)) (first : Bool) : PyM (MCluster D) (List Int) := do
  let m ← PyM.get
  PyM.require m.bound .bindRequired
  let start ← getTotalOffsetSize X
  let n ← getNumberOfOffsets X
  let last : Int := match numbers with
    | none => n
    | some [] => -1
    | some (a :: l) => ((l.foldl max a : Nat) : Int)
  offsetsLoop X numbers first n (List.range (last + 1).toNat) start

/-- `get_offset`; `pyzim/cluster.py:1208-1216`. -/
def getOffset (i : Nat) : PyM (MCluster D) Int := do
  let m ← PyM.get
  PyM.require m.bound .bindRequired
  let l ← iterBlobOffsets X (some [i]) true
  match l with
  | o :: _ => pure o
  | [] => PyM.raise .indexError

/-- `read_blob`; `pyzim/cluster.py:1266-1284`. -/
def readBlob (i : Nat) (start stop : Option Nat) : PyM (MCluster D) Bytes := do
  let m ← PyM.get
  match m.blobs.lookup i with
  | some src =>
    let data := (src.pieces 8192).flatten
    pure (pySlice data ((start.getD 0 : Nat) : Int) ((stop.getD data.length : Nat) : Int))
  | none => innerReadBlob X (adjustIndex m.removed i) start stop

/-- The chunks yielded by the loop of `iter_read_blob` for a modified blob;
`pyzim/cluster.py:1295-1310`. -/
def rangeChunks (start stop : Nat) : List Bytes → Nat → List Bytes
  | [], _ => []
  | r :: rest, cur =>
    let tail := rangeChunks start stop rest (cur + r.length)
    if cur + r.length < start then tail
    else if stop ≤ cur then tail
    else pySlice r ((max 0 ((start : Int) - cur))) ((min (r.length : Int) ((stop : Int) - cur))) :: tail

/-- `iter_read_blob`, for the first `calls` calls of `next`; `pyzim/cluster.py:1286-1313`. -/
def iterReadBlob (i bs : Nat) (start stop : Option Nat) (calls : Nat) :
    PyM (MCluster D) (List Bytes × Bool) := do
  let m ← PyM.get
  match m.blobs.lookup i with
  | some src =>
    let ys := rangeChunks (start.getD 0) (stop.getD src.size) (src.pieces bs) 0
    pure (ys.take calls, decide (ys.length < calls))
  | none => innerIterReadBlob X (adjustIndex m.removed i) bs start stop calls

/-- `set_blob`; `pyzim/cluster.py:934-956`. -/
def setBlob (i : Nat) (src : BlobSource) : PyM (MCluster D) Unit := do
  let n ← getNumberOfBlobs X
  PyM.require (decide ((i : Int) ≤ n)) .assertionError
  let m ← PyM.get
  PyM.require m.isMutable .nonMutable
  PyM.modify fun m =>
    { m with
      removed := m.removed.erase i
      added := if (i : Int) = n then m.added ++ [i] else m.added
      blobs := dictSet i src m.blobs
      dirty := true }

/-- `empty_blob`; `pyzim/cluster.py:916-932`. -/
def emptyBlob (i : Nat) : PyM (MCluster D) Unit := do
  let m ← PyM.get
  PyM.require m.isMutable .nonMutable
  setBlob X i BlobSourceObj.empty.toSource

/-- `append_blob`; `pyzim/cluster.py:958-972`. -/
def appendBlob (src : BlobSource) : PyM (MCluster D) Int := do
  let m ← PyM.get
  PyM.require m.isMutable .nonMutable
  let n ← getNumberOfBlobs X
  setBlob X n.toNat src
  pure n

/-- `remove_blob`; `pyzim/cluster.py:881-914`. -/
def removeBlob (i : Nat) : PyM (MCluster D) Unit := do
  let m ← PyM.get
  PyM.require m.isMutable .nonMutable
  PyM.modify fun m =>
    let i := adjustIndex m.removed i
    { m with
      removed := if m.added.contains i then m.removed else insertSorted i m.removed
      added := m.added.erase i
      blobs := (m.blobs.filter (fun p => p.1 != i)).map
        (fun p => (if i < p.1 then p.1 - 1 else p.1, p.2))
      dirty := true }

/-- `reset`; `pyzim/cluster.py:763-778`. -/
def reset (m : MCluster D) : MCluster D :=
  match m.inner with
  | .empty => m
  | .real s =>
    { m with inner := .real { s with c := s.c.reset }
             forceExt := none, forceComp := none, blobs := [], added := [], removed := [] }

/-- The loop of `_iter_write_raw` that packs the offsets of the given blobs, and the last offset;
`pyzim/cluster.py:999-1004`. -/
def packOffsetsLoop : List Nat → Int → PyM (MCluster D) Bytes
  | [], cur => do
    let w ← pointerSize X
    PyM.lift (packUInt w cur)
  | i :: rest, cur => do
    let size ← getBlobSize X i
    let w ← pointerSize X
    let a ← PyM.lift (packUInt w cur)
    let b ← packOffsetsLoop rest (cur + size)
    pure (a ++ b)

/-- The second loop of `_iter_write_raw`: the data of the given blobs; `pyzim/cluster.py:1006-1019`. -/
def dataLoop : List Nat → PyM (MCluster D) (List Bytes)
  | [] => pure []
  | i :: rest => do
    let m ← PyM.get
    let cs ← match m.blobs.lookup i with
      | some src => pure (src.pieces 8192)
      | none => do
        let b ← innerReadBlob X (adjustIndex m.removed i) none none
        pure [b]
    let tail ← dataLoop rest
    pure (cs ++ tail)

/-- `_iter_write_raw`; `pyzim/cluster.py:989-1019`. -/
def iterWriteRaw : PyM (MCluster D) (List Bytes) := do
  let total ← getTotalOffsetSize X
  let n ← getNumberOfBlobs X
  let table ← packOffsetsLoop X (List.range n.toNat) total
  let n ← getNumberOfBlobs X
  let cs ← dataLoop X (List.range n.toNat)
  pure (table :: cs)

/-- `compressor.compress` of the chunks in turn, then `flush`; `pyzim/cluster.py:983-987`. -/
def compressAll {K : Type} (C : Compressors K) : K → List Bytes → PyRes (List Bytes)
  | k, [] => do
    let f ← C.flush k
    pure [f]
  | k, c :: cs =>
    match C.compress k c with
    | (.error e, _) => .error e
    | (.ok out, k) => do
      let rest ← compressAll C k cs
      pure (out :: rest)

/-- `iter_write`, run to its end; `pyzim/cluster.py:974-987`. -/
def iterWrite {K : Type} (C : Compressors K) : PyM (MCluster D) (List Bytes) := do
  readInfobyteIfNeeded
  let e ← isExtended X
  let m ← PyM.get
  let t ← PyM.lift (match m.compression with | some t => .ok t | none => .error .attributeError)
  let info ← PyM.lift (Cluster.generateInfobyte t (e.getD false))
  let k ← PyM.lift (C.new t)
  let raw ← iterWriteRaw X
  let out ← PyM.lift (compressAll C k raw)
  pure (info :: out)

/-- `get_disk_size`; `pyzim/cluster.py:1324-1329`. -/
def getDiskSize {K : Type} (C : Compressors K) : PyM (MCluster D) Nat := do
  let cs ← iterWrite X C
  pure ((cs.map List.length).sum)

end MCluster
end Pyzim
