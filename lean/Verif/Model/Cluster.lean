import Verif.Model.Compression

/-!
# Model of the readable clusters of `pyzim/cluster.py`

`Cluster`, `OffsetRememberingCluster` and `InMemoryCluster` are one state with a `kind`, the
overridden methods dispatch on it. The file obtained with `zim.acquire_file()` is part of the
state; its position is arbitrary at the start of every call, since other code uses the same file.
That the archive is open is assumed (`acquire_file` raises otherwise). Generators that are only ever
consumed as a whole by the code (`iter_blob_offsets`) return the list of what they yield;
`iter_read_blob` is modelled as consumed by a number of `next` calls. Arguments checked by `assert`
to be non-negative are natural numbers.
-/

namespace Pyzim

/-- The registered compression interfaces: for every compression type a new decompressor, or
`UnsupportedCompressionType` if none is registered; `pyzim/compression.py:127-228`,
`pyzim/cluster.py:177-188`. -/
structure Codecs (D : Type) where
  ops : Decomp D
  new : CompressionType → PyRes D

/-- Which cluster class. -/
inductive ClusterKind
  | onDisk        -- `Cluster`
  | remembering   -- `OffsetRememberingCluster`
  | inMemory      -- `InMemoryCluster`
deriving DecidableEq, Repr

/-- State of a cluster; `pyzim/cluster.py:32-52`, `529-531`, `561-563`. -/
structure Cluster (D : Type) where
  kind : ClusterKind
  bound : Bool := true
  offset : Nat
  compression : Option CompressionType := none
  isExtended : Option Bool := none
  reader : Option (DReader D) := none
  offsets : Option (List Nat) := none
  data : Option Bytes := none

/-- The cluster and the file it is read from. -/
structure CSt (D : Type) where
  c : Cluster D
  f : PyFile

namespace Cluster

/-- `reset`; `pyzim/cluster.py:54-60`, `533-535`, `565-567`. The decompressing reader is kept. -/
def reset {D : Type} (c : Cluster D) : Cluster D :=
  { c with compression := none, isExtended := none
           offsets := if c.kind = .onDisk then c.offsets else none
           data := if c.kind = .inMemory then none else c.data }

/-- `parse_infobyte`; `pyzim/cluster.py:115-132`. -/
def parseInfobyte {D : Type} (b : UInt8) (c : Cluster D) : PyRes Unit × Cluster D :=
  let asInt := b.toNat
  let lower := asInt &&& 0b1111
  let higher := asInt >>> 4
  match CompressionType.ofValue lower with
  | .error _ => (.error .unsupportedCompression, c)
  | .ok t => (.ok (), { c with compression := some t, isExtended := some (higher &&& 1 == 1) })

/-- `generate_infobyte` for the given attributes; `pyzim/cluster.py:152-162`. `chr` raises
`ValueError` for negative numbers, the ASCII encoding fails from 128 on. -/
def generateInfobyte (compression : CompressionType) (isExtended : Bool) : PyRes Bytes :=
  let higher : Int := if isExtended then 1 else 0
  let value : Int := higher * 16 + compression.value
  if value < 0 then .error .valueError
  else if 128 ≤ value then .error .unicodeError
  else .ok [UInt8.ofNat value.toNat]

/-- `struct.calcsize(self._pointer_format)`; `pyzim/cluster.py:81-96`. -/
def pointerSize {D : Type} (c : Cluster D) : PyRes Nat :=
  match c.isExtended with
  | none => .error .runtimeError
  | some true => .ok 8
  | some false => .ok 4

variable {D : Type} (X : Codecs D)

/-- `read_infobyte`; `pyzim/cluster.py:98-113` (with `_seek_if_needed`, `62-79`). -/
def readInfobyte : PyM (CSt D) UInt8 := fun s =>
  if s.c.bound = false then (.error .bindRequired, s)
  else
    let f := s.f.seek s.c.offset
    match f.read 1 with
    | ([], f) => (.error .ioError, { s with f := f })
    | (b :: _, f) => (.ok b, { s with f := f })

/-- `did_read_infobyte`; `pyzim/cluster.py:134-142`. -/
def didReadInfobyte (c : Cluster D) : Bool := c.compression.isSome && c.isExtended.isSome

/-- `read_infobyte_if_needed`; `pyzim/cluster.py:144-150`. -/
def readInfobyteIfNeeded : PyM (CSt D) Unit := do
  let s ← PyM.get
  if s.c.didReadInfobyte then pure ()
  else do
    let b ← readInfobyte
    PyM.of fun s => let (x, c) := s.c.parseInfobyte b; (x, { s with c := c })

/-- Use the reader of the cluster (there is one after `openReader`). -/
def withReader {α : Type} (g : DReader D → PyFile → PyRes α × DReader D × PyFile) :
    PyM (CSt D) α := fun s =>
  match s.c.reader with
  | none => (.error .attributeError, s)
  | some r => let (x, r, f) := g r s.f; (x, { c := { s.c with reader := some r }, f := f })

/-- Entering `_get_decompressing_reader(offset)`; `pyzim/cluster.py:190-226`. The reader that is
yielded is the one stored in the cluster. -/
def openReader (offset : Nat) : PyM (CSt D) Unit := do
  let s ← PyM.get
  PyM.require s.c.bound .bindRequired
  readInfobyteIfNeeded
  let s ← PyM.get
  let reuse := match s.c.reader with
    | none => false
    | some r => decide (r.readDecompressed ≤ offset)
  if reuse then do
    withReader fun r f => (.ok (), r, r.reseek (s.c.offset + 1) f)
    withReader (DReader.skipTo X.ops offset)
  else do
    PyM.modify fun s => { s with f := s.f.seek (s.c.offset + 1) }
    let comp ← PyM.lift (match s.c.compression with | some t => .ok t | none => .error .attributeError)
    let d ← PyM.lift (X.new comp)
    PyM.modify fun s => { s with c := { s.c with reader := some { dec := d } } }
    withReader (DReader.skipTo X.ops offset)

/-- Read one offset from the reader; `pyzim/cluster.py:266-268`. -/
def readPointer (w : Nat) : PyM (CSt D) Nat := do
  let raw ← withReader (DReader.readN X.ops w)
  if raw.length = w then pure (leNat raw) else PyM.raise .structError

/-- The `while` loop of `iter_blob_offsets` from the second iteration on;
`pyzim/cluster.py:262-279`. `number` is `offset_number`; `n_bytes_read` is `w * number`, since a
short read raises. Every iteration advances it, so `first_offset` iterations are enough. -/
def offsetsLoop (numbers : Option (List Nat)) (w first : Nat) : (fuel : Nat) → (number : Nat) →
    (acc : List Nat) → PyM (CSt D) (List Nat)
  | 0, _, acc => pure acc
  | fuel + 1, number, acc =>
    if w * number + 1 ≤ first ∧ (∀ l, numbers = some l → number ≤ l.max?.getD 0) then do
      let o ← readPointer X w
      let want := match numbers with | none => true | some l => l.contains number
      offsetsLoop numbers w first fuel (number + 1) (if want then acc ++ [o] else acc)
    else pure acc

/-- `Cluster.iter_blob_offsets`, consumed completely; `pyzim/cluster.py:228-279`. -/
def iterBlobOffsetsDisk (numbers : Option (List Nat)) : PyM (CSt D) (List Nat) := do
  let s ← PyM.get
  PyM.require s.c.bound .bindRequired
  readInfobyteIfNeeded
  let s ← PyM.get
  let w ← PyM.lift s.c.pointerSize
  if numbers = some [] then pure []
  else do
    openReader X 0
    let first ← readPointer X w
    let want := match numbers with | none => true | some l => l.contains 0
    offsetsLoop X numbers w first first 1 (if want then [first] else [])

/-- `_read_offsets_if_needed`; `pyzim/cluster.py:537-544`. -/
def readOffsetsIfNeeded : PyM (CSt D) (List Nat) := do
  let s ← PyM.get
  match s.c.offsets with
  | some l => pure l
  | none => do
    let l ← iterBlobOffsetsDisk X none
    PyM.modify fun s => { s with c := { s.c with offsets := some l } }
    pure l

/-- `enumerate(offsets)` filtered by number; `pyzim/cluster.py:549-553`. -/
def filterNumbers (numbers : Option (List Nat)) (l : List Nat) : List Nat :=
  match numbers with
  | none => l
  | some ns => (l.zipIdx.filter fun p => ns.contains p.2).map (·.1)

/-- `iter_blob_offsets`, consumed completely; `pyzim/cluster.py:228-279`, `546-553`. -/
def iterBlobOffsets (numbers : Option (List Nat)) : PyM (CSt D) (List Nat) := do
  let s ← PyM.get
  match s.c.kind with
  | .onDisk => iterBlobOffsetsDisk X numbers
  | _ => do
    let l ← readOffsetsIfNeeded X
    pure (filterNumbers numbers l)

/-- `get_offset`; `pyzim/cluster.py:281-300`. The generator is abandoned after its first value; for
`blob_numbers = (i,)` it would do nothing more anyway. -/
def getOffset (i : Int) : PyM (CSt D) Nat := do
  let s ← PyM.get
  PyM.require s.c.bound .bindRequired
  if i < 0 then PyM.raise .indexError
  else do
    let l ← iterBlobOffsets X (some [i.toNat])
    match l with
    | o :: _ => pure o
    | [] => PyM.raise .indexError

/-- `get_number_of_offsets`; `pyzim/cluster.py:302-317`. -/
def getNumberOfOffsets : PyM (CSt D) Nat := do
  let s ← PyM.get
  PyM.require s.c.bound .bindRequired
  let o ← getOffset X 0
  let s ← PyM.get
  let w ← PyM.lift s.c.pointerSize
  pure (o / w)

/-- `get_number_of_blobs`; `pyzim/cluster.py:319-329`. -/
def getNumberOfBlobs : PyM (CSt D) Int := do
  let n ← getNumberOfOffsets X
  pure (n - 1)

/-- `get_content_size`; `pyzim/cluster.py:331-348`. -/
def getContentSize : PyM (CSt D) Int := do
  let s ← PyM.get
  PyM.require s.c.bound .bindRequired
  let o1 ← getOffset X 0
  let n ← getNumberOfOffsets X
  let ol ← getOffset X (n - 1)
  pure (ol - o1)

/-- `get_total_decompressed_size`; `pyzim/cluster.py:350-366`. -/
def getTotalDecompressedSize : PyM (CSt D) Nat := do
  let s ← PyM.get
  PyM.require s.c.bound .bindRequired
  let n ← getNumberOfOffsets X
  getOffset X (n - 1)

/-- `get_total_offset_size`; `pyzim/cluster.py:368-375`. -/
def getTotalOffsetSize : PyM (CSt D) Nat := do
  let n ← getNumberOfOffsets X
  let s ← PyM.get
  let w ← PyM.lift s.c.pointerSize
  pure (n * w)

/-- `get_total_compressed_size`; `pyzim/cluster.py:377-406`. `calls` bounds the number of chunks read
by the `for` loop over `reader.iter_read()`; an iteration that has not come to its end after `calls`
chunks is rendered as `runtimeError` (see `C57_total_compressed_size`: it does not happen when
`calls` exceeds the decompressed size). -/
def getTotalCompressedSize (calls : Nat) : PyM (CSt D) Int := do
  let s ← PyM.get
  PyM.require s.c.bound .bindRequired
  readInfobyteIfNeeded
  let s ← PyM.get
  if s.c.compression = some .none then do
    let n ← getTotalDecompressedSize X
    pure (n + 1)
  else do
    openReader X 0
    let (_, fin) ← withReader (DReader.iterRead X.ops (-1) 4096 calls 0)
    PyM.require fin .runtimeError
    let n ← withReader fun r f => let (x, r) := r.totalCompressedSize X.ops; (x, r, f)
    pure (n + 1)

/-- `get_blob_size`; `pyzim/cluster.py:408-426`. -/
def getBlobSize (i : Nat) : PyM (CSt D) Int := do
  let s ← PyM.get
  PyM.require s.c.bound .bindRequired
  let l ← iterBlobOffsets X (some [i, i + 1])
  match l with
  | a :: b :: _ => pure ((b : Int) - a)
  | _ => PyM.raise .blobNotFound

/-- The range computed from the two offsets of a blob and the requested part;
`pyzim/cluster.py:461-468`, `508-516`. `none`: the early exit with an empty result. -/
def blobRange (a b : Nat) (start stop : Option Nat) : Option (Nat × Int) :=
  let early := match start, stop with
    | some s, some e => decide (b ≤ s) || decide (s = e)
    | _, _ => false
  if early then none
  else
    let rs := a + start.getD 0
    let re := match stop with | some e => min (a + e) b | none => b
    some (rs, (re : Int) - rs)

/-- The argument checks of `read_blob`: `end >= start`; `pyzim/cluster.py:450-453`. -/
def rangeOk (start stop : Option Nat) : Bool :=
  match start, stop with
  | some s, some e => decide (s ≤ e)
  | _, _ => true

/-- `_read_if_needed` of `InMemoryCluster`; `pyzim/cluster.py:569-591`. -/
def readIfNeeded : PyM (CSt D) Unit := do
  let s ← PyM.get
  PyM.require s.c.bound .bindRequired
  match s.c.data with
  | some _ => pure ()
  | none => do
    readInfobyteIfNeeded
    let _ ← readOffsetsIfNeeded X
    let n ← getContentSize X
    let o ← getOffset X 0
    openReader X o
    let d ← withReader (DReader.readN X.ops n)
    PyM.modify fun s => { s with c := { s.c with data := some d } }

/-- `InMemoryCluster.read_blob`; `pyzim/cluster.py:593-611`. -/
def readBlobMem (i : Nat) (start stop : Option Nat) : PyM (CSt D) Bytes := do
  let s ← PyM.get
  PyM.require s.c.bound .bindRequired
  readIfNeeded X
  let l ← iterBlobOffsets X (some [i, i + 1])
  match l with
  | a :: b :: _ =>
    match blobRange a b start stop with
    | none => pure []
    | some (rs, size) => do
      let corr ← getTotalOffsetSize X
      let s ← PyM.get
      pure (pySlice (s.c.data.getD []) ((rs : Int) - corr) ((rs : Int) + size - corr))
  | _ => PyM.raise .blobNotFound

/-- `Cluster.read_blob`; `pyzim/cluster.py:428-470`. -/
def readBlobDisk (i : Nat) (start stop : Option Nat) : PyM (CSt D) Bytes := do
  PyM.require (rangeOk start stop) .assertionError
  let s ← PyM.get
  PyM.require s.c.bound .bindRequired
  let l ← iterBlobOffsets X (some [i, i + 1])
  match l with
  | a :: b :: _ =>
    match blobRange a b start stop with
    | none => pure []
    | some (rs, size) => do
      openReader X rs
      withReader (DReader.readN X.ops size)
  | _ => PyM.raise .blobNotFound

/-- `read_blob`; `pyzim/cluster.py:428-470`, `593-611`. -/
def readBlob (i : Nat) (start stop : Option Nat) : PyM (CSt D) Bytes := do
  let s ← PyM.get
  match s.c.kind with
  | .inMemory => readBlobMem X i start stop
  | _ => readBlobDisk X i start stop

/-- The slices `_data[cur:cur+buffersize]` yielded by `InMemoryCluster.iter_read_blob`, for the
first `calls` calls of `next`; `pyzim/cluster.py:635-639`. -/
def memChunks (d : Bytes) (buffersize : Nat) (stop : Int) : (calls : Nat) → (cur : Int) →
    List Bytes × Bool
  | 0, _ => ([], false)
  | calls + 1, cur =>
    if cur < stop then
      let curEnd := min (cur + buffersize) stop
      let (cs, fin) := memChunks d buffersize stop calls curEnd
      (pySlice d cur curEnd :: cs, fin)
    else ([], true)

/-- `InMemoryCluster.iter_read_blob`; `pyzim/cluster.py:613-639`. -/
def iterReadBlobMem (i : Nat) (buffersize : Nat) (start stop : Option Nat) (calls : Nat) :
    PyM (CSt D) (List Bytes × Bool) := do
  PyM.require (decide (0 < buffersize)) .assertionError
  let s ← PyM.get
  PyM.require s.c.bound .bindRequired
  readIfNeeded X
  let l ← iterBlobOffsets X (some [i, i + 1])
  match l with
  | a :: b :: _ =>
    match blobRange a b start stop with
    | none => pure ([], true)
    | some (rs, size) => do
      let corr ← getTotalOffsetSize X
      let s ← PyM.get
      pure (memChunks (s.c.data.getD []) buffersize ((rs : Int) + size - corr) calls
        ((rs : Int) - corr))
  | _ => PyM.raise .blobNotFound

/-- `Cluster.iter_read_blob`, for the first `calls ≥ 1` calls of `next`;
`pyzim/cluster.py:472-518`. The early exit yields one empty chunk. -/
def iterReadBlobDisk (i : Nat) (buffersize : Nat) (start stop : Option Nat) (calls : Nat) :
    PyM (CSt D) (List Bytes × Bool) := do
  PyM.require (decide (0 < buffersize)) .assertionError
  PyM.require (rangeOk start stop) .assertionError
  let s ← PyM.get
  PyM.require s.c.bound .bindRequired
  let l ← iterBlobOffsets X (some [i, i + 1])
  match l with
  | a :: b :: _ =>
    match blobRange a b start stop with
    | none => pure ([[]], decide (1 < calls))
    | some (rs, size) => do
      openReader X rs
      withReader (DReader.iterRead X.ops size buffersize calls 0)
  | _ => PyM.raise .blobNotFound

/-- `iter_read_blob`, for the first `calls` calls of `next`: the chunks, and whether the iteration
has come to its end; `pyzim/cluster.py:472-518`, `613-639`. Nothing runs before the first call. -/
def iterReadBlob (i : Nat) (buffersize : Nat) (start stop : Option Nat) (calls : Nat) :
    PyM (CSt D) (List Bytes × Bool) := do
  let s ← PyM.get
  if calls = 0 then pure ([], false)
  else match s.c.kind with
  | .inMemory => iterReadBlobMem X i buffersize start stop calls
  | _ => iterReadBlobDisk X i buffersize start stop calls

end Cluster
end Pyzim
