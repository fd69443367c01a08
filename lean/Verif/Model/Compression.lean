import Verif.Model.Base

/-!
# Model of `pyzim/compression.py`

The decompressor objects of zlib, zstandard, bz2 and lzma are external; the reader is modelled
over an arbitrary decompressor-like object (`Decomp`). The wrapper classes of this repository
(passthrough, zlib, zstandard) are modelled as instances of `Decomp`.
-/

namespace Pyzim

/-- `CompressionType`; `pyzim/compression.py:31-42`. `UNKNOWN` has value -1. -/
inductive CompressionType
  | unknown | none | zlib | bz2 | lzma2 | zstd
deriving DecidableEq, Repr

namespace CompressionType

/-- `CompressionType.X.value`; `pyzim/compression.py:37-42`. -/
def value : CompressionType → Int
  | unknown => -1 | none => 1 | zlib => 2 | bz2 => 3 | lzma2 => 4 | zstd => 5

/-- `CompressionType(v)`: raises `ValueError` for an unknown value; `pyzim/compression.py:31-42`. -/
def ofValue (v : Int) : PyRes CompressionType :=
  if v = -1 then .ok unknown
  else if v = 1 then .ok none
  else if v = 2 then .ok zlib
  else if v = 3 then .ok bz2
  else if v = 4 then .ok lzma2
  else if v = 5 then .ok zstd
  else .error .valueError

end CompressionType

/-- A decompressor-like object with state `D`, as described in `pyzim/compression.py:84-110`:
`eof`, `needs_input`, `unused_data` and `decompress(data, max_length)`. `unused_data` returns a new
state because the zlib wrapper's property has a side effect. -/
structure Decomp (D : Type) where
  eof : D → Bool
  needsInput : D → Bool
  unusedData : D → Bytes × D
  decompress : D → Bytes → Int → PyRes Bytes × D

/-! ### `DecompressingReader` -/

/-- State of a `DecompressingReader` apart from the file, which is shared with other code and
passed separately; `pyzim/compression.py:244-257`. -/
structure DReader (D : Type) where
  dec : D
  buffer : Bytes := []
  readDecompressed : Nat := 0
  readCompressed : Nat := 0

namespace DReader
variable {D : Type} (C : Decomp D)

/-- `total_compressed_size`; `pyzim/compression.py:259-271`. The result may be negative for a misbehaving decompressor, hence `Int`. -/
def totalCompressedSize (r : DReader D) : PyRes Int × DReader D :=
  if C.eof r.dec = false then (.error .runtimeError, r)
  else
    let (u, d) := C.unusedData r.dec
    (.ok (r.readCompressed - u.length), { r with dec := d })

/-- The `while True` loop of `read` and the code after it; `pyzim/compression.py:310-335`.
Every iteration but the first needs at least one more byte of the file, so at most
`file length + 2` iterations happen; `DReader.readLoop_fuel` proves that allowing more iterations does
not change the result. -/
def readLoop (n extra : Nat) : (fuel : Nat) → DReader D → PyFile →
    PyRes Bytes × DReader D × PyFile
  | 0, r, f => (.error .ioError, r, f)
  | fuel + 1, r, f =>
    let needs := C.needsInput r.dec
    let (further, f) := if needs then f.read n else ([], f)
    if needs && further.isEmpty then (.error .ioError, r, f)
    else
      let r := { r with readCompressed := r.readCompressed + further.length }
      match C.decompress r.dec further ((n + extra : Nat) : Int) with
      | (.error e, d) => (.error e, { r with dec := d }, f)
      | (.ok decompressed, d) =>
        let r := { r with dec := d }
        if decompressed.isEmpty && C.needsInput d then readLoop n extra fuel r f
        else if decompressed.length > n then
          (.ok (decompressed.take n),
            { r with buffer := r.buffer ++ decompressed.drop n
                     readDecompressed := r.readDecompressed + (decompressed.take n).length }, f)
        else
          (.ok decompressed,
            { r with readDecompressed := r.readDecompressed + decompressed.length }, f)

/-- `read(n, extra_decompress)`; `pyzim/compression.py:273-335`. -/
def read (n : Nat) (extra : Nat) (r : DReader D) (f : PyFile) :
    PyRes Bytes × DReader D × PyFile :=
  if r.buffer.isEmpty = false then
    let toRead := min n r.buffer.length
    (.ok (r.buffer.take toRead),
      { r with buffer := r.buffer.drop toRead, readDecompressed := r.readDecompressed + toRead }, f)
  else if C.eof r.dec then (.ok [], r, f)
  else readLoop C n extra (f.data.length + 2) r f

/-- The loop of `read_n`; `pyzim/compression.py:349-355`. Every iteration that continues adds a
byte to `data`, so `n + 1` iterations are enough. -/
def readNLoop (n : Int) : (fuel : Nat) → (data : Bytes) → DReader D → PyFile →
    PyRes Bytes × DReader D × PyFile
  | 0, data, r, f => (.ok data, r, f)
  | fuel + 1, data, r, f =>
    if (data.length : Int) < n then
      match read C (n - data.length).toNat 0 r f with
      | (.error e, r, f) => (.error e, r, f)
      | (.ok new, r, f) => if new.isEmpty then (.ok data, r, f) else readNLoop n fuel (data ++ new) r f
    else (.ok data, r, f)

/-- `read_n(n)`; `pyzim/compression.py:337-355`. `n` may be negative (then nothing is read). -/
def readN (n : Int) (r : DReader D) (f : PyFile) : PyRes Bytes × DReader D × PyFile :=
  readNLoop C n (n.toNat + 1) [] r f

/-- `iter_read(n, buffersize)`, consumed by at most `k` calls of `next`;
`pyzim/compression.py:357-384`. Result: the chunks, and whether the iterator is exhausted. -/
def iterRead (n : Int) (buffersize : Nat) : (k : Nat) → (nRead : Nat) → DReader D → PyFile →
    PyRes (List Bytes × Bool) × DReader D × PyFile
  | 0, _, r, f => (.ok ([], false), r, f)
  | k + 1, nRead, r, f =>
    if 0 ≤ n ∧ n ≤ nRead then (.ok ([], true), r, f)
    else
      let toRead := if 0 ≤ n then min buffersize (n - nRead).toNat else buffersize
      match read C toRead 0 r f with
      | (.error e, r, f) => (.error e, r, f)
      | (.ok data, r, f) =>
        if data.isEmpty then (.ok ([], true), r, f)
        else
          match iterRead n buffersize k (nRead + data.length) r f with
          | (.error e, r, f) => (.error e, r, f)
          | (.ok (cs, fin), r, f) => (.ok (data :: cs, fin), r, f)

/-- The loop of `skip`; `pyzim/compression.py:396-403`; `n + 1` iterations are enough. -/
def skipLoop (n : Nat) : (fuel : Nat) → (nSkipped : Nat) → DReader D → PyFile →
    PyRes Unit × DReader D × PyFile
  | 0, _, r, f => (.ok (), r, f)
  | fuel + 1, nSkipped, r, f =>
    if nSkipped < n then
      match read C (n - nSkipped) 0 r f with
      | (.error e, r, f) => (.error e, r, f)
      | (.ok data, r, f) =>
        if data.isEmpty then (.ok (), r, f) else skipLoop n fuel (nSkipped + data.length) r f
    else (.ok (), r, f)

/-- `skip(n)`; `pyzim/compression.py:386-403`. -/
def skip (n : Nat) (r : DReader D) (f : PyFile) : PyRes Unit × DReader D × PyFile :=
  skipLoop C n (n + 1) 0 r f

/-- `skip_to(offset)`; `pyzim/compression.py:405-418`. -/
def skipTo (offset : Nat) (r : DReader D) (f : PyFile) : PyRes Unit × DReader D × PyFile :=
  if r.readDecompressed > offset then (.error .ioError, r, f)
  else skip C (offset - r.readDecompressed) r f

/-- `reseek(base_offset)`; `pyzim/compression.py:420-431`. -/
def reseek (base : Nat) (r : DReader D) (f : PyFile) : PyFile := f.seek (base + r.readCompressed)

end DReader

/-! ### The decompressors of this repository -/

/-- `PassthroughDecompressor`, whose state is its buffer; `pyzim/compression.py:473-528`. -/
def passthrough : Decomp Bytes where
  eof _ := false
  needsInput b := b.length == 0
  unusedData b := ([], b)
  decompress b data m :=
    let full := b ++ data
    if m < 0 then (.ok full, [])
    else
      let toRead := min m.toNat full.length
      (.ok (full.take toRead), full.drop toRead)

/-- A `zlib.decompressobj` (external, standard library) with state `Z`. `decompress z data m`
stands for `z.decompress(data, max_length=m)`, where `m = 0` means "no limit". -/
structure ZlibObj (Z : Type) where
  eof : Z → Bool
  unconsumedTail : Z → Bytes
  unusedData : Z → Bytes
  decompress : Z → Bytes → Nat → PyRes Bytes × Z

/-- `ZlibDecompressorWrapper`; `pyzim/compression.py:629-718`. The state is the wrapped object and
`_buffer`. If the wrapped object raises, its state is kept as it is. -/
def zlibWrapper {Z : Type} (O : ZlibObj Z) : Decomp (Z × Bytes) where
  eof s := O.eof s.1
  needsInput s :=
    if s.2.isEmpty = false then false
    else if O.eof s.1 then false
    else if (O.unconsumedTail s.1).isEmpty = false then false
    else true
  unusedData s := if s.2.isEmpty = false then (s.2, (s.1, [])) else (O.unusedData s.1, s)
  decompress s data m :=
    let toRead : Nat := if m < 0 then 0 else (m - s.2.length).toNat
    match O.decompress s.1 (O.unconsumedTail s.1 ++ data) toRead with
    | (.error e, z) => (.error e, (z, s.2))
    | (.ok y, z) =>
      let buf := s.2 ++ y
      if m < 0 then (.ok buf, (z, []))
      else
        let toSplit := min m.toNat buf.length
        (.ok (buf.take toSplit), (z, buf.drop toSplit))

/-- A `zstandard.ZstdDecompressionObj` (external) with state `Z`: `decompress(data)` returns
everything that can be decompressed. -/
structure ZstdObj (Z : Type) where
  eof : Z → Bool
  unusedData : Z → Bytes
  decompress : Z → Bytes → PyRes Bytes × Z

/-- `ZstandardDecompressorWrapper`; `pyzim/compression.py:793-838`. A negative `max_length` is used
as a (negative) slice bound by the code; no caller passes one and it is modelled as 0 here. -/
def zstdWrapper {Z : Type} (O : ZstdObj Z) : Decomp (Z × Bytes) where
  eof s := O.eof s.1 && s.2.isEmpty
  needsInput s := s.2.isEmpty
  unusedData s := (O.unusedData s.1, s)
  decompress s data m :=
    if s.2.isEmpty = false then
      if m > s.2.length then (.ok s.2, (s.1, []))
      else (.ok (s.2.take m.toNat), (s.1, s.2.drop m.toNat))
    else
      match O.decompress s.1 data with
      | (.error e, z) => (.error e, (z, s.2))
      | (.ok y, z) =>
        if (y.length : Int) > m then (.ok (y.take m.toNat), (z, y.drop m.toNat))
        else (.ok y, (z, s.2))

end Pyzim
