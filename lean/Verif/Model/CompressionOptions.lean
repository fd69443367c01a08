import Verif.Model.Compression

/-!
# Model of how compression options reach the libraries, `pyzim/compression.py`

For each library: the arguments with which its compressors and decompressors are created. What the libraries do with them is not
modelled. The options are a dictionary in Python; here a record with a field for each key. An option that is missing and an
option that is set to `None` are not distinguished.
-/

namespace Pyzim

/-- `CompressionTarget`; `pyzim/compression.py:45-69`. -/
inductive CompressionTarget
  | any | maxCompression | reasonableCompression | fastestCompression | fastestDecompression | lowramCompression
  | lowramDecompression | balanced
deriving DecidableEq, Repr

/-- `lzma.FORMAT_AUTO`, `FORMAT_XZ`, `FORMAT_ALONE`, `FORMAT_RAW` -/
inductive LzmaFormat
  | auto | xz | alone | raw
deriving DecidableEq, Repr

/-- a value of `zstd.option`: a level or advanced parameters for compression, by name; `pyzim/compression.py:847`, `903` -/
inductive ZstdOption
  | level (n : Int)
  | params (p : List (String × Int))
deriving DecidableEq, Repr

/-- The options (`policy.compression_options`); the keys are in the documentation of the interfaces, `pyzim/compression.py:554-560`,
`725-732`, `845-851`, `901-905`. `zdict` is the key in the documentation of zlib, `zlibZdict` is `zlib.zdict`. -/
structure CompressionOptions where
  target : Option CompressionTarget := none
  allowThreads : Option Bool := none
  zlibMemlevel : Option Int := none
  zlibWbits : Option Int := none
  zlibMethod : Option Int := none
  zlibStrategy : Option Int := none
  zlibZdict : Option Bytes := none
  zdict : Option Bytes := none
  lzmaFormat : Option LzmaFormat := none
  lzmaCheck : Option Int := none
  lzmaFilters : Option (List Nat) := none
  lzmaMemlimit : Option Nat := none
  zstdOption : Option ZstdOption := none
  zstdDict : Option Bytes := none
  zstdMaxWindowSize : Option Nat := none
  zstdBufferSize : Option Nat := none

namespace CompressionOptions

/-- `options.get("general.target", CompressionTarget.ANY)`; `pyzim/compression.py:566`, `607`, `738`, `859`, `913` -/
def goal (o : CompressionOptions) : CompressionTarget := o.target.getD .any

/-- arguments of `lzma.LZMACompressor`; `pyzim/compression.py:579-584` -/
structure LzmaCompressor where
  format : LzmaFormat
  check : Int
  preset : Nat
  filters : Option (List Nat)
deriving DecidableEq

/-- `lzma.PRESET_EXTREME` -/
def PRESET_EXTREME : Nat := 2 ^ 31

/-- `LzmaCompressionInterface.get_compressor`; `pyzim/compression.py:564-584`. `lzma.PRESET_DEFAULT` is 6. -/
def lzmaCompressor (o : CompressionOptions) : LzmaCompressor where
  format := o.lzmaFormat.getD .xz
  check := o.lzmaCheck.getD (-1)
  filters := o.lzmaFilters
  preset :=
    match o.goal with
    | .fastestCompression | .lowramDecompression | .lowramCompression => 1
    | .fastestDecompression => 9
    | .reasonableCompression => 9
    | .maxCompression => 9 ||| PRESET_EXTREME
    | .any | .balanced => 6

/-- arguments of `lzma.LZMADecompressor`; `pyzim/compression.py:591` -/
structure LzmaDecompressor where
  format : LzmaFormat
  memlimit : Option Nat
  filters : Option (List Nat)
deriving DecidableEq

/-- `LzmaCompressionInterface.get_decompressor`; `pyzim/compression.py:586-591`. -/
def lzmaDecompressor (o : CompressionOptions) : LzmaDecompressor where
  format := o.lzmaFormat.getD .auto
  filters := o.lzmaFilters
  memlimit := o.lzmaMemlimit

/-- `Bz2CompressionInterface.get_compressor`: the level; `pyzim/compression.py:605-618`. The decompressor has no arguments
(`pyzim/compression.py:620-622`). -/
def bz2Level (o : CompressionOptions) : Nat :=
  match o.goal with
  | .fastestCompression => 5
  | .fastestDecompression => 1
  | .lowramDecompression | .lowramCompression => 1
  | .reasonableCompression | .maxCompression => 9
  | .any | .balanced => 9

/-- arguments of `zlib.compressobj`; `pyzim/compression.py:773-780` -/
structure ZlibCompressor where
  level : Int
  method : Int
  wbits : Int
  memLevel : Int
  strategy : Int
  zdict : Option Bytes
deriving DecidableEq

/-- `ZlibCompressionInterface.get_compressor`; `pyzim/compression.py:736-780`. `Z_DEFAULT_COMPRESSION` is -1, `MAX_WBITS` is 15,
`DEF_MEM_LEVEL` is 8, `DEFLATED` is 8, `Z_DEFAULT_STRATEGY` is 0. -/
def zlibCompressor (o : CompressionOptions) : ZlibCompressor :=
  let memlevel := o.zlibMemlevel
  let wbits := o.zlibWbits
  let level : Int := if o.goal = .fastestCompression then 1 else -1
  let (level, memlevel, wbits) :=
    if o.goal ∈ [.fastestDecompression, .lowramDecompression, .maxCompression, .reasonableCompression] then
      ((9 : Int), some (memlevel.getD 9), some (wbits.getD 15))
    else if o.goal = .lowramCompression then ((9 : Int), some (memlevel.getD 1), some (wbits.getD 9))
    else (level, memlevel, wbits)
  { level := level, method := o.zlibMethod.getD 8, wbits := wbits.getD 15, memLevel := memlevel.getD 8
    strategy := o.zlibStrategy.getD 0, zdict := o.zlibZdict }

/-- arguments of `zlib.decompressobj`; `pyzim/compression.py:647-650` -/
structure ZlibDecompressor where
  wbits : Int
  zdict : Option Bytes
deriving DecidableEq

/-- `ZlibCompressionInterface.get_decompressor` and the constructor of the wrapper; `pyzim/compression.py:782-786`, `634-651`. -/
def zlibDecompressor (o : CompressionOptions) : ZlibDecompressor where
  zdict := o.zlibZdict
  wbits := o.zlibWbits.getD 15

/-- `level_or_option`, depending on the target; `pyzim/compression.py:863-873`, `914-920` -/
def zstdLevelOrOption (o : CompressionOptions) : Option ZstdOption :=
  match o.zstdOption with
  | some x => some x
  | none =>
    match o.goal with
    | .reasonableCompression => some (.level 19)
    | .maxCompression => some (.level 22)
    | .fastestCompression | .fastestDecompression => some (.level 2)
    | .any | .balanced | .lowramCompression | .lowramDecompression => none

/-- arguments of `zstandard.ZstdCompressor`; `pyzim/compression.py:874-881` -/
structure ZstandardCompressor where
  level : Int
  dict : Option Bytes
  params : Option (List (String × Int))
  writeChecksum : Option Bool
  writeContentSize : Option Bool
  threads : Int
deriving DecidableEq

/-- `ZstandardCompressionInterface.get_compressor`; `pyzim/compression.py:855-882`. -/
def zstandardCompressor (o : CompressionOptions) : ZstandardCompressor :=
  let small : Option Bool := if o.zstdOption = none ∧ o.goal = .maxCompression then some false else none
  { level := match o.zstdLevelOrOption with | some (.level n) => n | _ => 3
    dict := o.zstdDict
    params := match o.zstdLevelOrOption with | some (.params p) => some p | _ => none
    writeChecksum := small
    writeContentSize := small
    threads := if o.allowThreads.getD true then -1 else 0 }

/-- arguments of `zstandard.ZstdDecompressor` and its `decompressobj`; `pyzim/compression.py:889-890` -/
structure ZstandardDecompressor where
  dict : Option Bytes
  maxWindowSize : Nat
  writeSize : Nat
deriving DecidableEq

/-- `ZstandardCompressionInterface.get_decompressor`; `pyzim/compression.py:884-890`. -/
def zstandardDecompressor (o : CompressionOptions) : ZstandardDecompressor where
  dict := o.zstdDict
  maxWindowSize := o.zstdMaxWindowSize.getD 0
  writeSize := o.zstdBufferSize.getD (2 ^ 14)

/-- arguments of `pyzstd.ZstdCompressor`; `pyzim/compression.py:921` -/
structure PyzstdCompressor where
  levelOrOption : Option ZstdOption
  dict : Option Bytes
deriving DecidableEq

/-- `PyZstdCompressionInterface.get_compressor`; `pyzim/compression.py:909-921`. -/
def pyzstdCompressor (o : CompressionOptions) : PyzstdCompressor where
  levelOrOption := o.zstdLevelOrOption
  dict := o.zstdDict

/-- arguments of `pyzstd.ZstdDecompressor`; `pyzim/compression.py:927` -/
structure PyzstdDecompressor where
  dict : Option Bytes
  option : Option ZstdOption
deriving DecidableEq

/-- `PyZstdCompressionInterface.get_decompressor`; `pyzim/compression.py:923-927`. -/
def pyzstdDecompressor (o : CompressionOptions) : PyzstdDecompressor where
  dict := o.zstdDict
  option := o.zstdOption

end CompressionOptions
end Pyzim
