import Verif.Model.CompressionOptions

/-!
# When a decompressor of a library reads what a compressor of the library wrote

This is what the documentations of the libraries say.
-/

namespace Pyzim
open CompressionOptions

/-- zlib: The format (by the range of `wbits`: zlib, raw, gzip) and the dictionary are the same, and the window of the
decompressor is at least as big. -/
def ZlibReads (d : ZlibDecompressor) (c : ZlibCompressor) : Prop :=
  d.zdict = c.zdict ∧
    ((9 ≤ c.wbits ∧ c.wbits ≤ d.wbits ∧ d.wbits ≤ 15) ∨ (-15 ≤ d.wbits ∧ d.wbits ≤ c.wbits ∧ c.wbits ≤ -9) ∨
      (25 ≤ c.wbits ∧ c.wbits ≤ d.wbits ∧ d.wbits ≤ 31))

/-- zlib: window sizes in the documentation -/
def ZlibWindow (w : Int) : Prop := (9 ≤ w ∧ w ≤ 15) ∨ (-15 ≤ w ∧ w ≤ -9) ∨ (25 ≤ w ∧ w ≤ 31)

/-- lzma: A container with a header is recognised, raw data needs the same filters. Filters may be given to a decompressor only
for raw data. A limit for the memory may not be given for raw data; otherwise it is assumed to be big enough. -/
def LzmaReads (d : LzmaDecompressor) (c : LzmaCompressor) : Prop :=
  (c.format = .raw ∧ d.format = .raw ∧ c.filters ≠ none ∧ d.filters = c.filters ∧ d.memlimit = none) ∨
    ((c.format = .xz ∨ c.format = .alone) ∧ (d.format = .auto ∨ d.format = c.format) ∧ d.filters = none)

/-- zstandard: The dictionary is the same. (The window is assumed to be small enough for the decompressor.) -/
def ZstandardReads (d : ZstandardDecompressor) (c : ZstandardCompressor) : Prop := d.dict = c.dict

/-- pyzstd: The dictionary is the same. Neither a level nor parameters for compression (members of `CParameter`) may be given to a
decompressor. -/
def PyzstdReads (d : PyzstdDecompressor) (c : PyzstdCompressor) : Prop :=
  d.dict = c.dict ∧ (d.option = none ∨ d.option = some (.params []))

/-- The options of `r` are those of `w`, except for what should not matter for reading: the target, the number of threads, and the
options for compression only. -/
structure SameFormat (w r : CompressionOptions) : Prop where
  wbits : r.zlibWbits = w.zlibWbits
  zdict : r.zlibZdict = w.zlibZdict
  format : r.lzmaFormat = w.lzmaFormat
  filters : r.lzmaFilters = w.lzmaFilters
  dict : r.zstdDict = w.zstdDict
  option : r.zstdOption = w.zstdOption

/-- The compression level that a compressor uses: how much it tries. For zlib the default (-1) is 6. -/
def ZlibCompressor.effort (c : ZlibCompressor) : Int := if c.level = -1 then 6 else c.level

end Pyzim
