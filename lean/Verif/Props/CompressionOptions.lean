import Verif.Spec.CompressionOptions

/-!
# C95: compression options and targets
-/

namespace Pyzim
namespace CompressionOptions
variable {w r : CompressionOptions}

/-- **C95.** zlib: Data written with any target and options can be read with any other target, if the options for the format and
the dictionary are the same. -/
theorem C95_zlib (h : SameFormat w r) (hw : ∀ n, w.zlibWbits = some n → ZlibWindow n) :
    ZlibReads r.zlibDecompressor w.zlibCompressor := by
  have hd : r.zlibDecompressor.wbits = w.zlibWbits.getD 15 := by unfold zlibDecompressor; rw [h.wbits]
  have hc : (w.zlibCompressor.wbits = w.zlibWbits.getD 15 ∨ w.zlibWbits = none ∧ w.zlibCompressor.wbits = 9) ∧
      w.zlibCompressor.zdict = w.zlibZdict := by
    unfold zlibCompressor
    simp only
    split
    · exact ⟨.inl rfl, trivial⟩
    · split
      · refine ⟨?_, trivial⟩
        cases hz : w.zlibWbits with
        | none => exact .inr ⟨rfl, rfl⟩
        | some n => exact .inl rfl
      · exact ⟨.inl rfl, trivial⟩
  refine ⟨by rw [hc.2, ← h.zdict]; rfl, ?_⟩
  rw [hd]
  rcases hc.1 with hc | ⟨h1, h2⟩
  · rw [hc]
    cases hz : w.zlibWbits with
    | none => left; simp
    | some n =>
      have := hw n hz
      unfold ZlibWindow at this
      simp only [Option.getD_some]
      omega
  · rw [h1, h2]
    left; simp

/-- **C95.** zstandard: as with zlib. -/
theorem C95_zstandard (h : SameFormat w r) : ZstandardReads r.zstandardDecompressor w.zstandardCompressor := h.dict

/-- **C95, partial.** lzma: as with zlib, if no filters are given, or those for raw data. -/
theorem C95_lzma_partial (h : SameFormat w r)
    (hf : (w.lzmaFilters = none ∧ w.lzmaFormat ∈ [none, some .xz, some .alone]) ∨
      (w.lzmaFilters ≠ none ∧ w.lzmaFormat = some .raw ∧ r.lzmaMemlimit = none)) :
    LzmaReads r.lzmaDecompressor w.lzmaCompressor := by
  unfold LzmaReads lzmaDecompressor lzmaCompressor
  simp only
  rw [h.format, h.filters]
  rcases hf with ⟨h1, h2⟩ | ⟨h1, h2, h3⟩
  · right
    simp only [List.mem_cons, List.not_mem_nil, or_false] at h2
    rcases h2 with h2 | h2 | h2 <;> rw [h1, h2] <;> simp
  · left
    rw [h2]
    exact ⟨rfl, rfl, h1, rfl, h3⟩

/-- **C95, partial.** pyzstd: as with zlib, if neither a level nor parameters are given. -/
theorem C95_pyzstd_partial (h : SameFormat w r) (hl : w.zstdOption = none) :
    PyzstdReads r.pyzstdDecompressor w.pyzstdCompressor :=
  ⟨h.dict, .inl (h.option.trans hl)⟩

/-- **C95, finding.** It is false with lzma and filters for the usual format: the decompressor is created with the filters, too,
which is not allowed. -/
theorem C95_lzma_filters_fail (w : CompressionOptions) (hf : w.lzmaFilters ≠ none) (hr : w.lzmaFormat ≠ some .raw) :
    ¬ LzmaReads w.lzmaDecompressor w.lzmaCompressor := by
  rintro (⟨h1, -⟩ | ⟨-, -, h1⟩)
  · refine hr ?_
    cases hz : w.lzmaFormat with
    | none => unfold lzmaCompressor at h1; rw [hz] at h1; cases h1
    | some f => unfold lzmaCompressor at h1; rw [hz] at h1; rw [show f = .raw from h1]
  · exact hf h1

/-- **C95, finding.** It is false with pyzstd if a level or a parameter is given: the decompressor is created with it, too. -/
theorem C95_pyzstd_option_fails (w : CompressionOptions) (x : ZstdOption) (h : w.zstdOption = some x) (hx : x ≠ .params []) :
    ¬ PyzstdReads w.pyzstdDecompressor w.pyzstdCompressor := by
  rintro ⟨-, hr | hr⟩
  · cases h.symm.trans hr
  · injection h.symm.trans hr with hr
    exact hx hr

/-- **C95, finding.** The option `zdict`, which is in the documentation, has no effect: the dictionary is `zlib.zdict`. -/
theorem C95_zdict_ignored (o : CompressionOptions) (d : Bytes) :
    ({ o with zdict := some d } : CompressionOptions).zlibCompressor = o.zlibCompressor ∧
    ({ o with zdict := some d } : CompressionOptions).zlibDecompressor = o.zlibDecompressor := ⟨rfl, rfl⟩

/-- **C95.** Options that are given reach the library, whatever the target is. -/
theorem C95_options_used (o : CompressionOptions) :
    (∀ m, o.zlibMemlevel = some m → o.zlibCompressor.memLevel = m) ∧
    (∀ m, o.zlibWbits = some m → o.zlibCompressor.wbits = m ∧ o.zlibDecompressor.wbits = m) ∧
    (∀ m, o.zlibMethod = some m → o.zlibCompressor.method = m) ∧
    (∀ m, o.zlibStrategy = some m → o.zlibCompressor.strategy = m) ∧
    (o.zlibCompressor.zdict = o.zlibZdict ∧ o.zlibDecompressor.zdict = o.zlibZdict) ∧
    (∀ f, o.lzmaFormat = some f → o.lzmaCompressor.format = f ∧ o.lzmaDecompressor.format = f) ∧
    (∀ m, o.lzmaCheck = some m → o.lzmaCompressor.check = m) ∧
    (o.lzmaCompressor.filters = o.lzmaFilters ∧ o.lzmaDecompressor.memlimit = o.lzmaMemlimit) ∧
    (∀ n, o.zstdOption = some (.level n) → o.zstandardCompressor.level = n ∧ o.zstandardCompressor.params = none ∧
      o.pyzstdCompressor.levelOrOption = some (.level n)) ∧
    (∀ p, o.zstdOption = some (.params p) → o.zstandardCompressor.params = some p ∧
      o.zstandardCompressor.writeChecksum = none ∧ o.zstandardCompressor.writeContentSize = none ∧
      o.pyzstdCompressor.levelOrOption = some (.params p)) ∧
    (∀ m, o.zstdMaxWindowSize = some m → o.zstandardDecompressor.maxWindowSize = m) ∧
    (∀ m, o.zstdBufferSize = some m → o.zstandardDecompressor.writeSize = m) ∧
    (o.allowThreads = some false → o.zstandardCompressor.threads = 0) := by
  refine ⟨fun m h => ?_, fun m h => ⟨?_, ?_⟩, fun m h => ?_, fun m h => ?_, ⟨?_, rfl⟩, fun f h => ⟨?_, ?_⟩, fun m h => ?_,
    ⟨rfl, rfl⟩, fun n h => ⟨?_, ?_, ?_⟩, fun p h => ⟨?_, ?_, ?_, ?_⟩, fun m h => ?_, fun m h => ?_, fun h => ?_⟩
  · unfold zlibCompressor; simp only [h]; split
    · rfl
    · split <;> rfl
  · unfold zlibCompressor; simp only [h]; split
    · rfl
    · split <;> rfl
  · unfold zlibDecompressor; rw [h]; rfl
  · unfold zlibCompressor; simp only [h]; rfl
  · unfold zlibCompressor; simp only [h]; rfl
  · unfold zlibCompressor; simp only
  · unfold lzmaCompressor; rw [h]; rfl
  · unfold lzmaDecompressor; rw [h]; rfl
  · unfold lzmaCompressor; rw [h]; rfl
  · unfold zstandardCompressor zstdLevelOrOption; simp only [h]
  · unfold zstandardCompressor zstdLevelOrOption; simp only [h]
  · unfold pyzstdCompressor zstdLevelOrOption; simp only [h]
  · unfold zstandardCompressor zstdLevelOrOption; simp only [h]
  · unfold zstandardCompressor; rw [h]; simp
  · unfold zstandardCompressor; rw [h]; simp
  · unfold pyzstdCompressor zstdLevelOrOption; simp only [h]
  · unfold zstandardDecompressor; rw [h]; rfl
  · unfold zstandardDecompressor; rw [h]; rfl
  · unfold zstandardCompressor; rw [h]; rfl

/-- the options with another target -/
def withTarget (o : CompressionOptions) (t : CompressionTarget) : CompressionOptions := { o with target := some t }

/-- **C95.** Unless a level is given, no target tries harder to compress than `MAX_COMPRESSION`, with none of the libraries, and it
saves the checksum and the size where it can. -/
theorem C95_max_compression (o : CompressionOptions) (hz : o.zstdOption = none) (t : CompressionTarget) :
    ZlibCompressor.effort (o.withTarget t).zlibCompressor ≤ ZlibCompressor.effort (o.withTarget .maxCompression).zlibCompressor ∧
    (o.withTarget t).bz2Level ≤ (o.withTarget .maxCompression).bz2Level ∧
    (o.withTarget t).lzmaCompressor.preset ≤ (o.withTarget .maxCompression).lzmaCompressor.preset ∧
    (o.withTarget t).zstandardCompressor.level ≤ (o.withTarget .maxCompression).zstandardCompressor.level ∧
    (o.withTarget .maxCompression).zstandardCompressor.writeChecksum = some false ∧
    (o.withTarget .maxCompression).zstandardCompressor.writeContentSize = some false := by
  have h1 : (o.withTarget t).zstdOption = none := hz
  have h2 : (o.withTarget .maxCompression).zstdOption = none := hz
  have g : ∀ t, (o.withTarget t).goal = t := fun _ => rfl
  refine ⟨?_, ?_, ?_, ?_, ?_, ?_⟩
  · unfold ZlibCompressor.effort zlibCompressor
    simp only [g]
    cases t <;> simp
  · unfold bz2Level
    simp only [g]
    cases t <;> simp
  · unfold lzmaCompressor
    simp only [g]
    cases t <;> decide
  · unfold zstandardCompressor zstdLevelOrOption
    simp only [g, h1, h2]
    cases t <;> simp
  · unfold zstandardCompressor; simp only [g, h2]; rfl
  · unfold zstandardCompressor; simp only [g, h2]; rfl

/-- **C95.** With zlib, `LOWRAM_COMPRESSION` uses the least memory that is possible. -/
theorem C95_lowram (o : CompressionOptions) (hm : o.zlibMemlevel = none) (hw : o.zlibWbits = none) :
    (o.withTarget .lowramCompression).zlibCompressor.memLevel = 1 ∧ (o.withTarget .lowramCompression).zlibCompressor.wbits = 9 := by
  have h1 : (o.withTarget .lowramCompression).zlibMemlevel = none := hm
  have h2 : (o.withTarget .lowramCompression).zlibWbits = none := hw
  unfold zlibCompressor
  simp only [show (o.withTarget .lowramCompression).goal = .lowramCompression from rfl, h1, h2]
  decide

/-! ### Examples -/

/-- written with little memory, read with another target -/
example : ZlibReads ({ target := some .fastestDecompression } : CompressionOptions).zlibDecompressor
    ({ target := some .lowramCompression, zlibMemlevel := some 3 } : CompressionOptions).zlibCompressor :=
  C95_zlib ⟨rfl, rfl, rfl, rfl, rfl, rfl⟩ (fun _ h => by cases h)

/-- raw data with a dictionary -/
example : ZlibReads ({ zlibWbits := some (-12), zlibZdict := some [1, 2] } : CompressionOptions).zlibDecompressor
    ({ target := some .maxCompression, zlibWbits := some (-12), zlibZdict := some [1, 2] } : CompressionOptions).zlibCompressor :=
  C95_zlib ⟨rfl, rfl, rfl, rfl, rfl, rfl⟩ (fun n h => by injection h with h; subst h; unfold ZlibWindow; omega)

example : LzmaReads ({ target := some .any } : CompressionOptions).lzmaDecompressor
    ({ target := some .maxCompression, lzmaCheck := some 4 } : CompressionOptions).lzmaCompressor :=
  C95_lzma_partial ⟨rfl, rfl, rfl, rfl, rfl, rfl⟩ (.inl ⟨rfl, by decide⟩)

example : PyzstdReads ({ zstdDict := some [7] } : CompressionOptions).pyzstdDecompressor
    ({ target := some .maxCompression, zstdDict := some [7] } : CompressionOptions).pyzstdCompressor :=
  C95_pyzstd_partial ⟨rfl, rfl, rfl, rfl, rfl, rfl⟩ rfl

example : ¬ LzmaReads ({ lzmaFilters := some [33] } : CompressionOptions).lzmaDecompressor
    ({ lzmaFilters := some [33] } : CompressionOptions).lzmaCompressor := C95_lzma_filters_fail _ (by decide) (by decide)

example : ¬ PyzstdReads ({ zstdOption := some (.level 19) } : CompressionOptions).pyzstdDecompressor
    ({ zstdOption := some (.level 19) } : CompressionOptions).pyzstdCompressor := C95_pyzstd_option_fails _ _ rfl (by decide)

end CompressionOptions
end Pyzim
