import Verif.Lemmas.Cluster
import Verif.Props.Compression

/-!
# Properties of readable clusters: C18, C21, C22, C56, C57
-/

namespace Pyzim
namespace Cluster

/-! ### C18: the information byte -/

/-- **C18.** What `generate_infobyte` writes for a supported compression type is read back by
`parse_infobyte` as the same type and the same width of the offsets. -/
theorem C18_parse_generate {D : Type} (t : CompressionType) (ht : t ≠ .unknown) (ext : Bool)
    (c : Cluster D) :
    ∃ b, generateInfobyte t ext = .ok [b] ∧
      c.parseInfobyte b = (.ok (), { c with compression := some t, isExtended := some ext }) := by
  cases t <;> cases ext <;> first | exact absurd rfl ht | exact ⟨_, rfl, rfl⟩

/-- **C18.** For every byte that is accepted and has no reserved bits, `generate_infobyte` on the
parsed attributes gives the byte back. -/
theorem C18_generate_parse {D : Type} (b : UInt8) (c c' : Cluster D) (hb : b.toNat < 32)
    (h : c.parseInfobyte b = (.ok (), c')) :
    ∃ t ext, c'.compression = some t ∧ c'.isExtended = some ext ∧ generateInfobyte t ext = .ok [b] := by
  have key : ∀ n : Fin 32, (match CompressionType.ofValue ((n.val &&& 0b1111 : Nat) : Int) with
      | .ok t => decide (generateInfobyte t ((n.val >>> 4) &&& 1 == 1) = .ok [UInt8.ofNat n.val])
      | .error _ => true) = true := by
    decide
  unfold parseInfobyte at h
  cases ht : CompressionType.ofValue ((b.toNat &&& 0b1111 : Nat) : Int) with
  | error e => simp [ht] at h
  | ok t =>
    simp only [ht, Prod.mk.injEq, true_and] at h
    subst h
    refine ⟨t, _, rfl, rfl, ?_⟩
    have := key ⟨b.toNat, hb⟩
    simp only [ht] at this
    simpa using this

/-- **C18.** `parse_infobyte` accepts exactly the bytes whose lower four bits are 1 to 5; it then
sets type and width from the lower four bits and bit 4. Otherwise it raises and changes nothing. -/
theorem C18_parse_all {D : Type} (b : UInt8) (c : Cluster D) :
    (b.toNat % 16 ∈ [1, 2, 3, 4, 5] →
      ∃ t ext, c.parseInfobyte b = (.ok (), { c with compression := some t, isExtended := some ext }) ∧
        t.value = ((b.toNat % 16 : Nat) : Int) ∧ (ext = true ↔ b.toNat / 16 % 2 = 1)) ∧
    (b.toNat % 16 ∉ [1, 2, 3, 4, 5] → c.parseInfobyte b = (.error .unsupportedCompression, c)) := by
  have hmod : b.toNat &&& 0b1111 = b.toNat % 16 := Nat.and_two_pow_sub_one_eq_mod b.toNat 4
  have hsh : b.toNat >>> 4 = b.toNat / 16 := Nat.shiftRight_eq_div_pow b.toNat 4
  have hone : ∀ n : Nat, n &&& 1 = n % 2 := fun n => Nat.and_two_pow_sub_one_eq_mod n 1
  have hlt : b.toNat % 16 < 16 := Nat.mod_lt _ (by omega)
  have key : ∀ n : Fin 16, (n.val ∈ [1, 2, 3, 4, 5] →
      ∃ t, CompressionType.ofValue (n.val : Int) = .ok t ∧ t.value = (n.val : Int)) ∧
      (n.val ∉ [1, 2, 3, 4, 5] → CompressionType.ofValue (n.val : Int) = .error .valueError) := by
    intro n
    have : n.val < 16 := n.isLt
    constructor
    · intro h
      simp only [List.mem_cons, List.not_mem_nil, or_false] at h
      rcases h with h | h | h | h | h <;> rw [h] <;> exact ⟨_, rfl, rfl⟩
    · intro h
      simp only [List.mem_cons, List.not_mem_nil, or_false, not_or] at h
      unfold CompressionType.ofValue
      rw [if_neg (by omega), if_neg (by omega), if_neg (by omega), if_neg (by omega),
        if_neg (by omega), if_neg (by omega)]
  unfold parseInfobyte
  simp only [hmod, hsh, hone]
  constructor
  · intro h
    obtain ⟨t, ht, hv⟩ := (key ⟨_, hlt⟩).1 h
    simp only at ht hv
    rw [ht]
    exact ⟨t, _, rfl, hv, by simp⟩
  · intro h
    rw [(key ⟨_, hlt⟩).2 h]

/-- **C18, finding.** `CompressionType.UNKNOWN` has no information byte: it is refused for normal
clusters, and for extended ones a byte is generated that `parse_infobyte` refuses. -/
theorem C18_unknown_not_supported {D : Type} (c : Cluster D) :
    generateInfobyte .unknown false = .error .valueError ∧
    ∃ b, generateInfobyte .unknown true = .ok [b] ∧
      c.parseInfobyte b = (.error .unsupportedCompression, c) :=
  ⟨rfl, _, rfl, rfl⟩

example : generateInfobyte .zstd true = .ok [0x15] ∧
    ({ kind := .onDisk, offset := 7 } : Cluster Unit).parseInfobyte 0x15 =
      (.ok (), { kind := .onDisk, offset := 7, compression := some .zstd, isExtended := some true }) :=
  ⟨rfl, rfl⟩

/-! ### Reachable states -/

variable {D : Type} {X : Codecs D} {file : Bytes} {o : Nat} {blobs : List Bytes}

/-- The states of a cluster object bound at offset `o` of a file: newly created, after other code
moved the position of the file, and after any call of the reading interface with any arguments
(whether it returned or raised; iterations may have been abandoned). -/
inductive Reached (X : Codecs D) (file : Bytes) (o : Nat) : CSt D → Prop
  | fresh (kind : ClusterKind) (pos : Nat) :
      Reached X file o { c := { kind := kind, offset := o }, f := { data := file, pos := pos } }
  | moved {s} (pos : Nat) : Reached X file o s → Reached X file o { s with f := { s.f with pos := pos } }
  | reset {s} : Reached X file o s → Reached X file o { s with c := s.c.reset }
  | infobyte {s} : Reached X file o s → Reached X file o (readInfobyteIfNeeded s).2
  | offsets {s} (ns) : Reached X file o s → Reached X file o (iterBlobOffsets X ns s).2
  | offset {s} (i) : Reached X file o s → Reached X file o (getOffset X i s).2
  | numOffsets {s} : Reached X file o s → Reached X file o (getNumberOfOffsets X s).2
  | numBlobs {s} : Reached X file o s → Reached X file o (getNumberOfBlobs X s).2
  | contentSize {s} : Reached X file o s → Reached X file o (getContentSize X s).2
  | decompressedSize {s} : Reached X file o s → Reached X file o (getTotalDecompressedSize X s).2
  | offsetSize {s} : Reached X file o s → Reached X file o (getTotalOffsetSize X s).2
  | blobSize {s} (i) : Reached X file o s → Reached X file o (getBlobSize X i s).2
  | readBlob {s} (i start stop) : Reached X file o s → Reached X file o (readBlob X i start stop s).2
  | iterReadBlob {s} (i bs start stop calls) : Reached X file o s →
      Reached X file o (iterReadBlob X i bs start stop calls s).2

theorem Reached.good (A : ClusterAt X file o blobs) {s : CSt D} (h : Reached X file o s) :
    Good A s := by
  induction h with
  | fresh kind pos =>
    exact ⟨rfl, rfl, rfl, .inl ⟨rfl, rfl⟩, by simp, by simp, by simp, fun _ => rfl⟩
  | moved pos _ ih =>
    exact ⟨ih.bound, ih.offset, ih.data, ih.attrs, ih.reader, ih.offsets, ih.mem, ih.kindOff⟩
  | @reset s _ ih =>
    refine ⟨ih.bound, ih.offset, ih.data, .inl ⟨rfl, rfl⟩, ih.reader, ?_, ?_, ?_⟩
    · intro l hl
      simp only [Cluster.reset] at hl
      by_cases hk : s.c.kind = .onDisk
      · rw [if_pos hk, ih.kindOff hk] at hl; simp at hl
      · rw [if_neg hk] at hl; simp at hl
    · intro d hd
      simp only [Cluster.reset] at hd
      by_cases hk : s.c.kind = .inMemory
      · rw [if_pos hk] at hd; simp at hd
      · rw [if_neg hk] at hd; exact ih.mem d hd
    · intro hk
      simp only [Cluster.reset] at hk ⊢
      rw [if_pos hk]; exact ih.kindOff hk
  | infobyte _ ih => obtain ⟨s', h1, h2, _⟩ := readInfobyteIfNeeded_spec A ih; rw [h1]; exact h2.toGood
  | offsets ns _ ih => obtain ⟨s', h1, h2, _⟩ := iterBlobOffsets_spec A ih ns; rw [h1]; exact h2.toGood
  | offset i _ ih => obtain ⟨res, s', h1, h2, _⟩ := getOffset_spec A ih i; rw [h1]; exact h2
  | numOffsets _ ih => obtain ⟨s', h1, h2, _⟩ := getNumberOfOffsets_spec A ih; rw [h1]; exact h2.toGood
  | numBlobs _ ih => obtain ⟨s', h1, h2, _⟩ := getNumberOfBlobs_spec A ih; rw [h1]; exact h2.toGood
  | contentSize _ ih => obtain ⟨s', h1, h2, _⟩ := getContentSize_spec A ih; rw [h1]; exact h2.toGood
  | decompressedSize _ ih =>
    obtain ⟨s', h1, h2, _⟩ := getTotalDecompressedSize_spec A ih; rw [h1]; exact h2.toGood
  | offsetSize _ ih => obtain ⟨s', h1, h2, _⟩ := getTotalOffsetSize_spec A ih; rw [h1]; exact h2.toGood
  | blobSize i _ ih => obtain ⟨s', h1, h2, _⟩ := getBlobSize_spec A ih i; rw [h1]; exact h2.toGood
  | readBlob i a b _ ih => obtain ⟨res, s', h1, h2, _⟩ := readBlob_spec A ih i a b; rw [h1]; exact h2
  | iterReadBlob i bs a b n _ ih =>
    obtain ⟨res, s', h1, h2, _⟩ := iterReadBlob_spec A ih i bs a b n; rw [h1]; exact h2

/-! ### C21: reading blobs -/

/-- **C21.** After any history of calls, `read_blob(i, start, end)` of any kind of cluster returns
exactly the requested part of blob `i`, if the range is valid and starts inside the blob (or at its
end). -/
theorem C21_read_blob (A : ClusterAt X file o blobs) {s : CSt D} (h : Reached X file o s) (i : Nat)
    (hi : i < blobs.length) (start stop : Option Nat)
    (hr : ∀ a b, start = some a → stop = some b → a ≤ b)
    (hs : ∀ a, start = some a → a ≤ blobs[i].length) :
    (readBlob X i start stop s).1 = .ok (partOf blobs[i] start stop) := by
  obtain ⟨res, s', h1, _, _, _, h5⟩ := readBlob_spec A (h.good A) i start stop
  have hro : rangeOk start stop = true := by
    unfold rangeOk
    cases start <;> cases stop <;> first | rfl | (simp; exact hr _ _ rfl rfl)
  have hs' : start.getD 0 ≤ blobs[i].length := by
    cases start with
    | none => simp
    | some a => exact hs a rfl
  rw [h1]
  rcases h5 hi hro with h | ⟨_, _, _, h⟩
  · exact h
  · omega

/-- **C21.** Without a range the whole blob is returned. -/
theorem C21_read_whole_blob (A : ClusterAt X file o blobs) {s : CSt D} (h : Reached X file o s)
    (i : Nat) (hi : i < blobs.length) : (readBlob X i none none s).1 = .ok blobs[i] := by
  rw [C21_read_blob A h i hi none none (by simp) (by simp)]
  simp [partOf]

/-- **C21.** An index that is out of range raises `BlobNotFound`. -/
theorem C21_no_such_blob (A : ClusterAt X file o blobs) {s : CSt D} (h : Reached X file o s)
    (i : Nat) (hi : blobs.length ≤ i) (start stop : Option Nat)
    (hr : ∀ a b, start = some a → stop = some b → a ≤ b) :
    (readBlob X i start stop s).1 = .error .blobNotFound := by
  obtain ⟨res, s', h1, _, _, h4, _⟩ := readBlob_spec A (h.good A) i start stop
  have hro : rangeOk start stop = true := by
    unfold rangeOk
    cases start <;> cases stop <;> first | rfl | (simp; exact hr _ _ rfl rfl)
  rw [h1]; exact h4 hro hi

/-- **C21.** The sizes reported are those of the blobs, whatever was called before. -/
theorem C21_sizes (A : ClusterAt X file o blobs) {s : CSt D} (h : Reached X file o s) :
    (getNumberOfBlobs X s).1 = .ok (blobs.length : Int) ∧
    (getNumberOfOffsets X s).1 = .ok (blobs.length + 1) ∧
    (getContentSize X s).1 = .ok (blobs.flatten.length : Int) ∧
    (getTotalDecompressedSize X s).1 =
      .ok ((if A.ext then 8 else 4) * (blobs.length + 1) + blobs.flatten.length) ∧
    (∀ i, (getBlobSize X i s).1 = match blobs[i]? with
      | some b => .ok (b.length : Int) | none => .error .blobNotFound) := by
  have hg := h.good A
  refine ⟨?_, ?_, ?_, ?_, fun i => ?_⟩
  · obtain ⟨s', h1, _⟩ := getNumberOfBlobs_spec A hg; rw [h1]
  · obtain ⟨s', h1, _⟩ := getNumberOfOffsets_spec A hg; rw [h1]
  · obtain ⟨s', h1, _⟩ := getContentSize_spec A hg; rw [h1]
  · obtain ⟨s', h1, _⟩ := getTotalDecompressedSize_spec A hg
    rw [h1, clusterBody_length]
    unfold blobOffset
    rw [List.take_length]
  · obtain ⟨s', h1, _⟩ := getBlobSize_spec A hg i
    rw [h1]
    cases blobs[i]? <;> rfl

/-- **C21.** Every offset reported is the position of the blob in the body; indexes outside the
table raise `IndexError`. -/
theorem C21_offsets (A : ClusterAt X file o blobs) {s : CSt D} (h : Reached X file o s) (i : Int) :
    (0 ≤ i → i ≤ blobs.length → (getOffset X i s).1 =
      .ok ((if A.ext then 8 else 4) * (blobs.length + 1) + (blobs.take i.toNat).flatten.length)) ∧
    ((i < 0 ∨ (blobs.length : Int) < i) → (getOffset X i s).1 = .error .indexError) := by
  obtain ⟨res, s', h1, _, _, _, h5⟩ := getOffset_spec A (h.good A) i
  rw [h1]
  rcases h5 with ⟨a, b, rfl, _⟩ | ⟨a, rfl⟩
  · exact ⟨fun _ _ => rfl, fun h => by omega⟩
  · exact ⟨fun _ _ => by omega, fun _ => rfl⟩

/-! ### C22: streaming blobs -/

/-- **C22.** For every buffer size, after any history, every number of `next` calls on
`iter_read_blob` yields chunks no longer than the buffer size that form a prefix of the requested
part of the blob; an exhausted iteration has yielded all of it, and more calls than there are bytes
(plus one) exhaust it. -/
theorem C22_iter_read_blob (A : ClusterAt X file o blobs) {s : CSt D} (h : Reached X file o s)
    (i : Nat) (hi : i < blobs.length) (bs : Nat) (hbs : 0 < bs) (start stop : Option Nat)
    (hr : ∀ a b, start = some a → stop = some b → a ≤ b)
    (hs : ∀ a, start = some a → a ≤ blobs[i].length) (calls : Nat) :
    ∃ cs fin, (iterReadBlob X i bs start stop calls s).1 = .ok (cs, fin) ∧
      cs.flatten <+: partOf blobs[i] start stop ∧ (∀ c ∈ cs, c.length ≤ bs) ∧
      (fin = true → cs.flatten = partOf blobs[i] start stop) ∧
      ((partOf blobs[i] start stop).length + 1 < calls → fin = true) := by
  obtain ⟨res, s', h1, _, _, _, h5⟩ := iterReadBlob_spec A (h.good A) i bs start stop calls
  have hro : rangeOk start stop = true := by
    unfold rangeOk
    cases start <;> cases stop <;> first | rfl | (simp; exact hr _ _ rfl rfl)
  have hs' : start.getD 0 ≤ blobs[i].length := by
    cases start with
    | none => simp
    | some a => exact hs a rfl
  obtain ⟨cs, fin, rfl, hc⟩ := h5 hbs hro hi (.inl hs')
  rw [h1]
  refine ⟨cs, fin, rfl, hc.prefix_, hc.small, hc.complete, fun hlt => ?_⟩
  cases fin with
  | true => rfl
  | false => have := hc.unfinished rfl; omega

/-- **C22.** Running the iteration to its end gives the same bytes as `read_blob` called in any other
state of any kind of cluster object for the same cluster. -/
theorem C22_iter_equals_read (A : ClusterAt X file o blobs) {s t : CSt D} (h : Reached X file o s)
    (ht : Reached X file o t) (i : Nat) (hi : i < blobs.length) (bs : Nat) (hbs : 0 < bs)
    (start stop : Option Nat) (hr : ∀ a b, start = some a → stop = some b → a ≤ b)
    (hs : ∀ a, start = some a → a ≤ blobs[i].length) (calls : Nat) (cs : List Bytes)
    (he : (iterReadBlob X i bs start stop calls s).1 = .ok (cs, true)) :
    (readBlob X i start stop t).1 = .ok cs.flatten := by
  obtain ⟨cs', fin, h1, _, _, h2, _⟩ := C22_iter_read_blob A h i hi bs hbs start stop hr hs calls
  rw [h1] at he
  simp only [Except.ok.injEq, Prod.mk.injEq] at he
  obtain ⟨rfl, rfl⟩ := he
  rw [C21_read_blob A ht i hi start stop hr hs, h2 rfl]

/-! ### C56: ranges that start beyond the end of the blob -/

/-- **C56 (partial).** `read_blob` of a range that starts beyond the end of the blob never returns
any byte: it returns nothing, or raises `IOError`. It returns nothing for in-memory clusters and for
streams that know their end. Missing: nothing is returned for uncompressed clusters on disk (see
`C56_read_blob_beyond_file_raises`), and `iter_read_blob` (see `C56_iter_read_blob_leaks`). -/
theorem C56_read_blob_beyond_end_partial (A : ClusterAt X file o blobs) {s : CSt D}
    (h : Reached X file o s) (i : Nat) (hi : i < blobs.length) (a : Nat) (stop : Option Nat)
    (hr : ∀ b, stop = some b → a ≤ b) (hs : blobs[i].length ≤ a) :
    ((readBlob X i (some a) stop s).1 = .ok [] ∨
      (readBlob X i (some a) stop s).1 = .error .ioError) ∧
    (s.c.kind = .inMemory ∨ Closed X.ops A.raw A.R →
      (readBlob X i (some a) stop s).1 = .ok []) := by
  obtain ⟨res, s', h1, _, _, _, h5⟩ := readBlob_spec A (h.good A) i (some a) stop
  have hro : rangeOk (some a) stop = true := by
    unfold rangeOk
    cases stop <;> first | rfl | (simp; exact hr _ rfl)
  have he := partOf_beyond blobs[i] (some a) stop hs
  rw [h1]
  rcases h5 hi hro with h | ⟨h, hc, hk, _⟩
  · rw [h, he]; exact ⟨.inl rfl, fun _ => rfl⟩
  · refine ⟨.inr h, fun hx => ?_⟩
    rcases hx with hx | hx
    · exact absurd hx hk
    · exact absurd hx hc

/-- **C56 (partial).** `iter_read_blob` of an in-memory cluster yields nothing for such a range. -/
theorem C56_iter_read_blob_memory_partial (A : ClusterAt X file o blobs) {s : CSt D}
    (h : Reached X file o s) (hk : s.c.kind = .inMemory) (i : Nat) (hi : i < blobs.length)
    (bs : Nat) (hbs : 0 < bs) (a : Nat) (stop : Option Nat) (hr : ∀ b, stop = some b → a ≤ b)
    (hs : blobs[i].length ≤ a) (calls : Nat) :
    ∃ cs fin, (iterReadBlob X i bs (some a) stop calls s).1 = .ok (cs, fin) ∧ cs.flatten = [] := by
  obtain ⟨res, s', h1, _, _, _, h5⟩ := iterReadBlob_spec A (h.good A) i bs (some a) stop calls
  have hro : rangeOk (some a) stop = true := by
    unfold rangeOk
    cases stop <;> first | rfl | (simp; exact hr _ rfl)
  obtain ⟨cs, fin, rfl, hc⟩ := h5 hbs hro hi (.inr hk)
  have he := partOf_beyond blobs[i] (some a) stop hs
  rw [h1]
  refine ⟨cs, fin, rfl, ?_⟩
  have := hc.prefix_
  rw [he] at this
  exact List.prefix_nil.1 this

/-! ### C57: the size on disk -/

/-- **C57.** `get_total_compressed_size` of an uncompressed cluster is the number of bytes from the
information byte to the end of the last blob. -/
theorem C57_total_size_uncompressed (A : ClusterAt X file o blobs) (hc : A.comp = .none)
    {s : CSt D} (h : Reached X file o s) (calls : Nat)
    (hcalls : (clusterBody (if A.ext then 8 else 4) blobs).length + 1 ≤ calls) :
    (getTotalCompressedSize X calls s).1 =
      .ok (((clusterBody (if A.ext then 8 else 4) blobs).length + 1 : Nat) : Int) := by
  obtain ⟨s', h1, _⟩ := getTotalCompressedSize_spec A (h.good A) calls
    (size := (clusterBody (if A.ext then 8 else 4) blobs).length)
    (by rw [if_pos hc]) hcalls
  rw [h1]

/-- **C57.** `get_total_compressed_size` of a compressed cluster is one more than the number of bytes
of the compressed stream, no matter how far the file goes on behind it, how much of it was read
before, and how much the decompressor was given too much; the iteration over the data it does
terminates after at most as many chunks as there are bytes of data. -/
theorem C57_total_size_compressed (A : ClusterAt X file o blobs) (hc : A.comp ≠ .none)
    (hcl : Closed X.ops A.raw A.R) (htail : A.tail = []) {size : Nat}
    (hO : Occupies X.ops A.raw A.R size) {s : CSt D} (h : Reached X file o s) (calls : Nat)
    (hcalls : (clusterBody (if A.ext then 8 else 4) blobs).length + 1 ≤ calls) :
    (getTotalCompressedSize X calls s).1 = .ok ((size + 1 : Nat) : Int) := by
  obtain ⟨s', h1, _⟩ := getTotalCompressedSize_spec A (h.good A) calls (size := size)
    (by rw [if_neg hc]; exact ⟨hO, hcl, htail⟩) hcalls
  rw [h1]

/-- **C57.** The zlib wrapper reports the end exactly, if the wrapped object does. -/
theorem C57_zlib_occupies {Z : Type} {O : ZlibObj Z} {z₀ : Z} {raw plain : Bytes}
    {R : Z → Nat → Nat → Prop} (h : ZlibStreams O z₀ raw plain R) {size : Nat}
    (hu : ∀ z k j, R z k j → O.eof z = true → k = size + (O.unusedData z).length) :
    Occupies (zlibWrapper O) raw (fun s k j => s.2 = [] ∧ R s.1 k j) size where
  ends := by
    intro ⟨z, b⟩ k j x m d' ⟨hb, hr⟩ he hm hx hxp hd hn
    simp only at hb hr; subst hb
    have hx' : x ≠ [] ∨ O.unconsumedTail z ≠ [] := by
      rcases hx with hx | ⟨hx, _⟩
      · exact .inl hx.2
      · right
        simp only [zlibWrapper] at hx he
        simp [he] at hx
        exact hx
    obtain ⟨y, z', h1, h2, h3, h4, h5⟩ := h.step z k j x m.toNat hr he (by omega) hxp hx'
    have hne : ¬ m < 0 := by omega
    simp only [zlibWrapper, if_neg hne, List.length_nil, List.nil_append] at hd
    rw [show (m - ((0 : Nat) : Int)).toNat = m.toNat by omega, h1] at hd
    simp only [Nat.min_eq_right h3, List.take_length, List.drop_length, Prod.mk.injEq,
      Except.ok.injEq] at hd
    obtain ⟨hy, rfl⟩ := hd
    rcases h5 hy with h | h
    · cases he' : O.eof z' with
      | true => exact he'
      | false => simp [zlibWrapper, he', h] at hn
    · exact h
  surplus := by
    intro ⟨z, b⟩ k j ⟨hb, hr⟩ he
    simp only at hb hr; subst hb
    simp only [zlibWrapper]
    exact hu z k j hr he
  unused := by
    intro ⟨z, b⟩ k j ⟨hb, hr⟩ he
    simp only at hb hr; subst hb
    exact ⟨rfl, hr⟩

/-- **C57.** The zstandard wrapper reports the end exactly, if the wrapped object does. -/
theorem C57_zstd_occupies {Z : Type} {O : ZstdObj Z} {z₀ : Z} {raw plain : Bytes}
    {R : Z → Nat → Nat → Prop} (h : ZstdStreams O z₀ raw plain R) {size : Nat}
    (hu : ∀ z k j, R z k j → O.eof z = true → k = size + (O.unusedData z).length) :
    Occupies (zstdWrapper O) raw
      (fun s k j => R s.1 k (j + s.2.length) ∧ s.2 <+: plain.drop j) size where
  ends := by
    intro s k j x m d' hr he hm hx hxp hd hn
    obtain ⟨y, d'', h1, h2, h3, h4⟩ := (C25_zstd_streams h).step s k j x m hr he hm hx hxp
    rw [hd] at h1
    simp only [Prod.mk.injEq, Except.ok.injEq] at h1
    obtain ⟨rfl, rfl⟩ := h1
    rcases h4 rfl with h4 | ⟨h4, h5⟩
    · rw [hn] at h4; exact absurd h4.1 (by simp)
    · simp only [zstdWrapper] at hn
      have h6 := h3.2
      rw [h5] at h6
      simp only [List.length_nil, Nat.add_zero, List.drop_length, List.prefix_nil] at h6
      rw [h6] at hn
      simp at hn
  surplus := by
    intro ⟨z, b⟩ k j ⟨hr, hb⟩ he
    simp only [zstdWrapper, Bool.and_eq_true] at he
    exact hu z k _ hr he.1
  unused := by
    intro ⟨z, b⟩ k j hr he
    exact hr

/-! ### Concrete cases -/

/-- Only the passthrough for uncompressed clusters is registered. -/
def rawCodecs : Codecs Bytes where
  ops := passthrough
  new t := if t = .none then .ok [] else .error .unsupportedCompression

/-- A file with two bytes of other data, an uncompressed cluster with the blobs `[1, 2, 3]` and
`[4, 5]`, and two more bytes. -/
def demoFile : Bytes :=
  [9, 9, 0x01, 12, 0, 0, 0, 15, 0, 0, 0, 17, 0, 0, 0, 1, 2, 3, 4, 5, 88, 99]

/-- `ClusterAt` can be met. -/
def demo : ClusterAt rawCodecs demoFile 2 [[1, 2, 3], [4, 5]] where
  ext := false
  comp := .none
  info := 0x01
  raw := demoFile.drop 3
  tail := [88, 99]
  d₀ := []
  R := _
  info_comp := rfl
  info_ext := by decide
  file_eq := rfl
  new_eq := rfl
  streams := C25_passthrough_streams (demoFile.drop 3)
  fits := by decide

/-- After a history with an abandoned iteration and moves of the file, the in-memory, remembering
and on-disk clusters read the second blob from its second byte on. -/
example (kind : ClusterKind) :
    (readBlob rawCodecs 1 (some 1) none (iterReadBlob rawCodecs 0 2 none none 1
      { c := { kind := kind, offset := 2 }, f := { data := demoFile, pos := 1 } }).2).1 = .ok [5] :=
  C21_read_blob demo (.iterReadBlob 0 2 none none 1 (.fresh kind 1)) 1 (by decide) (some 1) none
    (by simp) (by simp)

example : (iterReadBlob rawCodecs 0 2 none (some 7) 3
      { c := { kind := .onDisk, offset := 2 }, f := { data := demoFile, pos := 1 } }).1 =
    .ok ([[1, 2], [3]], true) ∧
    (iterReadBlob rawCodecs 0 2 none (some 7) 3
      { c := { kind := .inMemory, offset := 2 }, f := { data := demoFile, pos := 1 } }).1 =
    .ok ([[1, 2], [3]], true) := by decide +kernel

example : (getTotalCompressedSize rawCodecs 18
      { c := { kind := .onDisk, offset := 2 }, f := { data := demoFile, pos := 1 } }).1 = .ok 18 :=
  C57_total_size_uncompressed demo rfl (.fresh .onDisk 1) 18 (by decide)

/-- **C56, finding.** Streaming a range that starts beyond the end of a blob yields the bytes that
follow: here, of an uncompressed cluster, the next blob and the rest of the file, and then raises. -/
theorem C56_iter_read_blob_leaks :
    ∃ (A : ClusterAt rawCodecs demoFile 2 [[1, 2, 3], [4, 5]]) (s : CSt Bytes),
      A.tail = [88, 99] ∧ Reached rawCodecs demoFile 2 s ∧
      (iterReadBlob rawCodecs 0 4096 (some 4) none 1 s).1 = .ok ([[5, 88, 99]], false) ∧
      (iterReadBlob rawCodecs 0 4096 (some 4) none 2 s).1 = .error .ioError :=
  ⟨demo, _, rfl, .fresh .onDisk 0, by decide +kernel, by decide +kernel⟩

/-- **C56, finding.** `read_blob` raises if the range starts beyond the end of the file. -/
theorem C56_read_blob_beyond_file_raises :
    ∃ (_ : ClusterAt rawCodecs demoFile 2 [[1, 2, 3], [4, 5]]) (s : CSt Bytes),
      Reached rawCodecs demoFile 2 s ∧
      (readBlob rawCodecs 0 (some 100) none s).1 = .error .ioError :=
  ⟨demo, _, .fresh .onDisk 0, by decide +kernel⟩

/-- A cluster "compressed" with the toy zlib object: 13 bytes of stream, then other data. -/
def toyCodecs : Codecs (ToyZ × Bytes) where
  ops := zlibWrapper toyZlib
  new t := if t = .zlib then .ok ({ left := 13 }, []) else .error .unsupportedCompression

def toyFile : Bytes := [7, 0x02, 8, 0, 0, 0, 13, 0, 0, 0, 1, 2, 3, 4, 5, 88, 99]

/-- The toy object reports its surplus exactly. -/
theorem toyZlib_streams_unused (raw : Bytes) (L : Nat) (h0 : 0 < L) (hL : L ≤ raw.length) :
    ZlibStreams toyZlib { left := L } raw (raw.take L)
      (fun z k j => (z.left = L - j ∧ j ≤ L ∧ j ≤ k ∧ k ≤ raw.length ∧
        (j < L → z.tail = (raw.drop j).take (k - j)) ∧ (j = L → z.tail = [])) ∧
        (z.left = 0 → k = L + z.unused.length)) := by
  have h := toyZlib_streams raw L hL
  refine ⟨⟨h.init, fun h => ?_⟩, h.tail₀, fun z k j hr => h.bound z k j hr.1,
    fun z k j hr => h.eof_done z k j hr.1, ?_, fun z j hr => h.closed z j hr.1⟩
  · simp only at h; omega
  · intro z k j x m hr he hm hx hne
    obtain ⟨y, z', h1, h2, h3, h4, h5⟩ := h.step z k j x m hr.1 he hm hx hne
    refine ⟨y, z', h1, h2, h3, ⟨h4, fun hz => ?_⟩, h5⟩
    obtain ⟨⟨a1, a2, a3, a4, a5, a6⟩, _⟩ := hr
    simp only [toyZlib, beq_eq_false_iff_ne] at he
    have ht : z.tail.length = k - j := by
      rw [a5 (by omega), List.length_take, List.length_drop]; omega
    simp only [toyZlib, if_neg (show ¬ m = 0 by omega)] at h1
    split at h1
    · simp only [Prod.mk.injEq] at h1
      rw [← h1.2]
      simp only [List.length_drop, List.length_append]
      rename_i hz0
      simp only [List.length_append] at hz0
      omega
    · simp only [Prod.mk.injEq] at h1
      rw [← h1.2] at hz
      simp only at hz
      omega

def toyDemo : ClusterAt toyCodecs toyFile 1 [[1, 2, 3, 4, 5]] where
  ext := false
  comp := .zlib
  info := 0x02
  raw := toyFile.drop 2
  tail := []
  d₀ := ({ left := 13 }, [])
  R := _
  info_comp := rfl
  info_ext := by decide
  file_eq := rfl
  new_eq := rfl
  streams := C25_zlib_streams (toyZlib_streams_unused (toyFile.drop 2) 13 (by decide) (by decide))
  fits := by decide

example : (getTotalCompressedSize toyCodecs 14
      { c := { kind := .onDisk, offset := 1 }, f := { data := toyFile, pos := 0 } }).1 = .ok 14 :=
  have h := toyZlib_streams_unused (toyFile.drop 2) 13 (by decide) (by decide)
  C57_total_size_compressed toyDemo (by decide) (C25_zlib_closed h) rfl
    (C57_zlib_occupies h (size := 13) (fun _ _ _ hr he => hr.2 (by simpa [toyZlib] using he)))
    (.fresh .onDisk 0) 14 (by decide)

end Cluster
end Pyzim
