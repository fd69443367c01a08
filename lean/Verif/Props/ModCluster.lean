import Verif.Lemmas.ModCluster
import Verif.Props.Blob
import Verif.Props.Cluster

/-!
# Properties of modifiable clusters (C19, C20, C21 and C22 for modified clusters, C23, C58)
-/

namespace Pyzim
namespace MCluster
variable {D : Type} {X : Codecs D} {orig : List Bytes} {ext : Bool} {comp : CompressionType}
  {view : List Bytes}

/-- The cluster wrapped initially: a new one, or one with the blobs `orig` found in a file and used
in any way before. -/
def Wraps (X : Codecs D) (orig : List Bytes) (ext : Bool) (comp : CompressionType) (i : Inner D) :
    Prop :=
  (i = .empty ∧ orig = [] ∧ ext = false ∧ comp = .none) ∨
  ∃ (file : Bytes) (o : Nat) (A : ClusterAt X file o orig) (s : CSt D),
    i = .real s ∧ Cluster.Reached X file o s ∧ A.ext = ext ∧ A.comp = comp

/-- `History X orig ext comp view m`: the state `m` of a modifiable cluster is reached from the
wrapped cluster with the blobs `orig` by setting, appending and emptying blobs, successfully or
not, by forcing compression or offset width, by resetting and by reading; `view` is the list of
blobs after applying the same modifications to a list. -/
inductive History (X : Codecs D) (orig : List Bytes) (ext : Bool) (comp : CompressionType) :
    List Bytes → MCluster D → Prop
  | fresh {i} : Wraps X orig ext comp i → History X orig ext comp orig { inner := i }
  | modified {view m} (op : ModOp) : op.Sound → History X orig ext comp view m →
      History X orig ext comp ((op.apply view).getD view) (op.exec X m).2
  | setCompression {view m} (t) : History X orig ext comp view m →
      History X orig ext comp view (m.setCompression t)
  | setExtended {view m} (e) : History X orig ext comp view m →
      History X orig ext comp view (m.setExtended e)
  | reset {view m} : m.inner ≠ .empty → History X orig ext comp view m →
      History X orig ext comp orig m.reset
  | infobyte {view m} : History X orig ext comp view m →
      History X orig ext comp view (readInfobyteIfNeeded m).2
  | numBlobs {view m} : History X orig ext comp view m →
      History X orig ext comp view (getNumberOfBlobs X m).2
  | blobSize {view m} (i) : History X orig ext comp view m →
      History X orig ext comp view (getBlobSize X i m).2
  | contentSize {view m} : History X orig ext comp view m →
      History X orig ext comp view (getContentSize X m).2
  | decompressedSize {view m} : History X orig ext comp view m →
      History X orig ext comp view (getTotalDecompressedSize X m).2
  | offset {view m} (i) : History X orig ext comp view m →
      History X orig ext comp view (getOffset X i m).2
  | offsets {view m} (ns) : History X orig ext comp view m →
      History X orig ext comp view (iterBlobOffsets X ns false m).2
  | readBlob {view m} (i start stop) : History X orig ext comp view m →
      History X orig ext comp view (readBlob X i start stop m).2
  | iterReadBlob {view m} (i bs start stop calls) : History X orig ext comp view m →
      History X orig ext comp view (iterReadBlob X i bs start stop calls m).2
  | write {view m} {K : Type} (C : Compressors K) : History X orig ext comp view m →
      History X orig ext comp view (iterWrite X C m).2

theorem exec_spec {m : MCluster D} (h : Plain X orig ext comp view m) (op : ModOp) (hop : op.Sound) :
    (∀ view', op.apply view = some view' → ∃ m', op.exec X m = (.ok (), m') ∧
      Plain X orig ext comp view' m' ∧ m'.forceExt = m.forceExt ∧ m'.hasModifications = true) ∧
    (op.apply view = none → ∃ i', op.exec X m = (.error .assertionError, m.setInner i') ∧
      InnerIs X orig ext comp i') := by
  have key : ∀ (i : Nat) (src : BlobSource) (c : Bytes), Delivers src c →
      (∀ view', (if i < view.length then some (view.set i c)
          else if i = view.length then some (view ++ [c]) else none) = some view' →
        ∃ m', setBlob X i src m = (.ok (), m') ∧ Plain X orig ext comp view' m' ∧
          m'.forceExt = m.forceExt ∧ m'.hasModifications = true) ∧
      ((if i < view.length then some (view.set i c)
          else if i = view.length then some (view ++ [c]) else none) = none →
        ∃ i', setBlob X i src m = (.error .assertionError, m.setInner i') ∧
          InnerIs X orig ext comp i') := by
    intro i src c hd
    obtain ⟨h1, h2⟩ := setBlob_spec h i hd
    by_cases hi : i ≤ view.length
    · obtain ⟨m', g1, g2, g3, _, g5, _⟩ := h1 hi
      unfold putBlob at g2
      by_cases hlt : i < view.length
      · rw [if_pos hlt] at g2
        simp only [if_pos hlt]
        refine ⟨fun v hv => ?_, fun h => by simp at h⟩
        injection hv with hv
        subst hv
        exact ⟨m', g1, g2, g3, g5⟩
      · rw [if_neg hlt] at g2
        simp only [if_neg hlt, if_pos (show i = view.length by omega)]
        refine ⟨fun v hv => ?_, fun h => by simp at h⟩
        injection hv with hv
        subst hv
        exact ⟨m', g1, g2, g3, g5⟩
    · simp only [if_neg (show ¬ i < view.length by omega), if_neg (show ¬ i = view.length by omega)]
      exact ⟨fun _ h => by simp at h, fun _ => h2 (by omega)⟩
  cases op with
  | set i src c => exact key i src c hop
  | empty i =>
    have := key i _ [] (Blob.C52_pieces_complete .empty trivial)
    unfold ModOp.exec emptyBlob
    simp only [PyM.get_bind, h.mutable, PyM.require_true_bind]
    exact this
  | append src c =>
    obtain ⟨i1, a1, a2, _⟩ := getNumberOfBlobs_spec h.toRepr
    obtain ⟨h1, _⟩ := setBlob_spec (h.setInner a2) view.length (src := src) (c := c) hop
    obtain ⟨m', g1, g2, g3, _, g5, _⟩ := h1 (Nat.le_refl _)
    refine ⟨fun v hv => ?_, fun h => by simp [ModOp.apply] at h⟩
    simp only [ModOp.apply, Option.some.injEq] at hv
    subst hv
    unfold putBlob at g2
    rw [if_neg (Nat.lt_irrefl _)] at g2
    refine ⟨m', ?_, g2, g3, g5⟩
    unfold ModOp.exec appendBlob
    simp only
    rw [PyM.bind_assoc']
    simp only [PyM.get_bind, h.mutable]
    rw [PyM.bind_assoc']
    simp only [PyM.require_true_bind]
    rw [PyM.bind_assoc', PyM.bind_ok a1, PyM.bind_assoc', Int.toNat_natCast, PyM.bind_ok g1]
    rfl

theorem History.plain {m : MCluster D} (h : History X orig ext comp view m) :
    Plain X orig ext comp view m := by
  induction h with
  | @fresh i hw =>
    refine ⟨⟨?_, rfl, by simp, fun i => rfl⟩, rfl, rfl, rfl⟩
    rcases hw with ⟨rfl, h1, h2, h3⟩ | ⟨file, o, A, s, rfl, hr, h2, h3⟩
    · exact ⟨h1, h2, h3⟩
    · exact ⟨file, o, A, hr.good A, h2, h3⟩
  | @modified view m op hop _ ih =>
    obtain ⟨h1, h2⟩ := exec_spec ih op hop
    cases ha : op.apply view with
    | some v =>
      obtain ⟨m', g1, g2, _⟩ := h1 v ha
      rw [g1]; exact g2
    | none =>
      obtain ⟨i', g1, g2⟩ := h2 ha
      rw [g1]; exact ih.setInner g2
  | setCompression t _ ih => exact ⟨⟨ih.inner, ih.bound, ih.count, ih.get⟩, ih.removed, ih.added, ih.mutable⟩
  | setExtended e _ ih => exact ⟨⟨ih.inner, ih.bound, ih.count, ih.get⟩, ih.removed, ih.added, ih.mutable⟩
  | @reset view m hne _ ih =>
    unfold MCluster.reset
    cases hm : m.inner with
    | empty => exact absurd hm hne
    | real s =>
      have hin := ih.inner
      rw [hm] at hin
      obtain ⟨file, o, A, hg, he, hc⟩ := hin
      exact ⟨⟨⟨file, o, A, hg.reset, he, hc⟩, ih.bound, by simp, fun i => rfl⟩, rfl, rfl, ih.mutable⟩
  | infobyte _ ih => exact ih.reads reads_readInfobyteIfNeeded
  | numBlobs _ ih => exact ih.reads reads_getNumberOfBlobs
  | blobSize i _ ih => exact ih.reads (reads_getBlobSize i)
  | contentSize _ ih => exact ih.reads reads_getContentSize
  | decompressedSize _ ih => exact ih.reads reads_getTotalDecompressedSize
  | offset i _ ih => exact ih.reads (reads_getOffset i)
  | offsets ns _ ih => exact ih.reads (reads_iterBlobOffsets ns false)
  | readBlob i a b _ ih => exact ih.reads (reads_readBlob i a b)
  | iterReadBlob i bs a b c _ ih => exact ih.reads (reads_iterReadBlob i bs a b c)
  | write C _ ih =>
    obtain ⟨res, i', h1, h2, _⟩ := iterWrite_spec (C := C) ih.toRepr
    rw [h1]; exact ih.setInner h2

theorem Repr.shows {m : MCluster D} (h : Repr X orig ext comp view m) : Shows X view m := by
  refine ⟨?_, fun i hi => ?_, fun i hi => ?_, fun i hi => ⟨?_, ?_⟩⟩
  · obtain ⟨i', h1, _⟩ := getNumberOfBlobs_spec h
    rw [h1]
  · obtain ⟨i', h1, _⟩ := getBlobSize_spec h i
    rw [List.getElem?_eq_getElem hi] at h1
    rw [h1]
  · obtain ⟨i', h1, _⟩ := readBlob_spec h i none none rfl (by simp)
    rw [List.getElem?_eq_getElem hi] at h1
    rw [h1]
    simp [partOf]
  · obtain ⟨i', h1, _⟩ := getBlobSize_spec h i
    rw [List.getElem?_eq_none hi] at h1
    rw [h1]
  · obtain ⟨i', h1, _⟩ := readBlob_spec h i none none rfl (by simp)
    rw [List.getElem?_eq_none hi] at h1
    rw [h1]

/-! ### C23 -/

/-- **C23.** After every history of setting, appending and emptying blobs (mixed with reading,
forcing attributes and resetting), the cluster shows the list of blobs obtained by doing the same
to a list. -/
theorem C23_shows {m : MCluster D} (h : History X orig ext comp view m) : Shows X view m :=
  h.plain.toRepr.shows

/-- **C23.** A modification succeeds exactly if it makes sense for the list (the index is at most the
number of blobs); otherwise it raises, and by `C23_shows` and `History.modified` nothing has
changed. -/
theorem C23_modification_accepted {m : MCluster D} (h : History X orig ext comp view m) (op : ModOp)
    (hop : op.Sound) :
    (op.exec X m).1 = if (op.apply view).isSome then .ok () else .error .assertionError := by
  obtain ⟨h1, h2⟩ := exec_spec h.plain op hop
  cases ha : op.apply view with
  | some v => obtain ⟨m', g1, _⟩ := h1 v ha; rw [g1]; rfl
  | none => obtain ⟨i', g1, _⟩ := h2 ha; rw [g1]; rfl

/-- **C23.** `append_blob` returns the index of the new blob. -/
theorem C23_append_index {m : MCluster D} (h : History X orig ext comp view m) {src : BlobSource}
    {c : Bytes} (hd : Delivers src c) : (appendBlob X src m).1 = .ok (view.length : Int) := by
  have hp := h.plain
  obtain ⟨i1, a1, a2, _⟩ := getNumberOfBlobs_spec hp.toRepr
  obtain ⟨h1, _⟩ := setBlob_spec (hp.setInner a2) view.length hd
  obtain ⟨m', g1, _⟩ := h1 (Nat.le_refl _)
  unfold appendBlob
  simp only [PyM.get_bind, hp.mutable, PyM.require_true_bind]
  rw [PyM.bind_ok a1, Int.toNat_natCast, PyM.bind_ok g1]
  rfl

/-- **C23.** The offsets (of a cluster whose information byte has been looked at) are those of the
list of blobs, for the offset width in use. -/
theorem C23_offsets {m : MCluster D} (h : History X orig ext comp view m) :
    ∃ e : Bool, (isExtended X (readInfobyteIfNeeded m).2).1 = .ok (some e) ∧
      (∀ i ≤ view.length, (getOffset X i (readInfobyteIfNeeded m).2).1 =
        .ok (blobOffset (if e then 8 else 4) view i : Int)) ∧
      (∀ i > view.length, (getOffset X i (readInfobyteIfNeeded m).2).1 = .error .indexError) ∧
      (iterBlobOffsets X none false (readInfobyteIfNeeded m).2).1 =
        .ok ((List.range (view.length + 1)).map fun j => (blobOffset (if e then 8 else 4) view j : Int)) ∧
      (getTotalDecompressedSize X (readInfobyteIfNeeded m).2).1 =
        .ok ((clusterBody (if e then 8 else 4) view).length : Int) := by
  obtain ⟨i0, h1, h2, h3⟩ := readInfobyteIfNeeded_spec h.plain.inner
  rw [h1]
  have hr := h.plain.toRepr.setInner h2
  have hk : Known ext comp (m.setInner i0) := .inr (.inr h3)
  refine ⟨extOf ext view (m.setInner i0), ?_, fun i hi => ?_, fun i hi => ?_, ?_, ?_⟩
  · obtain ⟨_, g, _⟩ := isExtended_spec hr hk
    rw [g]
  · obtain ⟨_, g, _⟩ := getOffset_spec hr hk i
    rw [if_pos hi] at g
    rw [g]
  · obtain ⟨_, g, _⟩ := getOffset_spec hr hk i
    rw [if_neg (by omega)] at g
    rw [g]
  · obtain ⟨_, g, _⟩ := iterBlobOffsets_all hr hk
    rw [g]
  · obtain ⟨_, g, _⟩ := getTotalDecompressedSize_spec hr hk
    rw [g]

/-- **C23, finding.** On a freshly wrapped cluster `get_offset` raises `RuntimeError`: nothing has
read the information byte. -/
theorem C23_offset_needs_infobyte (s : CSt D) (h : s.c.isExtended = none) (i : Nat) :
    (getOffset X i ({ inner := .real s } : MCluster D)).1 = .error .runtimeError := by
  simp [getOffset, iterBlobOffsets, getTotalOffsetSize, pointerSize, isExtended, hasModifications,
    innerIsExtended, h, PyM.get, PyM.require, PyM.raise, bind, PyM.bind, pure, PyM.pure]

/-! ### C21 and C22 -/

/-- **C21.** Reading a range that starts within the blob returns exactly that range, from modified
clusters too. -/
theorem C21_modified_read_blob {m : MCluster D} (h : History X orig ext comp view m) (i : Nat)
    (hi : i < view.length) (start stop : Option Nat) (hr : Cluster.rangeOk start stop = true)
    (hs : start.getD 0 ≤ view[i].length) :
    (readBlob X i start stop m).1 = .ok (partOf view[i] start stop) := by
  obtain ⟨i', h1, _⟩ := readBlob_spec h.plain.toRepr i start stop hr (fun b hb => by
    rw [List.getElem?_eq_getElem hi] at hb; injection hb with hb; rw [← hb]; exact hs)
  rw [List.getElem?_eq_getElem hi] at h1
  rw [h1]

/-- **C21.** A blob that does not exist cannot be read. -/
theorem C21_modified_no_such_blob {m : MCluster D} (h : History X orig ext comp view m) (i : Nat)
    (hi : view.length ≤ i) (start stop : Option Nat) (hr : Cluster.rangeOk start stop = true) :
    (readBlob X i start stop m).1 = .error .blobNotFound := by
  have hn := List.getElem?_eq_none hi
  obtain ⟨i', h1, _⟩ := readBlob_spec h.plain.toRepr i start stop hr (fun b hb => by simp [hn] at hb)
  rw [hn] at h1
  rw [h1]

/-- **C22.** Iterating over a blob of a modified cluster delivers what reading it does, and chunks
are no longer than the buffer size if the blob sources respect it. -/
theorem C22_modified_iter_read_blob {m : MCluster D} (h : History X orig ext comp view m) (i : Nat)
    (hi : i < view.length) (start stop : Option Nat) (hr : Cluster.rangeOk start stop = true)
    (hs : start.getD 0 ≤ view[i].length) (bs : Nat) (hbs : 0 < bs) :
    (∀ calls, ∃ cs fin, (iterReadBlob X i bs start stop calls m).1 = .ok (cs, fin) ∧
      cs.flatten <+: partOf view[i] start stop ∧
      ((∀ src ∈ m.blobs, ∀ p ∈ src.2.pieces bs, p.length ≤ bs) → ∀ c ∈ cs, c.length ≤ bs)) ∧
    ∃ cs, (iterReadBlob X i bs start stop (view[i].length + 2) m).1 = .ok (cs, true) ∧
      (readBlob X i start stop m).1 = .ok cs.flatten := by
  have hv := List.getElem?_eq_getElem hi
  have key : ∀ calls, ∃ cs fin, (iterReadBlob X i bs start stop calls m).1 = .ok (cs, fin) ∧
      cs.flatten <+: partOf view[i] start stop ∧
      (fin = true → cs.flatten = partOf view[i] start stop) ∧
      (fin = false → calls ≤ view[i].length + 1) ∧
      ((∀ src ∈ m.blobs, ∀ p ∈ src.2.pieces bs, p.length ≤ bs) → ∀ c ∈ cs, c.length ≤ bs) := by
    intro calls
    obtain ⟨res, i', h1, h2, _, h4⟩ := iterReadBlob_spec h.plain.toRepr i bs start stop calls hbs hr
      (fun b hb => by rw [hv] at hb; injection hb with hb; rw [← hb]; exact hs)
    obtain ⟨cs, fin, rfl, g1, g2, g3, g4⟩ := h4 _ hv
    refine ⟨cs, fin, by rw [h1], g1, g2, g3, fun hp => g4 fun src hl => ?_⟩
    have hmem : (i, src) ∈ m.blobs := by
      clear h1 h2 h4 g1 g2 g3 g4 hp
      generalize m.blobs = l at hl
      induction l with
      | nil => simp at hl
      | cons p l ih =>
        obtain ⟨k, x⟩ := p
        simp only [List.lookup] at hl
        by_cases hk : i = k
        · subst hk; simp at hl; simp [hl]
        · have hb : (i == k) = false := by simpa using hk
          rw [hb] at hl
          exact List.mem_cons_of_mem _ (ih hl)
    exact hp (i, src) hmem
  refine ⟨fun calls => ?_, ?_⟩
  · obtain ⟨cs, fin, g1, g2, _, _, g5⟩ := key calls
    exact ⟨cs, fin, g1, g2, g5⟩
  · obtain ⟨cs, fin, g1, g2, g3, g4, g5⟩ := key (view[i].length + 2)
    cases fin with
    | false => have := g4 rfl; omega
    | true =>
      refine ⟨cs, g1, ?_⟩
      rw [g3 rfl]
      exact C21_modified_read_blob h i hi start stop hr hs

/-! ### C20 -/

/-- **C20.** Unless the width is forced, a modified cluster uses 8 byte offsets exactly if some offset
would not fit into 4 bytes. -/
theorem C20_width {m : MCluster D} (h : History X orig ext comp view m) (hf : m.forceExt = none)
    (hm : m.hasModifications = true) :
    ∃ e : Bool, (isExtended X m).1 = .ok (some e) ∧
      (e = false ↔ ∀ k ≤ view.length, blobOffset 4 view k < 2 ^ 32) := by
  obtain ⟨i', h1, _⟩ := isExtended_spec h.plain.toRepr (.inr (.inl hm))
  refine ⟨extOf ext view m, by rw [h1], ?_⟩
  unfold extOf
  rw [hf]
  simp only [hm, Bool.true_eq_false, if_false, decide_eq_false_iff_not]
  have hlast : blobOffset 4 view view.length = 4 * (view.length + 1) + view.flatten.length := by
    simp [blobOffset, List.take_length]
  constructor
  · intro hlt k _
    have := blobOffset_le_last 4 view k
    omega
  · intro hall
    have := hall view.length (Nat.le_refl _)
    omega

/-- The offsets fit the width in use. -/
theorem fits_of_unforced {m : MCluster D} (h : History X orig ext comp view m)
    (hf : m.forceExt = none) (hsize : 8 * (view.length + 1) + view.flatten.length < 2 ^ 64) :
    blobOffset (widthOf ext view m) view view.length < 256 ^ widthOf ext view m := by
  unfold widthOf extOf
  rw [hf]
  simp only
  by_cases hm : m.hasModifications = false
  · simp only [if_pos hm]
    have hv := h.plain.toRepr.unmodified hm
    subst hv
    have hin := h.plain.inner
    cases hi : m.inner with
    | empty =>
      rw [hi] at hin
      rw [hin.1, hin.2.1]
      decide
    | real s =>
      rw [hi] at hin
      obtain ⟨file, o, A, _, he, _⟩ := hin
      rw [← he]; exact A.fits
  · simp only [if_neg hm, decide_eq_true_eq]
    by_cases hbig : 2 ^ 32 ≤ 4 * (view.length + 1) + view.flatten.length
    · rw [if_pos hbig]
      simp only [blobOffset, List.take_length]
      omega
    · rw [if_neg hbig]
      simp only [blobOffset, List.take_length]
      omega

/-- **C20.** Unless the width is forced, serialization never fails to pack an offset: the body is
produced, and it is the offset table with the offsets of the list of blobs followed by the blobs
(for clusters below 2⁶⁴ bytes). -/
theorem C20_offsets_fit {m : MCluster D} (h : History X orig ext comp view m) (hf : m.forceExt = none)
    (hsize : 8 * (view.length + 1) + view.flatten.length < 2 ^ 64) :
    ∃ (e : Bool) (cs : List Bytes), (isExtended X (readInfobyteIfNeeded m).2).1 = .ok (some e) ∧
      (iterWriteRaw X (readInfobyteIfNeeded m).2).1 = .ok cs ∧
      cs.flatten = clusterBody (if e then 8 else 4) view ∧
      ∀ k ≤ view.length, blobOffset (if e then 8 else 4) view k < 256 ^ (if e then 8 else 4) := by
  obtain ⟨i0, h1, h2, h3⟩ := readInfobyteIfNeeded_spec h.plain.inner
  have hh := History.infobyte h
  have hfit : blobOffset (widthOf ext view (m.setInner i0)) view view.length <
      256 ^ widthOf ext view (m.setInner i0) :=
    (fits_of_unforced h hf hsize : blobOffset (widthOf ext view m) view view.length <
      256 ^ widthOf ext view m)
  rw [h1] at hh ⊢
  have hk : Known ext comp (m.setInner i0) := .inr (.inr h3)
  obtain ⟨_, g, _⟩ := isExtended_spec hh.plain.toRepr hk
  obtain ⟨res, i', a1, a2, a3, _⟩ := iterWriteRaw_spec hh.plain.toRepr hk
  obtain ⟨cs, rfl, hcs⟩ := a3 hfit
  refine ⟨extOf ext view (m.setInner i0), cs, by rw [g], by rw [a1], hcs, fun k _ => ?_⟩
  exact Nat.lt_of_le_of_lt (blobOffset_le_last _ view k) hfit

/-- **C20.** Even with a forced width no offset is ever truncated: if one does not fit, writing
raises `struct.error`. -/
theorem C20_never_truncated {K : Type} {C : Compressors K} {m : MCluster D}
    (h : History X orig ext comp view m) (e : Bool) (hf : m.forceExt = some e) (k : Nat)
    (hbig : 256 ^ (if e then 8 else 4) ≤ blobOffset (if e then 8 else 4) view k) :
    ∃ err, (iterWrite X C m).1 = .error err := by
  cases hres : (iterWrite X C m).1 with
  | error err => exact ⟨err, rfl⟩
  | ok out =>
    exfalso
    obtain ⟨_, _, _, _, _, _, hfit, _⟩ := iterWrite_ok h.plain.toRepr hres
    have hw : widthOf ext view m = if e then 8 else 4 := by unfold widthOf extOf; rw [hf]
    rw [hw] at hfit
    have hlast := blobOffset_le_last (if e then 8 else 4) view k
    omega

/-! ### C19 -/

theorem compressAll_compresses {K : Type} {C : Compressors K} {k : K} {cs outs : List Bytes}
    (h : compressAll C k cs = .ok outs) : Compresses C k cs outs.flatten := by
  induction cs generalizing k outs with
  | nil =>
    unfold compressAll at h
    cases hf : C.flush k with
    | error e => rw [hf] at h; cases h
    | ok f =>
      rw [hf] at h
      injection h with h
      subst h
      simpa using Compresses.flush hf
  | cons c cs ih =>
    unfold compressAll at h
    rcases hc : C.compress k c with ⟨_ | o, k'⟩
    · rw [hc] at h; cases h
    · rw [hc] at h
      simp only at h
      cases hr : compressAll C k' cs with
      | error e => rw [hr] at h; cases h
      | ok rest =>
        rw [hr] at h
        injection h with h
        subst h
        exact Compresses.chunk hc (ih hr)

theorem compresses_compressAll {K : Type} {C : Compressors K} {k : K} {cs : List Bytes} {out : Bytes}
    (h : Compresses C k cs out) : ∃ outs, compressAll C k cs = .ok outs := by
  induction h with
  | flush h => exact ⟨[_], by simp only [compressAll, h]; rfl⟩
  | chunk h _ ih =>
    obtain ⟨outs, ho⟩ := ih
    exact ⟨_ :: outs, by simp only [compressAll, h, ho]; rfl⟩

/-- What the written bytes are: a cluster with exactly the blobs shown, wherever they end up in a
file, with more data behind them. -/
theorem written_clusterAt {K : Type} {C : Compressors K} {m : MCluster D}
    (h : History X orig ext comp view m) {out : List Bytes} (hw : (iterWrite X C m).1 = .ok out)
    (hl : Lossless X C (compOf comp m)) (hne : compOf comp m ≠ .unknown)
    (file : Bytes) (o : Nat) (rest : Bytes) (hrest : rest ≠ [])
    (hfile : file.drop o = out.flatten ++ rest) :
    Nonempty { A : ClusterAt X file o view //
      A.ext = extOf ext view m ∧ A.comp = compOf comp m ∧ A.raw = out.flatten.drop 1 ++ rest } := by
  obtain ⟨info, k, cs, outs, hi, hk, hfit, hcs, hca, rfl⟩ := iterWrite_ok h.plain.toRepr hw
  obtain ⟨b, hb, _⟩ := Cluster.C18_parse_generate (D := D) (compOf comp m) hne (extOf ext view m)
    { kind := .onDisk, offset := 0 }
  rw [hi] at hb
  injection hb with hb
  subst hb
  obtain ⟨d₀, tail, R, hd, hs⟩ := hl k hk cs _ (compressAll_compresses hca) rest hrest
  have hbytes : ((b.toNat % 16 : Nat) : Int) = (compOf comp m).value ∧
      ((b.toNat / 16 % 2 = 1) ↔ extOf ext view m = true) := by
    revert hi hne
    generalize compOf comp m = t
    generalize extOf ext view m = e
    intro hne hi
    cases t <;> cases e <;>
      first
      | exact absurd rfl hne
      | (simp only [Cluster.generateInfobyte, CompressionType.value] at hi
         simp at hi
         subst hi
         decide)
  have e1 : file.drop o = b :: (outs.flatten ++ rest) := by rw [hfile]; simp
  rw [hcs] at hs
  exact ⟨⟨⟨extOf ext view m, compOf comp m, b, outs.flatten ++ rest, tail, d₀, R, hbytes.1, hbytes.2,
    e1, hd, hs, hfit⟩, rfl, rfl, by simp⟩⟩

/-- **C19.** Write a cluster after any history of modifications, put the bytes anywhere into a file
with other data behind them and open it as any kind of cluster: it has the same number of blobs,
the same sizes and the same contents (as a whole, in part, in pieces), after any use of it. The
compression only has to be lossless, `unknown` is not one. -/
theorem C19_round_trip {K : Type} {C : Compressors K} {m : MCluster D}
    (h : History X orig ext comp view m) {out : List Bytes} (hw : (iterWrite X C m).1 = .ok out)
    (hl : Lossless X C (m.forceComp.getD comp)) (hne : m.forceComp.getD comp ≠ .unknown)
    (file : Bytes) (o : Nat) (rest : Bytes) (hrest : rest ≠ [])
    (hfile : file.drop o = out.flatten ++ rest) (s : CSt D) (hs : Cluster.Reached X file o s) :
    (Cluster.getNumberOfBlobs X s).1 = .ok (view.length : Int) ∧
    ∀ i (hi : i < view.length), Cluster.Gives X s i view[i] := by
  obtain ⟨A, _⟩ := written_clusterAt h hw hl hne file o rest hrest hfile
  have hg := hs.good A
  refine ⟨?_, fun i hi => ⟨?_, Cluster.C21_read_whole_blob A hs i hi,
    fun start stop hr => Cluster.C21_read_blob A hs i hi start stop hr.1 hr.2,
    fun bs hbs start stop hr calls => Cluster.C22_iter_read_blob A hs i hi bs hbs start stop hr.1 hr.2 calls⟩⟩
  · obtain ⟨s', h1, _⟩ := Cluster.getNumberOfBlobs_spec A hg
    rw [h1]
  · obtain ⟨s', h1, _⟩ := Cluster.getBlobSize_spec A hg i
    rw [List.getElem?_eq_getElem hi] at h1
    rw [h1]

/-- **C19.** The written cluster announces the compression and offset width in use. -/
theorem C19_attributes {K : Type} {C : Compressors K} {m : MCluster D}
    (h : History X orig ext comp view m) {out : List Bytes} (hw : (iterWrite X C m).1 = .ok out)
    (hl : Lossless X C (m.forceComp.getD comp)) (hne : m.forceComp.getD comp ≠ .unknown)
    (file : Bytes) (o : Nat) (rest : Bytes) (hrest : rest ≠ [])
    (hfile : file.drop o = out.flatten ++ rest) (s : CSt D) (hs : Cluster.Reached X file o s) :
    (Cluster.readInfobyteIfNeeded s).2.c.compression = some (m.forceComp.getD comp) ∧
    ∃ e, (isExtended X (readInfobyteIfNeeded m).2).1 = .ok (some e) ∧
      (Cluster.readInfobyteIfNeeded s).2.c.isExtended = some e := by
  obtain ⟨A, ha, hb, _⟩ := written_clusterAt h hw hl hne file o rest hrest hfile
  obtain ⟨s', h1, h2, _⟩ := Cluster.readInfobyteIfNeeded_spec A (hs.good A)
  rw [h1]
  refine ⟨by rw [h2.comp, hb]; rfl, extOf ext view m, ?_, by rw [h2.ext, ha]⟩
  obtain ⟨i0, b1, b2, b3⟩ := readInfobyteIfNeeded_spec h.plain.inner
  obtain ⟨_, g, _⟩ := isExtended_spec (h.plain.toRepr.setInner b2) (.inr (.inr b3))
  rw [b1, g]
  rfl

/-- **C19.** Writing succeeds: for a supported compression whose compressor does not fail, and unless
the offset width is forced (clusters below 2⁶⁴ bytes). -/
theorem C19_write_succeeds {K : Type} {C : Compressors K} {m : MCluster D}
    (h : History X orig ext comp view m) (hf : m.forceExt = none)
    (hsize : 8 * (view.length + 1) + view.flatten.length < 2 ^ 64)
    (hne : m.forceComp.getD comp ≠ .unknown) {k : K} (hk : C.new (m.forceComp.getD comp) = .ok k)
    (hc : ∀ cs, ∃ out, Compresses C k cs out) :
    ∃ out, (iterWrite X C m).1 = .ok out := by
  obtain ⟨b, hb, _⟩ := Cluster.C18_parse_generate (D := D) (compOf comp m) hne (extOf ext view m)
    { kind := .onDisk, offset := 0 }
  obtain ⟨res, i', h1, _, h3⟩ := iterWrite_spec (C := C) h.plain.toRepr
  obtain ⟨cs, _, hr⟩ := (h3 _ hb k hk).1 (fits_of_unforced h hf hsize)
  obtain ⟨outs, ho⟩ := (hc cs).elim fun _ h => compresses_compressAll h
  rw [h1, hr, ho]
  exact ⟨_, rfl⟩

/-- **C19.** `get_disk_size` is the number of bytes that writing produces. -/
theorem C19_disk_size {K : Type} {C : Compressors K} {m : MCluster D} {out : List Bytes}
    (hw : (iterWrite X C m).1 = .ok out) : (getDiskSize X C m).1 = .ok out.flatten.length := by
  unfold getDiskSize
  rw [PyM.bind_ok (s' := (iterWrite X C m).2) (a := out) (by rw [← hw])]
  simp only [PyM.pure_apply, List.length_flatten]

/-! ### C58 -/

/-- **C58, partial.** One removal of an existing blob is right, whatever has been set, appended or
emptied before. Missing: several removals mixed with other modifications (see the findings below). -/
theorem C58_first_removal_partial {m : MCluster D} (h : History X orig ext comp view m) (i : Nat)
    (hi : i < view.length) :
    (removeBlob i m).1 = .ok () ∧ Shows X (view.eraseIdx i) (removeBlob i m).2 := by
  obtain ⟨m', h1, h2, _⟩ := removeBlob_first h.plain i hi
  rw [h1]
  exact ⟨rfl, h2.shows⟩

/-- A sequence of removals of existing blobs, on a list. -/
inductive Removals : List Bytes → List Nat → List Bytes → Prop
  | nil (l) : Removals l [] l
  | cons {l i is l'} : i < l.length → Removals (l.eraseIdx i) is l' → Removals l (i :: is) l'

/-- The same, on a cluster. -/
def removeAll : List Nat → MCluster D → MCluster D
  | [], m => m
  | i :: is, m => removeAll is (removeBlob i m).2

/-- **C58, partial.** Any sequence of removals of existing blobs is right if nothing else is modified.
Missing: as above. -/
theorem C58_only_removals_partial {i : Inner D} (h : Wraps X orig ext comp i) {is : List Nat}
    (hr : Removals orig is view) : Shows X view (removeAll is ({ inner := i } : MCluster D)) := by
  have key : ∀ {l : List Bytes} {is : List Nat} {l' : List Bytes}, Removals l is l' →
      ∀ m : MCluster D, OnlyRemoved X orig ext comp l m → OnlyRemoved X orig ext comp l' (removeAll is m) := by
    intro l is l' hr
    induction hr with
    | nil l => intro m hm; exact hm
    | cons hi _ ih =>
      intro m hm
      obtain ⟨m', h1, h2⟩ := removeBlob_only hm _ hi
      unfold removeAll
      rw [h1]
      exact ih m' h2
  have hp := (History.fresh h).plain
  exact (key hr _ ⟨hp.toRepr, rfl, rfl, List.Pairwise.nil, rfl⟩).toRepr.shows

/-! ### Witnesses and findings -/

/-- The compressor fitting `Cluster.rawCodecs`; `PassthroughCompressor`,
`pyzim/compression.py:436-469`. -/
def rawCompressors : Compressors Unit where
  new t := if t = .none then .ok () else .error .unsupportedCompression
  compress _ c := (.ok c, ())
  flush _ := .ok []

theorem rawCompresses {k : Unit} {cs : List Bytes} {out : Bytes} :
    Compresses rawCompressors k cs out ↔ out = cs.flatten := by
  constructor
  · intro h
    induction h with
    | flush h => cases h; rfl
    | chunk h _ ih => cases h; simp [ih]
  · rintro rfl
    induction cs with
    | nil => exact .flush rfl
    | cons c cs ih => exact .chunk rfl ih

/-- The passthrough compression is lossless. -/
theorem rawLossless (t : CompressionType) : Lossless Cluster.rawCodecs rawCompressors t := by
  intro k hk chunks out ho rest _
  cases rawCompresses.1 ho
  simp only [rawCompressors] at hk
  split at hk
  · rename_i ht
    have := C25_passthrough_streams (chunks.flatten ++ rest)
    exact ⟨[], rest, _, by rw [ht]; rfl, this⟩
  · simp at hk

theorem rawPassthrough : Passthrough Cluster.rawCodecs rawCompressors where
  works k _ chunks := ⟨_, rawCompresses.2 rfl⟩
  same k _ chunks out h := rawCompresses.1 h
  reads raw := ⟨[], _, rfl, C25_passthrough_streams raw⟩

def demoInner : Inner Bytes :=
  .real { c := { kind := .remembering, offset := 2 }, f := { data := Cluster.demoFile, pos := 0 } }

theorem demoWraps : Wraps Cluster.rawCodecs [[1, 2, 3], [4, 5]] false .none demoInner :=
  .inr ⟨_, 2, Cluster.demo, _, rfl, .fresh .remembering 0, rfl, rfl⟩

abbrev mem (b : Bytes) : BlobSource := (BlobSourceObj.inMemory b).toSource

theorem mem_delivers (b : Bytes) : Delivers (mem b) b := Blob.C52_pieces_complete (.inMemory b) trivial

/-- A history: append, replace, refused replacement, empty, read. -/
theorem demoHistory : History Cluster.rawCodecs [[1, 2, 3], [4, 5]] false .none
    [[7, 7, 7, 7], [], [6]]
    ((ModOp.empty 1).exec Cluster.rawCodecs
      ((ModOp.set 9 (mem [0]) [0]).exec Cluster.rawCodecs
        (readBlob Cluster.rawCodecs 0 none none
          ((ModOp.set 0 (mem [7, 7, 7, 7]) [7, 7, 7, 7]).exec Cluster.rawCodecs
            ((ModOp.append (mem [6]) [6]).exec Cluster.rawCodecs { inner := demoInner }).2).2).2).2).2 :=
  .modified (.empty 1) trivial (.modified (.set 9 _ [0]) (mem_delivers _) (.readBlob 0 none none
    (.modified (.set 0 _ _) (mem_delivers _) (.modified (.append _ _) (mem_delivers _)
      (.fresh demoWraps)))))

/-- Its serialization. -/
example : (iterWrite Cluster.rawCodecs rawCompressors
    ((ModOp.set 0 (mem [7, 7]) [7, 7]).exec Cluster.rawCodecs { inner := demoInner }).2).1 =
    .ok [[1], [12, 0, 0, 0, 14, 0, 0, 0, 16, 0, 0, 0], [7, 7], [4, 5], []] := by decide +kernel

/-- The hypotheses of the round trip can be met. -/
example (s : CSt Bytes)
    (hs : Cluster.Reached Cluster.rawCodecs
      [1, 12, 0, 0, 0, 14, 0, 0, 0, 16, 0, 0, 0, 7, 7, 4, 5, 99] 0 s) :
    (Cluster.readBlob Cluster.rawCodecs 0 none none s).1 = .ok [7, 7] :=
  ((C19_round_trip (.modified (.set 0 (mem [7, 7]) [7, 7]) (mem_delivers _) (.fresh demoWraps))
    (out := [[1], [12, 0, 0, 0, 14, 0, 0, 0, 16, 0, 0, 0], [7, 7], [4, 5], []]) (by decide +kernel)
    (rawLossless _) (by simp [ModOp.exec, setBlob]; decide +kernel) _ 0 [99] (by simp) (by simp) s hs).2 0 (by decide)).whole

example : Removals [[1], [2], [3], [4]] [1, 1, 0] [[4]] :=
  .cons (by decide) (.cons (by decide) (.cons (by decide) (.nil _)))

/-- **C58, finding.** Wrap `[a, b]`, remove blob 0, set blob 0: instead of one blob there are two
again. -/
theorem C58_set_undoes_removal :
    (getNumberOfBlobs Cluster.rawCodecs
      (setBlob Cluster.rawCodecs 0 (mem [7]) (removeBlob 0 { inner := demoInner }).2).2).1 = .ok 2 := by
  decide +kernel

/-- **C58, finding.** Wrap `[a, b]`, replace blob 1, remove blob 0 twice: the replaced blob, which
should be gone, is still there. -/
theorem C58_second_removal_leaves_blob :
    (readBlob Cluster.rawCodecs 0 none none
      (removeAll [0, 0] (setBlob Cluster.rawCodecs 1 (mem [7]) { inner := demoInner }).2)).1 = .ok [7] := by
  decide +kernel

/-- **C58, finding.** Removing a blob that does not exist is not refused and makes the number of
blobs one less. -/
theorem C58_removal_beyond_end_accepted :
    (removeBlob 7 ({ inner := demoInner } : MCluster Bytes)).1 = .ok () ∧
    (getNumberOfBlobs Cluster.rawCodecs (removeBlob 7 { inner := demoInner }).2).1 = .ok 1 := by
  decide +kernel

end MCluster
end Pyzim
