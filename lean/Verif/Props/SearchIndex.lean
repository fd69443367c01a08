import Verif.Model.SearchIndex
import Verif.Lemmas.ClusterObj
import Verif.Lemmas.ToyCodec
import Verif.Props.Creator

/-!
# C90: where the index for the search is

A `XapianSearch` lets a library read the index directly from the file, at an offset that pyzim computes.
-/

namespace Pyzim
namespace Embedded
variable {D K : Type} {X : Codecs D} {C : Compressors K} {kind : ClusterKind} {z : Embedded} {u : String} {e : Entry}
  {c b : Nat} {pos : Int}

/-- **C90, in full:** if the content of the entry can be read, then the offset is where it is in the file; and `get_search`
returns a search, whatever entries the archive has, if the library accepts its indexes. -/
def C90Full (D K : Type) : Prop := ∀ (X : Codecs D) (C : Compressors K) (kind : ClusterKind) (z : Embedded), Passthrough X C →
  (∀ u e content, z.entryByFullUrl u = .ok e → z.readContent X kind e none none = .ok content →
    ∃ off, z.indexOffset X kind u = .ok off ∧ Holds z.zim.file off content) ∧
  ∀ L : SearchLibrary, (∀ file off, L.openAt file off = .ok ()) →
    (∀ u, (∃ e, z.entryByFullUrl u = .ok e) ∨ z.entryByFullUrl u = .error .entryNotFound) →
    ∃ s, z.getSearch X kind L = .ok s

theorem offset_of_plain {ext : Bool} {blobs : List Bytes} (P : Passthrough X C) (hu : z.entryByFullUrl u = .ok e)
    (hk : e.kind = .content c b) (ho : z.zim.closed = false) (hp : z.zim.clusters.getByIndex c = .ok pos)
    (hc : Holds z.zim.file (z.base + pos.toNat) (plainBytes ext blobs)) (hf : PlainFits ext blobs) (hb : b < blobs.length) :
    z.indexOffset X kind u = .ok (z.base + pos.toNat + 1 + blobOffset (if ext then 8 else 4) blobs b) ∧
      z.readContent X kind e none none = .ok blobs[b] := by
  obtain ⟨A, hA, -⟩ := MCluster.plain_at P hc hf
  have hcl : z.clusterByIndex (D := D) kind c =
      .ok ⟨{ kind := kind, offset := z.base + pos.toNat }, ⟨z.zim.file, 0⟩⟩ := by
    unfold clusterByIndex
    rw [hp, ho]
    rfl
  have hR : Cluster.Reached X z.zim.file (z.base + pos.toNat)
    ⟨{ kind := kind, offset := z.base + pos.toNat }, ⟨z.zim.file, 0⟩⟩ := .fresh kind 0
  constructor
  · unfold indexOffset
    rw [hu]
    simp only [hk, hcl]
    show ((Cluster.getOffset X (b : Int) _).1 >>= fun o => _) = _
    rw [(Cluster.C21_offsets A hR (b : Int)).1 (by omega) (by omega), hA]
    rfl
  · unfold readContent
    simp only [hk]
    show (z.clusterByIndex kind c >>= fun s => (Cluster.readBlob X b none none s).1) = _
    rw [hcl]
    exact Cluster.C21_read_whole_blob A hR b hb

/-- **C90.** The index is in an uncompressed cluster, at any place of the file, also behind other data: the library is told
to read at the offset at which the file has the content of the entry, and this is what the entry reads. -/
theorem C90_index_partial {ext : Bool} {blobs : List Bytes} (P : Passthrough X C) (hu : z.entryByFullUrl u = .ok e)
    (hk : e.kind = .content c b) (ho : z.zim.closed = false) (hp : z.zim.clusters.getByIndex c = .ok pos)
    (hc : Holds z.zim.file (z.base + pos.toNat) (plainBytes ext blobs)) (hf : PlainFits ext blobs) (hb : b < blobs.length) :
    ∃ off, z.indexOffset X kind u = .ok off ∧ Holds z.zim.file off blobs[b] ∧
      z.readContent X kind e none none = .ok blobs[b] := by
  obtain ⟨h1, h2⟩ := offset_of_plain (kind := kind) P hu hk ho hp hc hf hb
  refine ⟨_, h1, ?_, h2⟩
  intro i hi
  have hd := clusterBody_drop (if ext then 8 else 4) blobs [] b hb
  rw [List.append_nil] at hd
  have hle : blobOffset (if ext then 8 else 4) blobs b + blobs[b].length ≤ (clusterBody (if ext then 8 else 4) blobs).length := by
    have := congrArg List.length hd
    rw [List.length_drop, List.length_append] at this
    omega
  have h3 := hc (1 + blobOffset (if ext then 8 else 4) blobs b + i) (by simp only [plainBytes, List.length_cons]; omega)
  rw [show z.base + pos.toNat + 1 + blobOffset (if ext then 8 else 4) blobs b + i =
    z.base + pos.toNat + (1 + blobOffset (if ext then 8 else 4) blobs b + i) by omega, h3]
  unfold plainBytes
  rw [show 1 + blobOffset (if ext then 8 else 4) blobs b + i = (blobOffset (if ext then 8 else 4) blobs b + i) + 1 by omega,
    List.getElem?_cons_succ, ← List.getElem?_drop, hd, List.getElem?_append_left hi]

/-- **C90.** An archive without an index: `get_search` returns the search by titles, whether or not the library is there. -/
theorem C90_no_index (L : SearchLibrary) (h1 : z.entryByFullUrl URL_FULLTEXT = .error .entryNotFound)
    (h2 : z.entryByFullUrl URL_TITLE_INDEX = .error .entryNotFound) : z.getSearch X kind L = .ok .titleStart := by
  unfold getSearch openIndex indexOffset
  rw [h1, h2]
  cases L.installed <;> rfl

/-- **C90.** Without the library `get_search` returns the search by titles, whatever the archive contains. -/
theorem C90_no_library (L : SearchLibrary) (h : L.installed = false) : z.getSearch X kind L = .ok .titleStart := by
  unfold getSearch openIndex
  rw [h]
  rfl

/-- **C90.** Only with the title index: `get_search` returns the search with this index. -/
theorem C90_title_index (L : SearchLibrary) (hL : L.installed = true) (h1 : z.entryByFullUrl URL_FULLTEXT = .error .entryNotFound)
    {off : Nat} (h2 : z.indexOffset X kind URL_TITLE_INDEX = .ok off) (h3 : L.openAt z.zim.file off = .ok ()) :
    z.getSearch X kind L = .ok (.title off) := by
  have h4 : z.indexOffset X kind URL_FULLTEXT = .error .zimFeatureMissing := by
    unfold indexOffset
    rw [h1]
  unfold getSearch openIndex
  rw [hL, h4, h2]
  simp only [Bool.not_true, Bool.false_eq_true, if_false, h3]

/-- **C90.** With the fulltext index: `get_search` returns the search with this index. -/
theorem C90_fulltext_index (L : SearchLibrary) (hL : L.installed = true)
    {off : Nat} (h2 : z.indexOffset X kind URL_FULLTEXT = .ok off) (h3 : L.openAt z.zim.file off = .ok ()) :
    z.getSearch X kind L = .ok (.fulltext off) := by
  unfold getSearch openIndex
  rw [hL, h2]
  simp only [Bool.not_true, Bool.false_eq_true, if_false, h3]

/-- **C90, finding.** If the url of the fulltext index leads to a redirect, then `get_search` raises `AttributeError`, in
every archive, even if the redirect leads to an index and although the search by titles would work. -/
theorem C90_redirect_raises (L : SearchLibrary) (hL : L.installed = true) (hu : z.entryByFullUrl URL_FULLTEXT = .ok e)
    {i : Nat} (hk : e.kind = .redirect i) : z.getSearch X kind L = .error .attributeError := by
  unfold getSearch openIndex indexOffset
  rw [hL, hu]
  simp only [hk]
  rfl

/-! ### Concrete cases -/

/-- the bytes of an entry of namespace X in the first cluster -/
def idxEntry (blob : UInt8) (u : String) : Bytes := [0, 0, 0, 88, 0, 0, 0, 0, 0, 0, 0, 0, blob, 0, 0, 0] ++ encode u ++ [0, 0]

/-- the two indexes -/
def idxBlobs : List Bytes := [[5, 6, 7], [1, 2]]

/-- Two bytes of other data, the entries for both indexes and the cluster with their contents. -/
def demoIndex (cluster : Bytes) : Embedded where
  base := 2
  zim := { file := [9, 9] ++ idxEntry 0 "fulltext/xapian" ++ idxEntry 1 "title/xapian" ++ cluster ++ [88]
           header := Header.placeholder (List.replicate 16 7)
           mimetypes := { mimetypes := [] }
           urls := { pointers := [0, 33] }
           clusters := { pointers := [63] }
           articles := { pointers := [] }
           space := SpaceAllocator.new 0
           mutable := false }

/-- the library accepts everything -/
def anyLibrary : SearchLibrary := ⟨true, fun _ _ => .ok ()⟩

/-- the cluster is not compressed -/
def demoIndexPlain : Embedded := demoIndex (plainBytes false idxBlobs)

/-- the cluster is compressed -/
def demoIndexPacked : Embedded := demoIndex (5 :: Toy.enc (clusterBody 4 idxBlobs))

theorem demoIndexPlain_entry : ∃ e, demoIndexPlain.entryByFullUrl URL_TITLE_INDEX = .ok e ∧ e.kind = .content 0 1 := by
  have h : (match demoIndexPlain.entryByFullUrl URL_TITLE_INDEX with
    | .ok e => decide (e.kind = .content 0 1) | .error _ => false) = true := by decide +kernel
  cases he : demoIndexPlain.entryByFullUrl URL_TITLE_INDEX with
  | error x => rw [he] at h; cases h
  | ok e => rw [he] at h; exact ⟨e, rfl, of_decide_eq_true h⟩

/-- The conditions of `C90_index_partial` can be met: the title index `[1, 2]` behind other data. -/
example : ∃ e off, demoIndexPlain.entryByFullUrl URL_TITLE_INDEX = .ok e ∧
    demoIndexPlain.indexOffset Toy.codecs .onDisk URL_TITLE_INDEX = .ok off ∧ Holds demoIndexPlain.zim.file off [1, 2] ∧
    demoIndexPlain.readContent Toy.codecs .onDisk e none none = .ok [1, 2] := by
  obtain ⟨e, h1, h2⟩ := demoIndexPlain_entry
  obtain ⟨off, h3, h4, h5⟩ := C90_index_partial (X := Toy.codecs) (C := Toy.compressors) (kind := .onDisk) (ext := false)
    (blobs := idxBlobs) (pos := 63) Toy.replaceable.plain h1 h2 rfl rfl
    (by unfold Holds; decide +kernel) (by unfold PlainFits; decide) (by decide)
  exact ⟨e, off, h1, h3, h4, h5⟩

/-- The conditions of `C90_fulltext_index` can be met. -/
example : demoIndexPlain.getSearch Toy.codecs .onDisk anyLibrary = .ok (.fulltext 78) :=
  C90_fulltext_index anyLibrary rfl (by decide +kernel) rfl

/-- The conditions of `C90_title_index` can be met: the archive without the entry of the fulltext index. -/
example : ({ demoIndexPlain with zim := { demoIndexPlain.zim with urls := { pointers := [33] } } } : Embedded).getSearch
    Toy.codecs .onDisk anyLibrary = .ok (.title 81) :=
  C90_title_index anyLibrary rfl (by decide +kernel) (by decide +kernel) rfl

/-- The conditions of `C90_no_index` can be met: the archive without both entries. -/
example : ({ demoIndexPlain with zim := { demoIndexPlain.zim with urls := { pointers := [] } } } : Embedded).getSearch
    Toy.codecs .onDisk anyLibrary = .ok .titleStart :=
  C90_no_index anyLibrary (by decide +kernel) (by decide +kernel)

/-- The conditions of `C90_redirect_raises` can be met. -/
example : ∃ (z : Embedded) (e : Entry), z.entryByFullUrl URL_FULLTEXT = .ok e ∧ e.kind = .redirect 0 ∧
    z.getSearch Toy.codecs .onDisk anyLibrary = .error .attributeError := by
  have h : (match ({ demoIndexPlain with zim := { demoIndexPlain.zim with
      file := [9, 9, 255, 255, 0, 88, 0, 0, 0, 0, 0, 0, 0, 0] ++ encode "fulltext/xapian" ++ [0, 0]
      urls := { pointers := [0] } } } : Embedded).entryByFullUrl URL_FULLTEXT with
    | .ok e => decide (e.kind = .redirect 0) | .error _ => false) = true := by decide +kernel
  generalize ({ demoIndexPlain with zim := { demoIndexPlain.zim with
      file := [9, 9, 255, 255, 0, 88, 0, 0, 0, 0, 0, 0, 0, 0] ++ encode "fulltext/xapian" ++ [0, 0]
      urls := { pointers := [0] } } } : Embedded) = z at h
  cases he : z.entryByFullUrl URL_FULLTEXT with
  | error x => rw [he] at h; cases h
  | ok e =>
    rw [he] at h
    exact ⟨z, e, he, of_decide_eq_true h, C90_redirect_raises anyLibrary rfl he (of_decide_eq_true h)⟩

/-- **C90, finding.** The full statement is false: nothing checks that the index is not compressed. If it is, then the
library is told to read at an offset at which the file has something else. -/
theorem C90_compressed_fails : ¬ C90Full (Bytes ⊕ Toy.Esc) Bool := by
  intro h
  have h1 : (match demoIndexPacked.entryByFullUrl URL_FULLTEXT with
    | .ok e => decide (demoIndexPacked.readContent Toy.codecs .onDisk e none none = .ok [5, 6, 7]) &&
      decide (demoIndexPacked.indexOffset Toy.codecs .onDisk URL_FULLTEXT = .ok 78) &&
      decide (demoIndexPacked.zim.file[78]? ≠ some 5)
    | .error _ => false) = true := by decide +kernel
  cases he : demoIndexPacked.entryByFullUrl URL_FULLTEXT with
  | error x => rw [he] at h1; cases h1
  | ok e =>
    rw [he] at h1
    simp only [Bool.and_eq_true] at h1
    obtain ⟨⟨h2, h3⟩, h4⟩ := h1
    obtain ⟨off, h5, h6⟩ := (h Toy.codecs Toy.compressors .onDisk demoIndexPacked Toy.replaceable.plain).1 _ _ _ he
      (of_decide_eq_true h2)
    rw [of_decide_eq_true h3] at h5
    cases h5
    exact of_decide_eq_true h4 (h6 0 (by simp))

end Embedded
end Pyzim
