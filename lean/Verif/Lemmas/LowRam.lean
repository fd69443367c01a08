import Verif.Spec.LowRam
import Verif.Lemmas.ClusterObj
import Verif.Lemmas.Checksum
import Verif.Props.PointerList
import Verif.Props.Cluster

/-! Reading with the lists in the file. -/

namespace Pyzim

namespace OnDiskList

/-- The lists have the same pointers. -/
structure Agree (d : OnDiskList) (m : PointerList) : Prop where
  len : d.len = m.len
  get : ∀ i : Nat, d.getByIndex i = m.getByIndex i

variable {d : OnDiskList} {m : PointerList}

theorem Agree.lookups (h : Agree d m) (keyf : Int → PyRes Bytes) (k : Bytes) :
    d.getIndex keyf k = m.getIndex keyf k ∧ d.get keyf k = m.get keyf k ∧ d.has keyf k = m.has keyf k := by
  have hk : d.keyAt keyf = m.keyAt keyf := by
    funext i; simp only [keyAt, PointerList.keyAt, h.get]
  have h1 : d.getIndex keyf k = m.getIndex keyf k := by
    simp only [getIndex, PointerList.getIndex, h.len, hk]
  have h2 : d.get keyf k = m.get keyf k := by
    simp only [OnDiskList.get, PointerList.get, h1]
    cases m.getIndex keyf k with
    | error e => rfl
    | ok i => simp only [bind, Except.bind, h.get]
  exact ⟨h1, h2, by simp only [has, PointerList.has, h2]⟩

theorem Agree.iteration (h : Agree d m) (start end_ : Option Nat) : d.iterPointers start end_ = m.iterPointers start end_ := by
  simp only [iterPointers, PointerList.iterPointers, h.len, h.get]

theorem Agree.immutable (h : Agree d m) : Agree d { m with mutable := false } := ⟨h.len, h.get⟩

theorem unpacked_length {w : Nat} : ∀ {n : Nat} {b : Bytes} {vs : List Nat}, unpackFields (List.replicate n w) b = .ok vs →
    b.length = w * n := by
  intro n
  induction n with
  | zero =>
    intro b vs h
    cases b with
    | nil => rfl
    | cons => cases h
  | succ n ih =>
    intro b vs h
    rw [List.replicate_succ] at h
    unfold unpackFields at h
    split at h
    · cases h
    · rename_i hw
      rcases hr : unpackFields (List.replicate n w) (b.drop w) with x | rest
      · rw [hr] at h; cases h
      · have := ih hr
        rw [List.length_drop] at this
        rw [Nat.mul_succ]
        omega

/-- lists read from the same place -/
theorem agree_of_file {file : Bytes} {off n w : Nat} (hw : 0 < w) (h : PointerList.fromFile w ⟨file, 0⟩ n off = .ok m) :
    Agree { file := file, offset := off, n := n, w := w } m := by
  by_cases hn : n = 0
  · subst hn
    have hm : m = { pointers := [] } := by
      unfold PointerList.fromFile at h
      simp only [PyFile.seek, PyFile.read, Nat.mul_zero, List.take_zero, List.replicate_zero] at h
      injection h with h
      exact h.symm
    subst hm
    refine ⟨rfl, fun i => ?_⟩
    unfold getByIndex PointerList.getByIndex
    rw [if_pos (by left; simp), pyIndex_nat]
    rfl
  · have hl : off + w * n ≤ file.length := by
      unfold PointerList.fromFile at h
      rcases hr : unpackFields (List.replicate n w) (((PyFile.mk file 0).seek off).read (w * n)).1 with x | vs
      · simp only [hr] at h; cases h
      · have := unpacked_length hr
        simp only [PyFile.seek, PyFile.read, List.length_take, List.length_drop] at this
        have : 0 < w * n := Nat.mul_pos hw (by omega)
        omega
    have hs : SameSource { file := file, offset := off, n := n, w := w } m := ⟨hw, hl, h⟩
    exact ⟨(C08_same_pointers hs).1, (C08_same_pointers hs).2.1⟩

/-- a list in the file that is also a list of bytes -/
theorem agree_of_bytes {file : Bytes} {off : Nat} {b : Bytes} (hh : Holds file off b) (h : PointerList.fromBytes 4 b = .ok m) :
    Agree { file := file, offset := off, n := b.length / 4, w := 4 } m := by
  have hmod : b.length % 4 = 0 := by
    unfold PointerList.fromBytes at h
    split at h
    · cases h
    · omega
  apply agree_of_file (by omega)
  unfold PointerList.fromBytes at h
  rw [if_neg (by omega)] at h
  rw [← h]
  unfold PointerList.fromFile
  have := hh.drop_take
  simp only [PyFile.seek, PyFile.read]
  rw [show 4 * (b.length / 4) = b.length by omega, this]

end OnDiskList

namespace LowRam
variable {D K : Type} {X : Codecs D} {C : Compressors K} {kind kind' : ClusterKind} {l : LowRam} {z : Embedded}

/-- The archives are the same, except for the lists of titles. -/
structure SameParts (l : LowRam) (z : Embedded) : Prop where
  base : l.base = z.base
  file : l.file = z.zim.file
  header : l.header = z.zim.header
  mimetypes : l.mimetypes = z.zim.mimetypes
  closed : l.closed = z.zim.closed
  urls : l.urls.Agree z.zim.urls
  clusters : l.clusters.Agree z.zim.clusters

namespace SameParts
variable (h : SameParts l z)
include h

theorem entryAt : l.entryAt = z.entryAt := by
  funext i
  unfold LowRam.entryAt Embedded.entryAt
  rw [h.file, h.base]
  rfl

theorem urlKey : l.urlKey = z.urlKey := by
  funext i
  unfold LowRam.urlKey Embedded.urlKey
  rw [h.entryAt]
  rfl

theorem entryByIndex : l.entryByIndex = z.entryByIndex := by
  funext i
  unfold LowRam.entryByIndex Embedded.entryByIndex
  by_cases hi : i < 0
  · rw [if_pos hi, if_pos hi]
  · obtain ⟨n, rfl⟩ : ∃ n : Nat, i = n := ⟨i.toNat, by omega⟩
    rw [h.urls.get, h.entryAt]
    rfl

theorem byUrl (u : String) : l.entryByFullUrl u = z.entryByFullUrl u := by
  unfold LowRam.entryByFullUrl Embedded.entryByFullUrl
  rw [h.urlKey, (h.urls.lookups _ _).2.1, h.entryAt]
  rfl

theorem has (u : String) : l.hasEntry u = z.hasEntry u := by
  unfold LowRam.hasEntry Embedded.hasEntry
  rw [h.urlKey, (h.urls.lookups _ _).2.2]

theorem mainPage : l.mainpageEntry = z.mainpageEntry := by
  unfold LowRam.mainpageEntry Embedded.mainpageEntry
  rw [h.header, h.entryAt]
  cases z.zim.header.mainPage with
  | none => rfl
  | some i => simp only [h.urls.get]; rfl

theorem iterEntries (start stop : Option Nat) : l.iterEntries start stop = z.iterEntries start stop := by
  unfold LowRam.iterEntries Embedded.iterEntries
  rw [h.urls.iteration, h.entryAt]

theorem resolve (n : Nat) (e : Entry) : l.resolve n e = z.resolve n e := by
  have : ∀ n e, l.resolveLoop n e = z.resolveLoop n e := by
    intro n
    induction n with
    | zero => intro e; rfl
    | succ n ih =>
      intro e
      unfold LowRam.resolveLoop Embedded.resolveLoop
      rw [h.entryByIndex]
      simp only [ih]
      rfl
  unfold LowRam.resolve Embedded.resolve
  rw [this]
  rfl

theorem cluster (kind : ClusterKind) (c : Nat) : (l.clusterByIndex kind c : PyRes (CSt D)) = z.clusterByIndex kind c := by
  unfold LowRam.clusterByIndex Embedded.clusterByIndex
  rw [h.clusters.get, h.closed, h.base, h.file]

theorem readContent (kind : ClusterKind) (e : Entry) (start stop : Option Int) :
    l.readContent X kind e start stop = z.readContent X kind e start stop := by
  unfold LowRam.readContent Embedded.readContent
  simp only [h.cluster]
  rfl

theorem contentSize (kind : ClusterKind) (e : Entry) : l.contentSize X kind e = z.contentSize X kind e := by
  unfold LowRam.contentSize Embedded.contentSize
  simp only [h.cluster]
  rfl

end SameParts

theorem getOffset_plain {ext : Bool} {blobs : List Bytes} {file : Bytes} {o : Nat} (P : Passthrough X C)
    (hc : Holds file o (plainBytes ext blobs)) (hf : PlainFits ext blobs) {b : Nat} (hb : b < blobs.length) {s : CSt D}
    (hR : Cluster.Reached X file o s) :
    (Cluster.getOffset X (b : Int) s).1 = .ok (blobOffset (if ext then 8 else 4) blobs b) ∧
    (Cluster.getBlobSize X b s).1 = .ok (blobs[b].length : Int) ∧ (Cluster.readBlob X b none none s).1 = .ok blobs[b] ∧
    Holds file (o + 1 + blobOffset (if ext then 8 else 4) blobs b) blobs[b] := by
  obtain ⟨A, hA, -⟩ := MCluster.plain_at P hc hf
  refine ⟨?_, ?_, Cluster.C21_read_whole_blob A hR b hb, ?_⟩
  · rw [(Cluster.C21_offsets A hR (b : Int)).1 (by omega) (by omega), hA]
    rfl
  · rw [(Cluster.C21_sizes A hR).2.2.2.2 b, List.getElem?_eq_getElem hb]
  · intro i hi
    have hd := clusterBody_drop (if ext then 8 else 4) blobs [] b hb
    rw [List.append_nil] at hd
    have hle : blobOffset (if ext then 8 else 4) blobs b + blobs[b].length ≤
        (clusterBody (if ext then 8 else 4) blobs).length := by
      have := congrArg List.length hd
      rw [List.length_drop, List.length_append] at this
      omega
    have h3 := hc (1 + blobOffset (if ext then 8 else 4) blobs b + i) (by simp only [plainBytes, List.length_cons]; omega)
    rw [show o + 1 + blobOffset (if ext then 8 else 4) blobs b + i =
      o + (1 + blobOffset (if ext then 8 else 4) blobs b + i) by omega, h3]
    unfold plainBytes
    rw [show 1 + blobOffset (if ext then 8 else 4) blobs b + i = (blobOffset (if ext then 8 else 4) blobs b + i) + 1 by omega,
      List.getElem?_cons_succ, ← List.getElem?_drop, hd, List.getElem?_append_left hi]

/-- A list of titles in an uncompressed cluster is the same list when it stays in the file. -/
theorem SameParts.listing (h : SameParts l z) (P : Passthrough X C) {follow : Nat} {u : String} (hp : PlainListing z follow u)
    (ho : z.zim.closed = false) {m : PointerList} (hm : z.listFromEntry X kind' follow u = .ok m) :
    ∃ d, l.listFromEntry X kind follow u = .ok d ∧ d.Agree m := by
  obtain ⟨e, e', c, b, pos, ext, blobs, h1, h2, h3, h4, h5, h6, h7⟩ := hp
  have hcl : ∀ k, z.clusterByIndex (D := D) k c = .ok ⟨{ kind := k, offset := z.base + pos.toNat }, ⟨z.zim.file, 0⟩⟩ := by
    intro k
    unfold Embedded.clusterByIndex
    rw [h4, ho]
    rfl
  have hR : ∀ k, Cluster.Reached X z.zim.file (z.base + pos.toNat)
      ⟨{ kind := k, offset := z.base + pos.toNat }, ⟨z.zim.file, 0⟩⟩ := fun k => .fresh k 0
  obtain ⟨g1, g2, -, g4⟩ := getOffset_plain P h5 h6 h7 (hR kind)
  obtain ⟨-, -, g3, -⟩ := getOffset_plain P h5 h6 h7 (hR kind')
  have hread : z.readContent X kind' e' none none = .ok blobs[b] := by
    unfold Embedded.readContent
    simp only [h3]
    show (z.clusterByIndex kind' c >>= fun s => (Cluster.readBlob X b none none s).1) = _
    rw [hcl]
    exact g3
  have hsize : l.contentSize X kind e' = .ok (blobs[b].length : Int) := by
    rw [h.contentSize]
    unfold Embedded.contentSize
    simp only [h3]
    rw [hcl]
    exact g2
  have hm' : PointerList.fromBytes 4 blobs[b] = .ok m := by
    unfold Embedded.listFromEntry at hm
    simp only [h1, h2, hread, bind, Except.bind] at hm
    exact hm
  refine ⟨{ file := z.zim.file, offset := z.base + pos.toNat + 1 + blobOffset (if ext then 8 else 4) blobs b,
            n := blobs[b].length / 4, w := 4 }, ?_, OnDiskList.agree_of_bytes g4 hm'⟩
  unfold LowRam.listFromEntry
  rw [h.byUrl, h1]
  show (l.resolve follow e >>= _) = _
  rw [h.resolve, h2]
  show (l.contentSize X kind e' >>= _) = _
  rw [hsize]
  simp only [bind, Except.bind, h3]
  rw [h.cluster, hcl]
  simp only [g1, h.file]
  rfl

end LowRam
end Pyzim
