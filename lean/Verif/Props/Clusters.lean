import Verif.Lemmas.Work
import Verif.Lemmas.ClusterObj
import Verif.Props.ModCluster
import Verif.Props.Archive

/-!
# Properties of writing clusters (C53)
-/

namespace Pyzim
namespace Zim
open SpaceAllocator (Covered)

variable {K : Type} {O : ClusterOps K} {c : K} {z z' : Zim} {cs cs' : List Stored} {chunks : List Bytes}

/-- A well-formed archive with the given clusters, in the order of their indexes. -/
def HasClusters (z : Zim) (cs : List Stored) : Prop := ∃ rows rest, Clustered z rows cs rest

/-- the cluster with index `i` consists of the bytes `d` of the file, which are at the offset that the cluster pointer
list says, and in use -/
def ClusterIs (z : Zim) (i : Nat) (d : Bytes) : Prop :=
  ∃ off : Nat, z.clusters.getByIndex i = .ok (off : Int) ∧ Holds z.file off d ∧ ∀ x, InCluster (off, d) x → InUse z x

/-- What is free is a list of blocks, in order and with space in between: no byte is in it twice. -/
def FreeOnce (z : Zim) : Prop := SpaceAllocator.WF z.space

theorem HasClusters.is (h : HasClusters z cs) {i : Nat} {d : Stored} (hi : cs[i]? = some d) : ClusterIs z i d.2 := by
  obtain ⟨rows, rest, h⟩ := h
  exact ⟨d.1, h.getByIndex hi, h.held d (List.mem_of_getElem? hi), fun x hx => (h.inUse x).2
    (Or.inr (Or.inl ⟨d, List.mem_of_getElem? hi, hx⟩))⟩

theorem Clustered.entries {rows : List Row} {rest : Nat → Prop} (h : Clustered z rows cs rest)
    (h' : Clustered z' rows cs' rest) (u : String) : z'.entryByFullUrl u = z.entryByFullUrl u := by
  by_cases hu : HasUrl rows u
  · obtain ⟨r, hr, rfl⟩ := hu
    rw [h.rep.entryByFullUrl hr, h'.rep.entryByFullUrl hr]
  · have hu : ∀ r ∈ rows, r.2.fullUrl ≠ u := fun r hr he => hu ⟨r, hr, he⟩
    rw [h.rep.entryByFullUrl_missing hu, h'.rep.entryByFullUrl_missing hu]

/-- **C53.** Writing a new cluster succeeds. Its index is the number of clusters there were; all other indexes, entries
and bytes in use remain. -/
theorem C53_new (h : HasClusters z cs) (hw : O.Writes c z.file (InUse z) chunks) (hne : chunks.flatten ≠ [])
    (hnew : O.offset c = none) {num : Option Int} (hnum : ∀ n ∈ num, 0 ≤ n) {fuel : Nat} (hfuel : chunks.length < fuel) :
    ∃ off c' z', writeCluster O fuel c num z = (.ok (z.clusters.len, c'), z') ∧ O.offset c' = some off ∧
      HasClusters z' (cs ++ [(off, chunks.flatten)]) ∧ ClusterIs z' z.clusters.len chunks.flatten ∧
      (∀ (i : Nat) (d : Stored), cs[i]? = some d → z'.clusters.getByIndex i = z.clusters.getByIndex i ∧ ClusterIs z' i d.2) ∧
      z'.clusters.len = z.clusters.len + 1 ∧
      (∀ u, z'.entryByFullUrl u = z.entryByFullUrl u) ∧
      (∀ x, InUse z' x ↔ InUse z x ∨ InCluster (off, chunks.flatten) x) ∧
      (∀ x, InUse z x → ¬ InCluster (off, chunks.flatten) x) ∧ KeepsBytes (InUse z) z.file z'.file ∧ FreeOnce z' := by
  obtain ⟨rows, rest, h⟩ := h
  obtain ⟨off, c', z', h1, h2, h3, h4, -, h5, h6, -, -⟩ := h.writeCluster_new (fun x => (h.inUse x).1) hw hne hnew hnum hfuel
  have hlen := h.len
  have h' : HasClusters z' (cs ++ [(off, chunks.flatten)]) := ⟨rows, rest, h2⟩
  refine ⟨off, c', z', by rw [hlen]; exact h1, h4, h', ?_, fun i d hd => ?_, ?_, h.entries h2, fun x => ?_, fun x hx => ?_,
    ?_, h2.rep.store.space.wf⟩
  · rw [hlen]
    exact h'.is (d := (off, chunks.flatten)) (by simp)
  · have hi := (List.getElem?_eq_some_iff.1 hd).1
    have hd' : (cs ++ [(off, chunks.flatten)])[i]? = some d := by rw [List.getElem?_append_left hi]; exact hd
    exact ⟨by rw [h.getByIndex hd, h2.getByIndex hd'], h'.is hd'⟩
  · rw [h2.len, hlen]; simp
  · rw [h2.inUse, h.inUse]
    unfold Used
    simp only [List.mem_append, List.mem_singleton]
    constructor
    · rintro (hx | ⟨d, hd | rfl, hx⟩ | hx)
      · exact Or.inl (Or.inl hx)
      · exact Or.inl (Or.inr (Or.inl ⟨d, hd, hx⟩))
      · exact Or.inr hx
      · exact Or.inl (Or.inr (Or.inr hx))
    · rintro ((hx | ⟨d, hd, hx⟩ | hx) | hx)
      · exact Or.inl hx
      · exact Or.inr (Or.inl ⟨d, Or.inl hd, hx⟩)
      · exact Or.inr (Or.inr hx)
      · exact Or.inr (Or.inl ⟨_, Or.inr rfl, hx⟩)
  · exact fun hc => h5 x hc ((h.inUse x).1 hx)
  · exact h6.mono fun x hx => (h.inUse x).1 hx

/-- **C53.** Writing a cluster that is at index `i`, with this number or with none, succeeds and replaces it. All other
indexes, entries and the bytes in use remain, except that those of the old cluster are free afterwards, unless the
archive has put the new one there. -/
theorem C53_replace (h : HasClusters z cs) (hw : O.Writes c z.file (InUse z) chunks) (hne : chunks.flatten ≠ [])
    {i : Nat} {old : Stored} (hi : cs[i]? = some old) (hoff : O.offset c = some old.1) (hsize : O.oldSize c = old.2.length)
    {num : Option Int} (hnum : ∀ n ∈ num, n = (i : Int)) {fuel : Nat} (hfuel : chunks.length < fuel) :
    ∃ off c' z', writeCluster O fuel c num z = (.ok (i, c'), z') ∧ O.offset c' = some off ∧
      HasClusters z' (cs.set i (off, chunks.flatten)) ∧ ClusterIs z' i chunks.flatten ∧
      (∀ (j : Nat) (d : Stored), j ≠ i → cs[j]? = some d → z'.clusters.getByIndex j = z.clusters.getByIndex j ∧ ClusterIs z' j d.2) ∧
      z'.clusters.len = z.clusters.len ∧
      (∀ u, z'.entryByFullUrl u = z.entryByFullUrl u) ∧
      (∀ x, InUse z' x ↔ (InUse z x ∧ ¬ InCluster old x) ∨ InCluster (off, chunks.flatten) x) ∧
      (∀ x, InUse z x → ¬ InCluster (off, chunks.flatten) x) ∧ KeepsBytes (InUse z) z.file z'.file ∧ FreeOnce z' := by
  obtain ⟨rows, rest, h⟩ := h
  obtain ⟨off, c', z', h1, h2, h3, h4, -, h5, h6, -, -⟩ := h.writeCluster_old (fun x => (h.inUse x).1) hw hne hi hoff
    hsize hnum hfuel
  have hlen := h.len
  have hil := (List.getElem?_eq_some_iff.1 hi).1
  have h' : HasClusters z' (cs.set i (off, chunks.flatten)) := ⟨rows, rest, h2⟩
  have hall : ∀ (j : Nat) (d : Stored), j ≠ i → cs[j]? = some d → (cs.set i (off, chunks.flatten))[j]? = some d := by
    intro j d hj hd
    rw [List.getElem?_set_ne (Ne.symm hj)]; exact hd
  refine ⟨off, c', z', h1, h4, h', ?_, fun j d hj hd => ?_, ?_, h.entries h2, fun x => ?_, fun x hx => ?_, ?_,
    h2.rep.store.space.wf⟩
  · exact h'.is (d := (off, chunks.flatten)) (by rw [List.getElem?_set_self hil])
  · exact ⟨by rw [h.getByIndex hd, h2.getByIndex (hall j d hj hd)], h'.is (hall j d hj hd)⟩
  · rw [h2.len, hlen]; simp
  · rw [h2.inUse, h.inUse]
    have hother : ∀ (j : Nat) (d : Stored), j ≠ i → cs[j]? = some d → InCluster d x → ¬ InCluster old x := by
      intro j d hj hd hx
      obtain ⟨hjl, rfl⟩ := List.getElem?_eq_some_iff.1 hd
      obtain ⟨_, rfl⟩ := List.getElem?_eq_some_iff.1 hi
      rcases Nat.lt_or_gt_of_ne hj with hlt | hgt
      · exact List.pairwise_iff_getElem.1 h.disjoint j i hjl hil hlt x hx
      · exact fun ho => List.pairwise_iff_getElem.1 h.disjoint i j hil hjl hgt x ho hx
    have hex := h.rep.store.apart
    constructor
    · rintro (hx | ⟨d, hd, hx⟩ | hx)
      · exact Or.inl ⟨Or.inl hx, fun ho => h.apart old (List.mem_of_getElem? hi) x ho hx⟩
      · obtain ⟨j, hj⟩ := List.getElem?_of_mem hd
        by_cases hji : j = i
        · subst hji
          rw [List.getElem?_set_self hil] at hj
          injection hj with hj
          subst hj
          exact Or.inr hx
        · rw [List.getElem?_set_ne (Ne.symm hji)] at hj
          exact Or.inl ⟨Or.inr (Or.inl ⟨d, List.mem_of_getElem? hj, hx⟩), hother j d hji hj hx⟩
      · obtain ⟨r, hr, hx⟩ := hx
        exact Or.inl ⟨Or.inr (Or.inr ⟨r, hr, hx⟩), fun ho => hex r hr x hx
          (Or.inr ⟨old, List.mem_of_getElem? hi, ho⟩)⟩
    · rintro (⟨hx | ⟨d, hd, hx⟩ | hx, hno⟩ | hx)
      · exact Or.inl hx
      · obtain ⟨j, hj⟩ := List.getElem?_of_mem hd
        by_cases hji : j = i
        · subst hji
          rw [hi] at hj
          injection hj with hj
          subst hj
          exact absurd hx hno
        · exact Or.inr (Or.inl ⟨d, List.mem_of_getElem? (hall j d hji hj), hx⟩)
      · exact Or.inr (Or.inr hx)
      · exact Or.inr (Or.inl ⟨_, List.mem_of_getElem? (List.getElem?_set_self hil), hx⟩)
  · exact fun hc => h5 x hc ((h.inUse x).1 hx)
  · exact h6.mono fun x hx => (h.inUse x).1 hx

/-- **C53.** After any history of writing clusters, writing and removing entries and so on every index denotes what was
last written as the cluster with this index: `cs'` is `cs` after the same replacements and additions. -/
theorem C53_history (h : HasClusters z cs) (hw : Works O z cs z' cs') :
    HasClusters z' cs' ∧ z'.clusters.len = cs'.length ∧ (∀ (i : Nat) (d : Stored), cs'[i]? = some d → ClusterIs z' i d.2) ∧ FreeOnce z' := by
  obtain ⟨rows, rest, h⟩ := h
  obtain ⟨rows', h', -⟩ := h.works hw
  exact ⟨⟨_, _, h'⟩, h'.len, fun i d hd => HasClusters.is ⟨_, _, h'⟩ hd, h'.rep.store.space.wf⟩

/-! ### New clusters -/

section
variable {D KC : Type} {X : Codecs D} {C : Compressors KC} {view : List Bytes}

theorem reset_empty {m : MCluster D} (hm : m.inner = .empty) : m.reset = m := by
  unfold MCluster.reset; rw [hm]

/-- A cluster made by `new_cluster`, with any blobs, keeps the contract of `write_cluster`, also when it is written again. -/
theorem C53_new_cluster_writes {n : ClusterObj D} (hm : n.m.inner = .empty) (hb : n.m.bound = true)
    (hw : (MCluster.iterWrite X C n.m).1 = .ok chunks) (file : Bytes) (own : Nat → Prop) :
    (ClusterObj.ops X C).Writes n file own chunks where
  isBound := hb
  size file' _ := by
    show (MCluster.getDiskSize X C (n.m.onFile file')).1 = _
    rw [MCluster.onFile_empty hm]
    exact MCluster.C19_disk_size hw
  chunk file' _ i := by
    show ((MCluster.iterWrite X C (n.m.onFile file')).1 >>= fun chunks => pure chunks[i]?) = _
    rw [MCluster.onFile_empty hm, hw]; rfl
  after file' off _ := by
    have hd : (MCluster.getDiskSize X C ((n.m.setOffset off).reset.onFile file')).1 = .ok chunks.flatten.length := by
      rw [MCluster.setOffset_empty hm, reset_empty hm, MCluster.onFile_empty hm]; exact MCluster.C19_disk_size hw
    refine ⟨{ m := { (n.m.setOffset off).reset with dirty := false }, offset := some off, old := chunks.flatten.length }, ?_,
      rfl, rfl⟩
    show ((MCluster.getDiskSize X C ((n.m.setOffset off).reset.onFile file')).1 >>= _) = _
    rw [hd]
    rfl

/-- A cluster object for an uncompressed cluster in the file, after any modifications, keeps the contract of
`write_cluster` as well, as long as it is not to be compressed. -/
theorem C53_stored_cluster_writes (P : Passthrough X C) {orig : List Bytes} {ext : Bool} {n : ClusterObj D} {s : CSt D}
    (hh : MCluster.History X orig ext .none view n.m) (hs : n.m.inner = .real s)
    (hc : n.m.forceComp.getD .none = .none) (hfit : PlainFits ext orig)
    (hw : (MCluster.iterWrite X C n.m).1 = .ok chunks) {file : Bytes} {own : Nat → Prop}
    (hold : Holds file s.c.offset (plainBytes ext orig))
    (hown : ∀ x, InCluster (s.c.offset, plainBytes ext orig) x → own x) :
    (ClusterObj.ops X C).Writes n file own chunks :=
  stored_writes P hs hh.plain.toRepr hc hfit hw hold fun x h1 h2 => hown x ⟨h1, h2⟩

theorem written_ne_nil {n : ClusterObj D} (hh : MCluster.History X [] false .none view n.m)
    (hw : (MCluster.iterWrite X C n.m).1 = .ok chunks) (hne : n.m.forceComp.getD .none ≠ .unknown) :
    chunks.flatten ≠ [] := by
  obtain ⟨info, k, cs, outs, hi, -, -, -, -, rfl⟩ := MCluster.iterWrite_ok hh.plain.toRepr hw
  obtain ⟨b, hb, _⟩ := Cluster.C18_parse_generate (D := D) (MCluster.compOf .none n.m) hne
    (MCluster.extOf false view n.m) { kind := .onDisk, offset := 0 }
  rw [hi] at hb
  injection hb with hb
  subst hb
  simp

/-- **C53.** If the cluster with index `i` consists of what a new cluster with the blobs `view` is written as, a cluster
object of any kind for the offset in the cluster pointer list has exactly these blobs. `tail` is what follows in the file
at the latest after a flush (the checksum). -/
theorem C53_new_cluster_readable {n : ClusterObj D} (hh : MCluster.History X [] false .none view n.m)
    (hw : (MCluster.iterWrite X C n.m).1 = .ok chunks) (hl : Lossless X C (n.m.forceComp.getD .none))
    (hne : n.m.forceComp.getD .none ≠ .unknown) {i : Nat} (hi : ClusterIs z i chunks.flatten) {tail : Bytes}
    (ht : tail ≠ []) :
    ∃ off : Nat, z.clusters.getByIndex i = .ok (off : Int) ∧ ∀ s, Cluster.Reached X (z.file ++ tail) off s →
      (Cluster.getNumberOfBlobs X s).1 = .ok (view.length : Int) ∧
      ∀ j (hj : j < view.length), Cluster.Gives X s j view[j] := by
  obtain ⟨off, h1, h2, -⟩ := hi
  obtain ⟨pre, post, h3, h4⟩ := h2.split (written_ne_nil hh hw hne)
  refine ⟨off, h1, fun s hs => MCluster.C19_round_trip hh hw hl hne (z.file ++ tail) off (post ++ tail) (by simp [ht]) ?_ s hs⟩
  rw [h3, ← h4]
  simp

end

/-! ### Witnesses -/

theorem Rep.noClusters {rows : List Row} {other : Nat → Prop} (h : Rep z rows other) (hp : z.clusters.pointers = [])
    (hm : z.clusters.mutable = true) (hn : z.clusterNum = 0) : HasClusters z [] := by
  refine ⟨rows, other, ?_, hp, hm, hn, by simp, by simp, .nil, by simp⟩
  have he : (fun x => other x ∨ ∃ c ∈ ([] : List Stored), InCluster c x) = other := by
    funext x; simp
  rw [he]
  exact h

abbrev rawOps : ClusterOps (ClusterObj Bytes) := ClusterObj.ops Cluster.rawCodecs MCluster.rawCompressors

/-- a new cluster with one blob -/
def oneBlob (b : Bytes) : ClusterObj Bytes :=
  { m := ((ModOp.append (MCluster.mem b) b).exec Cluster.rawCodecs { inner := .empty }).2 }

theorem oneBlob_history (b : Bytes) : MCluster.History Cluster.rawCodecs [] false .none [b] (oneBlob b).m :=
  .modified (.append _ b) (MCluster.mem_delivers b) (.fresh (.inl ⟨rfl, rfl, rfl, rfl⟩))

/-- the cluster as it is when it has been written to the given offset -/
def at' (n : ClusterObj Bytes) (off size : Nat) : ClusterObj Bytes := { n with offset := some off, old := size }

theorem oneBlob_chunks : (MCluster.iterWrite Cluster.rawCodecs MCluster.rawCompressors (oneBlob [7, 8]).m).1 =
    .ok [[1], [8, 0, 0, 0, 10, 0, 0, 0], [7, 8], []] := by decide +kernel

theorem at_writes (off size : Nat) (file : Bytes) (own : Nat → Prop) : rawOps.Writes (at' (oneBlob [7, 8]) off size) file own
    [[1], [8, 0, 0, 0, 10, 0, 0, 0], [7, 8], []] :=
  C53_new_cluster_writes (n := at' (oneBlob [7, 8]) off size) rfl rfl oneBlob_chunks file own

theorem oneBlob_writes (file : Bytes) (own : Nat → Prop) : rawOps.Writes (oneBlob [7, 8]) file own
    [[1], [8, 0, 0, 0, 10, 0, 0, 0], [7, 8], []] :=
  C53_new_cluster_writes rfl rfl (by decide +kernel) file own

theorem sample_clusters : HasClusters sample [] := by
  obtain ⟨rows, other, h⟩ := sample_ready
  exact h.noClusters (by decide +kernel) (by decide +kernel) (by decide +kernel)

/-- The hypotheses can be met: the first cluster of an archive with entries. -/
example : ∃ off c' z', writeCluster rawOps 9 (oneBlob [7, 8]) none sample = (.ok (0, c'), z') ∧
    HasClusters z' [(off, [1, 8, 0, 0, 0, 10, 0, 0, 0, 7, 8])] := by
  obtain ⟨off, c', z', h1, -, h2, -⟩ := C53_new sample_clusters (oneBlob_writes _ _) (by decide) rfl (num := none)
    (by simp) (fuel := 9) (by decide)
  have hl : sample.clusters.len = 0 := by decide +kernel
  rw [hl] at h1
  exact ⟨off, c', z', h1, h2⟩

/-- And the second one, which replaces it, in the same archive: the number does not matter. -/
example (num : Option Int) (hnum : ∀ n ∈ num, n = 0) : ∃ (off : Nat) (c' : ClusterObj Bytes) (z' z'' : Zim)
    (c'' : ClusterObj Bytes), writeCluster rawOps 9 (oneBlob [7, 8]) none sample = (.ok (0, c'), z') ∧
    writeCluster rawOps 9 (at' (oneBlob [7, 8]) off 11) num z' = (.ok (0, c''), z'') ∧
    ClusterIs z'' 0 [1, 8, 0, 0, 0, 10, 0, 0, 0, 7, 8] := by
  obtain ⟨off, c', z', h1, -, h2, -⟩ := C53_new sample_clusters (oneBlob_writes _ _) (by decide) rfl (num := none)
    (by simp) (fuel := 9) (by decide)
  have hl : sample.clusters.len = 0 := by decide +kernel
  rw [hl] at h1
  obtain ⟨off2, c'', z'', h3, -, -, h4, -⟩ := C53_replace (O := rawOps) (c := at' (oneBlob [7, 8]) off 11)
    (chunks := [[1], [8, 0, 0, 0, 10, 0, 0, 0], [7, 8], []]) h2
    (at_writes _ _ _ _)
    (by decide) (i := 0) rfl rfl rfl (num := num) hnum (fuel := 9) (by decide)
  exact ⟨off, c', z', z'', c'', h1, h3, h4⟩

/-- What is written can be read: the compression of the example is none. -/
example (z : Zim) (h : ClusterIs z 3 [1, 8, 0, 0, 0, 10, 0, 0, 0, 7, 8]) : ∃ off : Nat,
    z.clusters.getByIndex 3 = .ok (off : Int) ∧ ∀ s, Cluster.Reached Cluster.rawCodecs (z.file ++ [0]) off s →
      (Cluster.readBlob Cluster.rawCodecs 0 none none s).1 = .ok [7, 8] := by
  obtain ⟨off, h1, h2⟩ := C53_new_cluster_readable (n := oneBlob [7, 8]) (C := MCluster.rawCompressors)
    (chunks := [[1], [8, 0, 0, 0, 10, 0, 0, 0], [7, 8], []]) (oneBlob_history [7, 8]) (by decide +kernel)
    (MCluster.rawLossless _) (by decide +kernel) (i := 3) h (tail := [0]) (by decide)
  exact ⟨off, h1, fun s hs => ((h2 s hs).2 0 (by decide)).2⟩

/-- the offset of the wrapped cluster -/
def innerOffset (m : MCluster Bytes) : Option Nat :=
  match m.inner with
  | .empty => none
  | .real s => some s.c.offset

theorem innerOffset_some {m : MCluster Bytes} {o : Nat} (h : innerOffset m = some o) :
    ∃ s, m.inner = .real s ∧ s.c.offset = o := by
  unfold innerOffset at h
  cases hi : m.inner with
  | empty => rw [hi] at h; simp at h
  | real s => rw [hi] at h; injection h with h; exact ⟨s, rfl, h⟩

/-- a cluster in a file, of which blob 0 is replaced -/
def demoM : MCluster Bytes :=
  ((ModOp.set 0 (MCluster.mem [7, 7]) [7, 7]).exec Cluster.rawCodecs { inner := MCluster.demoInner }).2

theorem demoM_offset : innerOffset demoM = some 2 := by decide +kernel

theorem demoM_writes : (MCluster.iterWrite Cluster.rawCodecs MCluster.rawCompressors demoM).1 =
    .ok [[1], [12, 0, 0, 0, 14, 0, 0, 0, 16, 0, 0, 0], [7, 7], [4, 5], []] := by decide +kernel

theorem demoM_history : MCluster.History Cluster.rawCodecs [[1, 2, 3], [4, 5]] false .none [[7, 7], [4, 5]] demoM := by
  unfold demoM
  exact .modified (.set 0 (MCluster.mem [7, 7]) [7, 7]) (MCluster.mem_delivers _) (.fresh MCluster.demoWraps)

theorem demoM_comp : demoM.forceComp.getD .none = .none := by decide +kernel

example (n : ClusterObj Bytes) (hn : n.m = demoM) : rawOps.Writes n Cluster.demoFile (fun x => 2 ≤ x)
    [[1], [12, 0, 0, 0, 14, 0, 0, 0, 16, 0, 0, 0], [7, 7], [4, 5], []] := by
  have h1 := demoM_offset
  have h2 := demoM_history
  have h3 := demoM_comp
  have h4 := demoM_writes
  rw [← hn] at h1 h2 h3 h4
  obtain ⟨s, hs, ho⟩ := innerOffset_some h1
  refine C53_stored_cluster_writes MCluster.rawPassthrough h2 hs h3 (by unfold PlainFits; decide) h4 ?_ ?_
  · rw [ho]; unfold Holds; decide +kernel
  · rw [ho]; exact fun x hx => hx.1

/-! ### C68: removing clusters -/

/-- **C68, full statement.** During every history of writes and removals of clusters, every index denotes what was last
written as the cluster with this index, unless it has been removed. -/
def C68Full : Prop := ∀ (K : Type) (O : ClusterOps K) (z z' : Zim) (cs : List Stored) (slots : List (Option Stored)),
  HasClusters z cs → ClusterHist O z cs z' slots →
  ∀ (i : Nat) (d : Stored), slots[i]? = some (some d) → ClusterIs z' i d.2

/-- **C68, partial.** Removing a cluster succeeds and frees exactly its space; all other indexes keep denoting the same
data, and the entries remain. Missing: what happens afterwards (`C68_false`, `C68_next_index`). -/
theorem C68_remove_partial (h : HasClusters z cs) {i : Nat} {old : Stored} (hi : cs[i]? = some old)
    {size : Int → PyRes Nat} (hs : size old.1 = .ok old.2.length) :
    ∃ z', removeClusterByIndex size i z = (.ok (), z') ∧
      (∀ x, InUse z' x ↔ InUse z x ∧ ¬ InCluster old x) ∧
      (∀ (j : Nat) (d : Stored), j ≠ i → cs[j]? = some d → ClusterIs z' j d.2) ∧
      (∀ u, z'.entryByFullUrl u = z.entryByFullUrl u) ∧ z'.file = z.file ∧ FreeOnce z' := by
  obtain ⟨rows, rest, h⟩ := h
  have hilt := (List.getElem?_eq_some_iff.1 hi).1
  have hlen := h.len
  have hperm := perm_cons_eraseIdx hi
  have hdis : ((old :: cs.eraseIdx i)).Pairwise (fun c d => ∀ x, InCluster c x → ¬ InCluster d x) :=
    hperm.pairwise h.disjoint (fun {a b} hab x hb ha => hab x ha hb)
  rw [List.pairwise_cons] at hdis
  have hstore : Store z.file (z.space.markFree old.1 old.2.length) rows
      (fun x => rest x ∨ ∃ c ∈ cs.eraseIdx i, InCluster c x) := by
    refine Store.free (h.rep.store.congr fun x => ?_) ?_
    · rw [used_perm hperm x]
      simp only [List.mem_cons, or_and_right, exists_or, exists_eq_left]
      simp only [SpaceAllocator.InBlock, InCluster, or_assoc]
      constructor
      · rintro (h | h | h)
        · exact Or.inl h
        · exact Or.inr (Or.inr h)
        · exact Or.inr (Or.inl h)
      · rintro (h | h | h)
        · exact Or.inl h
        · exact Or.inr (Or.inr h)
        · exact Or.inr (Or.inl h)
    · rintro x hx (hr | ⟨d, hd, hxd⟩)
      · exact h.apart old (List.mem_of_getElem? hi) x hx hr
      · exact hdis.1 d hd x hx hxd
  have huse : ∀ x, (x < (z.space.markFree old.1 old.2.length).fileEnd ∧
      ¬ Covered (z.space.markFree old.1 old.2.length).freeBlocks x) ↔ InUse z x ∧ ¬ InCluster old x := by
    intro x
    have hi' := hstore.space
    have hu : (x < (z.space.markFree old.1 old.2.length).fileEnd ∧
      ¬ Covered (z.space.markFree old.1 old.2.length).freeBlocks x) ↔
        ((rest x ∨ ∃ c ∈ cs.eraseIdx i, InCluster c x) ∨ ∃ r ∈ rows, InRow r x) := by
      constructor
      · rintro ⟨h1, h2⟩
        rcases (hi'.part x).1 h1 with h3 | h3
        · exact h3
        · exact absurd h3 h2
      · intro hx
        exact ⟨hi'.used_lt hx, fun hc => hi'.excl x ⟨hx, hc⟩⟩
    rw [hu, h.inUse]
    unfold Used
    rw [show (rest x ∨ (∃ c ∈ cs, InCluster c x) ∨ ∃ r ∈ rows, InRow r x) ↔
      ((rest x ∨ ∃ c ∈ cs, InCluster c x) ∨ ∃ r ∈ rows, InRow r x) from or_assoc.symm, used_perm hperm x]
    have hsplit : (∃ c ∈ old :: cs.eraseIdx i, InCluster c x) ↔ InCluster old x ∨ ∃ c ∈ cs.eraseIdx i, InCluster c x := by
      simp only [List.mem_cons, or_and_right, exists_or, exists_eq_left]
    rw [hsplit]
    constructor
    · rintro ((hr | ⟨d, hd, hx⟩) | ⟨r, hr, hx⟩)
      · exact ⟨Or.inl (Or.inl hr), fun ho => h.apart old (List.mem_of_getElem? hi) x ho hr⟩
      · exact ⟨Or.inl (Or.inr (Or.inr ⟨d, hd, hx⟩)), fun ho => hdis.1 d hd x ho hx⟩
      · exact ⟨Or.inr ⟨r, hr, hx⟩, fun ho => h.rep.store.apart r hr x hx (Or.inr ⟨old, List.mem_of_getElem? hi, ho⟩)⟩
    · rintro ⟨(hr | ho | hc) | hr, hno⟩
      · exact Or.inl (Or.inl hr)
      · exact absurd ho hno
      · exact Or.inl (Or.inr hc)
      · exact Or.inr hr
  have hmain : ∀ ps, (∀ (j : Nat) (d : Stored), j ≠ i → cs[j]? = some d → ps[j]? = some (d.1 : Int)) →
      ∀ z', z' = { z with space := z.space.markFree old.1 old.2.length
                          clusters := { z.clusters with pointers := ps, dirty := true } } →
      (∀ x, InUse z' x ↔ InUse z x ∧ ¬ InCluster old x) ∧
      (∀ (j : Nat) (d : Stored), j ≠ i → cs[j]? = some d → ClusterIs z' j d.2) ∧
      (∀ u, z'.entryByFullUrl u = z.entryByFullUrl u) ∧ z'.file = z.file ∧ FreeOnce z' := by
    intro ps hps z' hz'
    refine ⟨fun x => ?_, fun j d hj hd => ?_, fun u => ?_, by rw [hz'], by rw [hz']; exact hstore.space.wf⟩
    · rw [hz']; exact huse x
    · refine ⟨d.1, ?_, ?_, fun x hx => ?_⟩
      · rw [hz']
        unfold PointerList.getByIndex pyIndex
        simp only
        rw [if_neg (show ¬ ((j : Int) < 0) by omega), if_neg (show ¬ ((j : Int) < 0) by omega), Int.toNat_natCast,
          hps j d hj hd]
      · rw [hz']; exact h.held d (List.mem_of_getElem? hd)
      · have hno : ¬ InCluster old x := by
          intro ho
          obtain ⟨hjl, rfl⟩ := List.getElem?_eq_some_iff.1 hd
          obtain ⟨_, rfl⟩ := List.getElem?_eq_some_iff.1 hi
          rcases Nat.lt_or_gt_of_ne hj with hlt | hgt
          · exact List.pairwise_iff_getElem.1 h.disjoint j i hjl hilt hlt x hx ho
          · exact List.pairwise_iff_getElem.1 h.disjoint i j hilt hjl hgt x ho hx
        rw [hz']
        exact (huse x).2 ⟨(h.inUse x).2 (Or.inr (Or.inl ⟨d, List.mem_of_getElem? hd, hx⟩)), hno⟩
    · rw [hz']; rfl
  have hrun : removeClusterByIndex size i z = ((if (i : Int) = (z.clusters.len : Int) - 1
        then onClusters (fun l => l.removeByIndex i)
      else do
        let p ← PyM.lift (z.clusters.getByIndex ((z.clusters.len : Int) - 1))
        onClusters (fun l => l.set i p false)) { z with space := z.space.markFree old.1 old.2.length }) := by
    unfold removeClusterByIndex
    rw [PyM.get_bind, h.getByIndex hi, PyM.lift_ok_bind, hs, PyM.lift_ok_bind, Int.toNat_natCast]
    rfl
  have hpl : z.clusters.pointers.length = cs.length := by rw [h.pointers]; simp
  rw [hrun, hlen]
  by_cases hl : (i : Int) = (cs.length : Int) - 1
  · rw [if_pos hl]
    refine ⟨_, ?_, hmain (z.clusters.pointers.eraseIdx i) (fun j d hj hd => ?_) _ rfl⟩
    · rw [onClusters_apply]
      unfold PointerList.removeByIndex
      simp only [h.mutable, hpl]
      rw [if_neg (by omega), if_neg (by simp), if_pos (by omega), Int.toNat_natCast]
    · have hjl := (List.getElem?_eq_some_iff.1 hd).1
      rw [List.getElem?_eraseIdx_of_lt (by omega), h.pointers, List.getElem?_map, hd]
      rfl
  · rw [if_neg hl]
    obtain ⟨lastC, hlast⟩ : ∃ d, cs[cs.length - 1]? = some d := ⟨_, List.getElem?_eq_getElem (by omega)⟩
    have hg := h.getByIndex hlast
    rw [show (((cs.length - 1 : Nat)) : Int) = (cs.length : Int) - 1 by omega] at hg
    rw [hg, PyM.lift_ok_bind]
    refine ⟨_, ?_, hmain (z.clusters.pointers.set i (lastC.1 : Int)) (fun j d hj hd => ?_) _ rfl⟩
    · rw [onClusters_apply]
      unfold PointerList.set
      simp only [h.mutable, hpl]
      rw [if_neg (by omega), if_neg (by omega), if_neg (by simp), if_pos (by omega), if_neg (by omega), if_neg (by omega),
        Int.toNat_natCast]
    · rw [List.getElem?_set_ne (Ne.symm hj), h.pointers, List.getElem?_map, hd]
      rfl

/-- an archive with some entries and three clusters -/
def sample3 : Zim :=
  (writeCluster rawOps 9 (oneBlob [7, 8]) none (writeCluster rawOps 9 (oneBlob [7, 8]) none
    (writeCluster rawOps 9 (oneBlob [7, 8]) none sample).2).2).2

abbrev sampleCluster : Bytes := [1, 8, 0, 0, 0, 10, 0, 0, 0, 7, 8]

theorem addCluster (h : HasClusters z cs) : ∃ off, HasClusters (writeCluster rawOps 9 (oneBlob [7, 8]) none z).2
    (cs ++ [(off, sampleCluster)]) := by
  obtain ⟨off, c', z', h1, -, h2, -⟩ := C53_new h (oneBlob_writes _ _) (by decide) rfl (num := none)
    (by simp) (fuel := 9) (by decide)
  rw [h1]
  exact ⟨off, h2⟩

theorem sample3_clusters : ∃ a b c, HasClusters sample3 [(a, sampleCluster), (b, sampleCluster), (c, sampleCluster)] := by
  obtain ⟨a, h⟩ := addCluster sample_clusters
  obtain ⟨b, h⟩ := addCluster h
  obtain ⟨c, h⟩ := addCluster h
  exact ⟨a, b, c, h⟩

/-- The hypotheses can be met. -/
example : ∃ z', removeClusterByIndex (fun _ => .ok 11) 0 sample3 = (.ok (), z') ∧ ClusterIs z' 1 sampleCluster ∧
    ClusterIs z' 2 sampleCluster := by
  obtain ⟨a, b, c, h⟩ := sample3_clusters
  obtain ⟨z', h1, -, h2, -⟩ := C68_remove_partial h (i := 0) rfl (size := fun _ => .ok 11) rfl
  exact ⟨z', h1, h2 1 _ (by decide) rfl, h2 2 _ (by decide) rfl⟩

/-- `sample3` without its first cluster -/
def sampleCut : Zim := (removeClusterByIndex (fun _ => .ok 11) 0 sample3).2

/-- its last cluster has been written again -/
def sampleAliased : Zim := (writeCluster rawOps 9 (at' (oneBlob [7, 8]) 157 11) none sampleCut).2

theorem pairEq {α β : Type} {r : α × β} {a : α} (h : r.1 = a) : r = (a, r.2) := by rw [← h]

theorem ok_inj {a b : Nat} (h : (Except.ok (a : Int) : PyRes Int) = .ok (b : Int)) : a = b := by
  injection h with h
  exact Int.ofNat.inj h

theorem getByIndex_sample {i a : Nat} {d : Stored} (h : HasClusters z cs) (hi : cs[i]? = some d)
    (hd : z.clusters.getByIndex i = .ok (a : Int)) : d.1 = a := by
  obtain ⟨rows, rest, h⟩ := h
  rw [h.getByIndex hi] at hd
  injection hd with hd
  exact Int.ofNat.inj hd

/-- **C68** does not hold: after the first of three clusters has been removed, the last one is modified and written. It is
the pointer of the first one that is changed, and the last index denotes space that has been freed. -/
theorem C68_false : ¬ C68Full := by
  intro hall
  obtain ⟨a, b, c, h⟩ := sample3_clusters
  have hc : c = 157 := getByIndex_sample h (i := 2) rfl (by decide +kernel)
  subst hc
  obtain ⟨z', h1, -⟩ := C68_remove_partial h (i := 0) rfl (size := fun _ => .ok 11) rfl
  have h2 : ClusterHist rawOps sample3 _ z' [none, some (b, sampleCluster), some (157, sampleCluster)] :=
    ClusterHist.remove (i := 0) (size := fun _ => .ok 11) (ClusterHist.start (O := rawOps) (z := sample3)
      (cs := [(a, sampleCluster), (b, sampleCluster), (157, sampleCluster)])) rfl rfl h1
  have hz' : z' = sampleCut := by unfold sampleCut; rw [h1]
  obtain ⟨c', n, off, h3, h4⟩ : ∃ (c' : ClusterObj Bytes) (n off : Nat),
      writeCluster rawOps 9 (at' (oneBlob [7, 8]) 157 11) none sampleCut = (.ok (n, c'), sampleAliased) ∧
      rawOps.offset c' = some off := by
    have he : ∃ r, (writeCluster rawOps 9 (at' (oneBlob [7, 8]) 157 11) none sampleCut).1 = .ok r ∧
        rawOps.offset r.2 = some 135 := by
      have : ((writeCluster rawOps 9 (at' (oneBlob [7, 8]) 157 11) none sampleCut).1.toOption.bind
        fun r => rawOps.offset r.2) = some 135 := by decide +kernel
      cases hr : (writeCluster rawOps 9 (at' (oneBlob [7, 8]) 157 11) none sampleCut).1 with
      | error e => rw [hr] at this; cases this
      | ok r => rw [hr] at this; exact ⟨r, rfl, this⟩
    obtain ⟨⟨n, c'⟩, hr, ho⟩ := he
    exact ⟨c', n, 135, pairEq hr, ho⟩
  have h5 := h2
  rw [hz'] at h5
  have h6 := ClusterHist.replace (i := 2) (old := (157, sampleCluster)) h5 (at_writes 157 11 _ _) (by decide)
    (by decide) rfl rfl rfl h3 h4
  have h7 : [none, some (b, sampleCluster), some (157, sampleCluster)].set 2 (some (off, sampleCluster)) =
      [none, some (b, sampleCluster), some (off, sampleCluster)] := rfl
  obtain ⟨off', g1, -, g2⟩ := hall _ _ _ _ _ _ h h6 2 (off, sampleCluster) (by exact congrArg (·[2]?) h7)
  have hp : sampleAliased.clusters.getByIndex 2 = .ok ((157 : Nat) : Int) := by decide +kernel
  have ho : off' = 157 := by
    exact ok_inj (g1.symm.trans hp)
  subst ho
  have hfree : (157, 11) ∈ sampleAliased.space.freeBlocks := by decide +kernel
  exact (g2 157 ⟨Nat.le_refl _, (by decide : 157 < 157 + sampleCluster.length)⟩).2 ⟨_, hfree, by decide, by decide⟩

/-- **C68** does not hold for new clusters either: after the last of three clusters has been removed there are two, but
the next cluster gets the number 3, and the indexes 2 and 3 both denote it. -/
theorem C68_next_index : ∃ z' z'' c' p, removeClusterByIndex (fun _ => .ok 11) 2 sample3 = (.ok (), z') ∧ z'.clusters.len = 2 ∧
    writeCluster rawOps 9 (oneBlob [7, 8]) none z' = (.ok (3, c'), z'') ∧ z''.clusters.len = 4 ∧
    z''.clusters.getByIndex 2 = .ok p ∧ z''.clusters.getByIndex 3 = .ok p := by
  obtain ⟨z', hz'⟩ : ∃ z', z' = (removeClusterByIndex (fun _ => .ok 11) 2 sample3).2 := ⟨_, rfl⟩
  have he : ∃ c', (writeCluster rawOps 9 (oneBlob [7, 8]) none (removeClusterByIndex (fun _ => .ok 11) 2 sample3).2).1 =
      .ok (3, c') := by
    have : (writeCluster rawOps 9 (oneBlob [7, 8]) none (removeClusterByIndex (fun _ => .ok 11) 2 sample3).2).1.toOption.map
      Prod.fst = some 3 := by decide +kernel
    cases hr : (writeCluster rawOps 9 (oneBlob [7, 8]) none (removeClusterByIndex (fun _ => .ok 11) 2 sample3).2).1 with
    | error e => rw [hr] at this; cases this
    | ok r =>
      rw [hr] at this
      obtain ⟨n, c'⟩ := r
      injection this with this
      exact ⟨c', by rw [← this]⟩
  obtain ⟨c', he⟩ := he
  refine ⟨(removeClusterByIndex (fun _ => .ok 11) 2 sample3).2, _, c', 157, pairEq (by decide +kernel),
    by decide +kernel, pairEq he, by decide +kernel, by decide +kernel, by decide +kernel⟩

end Zim
end Pyzim
