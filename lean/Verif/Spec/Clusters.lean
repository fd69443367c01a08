import Verif.Model.Clusters
import Verif.Spec.ArchiveMap

/-!
# Specification vocabulary for the clusters of an archive
-/

namespace Pyzim

/-- The cluster object `c` will be written as the given chunks, also while other parts of the file change: it only
depends on the bytes `own` of the file. -/
structure ClusterOps.Writes {K : Type} (O : ClusterOps K) (c : K) (file : Bytes) (own : Nat → Prop)
    (chunks : List Bytes) : Prop where
  isBound : O.isBound c = true
  size : ∀ file', Zim.KeepsBytes own file file' → O.diskSize c file' = .ok chunks.flatten.length
  chunk : ∀ file', Zim.KeepsBytes own file file' → ∀ i : Nat, O.chunk c i file' = .ok chunks[i]?
  /-- after it has been written it knows its offset and its size -/
  after : ∀ file' off, Holds file' off chunks.flatten → ∃ c', O.afterFlush (O.setOffset c off) file' = .ok c' ∧
    O.offset c' = some off ∧ O.oldSize c' = chunks.flatten.length

namespace Zim

/-- a cluster of an archive: its offset in the file and its bytes -/
abbrev Stored := Nat × Bytes

/-- byte `x` belongs to the cluster -/
def InCluster (c : Stored) (x : Nat) : Prop := c.1 ≤ x ∧ x < c.1 + c.2.length

/-- An archive with the given entries and the given list of clusters: the clusters are in the file, on pairwise disjoint
pieces, and the bytes in use are exactly those of the entries, those of the clusters and `rest`. -/
structure Clustered (z : Zim) (rows : List Row) (cs : List Stored) (rest : Nat → Prop) : Prop where
  rep : Rep z rows (fun x => rest x ∨ ∃ c ∈ cs, InCluster c x)
  /-- the cluster with index `i` is `cs[i]` -/
  pointers : z.clusters.pointers = cs.map (fun c => (c.1 : Int))
  mutable : z.clusters.mutable = true
  num : z.clusterNum = cs.length
  held : ∀ c ∈ cs, Holds z.file c.1 c.2
  nonempty : ∀ c ∈ cs, c.2 ≠ []
  disjoint : cs.Pairwise (fun c d => ∀ x, InCluster c x → ¬ InCluster d x)
  apart : ∀ c ∈ cs, ∀ x, InCluster c x → ¬ rest x

/-- the bytes of the file in use: below the end of the file and not free -/
def InUse (z : Zim) (x : Nat) : Prop := x < z.space.fileEnd ∧ ¬ SpaceAllocator.Covered z.space.freeBlocks x

/-- A successful `write_cluster` in an archive with the clusters `cs`, leading to the clusters `cs'`. The cluster object
is new, or it stands for the `i`-th cluster and knows its offset and size. -/
inductive ClusterWrite {K : Type} (O : ClusterOps K) (z : Zim) (cs : List Stored) : Zim → List Stored → Prop
  | new {c c' : K} {chunks : List Bytes} {num : Option Int} {fuel n off : Nat} {z' : Zim} :
      O.Writes c z.file (InUse z) chunks → chunks.flatten ≠ [] → chunks.length < fuel → O.offset c = none →
      writeCluster O fuel c num z = (.ok (n, c'), z') → O.offset c' = some off →
      ClusterWrite O z cs z' (cs ++ [(off, chunks.flatten)])
  | replace {c c' : K} {chunks : List Bytes} {num : Option Int} {fuel n off i : Nat} {old : Stored} {z' : Zim} :
      O.Writes c z.file (InUse z) chunks → chunks.flatten ≠ [] → chunks.length < fuel → cs[i]? = some old →
      O.offset c = some old.1 → O.oldSize c = old.2.length → (∀ n ∈ num, n = (i : Int)) →
      writeCluster O fuel c num z = (.ok (n, c'), z') → O.offset c' = some off →
      ClusterWrite O z cs z' (cs.set i (off, chunks.flatten))

/-- A successful modification of an archive with the clusters `cs`, leading to the clusters `cs'`: writing a cluster,
writing or removing an entry, registering a mimetype, setting the main page, buffering operations. -/
inductive Work {K : Type} (O : ClusterOps K) (z : Zim) (cs : List Stored) : Zim → List Stored → Prop
  | cluster {z' : Zim} {cs' : List Stored} : ClusterWrite O z cs z' cs' → Work O z cs z' cs'
  | entry {e e' : Entry} {d : Nat} {upd att : Bool} {z' : Zim} :
      Accepts z e → writeEntry d e upd att z = (.ok e', z') → Work O z cs z' cs
  /-- the blob of the entry is left alone -/
  | remove {bd blob : Entry → PyM Zim Unit} {d : Nat} {u : String} {z' : Zim} :
      (∀ e z1, z.entryByFullUrl u = .ok e → e.isRedirect = false → blob e z = (.ok (), z1) → z1 = z) →
      removeEntry bd d blob u z = (.ok (), z') → Work O z cs z' cs
  /-- the cluster with the blob of the entry is rewritten -/
  | removeBlob {bd blob : Entry → PyM Zim Unit} {d : Nat} {u : String} {e : Entry} {z1 z' : Zim} {cs' : List Stored} :
      z.entryByFullUrl u = .ok e → e.isRedirect = false → blob e z = (.ok (), z1) → ClusterWrite O z cs z1 cs' →
      removeEntry bd d blob u z = (.ok (), z') → Work O z cs z' cs'
  | mimetype {mt : Bytes} {reg : Bool} {r : PyRes (Option Nat)} {m : MimeTypeList} : mt ≠ [] → (0 : UInt8) ∉ mt →
      z.mimetypes.getIndex mt reg = (r, m) → Work O z cs { z with mimetypes := m } cs
  | mainPage {v : Option Int} {z' : Zim} : onHeader (fun h => h.setMainPage v) z = (.ok (), z') → Work O z cs z' cs
  | buffer (r : List (String × String × Option String)) (m : Option (Option String)) :
      Work O z cs { z with bufferedRedirects := r, bufferedMainpage := m } cs

/-- any number of modifications -/
inductive Works {K : Type} (O : ClusterOps K) (z : Zim) (cs : List Stored) : Zim → List Stored → Prop
  | refl : Works O z cs z cs
  | step {z1 z2 : Zim} {cs1 cs2 : List Stored} : Works O z cs z1 cs1 → Work O z1 cs1 z2 cs2 → Works O z cs z2 cs2

/-- A history of successful writes and removals of clusters, beginning with `z` and its clusters `cs`. The list says which
cluster each index is to denote; `none`: it has been removed. `size` is what `get_unmodified_disk_size()` says. -/
inductive ClusterHist {K : Type} (O : ClusterOps K) (z : Zim) (cs : List Stored) : Zim → List (Option Stored) → Prop
  | start : ClusterHist O z cs z (cs.map some)
  | new {z1 z2 : Zim} {slots : List (Option Stored)} {c c' : K} {chunks : List Bytes} {fuel n off : Nat} :
      ClusterHist O z cs z1 slots → O.Writes c z1.file (InUse z1) chunks → chunks.flatten ≠ [] → chunks.length < fuel →
      O.offset c = none → writeCluster O fuel c none z1 = (.ok (n, c'), z2) → O.offset c' = some off →
      ClusterHist O z cs z2 (slots ++ [some (off, chunks.flatten)])
  | replace {z1 z2 : Zim} {slots : List (Option Stored)} {c c' : K} {chunks : List Bytes} {fuel n off i : Nat}
      {old : Stored} :
      ClusterHist O z cs z1 slots → O.Writes c z1.file (InUse z1) chunks → chunks.flatten ≠ [] → chunks.length < fuel →
      slots[i]? = some (some old) → O.offset c = some old.1 → O.oldSize c = old.2.length →
      writeCluster O fuel c none z1 = (.ok (n, c'), z2) → O.offset c' = some off →
      ClusterHist O z cs z2 (slots.set i (some (off, chunks.flatten)))
  | remove {z1 z2 : Zim} {slots : List (Option Stored)} {i : Nat} {old : Stored} {size : Int → PyRes Nat} :
      ClusterHist O z cs z1 slots → slots[i]? = some (some old) → size old.1 = .ok old.2.length →
      removeClusterByIndex size i z1 = (.ok (), z2) →
      ClusterHist O z cs z2 (if i + 1 = slots.length then slots.dropLast else slots.set i none)

/-- Nothing but the clusters may differ. -/
structure SameButClusters (z z' : Zim) : Prop where
  header : z'.header = z.header
  mimetypes : z'.mimetypes = z.mimetypes
  urls : z'.urls = z.urls
  articles : z'.articles = z.articles
  titles : z'.titles = z.titles
  redirects : z'.bufferedRedirects = z.bufferedRedirects
  mainpage : z'.bufferedMainpage = z.bufferedMainpage

end Zim
end Pyzim
