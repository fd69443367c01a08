import Verif.Model.Archive

/-!
# Model of the functions of `pyzim/archive.py` that write and remove clusters

The simplifications are those of `Verif/Model/Archive.lean`. A cluster object is an element of a type `K` together with
the methods of `ClusterOps`, which are given the current content of the file, as a wrapped cluster reads it. `iter_write`
is a generator: its chunks are computed one by one, while the previous ones are written already.
-/

namespace Pyzim

/-- The methods of a `ModifiableClusterWrapper` that `write_cluster` calls; `pyzim/cluster.py:739-782`, `974-987`,
`1100-1119`, `1317-1329`, `pyzim/modifiable.py:100-118`. -/
structure ClusterOps (K : Type) where
  /-- `cluster.zim is zim` -/
  isBound : K → Bool
  /-- `cluster.offset` -/
  offset : K → Option Nat
  /-- `cluster.get_unmodified_disk_size()` -/
  oldSize : K → Nat
  /-- `cluster.get_disk_size()` -/
  diskSize : K → Bytes → PyRes Nat
  /-- the chunk `cluster.iter_write()` yields after having yielded the given number of chunks, if any -/
  chunk : K → Nat → Bytes → PyRes (Option Bytes)
  /-- `cluster.offset = offset` -/
  setOffset : K → Nat → K
  /-- `cluster.after_flush_or_read()` -/
  afterFlush : K → Bytes → PyRes K

namespace Zim
variable {K : Type}

/-- A method of the cluster pointer list. -/
def onClusters {α : Type} (f : PointerList → PyRes α × PointerList) : PyM Zim α := fun z =>
  let r := f z.clusters
  (r.1, { z with clusters := r.2 })

/-- `_new_cluster_num`; `pyzim/archive.py:758-770`. -/
def newClusterNum : PyM Zim Nat := fun z => (.ok z.clusterNum, { z with clusterNum := z.clusterNum + 1 })

/-- `get_cluster_index_by_offset`; `pyzim/archive.py:1698-1715`. -/
def clusterIndexByOffset (z : Zim) (offset : Nat) : PyRes Nat := do
  let ps ← z.clusters.iterPointers
  PointerList.getByPointerLoop offset ps 0

/-- The loop of `write_cluster` over the chunks; `pyzim/archive.py:1775-1780`. `fuel` bounds the number of chunks;
needing more is the error `hang`. -/
def writeChunks (O : ClusterOps K) (c : K) : (fuel : Nat) → (i : Nat) → (pos : Nat) → PyM Zim Unit
  | 0, _, _ => PyM.raise .hang
  | fuel + 1, i, pos => do
    let z ← PyM.get
    let d ← PyM.lift (O.chunk c i z.file)
    match d with
    | none => pure ()
    | some d => do
      writeAt pos (.ok d)
      writeChunks O c fuel (i + 1) (pos + d.length)

/-- The number of the cluster to be written; `pyzim/archive.py:1752-1759`. -/
def clusterNumber (offset : Option Nat) (num : Option Nat) : PyM Zim Nat := do
  let z ← PyM.get
  match offset, num with
  | none, _ => newClusterNum
  | some o, none => PyM.lift (z.clusterIndexByOffset o)
  | some _, some n => pure n

/-- `write_cluster`; `pyzim/archive.py:1717-1802`. Returns the number of the cluster and the cluster object as it is
after the call. `fuel` bounds the number of chunks of the cluster. The methods of the cache do nothing here. -/
def writeCluster (O : ClusterOps K) (fuel : Nat) (c : K) (num : Option Int) : PyM Zim (Nat × K) := do
  PyM.require (decide (∀ n ∈ num, 0 ≤ n)) .valueError
  let z ← PyM.get
  PyM.require z.mutable .nonMutable
  PyM.require (!z.closed) .zimFileClosed
  PyM.require (O.isBound c) .bindingError
  let newSize ← PyM.lift (O.diskSize c z.file)
  let n ← clusterNumber (O.offset c) (num.map Int.toNat)
  let newOffset ← allocate newSize
  writeChunks O c fuel 0 newOffset
  onClusters (fun l => l.set n newOffset true)
  let z ← PyM.get
  let c' ← PyM.lift (O.afterFlush (O.setOffset c newOffset) z.file)
  (match O.offset c with
    | some o => markFree o (O.oldSize c)
    | none => pure ())
  pure (n, c')

/-- `remove_cluster_by_index` of a cluster whose `get_unmodified_disk_size()` is `size`, a function of the offset;
`pyzim/archive.py:1637-1666`. -/
def removeClusterByIndex (size : Int → PyRes Nat) (i : Nat) : PyM Zim Unit := do
  let z ← PyM.get
  let pos ← PyM.lift (z.clusters.getByIndex i)
  let n ← PyM.lift (size pos)
  markFree pos.toNat n
  if (i : Int) = (z.clusters.len : Int) - 1 then onClusters (fun l => l.removeByIndex i)
  else do
    let p ← PyM.lift (z.clusters.getByIndex ((z.clusters.len : Int) - 1))
    onClusters (fun l => l.set i p false)

end Zim
end Pyzim
