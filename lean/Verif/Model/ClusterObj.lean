import Verif.Model.Clusters
import Verif.Model.ModCluster

/-!
# Model of the cluster objects of a writable archive

A `ModifiableClusterWrapper` around an `EmptyCluster` (made by `Zim.new_cluster`) does not read the file. One around a
cluster in the file (made by `Zim.get_cluster_at`) reads the blobs that are not replaced from the file while it is being
written; each call is given the file as it is then. Simplification: what the wrapped cluster remembers between these
calls (the information byte, the offsets, the decompressing reader) is read anew.
-/

namespace Pyzim

namespace MCluster
variable {D : Type}

/-- The wrapped cluster, if it is one in a file, is read from `file`. -/
def onFile (file : Bytes) (m : MCluster D) : MCluster D :=
  match m.inner with
  | .empty => m
  | .real s =>
    let c : Cluster D := { kind := s.c.kind, bound := s.c.bound, offset := s.c.offset }
    { m with inner := .real ⟨c, ⟨file, 0⟩⟩ }

/-- `offset = o` of the wrapped cluster; `pyzim/cluster.py:1110-1119`. -/
def setOffset (o : Nat) (m : MCluster D) : MCluster D :=
  match m.inner with
  | .empty => m
  | .real s => { m with inner := .real { s with c := { s.c with offset := o } } }

end MCluster

/-- A cluster object: the wrapper, `offset` (kept by the wrapped cluster; `pyzim/cluster.py:1100-1119`) and
`_old_disk_size`. For a new cluster (`pyzim/archive.py:1804-1825`) this is first set to the size of an empty cluster
(`pyzim/cluster.py:760-762`, `668-669`, `1317-1322`, `pyzim/modifiable.py:114-116`). -/
structure ClusterObj (D : Type) where
  m : MCluster D := { inner := .empty }
  offset : Option Nat := none
  old : Nat := 5

/-- The methods `write_cluster` calls; `pyzim/cluster.py:780-782`, `974-987`, `1100-1119`, `1324-1329`,
`pyzim/modifiable.py:100-118`. Reading the chunks again after they have been written gives the same chunks, as blob
sources are modelled as functions. -/
def ClusterObj.ops {D K : Type} (X : Codecs D) (C : Compressors K) : ClusterOps (ClusterObj D) where
  isBound c := c.m.bound
  offset c := c.offset
  oldSize c := c.old
  diskSize c file := (MCluster.getDiskSize X C (c.m.onFile file)).1
  chunk c i file := do
    let chunks ← (MCluster.iterWrite X C (c.m.onFile file)).1
    pure chunks[i]?
  setOffset c o := { c with m := c.m.setOffset o, offset := some o }
  afterFlush c file := do
    let m := c.m.reset
    let size ← (MCluster.getDiskSize X C (m.onFile file)).1
    pure { c with m := { m with dirty := false }, old := size }

end Pyzim
