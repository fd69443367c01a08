import Verif.Model.ClusterObj
import Verif.Model.Metadata

/-!
# Model of reading and setting the content of entries, `pyzim/entry.py` and `pyzim/archive.py`

Clusters are not cached, and there are no processors. In a writable archive a cluster of the file is wrapped by a
`ModifiableClusterWrapper`; what the wrapped cluster remembers of the constructor of the wrapper is read anew
(`Verif/Model/ClusterObj.lean`).
-/

namespace Pyzim
namespace Zim
variable {D K : Type} (X : Codecs D) (C : Compressors K)

/-- `cluster_class(zim=self, offset=location)`, before anything has been read; `pyzim/archive.py:1613-1614`. `kind` is the
`cluster_class` of the policy. -/
def clusterAt (kind : ClusterKind) (z : Zim) (pos : Nat) : CSt D := ⟨{ kind := kind, offset := pos }, ⟨z.file, 0⟩⟩

/-- `get_cluster_by_index` in a writable archive; `pyzim/archive.py:1590-1635`, with the constructor of the wrapper,
`pyzim/cluster.py:736-762`. `calls` bounds the number of chunks read to measure a compressed cluster. -/
def openCluster (kind : ClusterKind) (calls : Nat) (z : Zim) (i : Nat) : PyRes (ClusterObj D) := do
  let pos ← z.clusters.getByIndex i
  (if z.closed then .error .zimFileClosed else .ok ())
  let s : CSt D := clusterAt kind z pos.toNat
  let size ← (Cluster.getTotalCompressedSize X calls s).1
  pure { m := { inner := .real s }, offset := some pos.toNat, old := size.toNat }

/-- The checks of the range by `read` and `iter_read`; `pyzim/entry.py:783-792`, `818-826`. A start without an end is
compared with `None`. -/
def checkRange : (start stop : Option Int) → PyRes (Option Nat × Option Nat)
  | none, none => .ok (none, none)
  | none, some b => if b < 0 then .error .valueError else .ok (none, some b.toNat)
  | some a, none => if a < 0 then .error .valueError else .error .typeError
  | some a, some b =>
    if a < 0 then .error .valueError
    else if b < 0 ∨ b < a then .error .valueError
    else .ok (some a.toNat, some b.toNat)

/-- `read_blob` of the cluster `get_cluster_by_index(i)` returns; `pyzim/archive.py:1590-1635`. -/
def readBlobOf (kind : ClusterKind) (calls : Nat) (z : Zim) (c b : Nat) (start stop : Option Nat) : PyRes Bytes :=
  if z.mutable then do
    let o ← openCluster X kind calls z c
    (MCluster.readBlob X b start stop o.m).1
  else do
    let pos ← z.clusters.getByIndex c
    (if z.closed then .error .zimFileClosed else .ok ())
    (Cluster.readBlob X b start stop (clusterAt kind z pos.toNat)).1

/-- `read` of an entry of the archive; `pyzim/entry.py:762-795`. Redirects do not have the method. -/
def readContent (kind : ClusterKind) (calls : Nat) (z : Zim) (e : Entry) (start : Option Int := none)
    (stop : Option Int := none) : PyRes Bytes :=
  match e.kind with
  | .redirect _ => .error .attributeError
  | .content c b => do
    let r ← checkRange start stop
    readBlobOf X kind calls z c b r.1 r.2

/-- `iter_read_blob` of the cluster `get_cluster_by_index(i)` returns, for the first `n` calls of `next`;
`pyzim/archive.py:1590-1635`. -/
def iterBlobOf (kind : ClusterKind) (calls : Nat) (z : Zim) (c b bs : Nat) (start stop : Option Nat) (n : Nat) :
    PyRes (List Bytes × Bool) :=
  if z.mutable then do
    let o ← openCluster X kind calls z c
    (MCluster.iterReadBlob X b bs start stop n o.m).1
  else do
    let pos ← z.clusters.getByIndex c
    (if z.closed then .error .zimFileClosed else .ok ())
    (Cluster.iterReadBlob X b bs start stop n (clusterAt kind z pos.toNat)).1

/-- `iter_read` of an entry of the archive, for the first `n` calls of `next`: the pieces, and whether the iteration has
come to its end; `pyzim/entry.py:797-828`. Nothing is done before the first call. -/
def iterContent (kind : ClusterKind) (calls : Nat) (z : Zim) (e : Entry) (bs : Nat) (start stop : Option Int) (n : Nat) :
    PyRes (List Bytes × Bool) :=
  match e.kind with
  | .redirect _ => .error .attributeError
  | .content c b =>
    if n = 0 then .ok ([], false)
    else do
      let r ← checkRange start stop
      iterBlobOf X kind calls z c b bs r.1 r.2 n

/-- `get_size` of an entry of the archive; `pyzim/entry.py:748-760`. -/
def contentSize (kind : ClusterKind) (calls : Nat) (z : Zim) (e : Entry) : PyRes Int :=
  match e.kind with
  | .redirect _ => .error .attributeError
  | .content c b =>
    if z.mutable then do
      let o ← openCluster X kind calls z c
      (MCluster.getBlobSize X b o.m).1
    else do
      let pos ← z.clusters.getByIndex c
      (if z.closed then .error .zimFileClosed else .ok ())
      (Cluster.getBlobSize X b (clusterAt kind z pos.toNat)).1

/-- A bound for the number of chunks `iter_write` of a cluster object yields that is large enough: the number of chunks
and one more for the end. -/
def chunkBound (c : ClusterObj D) (z : Zim) : Nat :=
  match (MCluster.iterWrite X C (c.m.onFile z.file)).1 with
  | .ok chunks => chunks.length + 1
  | .error _ => 1

/-- `write_cluster` of a cluster object; `pyzim/archive.py:1717-1802`. -/
def writeClusterObj (c : ClusterObj D) : PyM Zim (Nat × ClusterObj D) := fun z =>
  writeCluster (ClusterObj.ops X C) (chunkBound X C c z) c none z

/-- `set_content` of an entry of the archive, and `flush` of the cluster; `pyzim/entry.py:830-855`,
`pyzim/cluster.py:1037-1046`. -/
def setContent (kind : ClusterKind) (calls : Nat) (e : Entry) (src : BlobSource) : PyM Zim Unit :=
  match e.kind with
  | .redirect _ => PyM.raise .attributeError
  | .content c b => do
    PyM.require e.mutable .nonMutable
    let z ← PyM.get
    let o ← PyM.lift (openCluster X kind calls z c)
    match MCluster.setBlob X b src o.m with
    | (.error x, _) => PyM.raise x
    | (.ok (), m) =>
      if m.dirty then do
        let _ ← writeClusterObj X C { o with m := m }
        pure ()
      else pure ()

/-- `from_zim_entry` of a title pointer list; `pyzim/pointerlist.py:503-519`. `fuel` bounds the number of redirects. -/
def listFromEntry (kind : ClusterKind) (calls fuel : Nat) (fullUrl : String) (z : Zim) : PyRes PointerList := do
  let e ← z.entryByFullUrl fullUrl
  let e ← z.resolve fuel e
  let b ← readContent X kind calls z e
  PointerList.fromBytes 4 b

end Zim
end Pyzim
