import Verif.Model.Content
import Verif.Model.Cache
import Verif.Model.Flush

/-!
# Model of a writable archive with a cache of clusters, `pyzim/archive.py`

Clusters are objects: they are numbered in the order of their creation and live in a heap, and the cache maps offsets to
them. The cache is a `LastAccessCache`, as in the default policy (`pyzim/policy.py:151-154`). It calls `on_leave` after it
has changed itself, and this call may use the cache again: the calls the cache asks for (`Verif/Model/Cache.lean` logs
them) are made here. As in `Verif/Model/Archive.lean`, archives start at the beginning of their file.
-/

namespace Pyzim

/-- A kind of cluster objects: the methods `write_cluster` uses, the dirty flag, a number of chunks that is large enough,
the cluster with an index as it is in the file (`pyzim/archive.py:1610-1617`), and `policy.autoflush`. -/
structure CacheSetup (K : Type) where
  O : ClusterOps K
  dirty : K → Bool
  bound : K → Zim → Nat
  load : Zim → Nat → PyRes K
  autoflush : Bool

/-- A writable archive with its cluster objects and its cluster cache; `pyzim/archive.py:227-252`. -/
structure Caching (K : Type) where
  arch : Archive
  objs : List K := []
  cache : LastCache Nat Nat

namespace Caching
variable {K : Type}

/-- A method of the archive that does not use the cache. -/
def onZim {α : Type} (f : PyM Zim α) : PyM (Caching K) α := fun s =>
  let r := f s.arch.zim
  (r.1, { s with arch := { s.arch with zim := r.2 } })

/-- An object of the heap. All references are to existing objects. -/
def getObj (r : Nat) : PyM (Caching K) K := fun s =>
  (match s.objs[r]? with | some o => .ok o | none => .error .attributeError, s)

/-- Changing an object of the heap. -/
def setObj (r : Nat) (o : K) : PyM (Caching K) Unit := fun s => (.ok (), { s with objs := s.objs.set r o })

/-- A new object. -/
def newObj (o : K) : PyM (Caching K) Nat := fun s => (.ok s.objs.length, { s with objs := s.objs ++ [o] })

/-- A method of the cache, and the calls of `on_leave` it makes at its end. -/
def onCache {α : Type} (f : PyM (LastCache Nat Nat) α) : PyM (Caching K) (α × List (Nat × Nat)) := fun s =>
  let r := f { s.cache with left := [] }
  (match r.1 with | .ok a => .ok (a, r.2.left) | .error e => .error e, { s with cache := { r.2 with left := [] } })

/-- Some calls of `on_leave`, one after the other. -/
def leaveAll (leave : Nat × Nat → PyM (Caching K) Unit) : List (Nat × Nat) → PyM (Caching K) Unit
  | [] => pure ()
  | p :: rest => do
    leave p
    leaveAll leave rest

variable (S : CacheSetup K)

/-- `_on_cluster_cache_leave`; `pyzim/archive.py:718-739`. `write` is `write_cluster` of a number. -/
def onLeave (write : Nat → Option Int → PyM (Caching K) Nat) (p : Nat × Nat) : PyM (Caching K) Unit := do
  let o ← getObj p.2
  if S.autoflush && S.dirty o then do
    let s ← PyM.get
    let n ← PyM.lift (s.arch.zim.clusterIndexByOffset p.1)
    let _ ← write p.2 (some n)
    pure ()
  else pure ()

/-- `self.cluster_cache.push(k, cluster)`; `pyzim/cache.py:448-477`. -/
def push (write : Nat → Option Int → PyM (Caching K) Nat) (k r : Nat) : PyM (Caching K) Unit := do
  let ps ← onCache (LastCache.push k r true)
  leaveAll (onLeave S write) ps.2

/-- The removal of the old offset from the cache; `pyzim/archive.py:1781-1783`. -/
def forget (old : Option Nat) (new : Nat) : PyM (Caching K) Unit :=
  match old with
  | none => pure ()
  | some o =>
    if new ≠ o then do
      let _ ← onCache (LastCache.remove o false)
      pure ()
    else pure ()

/-- `write_cluster`; `pyzim/archive.py:1717-1802`. It may be called again by the cache; `depth` bounds how often, deeper
calls are the `RecursionError`. Returns the number of the cluster. -/
def write : (depth : Nat) → (r : Nat) → (num : Option Int) → PyM (Caching K) Nat
  | 0, _, _ => PyM.raise .runtimeError
  | depth + 1, r, num => do
    PyM.require (decide (∀ n ∈ num, 0 ≤ n)) .valueError
    let s ← PyM.get
    PyM.require s.arch.zim.mutable .nonMutable
    PyM.require (!s.arch.zim.closed) .zimFileClosed
    let o ← getObj r
    PyM.require (S.O.isBound o) .bindingError
    let size ← PyM.lift (S.O.diskSize o s.arch.zim.file)
    let n ← onZim (Zim.clusterNumber (S.O.offset o) (num.map Int.toNat))
    let new ← onZim (Zim.allocate size)
    onZim (Zim.writeChunks S.O o (S.bound o s.arch.zim) 0 new)
    forget (S.O.offset o) new
    push S (write depth) new r
    onZim (Zim.onClusters (fun l => l.set n new true))
    let s ← PyM.get
    let o1 ← getObj r
    let o2 ← PyM.lift (S.O.afterFlush (S.O.setOffset o1 new) s.arch.zim.file)
    setObj r o2
    (match S.O.offset o with
      | some old => onZim (Zim.markFree old (S.O.oldSize o))
      | none => pure ())
    pure n

variable (depth : Nat)

/-- `get_cluster_by_index`; `pyzim/archive.py:1590-1635`. -/
def getCluster (i : Nat) : PyM (Caching K) Nat := do
  let s ← PyM.get
  let pos ← PyM.lift (s.arch.zim.clusters.getByIndex i)
  if s.cache.has pos.toNat then do
    let r ← onCache (LastCache.get pos.toNat)
    pure r.1
  else do
    let o ← PyM.lift (S.load s.arch.zim i)
    let r ← newObj o
    push S (write S depth) pos.toNat r
    pure r

/-- `flush` of a cluster; `pyzim/cluster.py:1037-1046`. -/
def flushObj (r : Nat) : PyM (Caching K) Unit := do
  let o ← getObj r
  if S.dirty o then do
    let _ ← write S depth r none
    pure ()
  else pure ()

/-- Writing a new cluster, as the compression strategies do; `pyzim/archive.py:1717-1802`,
`pyzim/compressionstrategy.py:170-190`. -/
def addCluster (o : K) : PyM (Caching K) Nat := do
  let r ← newObj o
  write S depth r none

/-- `self.cluster_cache.clear()`; `pyzim/cache.py:479-490`. -/
def clear : PyM (Caching K) Unit := do
  let ps ← onCache (fun c => (.ok (), LastCache.clear true c))
  leaveAll (onLeave S (write S depth)) ps.2

/-- `flush`: the caches are cleared, and then `rest` is done if anything is dirty; `pyzim/archive.py:516-543`. -/
def flush (rest : PyM Archive Unit) : PyM (Caching K) Unit := do
  let s ← PyM.get
  PyM.require (!s.arch.zim.closed) .zimFileClosed
  PyM.require s.arch.zim.mutable .nonMutable
  clear S depth
  let s ← PyM.get
  if s.arch.isDirty then PyM.of (fun s => let r := rest s.arch; (r.1, { s with arch := r.2 })) else pure ()

/-- `close`; `pyzim/archive.py:490-505`. -/
def close (rest : PyM Archive Unit) : PyM (Caching K) Unit := do
  let s ← PyM.get
  (if s.arch.isDirty then flush S depth rest else pure ())
  onZim (PyM.modify (fun z => { z with closed := true }))

section
variable {D C : Type} (X : Codecs D) (Y : Compressors C) (kind : ClusterKind) (calls : Nat)

/-- The clusters of a writable archive. -/
def setup (autoflush : Bool) : CacheSetup (ClusterObj D) where
  O := ClusterObj.ops X Y
  dirty o := o.m.dirty
  bound o z := Zim.chunkBound X Y o z
  load z i := Zim.openCluster X kind calls z i
  autoflush := autoflush

/-- `set_content` of an entry: blob `b` of cluster `i` is set, nothing is flushed. Returns the cluster;
`pyzim/entry.py:830-855`, `pyzim/cluster.py:934-956`. -/
def setContent (auto : Bool) (i b : Nat) (src : BlobSource) : PyM (Caching (ClusterObj D)) Nat := do
  let r ← getCluster (setup X Y kind calls auto) depth i
  let o ← getObj r
  let s ← PyM.get
  (match MCluster.setBlob X b src (o.m.onFile s.arch.zim.file) with
    | (.error x, m) => setObj r { o with m := m } >>= fun _ => PyM.raise x
    | (.ok (), m) => setObj r { o with m := m })
  pure r

/-- `read` of an entry; `pyzim/entry.py:762-795`. -/
def readContent (auto : Bool) (i b : Nat) (start stop : Option Nat) : PyM (Caching (ClusterObj D)) Bytes := do
  let r ← getCluster (setup X Y kind calls auto) depth i
  let o ← getObj r
  let s ← PyM.get
  PyM.lift (MCluster.readBlob X b start stop (o.m.onFile s.arch.zim.file)).1

end
end Caching
end Pyzim
