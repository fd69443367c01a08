import Verif.Model.Cache
import Verif.Model.Entry
import Verif.Model.Cluster
import Verif.Spec.Cache

/-!
# Reading entries and clusters through the caches of an archive

Models `Zim.get_entry_at` and `Zim.get_cluster_at` of an archive that is not modified. Processors
are not modelled (none installed). The leave callbacks of the archive (`pyzim/archive.py:718-756`)
only write dirty objects, so they do nothing here.
-/

namespace Pyzim

/-- A cache object of one of the four classes; method calls are dispatched on the class.
`pyzim/cache.py:27-124`, `312-728`. -/
inductive AnyCache (K V : Type)
  | noOp (c : NoOpCache)
  | last (c : LastCache K V)
  | top (c : TopCache K V)
  | hybrid (c : HybridCache K V)

/-- A configured cache: its class and sizes; `pyzim/policy.py:70-121`. -/
inductive CacheConfig
  | noOp
  | last (maxSize : Nat)
  | top (maxSize : Nat)
  | hybrid (lastCacheSize topCacheSize : Nat)

namespace AnyCache
variable {K V : Type} [DecidableEq K]

/-- A new cache. -/
def new : CacheConfig → AnyCache K V
  | .noOp => .noOp ⟨⟩
  | .last n => .last { maxSize := n }
  | .top n => .top { maxSize := n }
  | .hybrid l t => .hybrid (HybridCache.new l t)

/-- `has` of the class. -/
def has : AnyCache K V → K → Bool
  | .noOp c, k => c.has k
  | .last c, k => c.has k
  | .top c, k => c.has k
  | .hybrid c, k => c.has k

/-- `get` of the class. -/
def get (k : K) : PyM (AnyCache K V) V
  | .noOp c => let (x, c) := NoOpCache.get k c; (x, .noOp c)
  | .last c => let (x, c) := LastCache.get k c; (x, .last c)
  | .top c => let (x, c) := TopCache.get k c; (x, .top c)
  | .hybrid c => let (x, c) := HybridCache.get k c; (x, .hybrid c)

/-- `push` of the class. -/
def push (k : K) (v : V) (allow : Bool) : PyM (AnyCache K V) Bool
  | .noOp c => let (x, c) := NoOpCache.push k v allow c; (x, .noOp c)
  | .last c => let (x, c) := LastCache.push k v allow c; (x, .last c)
  | .top c => let (x, c) := TopCache.push k v allow c; (x, .top c)
  | .hybrid c => let (x, c) := HybridCache.push k v allow c; (x, .hybrid c)

end AnyCache

/-! ### Entries -/

/-- `get_entry_at`; `pyzim/archive.py:797-837`. The file content is `file`; since `from_file` is
called with a position, the position of the file object does not matter and is left out. Reading an
entry may never return (`none`, see `Entry.fromFile`). Binding is not modelled here. -/
def getEntryAt (file : Bytes) (baseOffset location : Nat) (allow : Bool) (c : AnyCache Nat Entry) :
    Option (PyRes Entry × AnyCache Nat Entry) :=
  let full := baseOffset + location
  if c.has full then some (AnyCache.get full c)
  else
    match Entry.fromFile { data := file, pos := 0 } (some full) with
    | none => none
    | some (.error e, _) => some (.error e, c)
    | some (.ok entry, _) =>
      match AnyCache.push full entry allow c with
      | (.error e, c) => some (.error e, c)
      | (.ok _, c) => some (.ok entry, c)

/-! ### Clusters -/

/-- What is read from a cluster object. -/
inductive ClusterReq
  | numberOfBlobs
  | blobSize (i : Nat)
  | contentSize
  | offset (i : Nat)
  | readBlob (i : Nat) (start stop : Option Nat)
  | iterReadBlob (i buffersize : Nat) (start stop : Option Nat) (calls : Nat)

/-- What is returned. -/
inductive ClusterAns
  | num (n : Int)
  | data (b : Bytes)
deriving DecidableEq

/-- Carry out a request on a cluster object; of a streamed blob, the
first `calls` chunks are consumed and joined. -/
def ClusterReq.exec {D : Type} (X : Codecs D) : ClusterReq → PyM (CSt D) ClusterAns
  | .numberOfBlobs => do let n ← Cluster.getNumberOfBlobs X; pure (.num n)
  | .blobSize i => do let n ← Cluster.getBlobSize X i; pure (.num n)
  | .contentSize => do let n ← Cluster.getContentSize X; pure (.num n)
  | .offset i => do let n ← Cluster.getOffset X i; pure (.num n)
  | .readBlob i a b => do let d ← Cluster.readBlob X i a b; pure (.data d)
  | .iterReadBlob i bs a b calls => do
    let d ← Cluster.iterReadBlob X i bs a b calls
    pure (.data d.1.flatten)

/-- The cluster objects that exist, the file, and the cache, which holds references to the objects.
-/
structure ClusterSt (D : Type) where
  objects : List (Cluster D)
  f : PyFile
  cache : AnyCache Nat Nat

/-- `get_cluster_at` of an archive that is not writable: a reference to the cluster object;
`pyzim/archive.py:1590-1624`. -/
def getClusterAt {D : Type} (kind : ClusterKind) (baseOffset location : Nat) :
    PyM (ClusterSt D) Nat := fun s =>
  let full := baseOffset + location
  if s.cache.has full then
    let (x, c) := AnyCache.get full s.cache
    (x, { s with cache := c })
  else
    let ref := s.objects.length
    let s : ClusterSt D := { s with objects := s.objects ++ [{ kind := kind, offset := full }] }
    match AnyCache.push full ref true s.cache with
    | (.error e, c) => (.error e, { s with cache := c })
    | (.ok _, c) => (.ok ref, { s with cache := c })

/-- Call a method of the cluster object `ref`. -/
def onCluster {D α : Type} (ref : Nat) (g : PyM (CSt D) α) : PyM (ClusterSt D) α := fun s =>
  match s.objects[ref]? with
  | none => (.error .attributeError, s)
  | some c =>
    let (x, r) := g { c := c, f := s.f }
    (x, { s with objects := s.objects.set ref r.c, f := r.f })

end Pyzim
