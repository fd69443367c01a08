import Verif.Model.Caching
import Verif.Spec.Layout
import Verif.Spec.Strategy

/-!
# Specification vocabulary for a writable archive with a cache of clusters
-/

namespace Pyzim
namespace Caching
variable {D K : Type} (X : Codecs D) (Y : Compressors K)

/-- A new cluster to which these blobs were appended. -/
inductive NewWith (t : CompressionType) : MCluster D → List Bytes → Prop
  | empty : NewWith t { inner := .empty, forceComp := some t } []
  | append {m m' : MCluster D} {v : List Bytes} {src : BlobSource} {c : Bytes} {k : Int} :
      NewWith t m v → Delivers src c → MCluster.appendBlob X src m = (.ok k, m') → NewWith t m' (v ++ [c])

/-- The surroundings: how clusters are read and how deep calls may be nested. -/
structure Reading where
  kind : ClusterKind
  calls : Nat
  depth : Nat

/-- `flush` of the archive, when nothing is buffered. -/
def flushAll (E : Archive.Env) (R : Reading) : PyM (Caching (ClusterObj D)) Unit :=
  flush (setup X Y R.kind R.calls true) R.depth
    (Archive.flushDirty E.hasher E.short E.chunksize E.policy (pure ()) (fun _ => pure ()))

/-- A history of successful calls: contents are set and read, clusters are flushed and added, the archive is flushed. `V`
are the contents of the clusters as they were set last. `T` are the clusters with contents that were set since they, or the
archive, were flushed: there are never more of them than fit into the cache, and fewer when a cluster is added. -/
inductive History (E : Archive.Env) (R : Reading) (s : Caching (ClusterObj D)) (V : List (List Bytes)) :
    Caching (ClusterObj D) → List (List Bytes) → List Nat → Prop
  | start : History E R s V s V []
  | set {s1 s2 : Caching (ClusterObj D)} {V1 : List (List Bytes)} {T : List Nat} {i b r : Nat} {v : List Bytes}
      {src : BlobSource} {c : Bytes} : History E R s V s1 V1 T → V1[i]? = some v → b < v.length → Delivers src c →
      (i ∈ T ∨ T.length < s.cache.maxSize) →
      setContent R.depth X Y R.kind R.calls true i b src s1 = (.ok r, s2) →
      History E R s V s2 (V1.set i (v.set b c)) (if i ∈ T then T else i :: T)
  | read {s1 s2 : Caching (ClusterObj D)} {V1 : List (List Bytes)} {T : List Nat} {i b : Nat} {start stop : Option Nat}
      {d : Bytes} : History E R s V s1 V1 T → i < V1.length →
      readContent R.depth X Y R.kind R.calls true i b start stop s1 = (.ok d, s2) → History E R s V s2 V1 T
  | flushCluster {s1 s2 s3 : Caching (ClusterObj D)} {V1 : List (List Bytes)} {T : List Nat} {i r : Nat} :
      History E R s V s1 V1 T → i < V1.length →
      getCluster (setup X Y R.kind R.calls true) R.depth i s1 = (.ok r, s2) →
      flushObj (setup X Y R.kind R.calls true) R.depth r s2 = (.ok (), s3) →
      History E R s V s3 V1 (T.filter (· ≠ i))
  | add {s1 s2 : Caching (ClusterObj D)} {V1 : List (List Bytes)} {T : List Nat} {t : CompressionType} {m : MCluster D}
      {v : List Bytes} {k : Nat} : History E R s V s1 V1 T → t ≠ .unknown → NewWith X t m v →
      T.length < s.cache.maxSize → addCluster (setup X Y R.kind R.calls true) R.depth { m := m } s1 = (.ok k, s2) →
      History E R s V s2 (V1 ++ [v]) T
  | flush {s1 s2 : Caching (ClusterObj D)} {V1 : List (List Bytes)} {T : List Nat} : History E R s V s1 V1 T →
      flushAll X Y E R s1 = (.ok (), s2) → History E R s V s2 V1 []

/-- An archive that was just opened (nothing is cached or modified); its clusters have the blobs `V`. -/
structure Opened (reserve : Option Nat) (s : Caching (ClusterObj D)) (V : List (List Bytes)) : Prop where
  cache : ∃ n, 0 < n ∧ s.cache = { maxSize := n }
  objs : s.objs = []
  articles : s.arch.zim.articles.dirty = false
  clusters : ∃ cs, Archive.Sane reserve s.arch cs ∧ cs.length = V.length ∧
    ∀ (i : Nat) (st : Zim.Stored) (v : List Bytes), cs[i]? = some st → V[i]? = some v → ∃ t, t ≠ .unknown ∧ WrittenAs Y t st.2 v

/-- The file is a sane archive with these contents in its clusters. -/
def Stores (reserve : Option Nat) (s : Caching (ClusterObj D)) (V : List (List Bytes)) : Prop :=
  s.arch.isDirty = false ∧ ∃ cs, Archive.Sane reserve s.arch cs ∧ cs.length = V.length ∧
    ∀ (i : Nat) (st : Zim.Stored) (v : List Bytes), cs[i]? = some st → V[i]? = some v → HoldsBlobs X st.2 v

end Caching
end Pyzim
