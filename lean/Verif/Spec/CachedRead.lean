import Verif.Model.CachedRead
import Verif.Spec.Cluster

/-! # Sessions of readers -/

namespace Pyzim

/-- The caches whose use raises nothing: every kind, with sizes of at least one. -/
def CacheConfig.sensible : CacheConfig → Prop
  | .noOp => True
  | .last n => 0 < n
  | .top n => 0 < n
  | .hybrid l _ => 0 < l

/-- The results of reading entries at the given locations, one after the other. -/
def readEntries (file : Bytes) (baseOffset : Nat) :
    List (Nat × Bool) → AnyCache Nat Entry → Option (List (PyRes Entry))
  | [], _ => some []
  | (location, allow) :: rest, c =>
    match getEntryAt file baseOffset location allow c with
    | none => none
    | some (x, c) => (readEntries file baseOffset rest c).map (x :: ·)

/-- A step of a program that reads clusters: get the cluster at a location, or read from the `n`-th
cluster it got. -/
inductive ClusterStep
  | open (location : Nat)
  | read (n : Nat) (q : ClusterReq)

/-- Run a program; `handles` are the clusters it got so far. The results of the reads are collected
(`none` if there is no such handle). -/
def runClusterSteps {D : Type} (X : Codecs D) (kind : ClusterKind) (baseOffset : Nat) :
    List ClusterStep → (handles : List (PyRes Nat)) → ClusterSt D → List (Option (PyRes ClusterAns))
  | [], _, _ => []
  | .open location :: rest, handles, s =>
    let (x, s) := getClusterAt kind baseOffset location s
    runClusterSteps X kind baseOffset rest (handles ++ [x]) s
  | .read n q :: rest, handles, s =>
    match handles[n]? with
    | none => none :: runClusterSteps X kind baseOffset rest handles s
    | some (.error e) => some (.error e) :: runClusterSteps X kind baseOffset rest handles s
    | some (.ok ref) =>
      let (x, s) := onCluster ref (q.exec X) s
      some x :: runClusterSteps X kind baseOffset rest handles s

/-- What the program gets if each read is done by a new cluster object of its own. -/
def expectedReads {D : Type} (X : Codecs D) (kind : ClusterKind) (file : Bytes) (baseOffset : Nat) :
    List ClusterStep → (opened : List Nat) → List (Option (PyRes ClusterAns))
  | [], _ => []
  | .open location :: rest, opened =>
    expectedReads X kind file baseOffset rest (opened ++ [location])
  | .read n q :: rest, opened =>
    (match opened[n]? with
      | none => none
      | some location => some (q.exec X
          { c := { kind := kind, offset := baseOffset + location }, f := { data := file, pos := 0 } }).1) ::
      expectedReads X kind file baseOffset rest opened

/-- A request within the bounds of the blobs; a stream is read to its end. -/
def ClusterReq.InBounds (blobs : List Bytes) : ClusterReq → Prop
  | .numberOfBlobs => True
  | .blobSize _ => True
  | .contentSize => True
  | .offset _ => True
  | .readBlob i a b => ∃ blob, blobs[i]? = some blob ∧
      (∀ x y, a = some x → b = some y → x ≤ y) ∧ ∀ x, a = some x → x ≤ blob.length
  | .iterReadBlob i bs a b calls => ∃ blob, blobs[i]? = some blob ∧ 0 < bs ∧
      (∀ x y, a = some x → b = some y → x ≤ y) ∧ (∀ x, a = some x → x ≤ blob.length) ∧
      (partOf blob a b).length + 1 < calls

/-- Every read of the program goes to a cluster it got, is in bounds, and the file holds a cluster
at that place. -/
def StepsOk {D : Type} (X : Codecs D) (file : Bytes) (baseOffset : Nat) :
    List ClusterStep → (opened : List Nat) → Prop
  | [], _ => True
  | .open location :: rest, opened => StepsOk X file baseOffset rest (opened ++ [location])
  | .read n q :: rest, opened =>
    (∃ location blobs, opened[n]? = some location ∧
      Nonempty (ClusterAt X file (baseOffset + location) blobs) ∧ q.InBounds blobs) ∧
    StepsOk X file baseOffset rest opened

end Pyzim
