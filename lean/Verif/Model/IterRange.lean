import Verif.Model.Archive

/-! # Model of `iter_clusters`, `pyzim/archive.py` -/

namespace Pyzim
namespace Zim

/-- `get_cluster_by_index`; `pyzim/archive.py:1626-1635`. `get` is `get_cluster_at`. -/
def clusterAtIndex {α : Type} (get : Int → PyRes α) (z : Zim) (i : Nat) : PyRes α := do
  let pos ← z.clusters.getByIndex i
  get pos

/-- `iter_clusters`, consumed completely; `pyzim/archive.py:1668-1696`. The number of clusters is the one in the header. -/
def iterClusters {α : Type} (get : Int → PyRes α) (z : Zim) (start : Option Int := none) (end_ : Option Int := none) :
    PyRes (List α) :=
  let s := start.getD 0
  let e := end_.getD z.header.clusterCount
  if s < 0 ∨ e > z.header.clusterCount then .error .indexError
  else if s > e then .error .indexError
  else (List.range' s.toNat (e - s).toNat).mapM (fun i => clusterAtIndex get z i)

end Zim
end Pyzim
