import Verif.Model.Entry
import Batteries.Data.List.Basic

/-!
# Iteration by cluster: what is expected (independent of the code)
-/

namespace Pyzim

/-- The content entries of a cluster with their blob numbers, in the order of the archive. -/
def inCluster (entries : List Entry) (c : Nat) : List (Nat × String) :=
  entries.filterMap fun e =>
    match e.kind with
    | .content c' b => if c' = c then some (b, e.ns ++ e.url) else none
    | .redirect _ => none

/-- The redirects, in the order of the archive. -/
def redirectsOf (entries : List Entry) : List String :=
  entries.filterMap fun e =>
    match e.kind with
    | .content _ _ => none
    | .redirect _ => some (e.ns ++ e.url)

/-- `group` lists the entries of cluster `c`, each as often as it is there, by ascending blob number and by
url among those that share a blob. -/
def ListsCluster (entries : List Entry) (c : Nat) (group : List String) : Prop :=
  ∃ l : List (Nat × String), l.Perm (inCluster entries c) ∧ group = l.map Prod.snd ∧ l ≠ [] ∧
    l.Pairwise fun a b => a.1 < b.1 ∨ (a.1 = b.1 ∧ a.2 ≤ b.2)

/-- `groups` lists the clusters with ascending numbers, exactly those in which there are entries. -/
def ListsClusters (entries : List Entry) (groups : List (List String)) : Prop :=
  ∃ nums : List Nat, nums.Pairwise (· < ·) ∧ (∀ c, c ∈ nums ↔ inCluster entries c ≠ []) ∧
    List.Forall₂ (ListsCluster entries) nums groups

end Pyzim
