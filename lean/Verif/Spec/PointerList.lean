import Verif.Model.PointerList

/-!
# Specification vocabulary for pointer lists
-/

namespace Pyzim

/-- the pointers are in ascending order of their keys -/
def SortedBy (key : Int → Bytes) (ps : List Int) : Prop :=
  ps.Pairwise (fun p q => key p ≤ key q)

/-- `r` is the insertion point of `k` into the sequence of keys: all keys before `r` are smaller,
all keys from `r` on are not. -/
def IsInsertionPoint (key : Int → Bytes) (ps : List Int) (k : Bytes) (r : Nat) : Prop :=
  r ≤ ps.length ∧ (∀ i p, ps[i]? = some p → (i < r ↔ key p < k))

/-- Calls modifying an ordered pointer list: a pointer is added under its own key. -/
inductive PointerOp
  | add (p : Nat)
  | remove (k : Bytes)

/-- A call on an ordered pointer list. -/
def PointerOp.run (key : Int → Bytes) (l : PointerList) : PointerOp → PointerList
  | .add p => (l.add (fun q => .ok (key q)) (key p) p).2
  | .remove k => (l.remove (fun q => .ok (key q)) k).2

/-- the pointer fits into an unsigned field of `w` bytes -/
def FitsField (w : Nat) (p : Int) : Prop := 0 ≤ p ∧ p < 256 ^ w

end Pyzim
