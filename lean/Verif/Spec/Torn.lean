import Verif.Spec.Creator
import Verif.Model.Interrupted

/-!
# Specification vocabulary for a file at the time of a crash
-/

namespace Pyzim
variable {D K : Type}

/-- What may be found in a file if the program, or the whole system, stops before all that was written has reached the disk:
the file still has the byte of `old` at each position at which no state of the file since then (`since`) differed from it.
Other bytes, and those behind the end of `old`, may be anything: what was written may have reached the disk in part and in any
order. -/
structure Torn (old : Bytes) (since : Bytes → Prop) (f : Bytes) : Prop where
  length : old.length ≤ f.length
  bytes : ∀ i, i < old.length → (∀ g, since g → g[i]? = old[i]?) → f[i]? = old[i]?

/-- The states of the file while the items and redirects are added, one after the other. -/
def StateOfAdding (S : Setup D K) (c0 c : Creator D) (items : List Sourced) (rs : List Zim.Redirect) (g : Bytes) : Prop :=
  ∃ (c1 : Creator D) (items1 items2 : List Sourced) (rs1 rs2 : List Zim.Redirect), AddedTo S c0 c1 items1 rs1 ∧
    AddedTo S c1 c items2 rs2 ∧ items = items1 ++ items2 ∧ rs = rs1 ++ rs2 ∧ g = c1.arch.zim.file

/-- The states of the file after each of the first `n` parts of a flush. -/
def StateOfFlush (S : Setup D K) (c : Creator D) (n : Nat) (g : Bytes) : Prop :=
  ∃ (m : Nat) (c1 : Creator D), m ≤ n ∧ Creator.interrupted S m c = (.ok (), c1) ∧ g = c1.arch.zim.file

end Pyzim
