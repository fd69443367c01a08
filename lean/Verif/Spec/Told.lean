import Verif.Model.Told

/-!
# Specification: what processors do and are told
-/

namespace Pyzim
variable {σ D : Type}

/-- none of the methods of the processor raises -/
def Listener.Calm (h : Listener σ D) : Prop := ∀ m c s, (h m c s).1 = .ok ()

/-- exactly this method of the processor raises, namely this error -/
def Listener.RaisesIn (h : Listener σ D) (m0 : Moment) (x : PyErr) : Prop :=
  ∀ m c s, (h m c s).1 = if m = m0 then .error x else .ok ()

/-- what the processors wrote down: which of them, which method was called, and the archive at that time -/
abbrev Diary (D : Type) : Type := List (Nat × Moment × Creator D)

/-- the processor with this number; it only writes down what it is told -/
def Listener.noting (i : Nat) : Listener (Diary D) D := fun m c d => (.ok (), d ++ [(i, m, c)])

/-- each of the processors was told, in this order -/
def told (is : List Nat) (m : Moment) (c : Creator D) : Diary D := is.map fun i => (i, m, c)

end Pyzim
