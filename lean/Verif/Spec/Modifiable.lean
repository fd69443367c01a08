import Verif.Model.Modifiable

/-!
# Histories of modifiable objects (independent of how the flags are kept)
-/

namespace Pyzim

/-- What can happen to modifiable objects. -/
inductive ModEvent
  /-- the content of `i` is changed, `i` now needs `newSize` bytes -/
  | modified (i : Nat) (newSize : Nat)
  /-- `i` has been written or read -/
  | flushed (i : Nat)
  /-- `c` is registered as a component of `i` -/
  | attached (i c : Nat)
  | detached (i c : Nat)
deriving DecidableEq

/-- The corresponding calls. -/
def ModEvent.run (h : ModHeap) : ModEvent → ModHeap
  | .modified i n => h.modify i n
  | .flushed i => h.afterFlushOrRead i
  | .attached i c => h.addSub i c
  | .detached i c => (h.removeSub i c).2

/-- `i` was modified, and not flushed since then. -/
def UnsavedChanges (evs : List ModEvent) (i : Nat) : Prop :=
  ∃ before after n, evs = before ++ .modified i n :: after ∧ .flushed i ∉ after

/-- `c` was registered as a component of `i`, and not removed since then. -/
def ComponentOf (evs : List ModEvent) (i c : Nat) : Prop :=
  ∃ before after, evs = before ++ .attached i c :: after ∧ .detached i c ∉ after

/-- `j` is `i`, or a component of `i`, or a component of a component, ... -/
inductive Within (evs : List ModEvent) : Nat → Nat → Prop
  | refl (i : Nat) : Within evs i i
  | step {i c j : Nat} : ComponentOf evs i c → Within evs c j → Within evs i j

/-- The size of `i` after the events, if it was `s` at first. -/
def sizeAfter (i : Nat) (s : Nat) (evs : List ModEvent) : Nat :=
  evs.foldl (fun s e => match e with | .modified j n => if j = i then n else s | _ => s) s

end Pyzim
