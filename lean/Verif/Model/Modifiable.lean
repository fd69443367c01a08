import Verif.Model.Base

/-!
# Model of `pyzim/modifiable.py` and `pyzim/bindable.py`

Objects are numbered; the number is the identity of the object (no subclass of `ModifiableMixIn`
defines `__eq__`, so `child in list` compares identities). What a subclass reports as its disk size
is part of the state: `size` is what `get_disk_size()` returns now, `initialSize` what
`get_initial_disk_size()` returns. Type checks are dropped.
-/

namespace Pyzim

/-- Attributes of a `ModifiableMixIn`; `pyzim/modifiable.py:33-42`. -/
structure ModObj where
  dirtyFlag : Bool := false
  children : List Nat := []
  oldSize : Option Nat := none
  size : Nat
  initialSize : Nat

/-- All objects, by identity. -/
abbrev ModHeap := Nat → ModObj

namespace ModHeap

/-- Change one object. -/
def upd (h : ModHeap) (i : Nat) (o : ModObj) : ModHeap := fun j => if j = i then o else h j

/-- `any([f(c) for c in ...])`: the whole list is built first; `none` if a call raises. -/
def anyOf (f : Nat → Option Bool) : List Nat → Option Bool
  | [] => some false
  | c :: cs =>
    match f c, anyOf f cs with
    | some a, some b => some (a || b)
    | _, _ => none

/-- `dirty`; `pyzim/modifiable.py:44-52`. The first argument is the number of nested calls that are
possible; `none` stands for the `RecursionError` beyond it. -/
def isDirty (h : ModHeap) : Nat → Nat → Option Bool
  | 0, _ => none
  | n + 1, i => if (h i).dirtyFlag then some true else anyOf (isDirty h n) (h i).children

/-- `mark_dirty`; `pyzim/modifiable.py:64-70`. -/
def markDirty (h : ModHeap) (i : Nat) : ModHeap := h.upd i { h i with dirtyFlag := true }

/-- What a setter of a subclass does: the content, and with it the disk size, changes, and the object
is marked dirty; e.g. `pyzim/entry.py:126-128`. -/
def modify (h : ModHeap) (i : Nat) (newSize : Nat) : ModHeap :=
  (h.upd i { h i with size := newSize }).markDirty i

/-- `add_submodifiable`; `pyzim/modifiable.py:72-83`. -/
def addSub (h : ModHeap) (i c : Nat) : ModHeap :=
  if c ∈ (h i).children then h else h.upd i { h i with children := (h i).children ++ [c] }

/-- `remove_submodifiable`; `pyzim/modifiable.py:85-98`. -/
def removeSub (h : ModHeap) (i c : Nat) : PyRes Unit × ModHeap :=
  if c ∉ (h i).children then (.error .valueError, h)
  else (.ok (), h.upd i { h i with children := (h i).children.erase c })

/-- `after_flush_or_read`; `pyzim/modifiable.py:100-118`. -/
def afterFlushOrRead (h : ModHeap) (i : Nat) : ModHeap :=
  h.upd i { h i with
    oldSize := match (h i).oldSize with
      | none => some (h i).initialSize
      | some _ => some (h i).size
    dirtyFlag := false }

/-- `get_unmodified_disk_size`; `pyzim/modifiable.py:135-146`. -/
def unmodifiedSize (h : ModHeap) (i : Nat) : Option Nat := (h i).oldSize

end ModHeap

/-- State of a `BindableMixIn`: the archive it is bound to (archives are numbered);
`pyzim/bindable.py:47-55`. -/
structure Bindable where
  zim : Option Nat := none
deriving DecidableEq

namespace Bindable

/-- `bound`; `pyzim/bindable.py:67-75`. -/
def bound (b : Bindable) : Bool := b.zim.isSome

/-- `bind`; `pyzim/bindable.py:77-91`. `AlreadyBound` is a binding error. -/
def bind (b : Bindable) (z : Nat) : PyRes Unit × Bindable :=
  if b.bound ∧ b.zim ≠ some z then (.error .bindingError, b)
  else (.ok (), { zim := some z })

/-- `unbind`; `pyzim/bindable.py:93-97`. -/
def unbind (_b : Bindable) : Bindable := { zim := none }

end Bindable

/-- The bindings of a `ModifiableClusterWrapper` and of the cluster it wraps. -/
structure BoundWrapper where
  outer : Bindable
  inner : Bindable
deriving DecidableEq

namespace BoundWrapper

/-- `bind` of the wrapper; `pyzim/cluster.py:1333-1349`. -/
def bind (b : BoundWrapper) (z : Nat) : PyRes Unit × BoundWrapper :=
  match b.outer.bind z with
  | (.error e, o) => (.error e, { b with outer := o })
  | (.ok (), o) =>
    if b.inner.bound then (.ok (), { b with outer := o })
    else
      let r := b.inner.bind z
      (r.1, { outer := o, inner := r.2 })

/-- `unbind` of the wrapper; `pyzim/cluster.py:1351-1354`. -/
def unbind (b : BoundWrapper) : BoundWrapper := { outer := b.outer.unbind, inner := b.inner.unbind }

end BoundWrapper
end Pyzim
