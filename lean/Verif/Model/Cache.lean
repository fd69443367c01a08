import Verif.Model.Base

/-!
# Model of `pyzim/cache.py`

The double linked list is modelled with its pointers: list elements are numbered in the order of
their creation and live in a heap. Locks are dropped: each method is one atomic step. The
`on_leave` callback is modelled by the log of its calls, so callbacks that use the cache again are
not modelled here (`Verif/Model/Caching.lean` makes the calls for the cluster cache).
-/

namespace Pyzim

/-! ### The double linked list -/

/-- `_DoubleLinkedListElement`; `pyzim/cache.py:127-153`. `parent` is whether `parent` is the list
(the alternative is `None`; no element is ever moved to another list). -/
structure DNode (α : Type) where
  parent : Bool
  value : α
  next : Option Nat := none
  prev : Option Nat := none

/-- `_DoubleLinkedList` with the heap of its elements; `pyzim/cache.py:189-213`. Elements from
number `fresh` on do not exist yet. -/
structure DList (α : Type) where
  heap : Nat → Option (DNode α) := fun _ => none
  fresh : Nat := 0
  head : Option Nat := none
  tail : Option Nat := none
  length : Int := 0

namespace DList
variable {α : Type}

/-- An attribute assignment to element `i`. -/
def upd (d : DList α) (i : Nat) (g : DNode α → DNode α) : DList α :=
  { d with heap := fun j => if j = i then (d.heap j).map g else d.heap j }

/-- `i.next` -/
def nextOf (d : DList α) (i : Nat) : Option Nat := (d.heap i).bind (·.next)

/-- `i.prev` -/
def prevOf (d : DList α) (i : Nat) : Option Nat := (d.heap i).bind (·.prev)

/-- `i.value` -/
def valueOf (d : DList α) (i : Nat) : Option α := (d.heap i).map (·.value)

/-- `_DoubleLinkedListElement(self, value)`; `pyzim/cache.py:140-153`. -/
def newElement (d : DList α) (v : α) : Nat × DList α :=
  (d.fresh, { d with heap := fun j => if j = d.fresh then some { parent := true, value := v } else d.heap j
                     fresh := d.fresh + 1 })

/-- The reuse of an element by `append` and `prepend`; `pyzim/cache.py:257-260`, `287-290`. -/
def relink (d : DList α) (i : Nat) : DList α :=
  d.upd i fun n => { n with parent := true, next := none, prev := none }

/-- `append`, once the element exists; `pyzim/cache.py:263-271`. -/
def appendElement (d : DList α) (i : Nat) : DList α :=
  match d.tail with
  | some t =>
    let d := d.upd t fun n => { n with next := some i }
    let d := d.upd i fun n => { n with prev := some t }
    { d with tail := some i, length := d.length + 1 }
  | none => { d with head := some i, tail := some i, length := 1 }

/-- `append(value)`; `pyzim/cache.py:243-271`. -/
def append (d : DList α) (v : α) : Nat × DList α :=
  let (i, d) := d.newElement v
  (i, d.appendElement i)

/-- `prepend`, once the element exists; `pyzim/cache.py:293-301`. -/
def prependElement (d : DList α) (i : Nat) : DList α :=
  match d.head with
  | some h =>
    let d := d.upd h fun n => { n with prev := some i }
    let d := d.upd i fun n => { n with next := some h }
    { d with head := some i, length := d.length + 1 }
  | none => { d with head := some i, tail := some i, length := 1 }

/-- `prepend(value)`; `pyzim/cache.py:273-301`. -/
def prepend (d : DList α) (v : α) : Nat × DList α :=
  let (i, d) := d.newElement v
  (i, d.prependElement i)

/-- `clear`; `pyzim/cache.py:303-310`. -/
def clear (d : DList α) : DList α := { d with head := none, tail := none, length := 0 }

/-- `remove_last`; `pyzim/cache.py:312-329`. -/
def removeLast (d : DList α) : PyRes Unit × DList α :=
  match d.tail with
  | none => (.error .indexError, d)
  | some t =>
    let newTail := d.prevOf t
    let d := match newTail with
      | some p => d.upd p fun n => { n with next := none }
      | none => { d with head := none }
    (.ok (), { d with tail := newTail, length := d.length - 1 })

/-- `remove_first`; `pyzim/cache.py:331-348`. -/
def removeFirst (d : DList α) : PyRes Unit × DList α :=
  match d.head with
  | none => (.error .indexError, d)
  | some h =>
    let newHead := d.nextOf h
    let d := match newHead with
      | some p => d.upd p fun n => { n with prev := none }
      | none => { d with tail := none }
    (.ok (), { d with head := newHead, length := d.length - 1 })

/-- `remove_element`; `pyzim/cache.py:350-376`. -/
def removeElement (d : DList α) (i : Nat) : PyRes Unit × DList α :=
  if (d.heap i).map (·.parent) ≠ some true then (.error .valueError, d)
  else
    let d := match d.prevOf i with
      | some p => d.upd p fun n => { n with next := d.nextOf i }
      | none => { d with head := d.nextOf i }
    let d := match d.nextOf i with
      | some x => d.upd x fun n => { n with prev := d.prevOf i }
      | none => { d with tail := d.prevOf i }
    let d := d.upd i fun n => { n with parent := false }
    (.ok (), { d with length := d.length - 1 })

/-- `swap_forward` of element `i`; `pyzim/cache.py:164-186`. -/
def swapForward (d : DList α) (i : Nat) : DList α :=
  match d.prevOf i with
  | none => d
  | some p =>
    let d := d.upd i fun n => { n with prev := d.prevOf p }
    let d := d.upd p fun n => { n with next := d.nextOf i }
    let d := match d.nextOf i with
      | some x => d.upd x fun n => { n with prev := some p }
      | none => d
    let d := d.upd i fun n => { n with next := some p }
    let d := match d.prevOf p with
      | some q => d.upd q fun n => { n with next := some i }
      | none => d
    let d := d.upd p fun n => { n with prev := some i }
    let d := if (d.prevOf i).isNone then { d with head := some i } else d
    if (d.nextOf p).isNone then { d with tail := some p } else d

/-- `iter_values`, from element `cur` on, for at most `fuel` elements; `pyzim/cache.py:378-388`. -/
def valuesFrom (d : DList α) : (fuel : Nat) → (cur : Option Nat) → List α
  | 0, _ => []
  | _ + 1, none => []
  | fuel + 1, some i =>
    match d.heap i with
    | none => []
    | some n => n.value :: d.valuesFrom fuel n.next

/-- `iter_values`/`to_list`; `pyzim/cache.py:232-241`, `378-388`. The list has no more elements than
were ever created (`toList_spec`). -/
def toList (d : DList α) : List α := d.valuesFrom d.fresh d.head

end DList

/-! ### Dictionaries -/

/-- `d[k] = x` -/
def dset {K β : Type} [DecidableEq K] (d : K → Option β) (k : K) (x : β) : K → Option β :=
  fun j => if j = k then some x else d j

/-- `del d[k]` for a key that is in the dictionary. -/
def ddel {K β : Type} [DecidableEq K] (d : K → Option β) (k : K) : K → Option β :=
  fun j => if j = k then none else d j



/-! ### `NoOpCache` -/

/-- A `NoOpCache` has no state; `pyzim/cache.py:107-124`. -/
structure NoOpCache where

namespace NoOpCache

/-- `has`; `pyzim/cache.py:111-112`. -/
def has {K : Type} (_ : NoOpCache) (_ : K) : Bool := false

/-- `get`; `pyzim/cache.py:114-115`. -/
def get {K V : Type} (_ : K) : PyM NoOpCache V := PyM.raise .keyError

/-- `push`; `pyzim/cache.py:117-118`. -/
def push {K V : Type} (_ : K) (_ : V) (_ : Bool) : PyM NoOpCache Bool := pure false

/-- `remove`; `pyzim/cache.py:120-121`. -/
def remove {K : Type} (_ : K) (_ : Bool) : PyM NoOpCache Unit := pure ()

/-- `clear`; `pyzim/cache.py:123-124`. -/
def clear (_ : Bool) (c : NoOpCache) : NoOpCache := c

end NoOpCache

/-! ### `LastAccessCache` -/

variable {K V : Type} [DecidableEq K]

/-- State of a `LastAccessCache`; `pyzim/cache.py:405-418`. `hasLeave` is whether `on_leave` is set,
`left` the calls of `on_leave` so far. -/
structure LastCache (K V : Type) where
  maxSize : Nat
  list : DList (K × V) := {}
  key2element : K → Option Nat := fun _ => none
  hasLeave : Bool := true
  left : List (K × V) := []

namespace LastCache

/-- The call `self.on_leave(k, v)`: a `TypeError` if it is `None`. -/
def callLeave (p : K × V) : PyM (LastCache K V) Unit := fun c =>
  if c.hasLeave then (.ok (), { c with left := c.left ++ [p] }) else (.error .typeError, c)

/-- `has`; `pyzim/cache.py:420-421`. -/
def has (c : LastCache K V) (k : K) : Bool := (c.key2element k).isSome

/-- `get`; `pyzim/cache.py:423-433`. -/
def get (k : K) : PyM (LastCache K V) V := fun c =>
  match c.key2element k with
  | none => (.error .keyError, c)
  | some i =>
    match c.list.removeElement i with
    | (.error e, d) => (.error e, { c with list := d })
    | (.ok (), d) =>
      let d := (d.relink i).prependElement i
      match d.valueOf i with
      | none => (.error .attributeError, { c with list := d })
      | some p => (.ok p.2, { c with list := d })

/-- `remove`; `pyzim/cache.py:435-446`. -/
def remove (k : K) (leave : Bool) : PyM (LastCache K V) Unit := fun c =>
  match c.key2element k with
  | none => (.ok (), c)
  | some i =>
    let c := { c with key2element := ddel c.key2element k }
    match c.list.removeElement i with
    | (.error e, d) => (.error e, { c with list := d })
    | (.ok (), d) =>
      let c := { c with list := d }
      if leave then
        match d.valueOf i with
        | none => (.error .attributeError, c)
        | some p => callLeave p c
      else (.ok (), c)

/-- The end of `push`: the new element is added; `pyzim/cache.py:469-471`. -/
def addNew (k : K) (v : V) (c : LastCache K V) : LastCache K V :=
  let (i, d) := c.list.prepend (k, v)
  { c with list := d, key2element := dset c.key2element k i }

/-- `push`; `pyzim/cache.py:448-477`. -/
def push (k : K) (v : V) (allow : Bool) : PyM (LastCache K V) Bool := fun c =>
  match c.key2element k with
  | some i =>
    match c.list.removeElement i with
    | (.error e, d) => (.error e, { c with list := d })
    | (.ok (), d) =>
      (.ok true, addNew k v { c with list := d, key2element := ddel c.key2element k })
  | none =>
    if c.list.length ≥ c.maxSize ∧ allow then
      match c.list.tail.bind c.list.valueOf with
      | none => (.error .attributeError, c)           -- `None.value`
      | some old =>
        let c := { c with key2element := ddel c.key2element old.1 }
        match c.list.removeLast with
        | (.error e, d) => (.error e, { c with list := d })
        | (.ok (), d) =>
          let c := addNew k v { c with list := d }
          (.ok true, if c.hasLeave then { c with left := c.left ++ [old] } else c)
    else if !allow then (.ok false, c)
    else (.ok true, addNew k v c)

/-- `clear`; `pyzim/cache.py:479-490`. -/
def clear (leave : Bool) (c : LastCache K V) : LastCache K V :=
  { c with list := c.list.clear, key2element := fun _ => none
           left := if leave && c.hasLeave then c.left ++ c.list.toList else c.left }

end LastCache

/-! ### `TopAccessCache` -/

/-- State of a `TopAccessCache`; `pyzim/cache.py:512-527`. -/
structure TopCache (K V : Type) where
  maxSize : Nat
  list : DList (K × V) := {}
  key2le : K → Option Nat := fun _ => none
  numAccesses : K → Option Nat := fun _ => none
  hasLeave : Bool := true
  left : List (K × V) := []

namespace TopCache

/-- The call `self.on_leave(k, v)`: a `TypeError` if it is `None`. -/
def callLeave (p : K × V) : PyM (TopCache K V) Unit := fun c =>
  if c.hasLeave then (.ok (), { c with left := c.left ++ [p] }) else (.error .typeError, c)

/-- `_increment_access_counter`; `pyzim/cache.py:529-552`. A missing counter of the previous element
would be a `KeyError`. -/
def increment (k : K) : PyM (TopCache K V) Unit := fun c =>
  let n := ((c.numAccesses k).map (· + 1)).getD 1
  let c := { c with numAccesses := dset c.numAccesses k n }
  match c.key2le k with
  | none => (.ok (), c)
  | some i =>
    match c.list.prevOf i with
    | none => (.ok (), c)
    | some p =>
      match (c.list.valueOf p).bind (fun q => c.numAccesses q.1) with
      | none => (.error .keyError, c)
      | some m => if m < n then (.ok (), { c with list := c.list.swapForward i }) else (.ok (), c)

/-- Append a new element; `pyzim/cache.py:574-576`, `583-584`. -/
def addNew (k : K) (v : V) (c : TopCache K V) : TopCache K V :=
  let r := c.list.append (k, v)
  { c with list := r.2, key2le := dset c.key2le k r.1 }

/-- `_replace_tail_if_necessary`; `pyzim/cache.py:554-590`. -/
def replaceTail (k : K) (v : V) (allow : Bool) : PyM (TopCache K V) Bool := fun c =>
  match c.numAccesses k with
  | none => (.error .keyError, c)
  | some n =>
    if (c.key2le k).isSome then (.ok true, c)
    else if c.list.length < c.maxSize then (.ok true, addNew k v c)
    else
      match c.list.tail.bind c.list.valueOf with
      | none => (.error .attributeError, c)           -- `None.value`
      | some old =>
        match c.numAccesses old.1 with
        | none => (.error .keyError, c)
        | some m =>
          if m < n ∧ allow then
            match c.list.removeLast with
            | (.error e, d) => (.error e, { c with list := d })
            | (.ok (), d) =>
              let c := addNew k v { c with list := d, key2le := ddel c.key2le old.1 }
              (.ok true, if c.hasLeave then { c with left := c.left ++ [old] } else c)
          else (.ok false, c)

/-- `has`; `pyzim/cache.py:592-595`. -/
def has (c : TopCache K V) (k : K) : Bool := (c.key2le k).isSome

/-- `get`; `pyzim/cache.py:597-600`. -/
def get (k : K) : PyM (TopCache K V) V := do
  increment k
  let c ← PyM.get
  match c.key2le k with
  | none => PyM.raise .keyError
  | some i =>
    match c.list.valueOf i with
    | none => PyM.raise .attributeError
    | some p => pure p.2

/-- `push`; `pyzim/cache.py:602-612`. -/
def push (k : K) (v : V) (allow : Bool) : PyM (TopCache K V) Bool := do
  increment k
  let inCache ← replaceTail k v allow
  if inCache then do
    let c ← PyM.get
    match c.key2le k with
    | none => PyM.raise .keyError
    | some i => do
      PyM.modify fun c => { c with list := c.list.upd i fun n => { n with value := (k, v) } }
      pure inCache
  else pure inCache

/-- `remove`; `pyzim/cache.py:614-625`. -/
def remove (k : K) (leave : Bool) : PyM (TopCache K V) Unit := fun c =>
  match c.key2le k with
  | none => (.ok (), c)
  | some i =>
    let c := { c with key2le := ddel c.key2le k }
    match c.list.removeElement i with
    | (.error e, d) => (.error e, { c with list := d })
    | (.ok (), d) =>
      let c := { c with list := d }
      if leave then
        match d.valueOf i with
        | none => (.error .attributeError, c)
        | some p => callLeave p c
      else (.ok (), c)

/-- `clear`; `pyzim/cache.py:627-639`. -/
def clear (leave : Bool) (c : TopCache K V) : TopCache K V :=
  { c with list := c.list.clear, key2le := fun _ => none, numAccesses := fun _ => none
           left := if leave && c.hasLeave then c.left ++ c.list.toList else c.left }

end TopCache

/-! ### `HybridCache` -/

/-- State of a `HybridCache`; `pyzim/cache.py:642-667`. The calls of `on_leave` are logged in the
two caches (their relative order is not modelled). -/
structure HybridCache (K V : Type) where
  last : LastCache K V
  top : TopCache K V

namespace HybridCache

/-- The constructor: both caches get `last_cache_size` and an `on_leave`; `pyzim/cache.py:652-665`. -/
def new (lastCacheSize _topCacheSize : Nat) : HybridCache K V :=
  { last := { maxSize := lastCacheSize }, top := { maxSize := lastCacheSize } }

/-- A method call on the last-access cache. -/
def onLast {α : Type} (g : PyM (LastCache K V) α) : PyM (HybridCache K V) α := fun c =>
  let (x, l) := g c.last; (x, { c with last := l })

/-- A method call on the top-access cache. -/
def onTop {α : Type} (g : PyM (TopCache K V) α) : PyM (HybridCache K V) α := fun c =>
  let (x, t) := g c.top; (x, { c with top := t })

/-- `has`; `pyzim/cache.py:684-691`. -/
def has (c : HybridCache K V) (k : K) : Bool := c.top.has k || c.last.has k

/-- `get`; `pyzim/cache.py:693-706`. -/
def get (k : K) : PyM (HybridCache K V) V := do
  let c ← PyM.get
  if c.top.has k then onTop (TopCache.get k)
  else if c.last.has k then do
    let v ← onLast (LastCache.get k)
    let added ← onTop (TopCache.push k v true)
    if added then do
      onLast (LastCache.remove k true)
      pure v
    else pure v
  else PyM.raise .keyError

/-- `push`; `pyzim/cache.py:708-720`. -/
def push (k : K) (v : V) (allow : Bool) : PyM (HybridCache K V) Bool := do
  let t ← onTop (TopCache.push k v allow)
  if t then pure true else onLast (LastCache.push k v allow)

/-- `remove`; `pyzim/cache.py:722-724`. -/
def remove (k : K) (leave : Bool) : PyM (HybridCache K V) Unit := do
  onTop (TopCache.remove k leave)
  onLast (LastCache.remove k leave)

/-- `clear`; `pyzim/cache.py:726-728`. -/
def clear (leave : Bool) (c : HybridCache K V) : HybridCache K V :=
  { last := c.last.clear leave, top := c.top.clear leave }

end HybridCache
end Pyzim
