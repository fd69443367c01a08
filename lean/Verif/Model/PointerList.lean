import Verif.Model.Base

/-!
# Model of `pyzim/pointerlist.py`

Pointers are `Int` (Python ints; `mass_update` can make them negative). The methods are functions
`State → args → Result × State`, so that a state change before an exception would be visible.
The pointer width `w` stands for `POINTER_FORMAT` (`"Q"`: 8, `"I"`: 4). Locks are dropped: each
method is one atomic step. The key function is `Int → PyRes Bytes`, as it reads entries from the
archive and may raise.
-/

namespace Pyzim

/-- Python list indexing `l[i]`, with negative indexes counting from the end. -/
def pyIndex {α : Type} (l : List α) (i : Int) : PyRes α :=
  let j := if i < 0 then i + l.length else i
  if j < 0 then .error .indexError
  else match l[j.toNat]? with
    | some x => .ok x
    | none => .error .indexError

/-- `binarysearch`; `pyzim/pointerlist.py:44-50` (the `while` loop). `keyAt i` is
`key(to_search[i])`. -/
def binarysearchLoop (keyAt : Nat → PyRes Bytes) (element : Bytes) (start end_ : Nat) :
    PyRes Nat :=
  if _h : start < end_ then
    match keyAt ((start + end_) / 2) with
    | .error e => .error e
    | .ok k =>
      if k < element then binarysearchLoop keyAt element ((start + end_) / 2 + 1) end_
      else binarysearchLoop keyAt element start ((start + end_) / 2)
  else .ok start
termination_by end_ - start

/-- `binarysearch` called with the default range, as in all calls of the repository;
`pyzim/pointerlist.py:13-47`. `len` is `len(to_search)`. (With an explicit `end` the assertion in
line 33 raises a `TypeError`.) -/
def binarysearch (len : Nat) (keyAt : Nat → PyRes Bytes) (element : Bytes) : PyRes Nat :=
  if len - 0 = 0 then .ok 0 else binarysearchLoop keyAt element 0 len

/-- State of a `SimplePointerList`/`OrderedPointerList`; `pyzim/pointerlist.py:72-85`,
`pyzim/modifiable.py:33-42`. -/
structure PointerList where
  pointers : List Int
  dirty : Bool := false
  mutable : Bool := true
deriving Repr, DecidableEq

namespace PointerList

/-- `from_bytes`; `pyzim/pointerlist.py:96-119` and `425-450`. -/
def fromBytes (w : Nat) (s : Bytes) : PyRes PointerList :=
  if s.length % w ≠ 0 then .error .valueError
  else do
    let ps ← unpackFields (List.replicate (s.length / w) w) s
    return { pointers := ps.map Int.ofNat }

/-- `from_file` with a seek position; `pyzim/pointerlist.py:122-142` and `453-475`. -/
def fromFile (w : Nat) (f : PyFile) (n : Nat) (seek : Nat) : PyRes PointerList :=
  let data := ((f.seek seek).read (w * n)).1
  do
    let ps ← unpackFields (List.replicate n w) data
    return { pointers := ps.map Int.ofNat }

/-- `to_bytes`; `pyzim/pointerlist.py:183-191`. -/
def toBytes (w : Nat) (l : PointerList) : PyRes Bytes :=
  packFields (l.pointers.map (fun p => (w, p)))

/-- `get_disk_size`; `pyzim/pointerlist.py:381-382`. -/
def diskSize (w : Nat) (l : PointerList) : Nat := w * l.pointers.length

/-- `__len__`; `pyzim/pointerlist.py:193-200`. -/
def len (l : PointerList) : Nat := l.pointers.length

/-- `get_by_index`; `pyzim/pointerlist.py:216-227`. -/
def getByIndex (l : PointerList) (i : Int) : PyRes Int := pyIndex l.pointers i

/-- `get_by_pointer`; `pyzim/pointerlist.py:229-244`; the loop over the indexes. -/
def getByPointerLoop (p : Int) : List Int → Nat → PyRes Nat
  | [], _ => .error .keyError
  | q :: qs, i => if q = p then .ok i else getByPointerLoop p qs (i + 1)

/-- `get_by_pointer`; `pyzim/pointerlist.py:229-244`. -/
def getByPointer (l : PointerList) (p : Int) : PyRes Nat := getByPointerLoop p l.pointers 0

/-- `append`; `pyzim/pointerlist.py:246-261`. -/
def append (l : PointerList) (p : Int) : PyRes Unit × PointerList :=
  if p < 0 then (.error .assertionError, l)
  else if !l.mutable then (.error .nonMutable, l)
  else (.ok (), { l with pointers := l.pointers ++ [p], dirty := true })

/-- `set`; `pyzim/pointerlist.py:263-301`. -/
def set (l : PointerList) (i : Int) (p : Int) (addPlaceholders : Bool := false) :
    PyRes Unit × PointerList :=
  if p < 0 then (.error .assertionError, l)
  else if i > l.pointers.length ∧ !addPlaceholders then (.error .indexError, l)
  else if !l.mutable then (.error .nonMutable, l)
  else if i < l.pointers.length then
    let j := if i < 0 then i + l.pointers.length else i
    if j < 0 then (.error .indexError, l)
    else (.ok (), { l with pointers := l.pointers.set j.toNat p, dirty := true })
  else if i = l.pointers.length then
    (.ok (), { l with pointers := l.pointers ++ [p], dirty := true })
  else
    (.ok (), { l with
      pointers := l.pointers ++ List.replicate (i - l.pointers.length + 1).toNat p
      dirty := true })

/-- `remove_by_index`; `pyzim/pointerlist.py:303-314`. -/
def removeByIndex (l : PointerList) (i : Int) : PyRes Unit × PointerList :=
  if i < 0 then (.error .assertionError, l)
  else if !l.mutable then (.error .nonMutable, l)
  else if i < l.pointers.length then
    (.ok (), { l with pointers := l.pointers.eraseIdx i.toNat, dirty := true })
  else (.error .indexError, l)

/-- `iter_pointers`, consumed completely; `pyzim/pointerlist.py:316-340`. -/
def iterPointers (l : PointerList) (start : Option Nat := none) (end_ : Option Nat := none) :
    PyRes (List Int) :=
  let s := start.getD 0
  let e := end_.getD l.len
  if e > l.len then .error .assertionError
  else if e < s then .error .assertionError
  else (List.range' s (e - s)).mapM (fun i : Nat => l.getByIndex i)

/-- Is the pointer value selected by the bounds of `mass_update`?
`pyzim/pointerlist.py:370-373`. -/
def massSelected (start end_ : Option Int) (p : Int) : Bool :=
  !((match start with | some s => decide (p < s) | none => false) ||
    (match end_ with | some e => decide (p ≥ e) | none => false))

/-- `mass_update`; `pyzim/pointerlist.py:342-379`. It does not call `ensure_mutable`. -/
def massUpdate (l : PointerList) (diff : Int) (start end_ : Option Int) :
    PyRes Unit × PointerList :=
  if (match start, end_ with | some s, some e => decide (e < s) | _, _ => false) then
    (.error .assertionError, l)
  else
    let ps := l.pointers.map (fun p => if massSelected start end_ p then p + diff else p)
    let didModify := l.pointers.any (massSelected start end_)
    (.ok (), { l with pointers := ps, dirty := l.dirty || didModify })

/-! ### Ordered lists -/

/-- `key(self[i])` as used by the searches; `pyzim/pointerlist.py:46`, `202-214`. -/
def keyAt (l : PointerList) (keyf : Int → PyRes Bytes) (i : Nat) : PyRes Bytes := do
  keyf (← l.getByIndex i)

/-- `get_index`; `pyzim/pointerlist.py:536-554`. -/
def getIndex (l : PointerList) (keyf : Int → PyRes Bytes) (key : Bytes) : PyRes Nat := do
  let i ← binarysearch l.len (l.keyAt keyf) key
  if i ≠ l.len then
    let k ← l.keyAt keyf i
    if k = key then return i else .error .keyError
  else .error .keyError

/-- `get`; `pyzim/pointerlist.py:521-534`. -/
def get (l : PointerList) (keyf : Int → PyRes Bytes) (key : Bytes) : PyRes Int := do
  l.getByIndex (← l.getIndex keyf key)

/-- `has`; `pyzim/pointerlist.py:556-573`: only a `KeyError` means "absent". -/
def has (l : PointerList) (keyf : Int → PyRes Bytes) (key : Bytes) : PyRes Bool :=
  match l.get keyf key with
  | .ok _ => .ok true
  | .error .keyError => .ok false
  | .error e => .error e

/-- `add`; `pyzim/pointerlist.py:575-596`. -/
def add (l : PointerList) (keyf : Int → PyRes Bytes) (key : Bytes) (p : Int) :
    PyRes Nat × PointerList :=
  if p < 0 then (.error .assertionError, l)
  else if !l.mutable then (.error .nonMutable, l)
  else match binarysearch l.len (l.keyAt keyf) key with
    | .error e => (.error e, l)
    | .ok i => (.ok i, { l with pointers := l.pointers.insertIdx i p, dirty := true })

/-- `remove`; `pyzim/pointerlist.py:598-617`. -/
def remove (l : PointerList) (keyf : Int → PyRes Bytes) (key : Bytes) :
    PyRes Unit × PointerList :=
  if !l.mutable then (.error .nonMutable, l)
  else match binarysearch l.len (l.keyAt keyf) key with
    | .error e => (.error e, l)
    | .ok i =>
      if i ≠ l.pointers.length then
        match l.keyAt keyf i with
        | .error e => (.error e, l)
        | .ok k =>
          if k = key then
            (.ok (), { l with pointers := l.pointers.eraseIdx i, dirty := true })
          else (.error .keyError, l)
      else (.error .keyError, l)

/-- `find_first_greater_equals`; `pyzim/pointerlist.py:619-636`. -/
def findFirstGreaterEquals (l : PointerList) (keyf : Int → PyRes Bytes) (key : Bytes) :
    PyRes Nat := binarysearch l.len (l.keyAt keyf) key

/-- `iter_values`, consumed completely; `pyzim/pointerlist.py:638-663`. -/
def iterValues (l : PointerList) (keyf : Int → PyRes Bytes) (start : Option Nat := none)
    (end_ : Option Nat := none) : PyRes (List Bytes) :=
  let s := start.getD 0
  let e := end_.getD l.pointers.length
  if e > l.pointers.length then .error .assertionError
  else if e < s then .error .assertionError
  else (List.range' s (e - s)).mapM (l.keyAt keyf)

/-- `check_sorted`; the loop of `pyzim/pointerlist.py:671-683`. -/
def checkSortedLoop (keyf : Int → PyRes Bytes) : Option Bytes → List Int → PyRes Unit
  | _, [] => .ok ()
  | last, p :: ps =>
    match keyf p with
    | .error e => .error e
    | .ok k =>
      if (match last with | some l => decide (l > k) | none => false) then .error .unsortedList
      else checkSortedLoop keyf (some k) ps

/-- `check_sorted`; `pyzim/pointerlist.py:665-683`. -/
def checkSorted (l : PointerList) (keyf : Int → PyRes Bytes) : PyRes Unit :=
  checkSortedLoop keyf none l.pointers

end PointerList

/-! ### On-disk variants -/

/-- State of an on-disk list; `pyzim/pointerlist.py:722-738`. The file is the content of the
archive; `_pointers` is always empty and the list is immutable. -/
structure OnDiskList where
  file : Bytes
  offset : Nat
  n : Nat
  w : Nat
deriving Repr, DecidableEq

namespace OnDiskList

/-- The inherited in-memory state of an on-disk list: `_pointers == []`, immutable;
`pyzim/pointerlist.py:733`, `738`. -/
def inherited : PointerList := { pointers := [], dirty := false, mutable := false }

/-- `__len__`; `pyzim/pointerlist.py:770-771`. -/
def len (l : OnDiskList) : Nat := l.n

/-- `get_by_index`; `pyzim/pointerlist.py:773-782`. -/
def getByIndex (l : OnDiskList) (i : Int) : PyRes Int :=
  if i ≥ l.n ∨ i < 0 then .error .indexError
  else
    let data := (((PyFile.mk l.file 0).seek (l.offset + i.toNat * l.w)).read l.w).1
    match unpackFields [l.w] data with
    | .ok [p] => .ok (p : Int)
    | .ok _ => .error .structError
    | .error e => .error e

/-- `key(self[i])`. -/
def keyAt (l : OnDiskList) (keyf : Int → PyRes Bytes) (i : Nat) : PyRes Bytes := do
  keyf (← l.getByIndex i)

/-- inherited `get_by_pointer`, which indexes `self._pointers`;
`pyzim/pointerlist.py:229-244`. -/
def getByPointer (l : OnDiskList) (p : Int) : PyRes Nat :=
  let rec loop (p : Int) : List Nat → PyRes Nat
    | [] => .error .keyError
    | i :: is =>
      match pyIndex inherited.pointers i with
      | .error e => .error e
      | .ok q => if q = p then .ok i else loop p is
  loop p (List.range l.len)

/-- inherited `get_index`; `pyzim/pointerlist.py:536-554`. -/
def getIndex (l : OnDiskList) (keyf : Int → PyRes Bytes) (key : Bytes) : PyRes Nat := do
  let i ← binarysearch l.len (l.keyAt keyf) key
  if i ≠ l.len then
    let k ← l.keyAt keyf i
    if k = key then return i else .error .keyError
  else .error .keyError

/-- inherited `get`; `pyzim/pointerlist.py:521-534`. -/
def get (l : OnDiskList) (keyf : Int → PyRes Bytes) (key : Bytes) : PyRes Int := do
  l.getByIndex (← l.getIndex keyf key)

/-- inherited `has`; `pyzim/pointerlist.py:556-573`. -/
def has (l : OnDiskList) (keyf : Int → PyRes Bytes) (key : Bytes) : PyRes Bool :=
  match l.get keyf key with
  | .ok _ => .ok true
  | .error .keyError => .ok false
  | .error e => .error e

/-- inherited `find_first_greater_equals`; `pyzim/pointerlist.py:619-636`. -/
def findFirstGreaterEquals (l : OnDiskList) (keyf : Int → PyRes Bytes) (key : Bytes) :
    PyRes Nat := binarysearch l.len (l.keyAt keyf) key

/-- inherited `iter_pointers`; `pyzim/pointerlist.py:316-340`. -/
def iterPointers (l : OnDiskList) (start : Option Nat := none) (end_ : Option Nat := none) :
    PyRes (List Int) :=
  let s := start.getD 0
  let e := end_.getD l.len
  if e > l.len then .error .assertionError
  else if e < s then .error .assertionError
  else (List.range' s (e - s)).mapM (fun i : Nat => l.getByIndex i)

/-- inherited `iter_values`, which uses `len(self._pointers)`, i.e. 0, for the default and the
upper bound; `pyzim/pointerlist.py:638-663`. -/
def iterValues (l : OnDiskList) (keyf : Int → PyRes Bytes) (start : Option Nat := none)
    (end_ : Option Nat := none) : PyRes (List Bytes) :=
  let s := start.getD 0
  let e := end_.getD inherited.pointers.length
  if e > inherited.pointers.length then .error .assertionError
  else if e < s then .error .assertionError
  else (List.range' s (e - s)).mapM (l.keyAt keyf)

/-- inherited `to_bytes`; `pyzim/pointerlist.py:183-191`. -/
def toBytes (l : OnDiskList) : PyRes Bytes := inherited.toBytes l.w

/-- the inherited modifying methods all call `ensure_mutable` first and the list is immutable;
`pyzim/pointerlist.py:258`, `287`, `312`, `591`, `611`. `append` stands for all of them. -/
def append (_l : OnDiskList) (p : Int) : PyRes Unit × PointerList := inherited.append p

end OnDiskList
end Pyzim
