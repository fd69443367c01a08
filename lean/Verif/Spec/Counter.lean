import Verif.Model.Counter

/-!
# Specification vocabulary for the mimetype counter
-/

namespace Pyzim

/-- The mimetypes the counter string is made for: every `;` is followed by a space (it starts a
parameter, as in `text/html; charset=utf-8`) and the mimetype itself does not start with one. -/
def MimetypeShape (mt : String) : Prop :=
  (∀ a b, mt.toList = a ++ ';' :: b → b.head? = some ' ') ∧ mt.toList.head? ≠ some ' '

/-- The keys of a dictionary are distinct. -/
def DistinctKeys {V : Type} (d : List (String × V)) : Prop := (d.map Prod.fst).Nodup

/-- The number of content entries with mimetype `mt` in namespace `C`. -/
def numberOf (mts : MimeTypeList) (entries : List Entry) (mt : String) : Nat :=
  (entries.filter fun e =>
    !e.isRedirect && e.ns == "C" && decide (Counter.mimetypeOf mts e = .ok mt)).length

/-- The counter counts the entries. -/
def Counts (mts : MimeTypeList) (c : Counter) (entries : List Entry) : Prop :=
  ∀ mt, c.getCount mt = (numberOf mts entries mt : Int)

/-- A change of the archive that the counter is told about: a new entry is written
(`pyzim/archive.py:1314-1322`, `1435-1444`), the `i`-th entry is replaced by a new version `e`
(`1323-1332`, `1435-1444`; with a cache, `old_entry` may be the very object that is being written:
`sameObject`), the `i`-th entry is removed (`1142-1153`). -/
inductive EntryOp
  | add (e : Entry)
  | rewrite (i : Nat) (e : Entry) (sameObject : Bool)
  | remove (i : Nat)

namespace EntryOp

/-- The entries after the change. -/
def apply (es : List Entry) : EntryOp → List Entry
  | add e => es ++ [e]
  | rewrite i e _ => es.set i e
  | remove i => es.eraseIdx i

/-- What the counter is told. -/
def notify (mts : MimeTypeList) (es : List Entry) (c : Counter) : EntryOp → PyRes Unit × Counter
  | add e => c.afterEntryWrite mts e none
  | rewrite i e sameObject =>
    c.afterEntryWrite mts e (if sameObject then some e else es[i]?)
  | remove i =>
    match es[i]? with
    | some e => c.afterEntryRemove mts e
    | none => (.ok (), c)

/-- The entry that is written, if any, has a valid mimetype, and an existing entry is named. -/
def Valid (mts : MimeTypeList) (es : List Entry) : EntryOp → Prop
  | add e => ∃ mt, Counter.mimetypeOf mts e = .ok mt
  | rewrite i e _ => i < es.length ∧ ∃ mt, Counter.mimetypeOf mts e = .ok mt
  | remove i => i < es.length

/-- A new version of an entry does not turn a content entry of namespace `C` into something else or
the other way around, and if it is the cached object, it did not get another mimetype. -/
def Stays (mts : MimeTypeList) (es : List Entry) : EntryOp → Prop
  | rewrite i e sameObject => ∀ o, es[i]? = some o →
    ((!e.isRedirect && e.ns == "C") = (!o.isRedirect && o.ns == "C")) ∧
    (sameObject = true → Counter.mimetypeOf mts e = Counter.mimetypeOf mts o)
  | _ => True

/-- A history of changes: `none` if the counter raised an exception, otherwise the entries and the
counter at its end. -/
def run (mts : MimeTypeList) : List Entry → Counter → List EntryOp → Option (List Entry × Counter)
  | es, c, [] => some (es, c)
  | es, c, op :: ops =>
    match op.notify mts es c with
    | (.error _, _) => none
    | (.ok _, c') => run mts (op.apply es) c' ops

/-- Every change of the history satisfies `P` when it happens. -/
def All (P : List Entry → EntryOp → Prop) : List Entry → List EntryOp → Prop
  | _, [] => True
  | es, op :: ops => P es op ∧ All P (op.apply es) ops

end EntryOp
/-- A call of one of the two methods that change a counter. -/
inductive CounterCall
  | increment (mt : String)
  | decrement (mt : String)

namespace CounterCall

/-- What a user expects of a table of numbers: incrementing always works, decrementing needs at least
one; an attempt to go below zero is answered with `ValueError` and changes nothing. -/
def expected (table : String → Int) : CounterCall → PyRes Unit × (String → Int)
  | increment mt => (.ok (), fun m => if m = mt then table mt + 1 else table m)
  | decrement mt =>
    if 1 ≤ table mt then (.ok (), fun m => if m = mt then table mt - 1 else table m)
    else (.error .valueError, table)

/-- The answers to a sequence of calls and the table at the end. -/
def expectedAll (table : String → Int) : List CounterCall → List (PyRes Unit) × (String → Int)
  | [] => ([], table)
  | c :: cs =>
    let r := c.expected table
    let rs := expectedAll r.2 cs
    (r.1 :: rs.1, rs.2)

end CounterCall

end Pyzim
