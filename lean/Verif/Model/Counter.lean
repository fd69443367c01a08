import Verif.Model.MimeTypeList
import Verif.Model.Entry

/-!
# Model of `pyzim/counter.py`

A Python `dict` is an association list in insertion order with distinct keys. Strings are handled
as lists of characters inside the parser. Type checks on arguments are dropped.
-/

namespace Pyzim

/-! ## Python strings and dictionaries -/

/-- `s.split(c)` for a one-character separator. -/
def pySplit (c : Char) : List Char → List (List Char)
  | [] => [[]]
  | x :: xs =>
    if x = c then [] :: pySplit c xs
    else match pySplit c xs with
      | [] => [[x]]
      | p :: ps => (x :: p) :: ps

/-- `s.rsplit(c, 1)` for a one-character separator; `none`: the separator does not occur. -/
def pyRsplit (c : Char) : List Char → Option (List Char × List Char)
  | [] => none
  | x :: xs =>
    match pyRsplit c xs with
    | some (a, b) => some (x :: a, b)
    | none => if x = c then some ([], xs) else none

/-- `c.join(l)` for a one-character string. -/
def pyJoin (c : Char) : List (List Char) → List Char
  | [] => []
  | [a] => a
  | a :: b :: rest => a ++ c :: pyJoin c (b :: rest)

/-- The whitespace characters of ASCII that `int` ignores around a number. -/
def pySpace (c : Char) : Bool :=
  c = ' ' ∨ (9 ≤ c.toNat ∧ c.toNat ≤ 13) ∨ (28 ≤ c.toNat ∧ c.toNat ≤ 31)

/-- Digits with single underscores between them, as accepted by `int`; the flag tells whether an
underscore may come next. -/
def pyDigits : Bool → List Char → Bool
  | afterDigit, [] => afterDigit
  | afterDigit, c :: cs =>
    if c.isDigit then pyDigits true cs
    else if c = '_' ∧ afterDigit then pyDigits false cs
    else false

/-- `int(s)`. Only ASCII digits and whitespace are modelled; Python also accepts the decimal digits
and whitespace of other scripts. -/
def pyInt (s : List Char) : PyRes Int :=
  let s := (((s.dropWhile pySpace).reverse).dropWhile pySpace).reverse
  let number (d : List Char) : PyRes Nat :=
    if pyDigits false d then .ok (Nat.ofDigitChars 10 (d.filter Char.isDigit) 0) else .error .valueError
  match s with
  | '-' :: d => (number d).map fun n => -(n : Int)
  | '+' :: d => (number d).map fun n => (n : Int)
  | d => (number d).map fun n => (n : Int)

/-- `str(n)` of an integer. -/
def pyStr (n : Int) : List Char :=
  match n with
  | .ofNat n => Nat.toDigits 10 n
  | .negSucc n => '-' :: Nat.toDigits 10 (n + 1)

/-- `d.get(k)` -/
def dictGet {V : Type} (k : String) : List (String × V) → Option V
  | [] => none
  | (a, v) :: rest => if a = k then some v else dictGet k rest

/-- `d[k] = v` -/
def dictSet {V : Type} (k : String) (v : V) : List (String × V) → List (String × V)
  | [] => [(k, v)]
  | (a, w) :: rest => if a = k then (a, v) :: rest else (a, w) :: dictSet k v rest

/-! ## The counter -/

/-- State of a `Counter`; `pyzim/counter.py:21-34`, dirty flag of `pyzim/modifiable.py:33-42`. -/
structure Counter where
  counts : List (String × Int) := []
  dirty : Bool := false
deriving DecidableEq, Repr

namespace Counter

/-- `splitted[i+1].startswith(" ")` -/
def startsWithSpace : List Char → Bool
  | ' ' :: _ => true
  | _ => false

/-- The inner loop of `from_string`, joining the parts that start with a space to the current one;
`pyzim/counter.py:57-60`. The result is the joined text and the remaining parts. -/
def absorb (mAndC : List Char) : List (List Char) → List Char × List (List Char)
  | [] => (mAndC, [])
  | p :: ps => if startsWithSpace p then absorb (mAndC ++ ';' :: p) ps else (mAndC, p :: ps)

theorem absorb_length (m : List Char) (ps : List (List Char)) : (absorb m ps).2.length ≤ ps.length := by
  induction ps generalizing m with
  | nil => simp [absorb]
  | cons p ps ih =>
    unfold absorb
    split
    · exact Nat.le_succ_of_le (ih _)
    · exact Nat.le_refl _

/-- The outer loop of `from_string`; `pyzim/counter.py:56-64`. -/
def parse (counts : List (String × Int)) : List (List Char) → PyRes (List (String × Int))
  | [] => .ok counts
  | p :: ps =>
    have := absorb_length p ps
    if (absorb p ps).1 ≠ [] then
      match pyRsplit '=' (absorb p ps).1 with
      | none => .error .valueError
      | some (mt, v) =>
        match pyInt v with
        | .error e => .error e
        | .ok n => parse (dictSet (String.ofList mt) n counts) (absorb p ps).2
    else parse counts (absorb p ps).2
termination_by ps => ps.length

/-- `from_string`; `pyzim/counter.py:37-65`. -/
def fromString (s : StrArg) : PyRes Counter := do
  let (_, s) ← s.both
  let counts ← parse [] (pySplit ';' s.toList)
  pure { counts := counts }

/-- `to_string`; `pyzim/counter.py:126-139`. -/
def toString (c : Counter) : String :=
  String.ofList (pyJoin ';' ((c.counts.filter fun p => p.2 ≠ 0).map fun p =>
    p.1.toList ++ '=' :: pyStr p.2))

/-- `increment_count`; `pyzim/counter.py:141-155`. -/
def increment (c : Counter) (mt : String) : Counter :=
  match dictGet mt c.counts with
  | none => { counts := dictSet mt 1 c.counts, dirty := true }
  | some n => { counts := dictSet mt (n + 1) c.counts, dirty := true }

/-- `decrement_count`; `pyzim/counter.py:157-173`. -/
def decrement (c : Counter) (mt : String) : PyRes Unit × Counter :=
  match dictGet mt c.counts with
  | none => (.error .valueError, c)
  | some n =>
    if n ≤ 0 then (.error .valueError, c)
    else (.ok (), { counts := dictSet mt (n - 1) c.counts, dirty := true })

/-- `get_count`; `pyzim/counter.py:175-185`. -/
def getCount (c : Counter) (mt : String) : Int := (dictGet mt c.counts).getD 0

/-- `_should_count_entry`; `pyzim/counter.py:187-196`. -/
def shouldCount (e : Entry) : Bool := !e.isRedirect && e.ns == "C"

/-- The mimetype of a bound entry; `pyzim/entry.py:357-367`, `pyzim/archive.py:1563-1575` and
`1548-1561`, `pyzim/constants.py:65`. -/
def mimetypeOf (mts : MimeTypeList) (e : Entry) : PyRes String :=
  if e.isRedirect then .ok "<redirect>"
  else do
    let b ← mts.get (e.mimetypeId : Int)
    decode b

/-- `after_entry_write`; `pyzim/counter.py:213-226`. `old` is the keyword argument `old_entry`,
`None` if and only if `is_new_entry` is true (`pyzim/archive.py:1314-1332`). -/
def afterEntryWrite (mts : MimeTypeList) (c : Counter) (e : Entry) (old : Option Entry) :
    PyRes Unit × Counter :=
  if !shouldCount e then (.ok (), c)
  else match mimetypeOf mts e with
    | .error err => (.error err, c)
    | .ok mt =>
      let c := c.increment mt
      match old with
      | none => (.ok (), c)
      | some o =>
        match mimetypeOf mts o with
        | .error err => (.error err, c)
        | .ok mt' => c.decrement mt'

/-- `after_entry_remove`; `pyzim/counter.py:228-234`. -/
def afterEntryRemove (mts : MimeTypeList) (c : Counter) (e : Entry) : PyRes Unit × Counter :=
  if !shouldCount e then (.ok (), c)
  else match mimetypeOf mts e with
    | .error err => (.error err, c)
    | .ok mt => c.decrement mt

/-- The loop of `load_from_archive` over the entries; `pyzim/counter.py:118-122`. -/
def countAll (mts : MimeTypeList) : Counter → List Entry → PyRes Counter
  | c, [] => .ok c
  | c, e :: es =>
    if !shouldCount e then countAll mts c es
    else match mimetypeOf mts e with
      | .error err => .error err
      | .ok mt => countAll mts (c.increment mt) es

/-- The accepted values of the parameter `how`; `pyzim/counter.py:91-92`. -/
inductive How
  | load | ignore | reinit | loadOrReinit
deriving DecidableEq, Repr

/-- `load_from_archive`; `pyzim/counter.py:67-124`. `stored` is the outcome of looking up and reading
the counter entry and decoding it (`100-102`), `isNew` tells whether the archive is being created
(`zim._mode == "w"`), `entries` are the entries of the archive. `UnicodeDecodeError` is a
`ValueError` in Python. -/
def loadFromArchive (mts : MimeTypeList) (stored : PyRes String) (isNew : Bool) (entries : List Entry)
    (how : How) : PyRes (Option Counter) :=
  let reinit : PyRes (Option Counter) :=
    if isNew then .ok (some { dirty := true })
    else match countAll mts {} entries with
      | .error e => .error e
      | .ok c => .ok (some { c with dirty := true })
  let load (fallback : PyRes (Option Counter)) : PyRes (Option Counter) :=
    match (match stored with
        | .ok s => fromString (.str s)
        | .error e => .error e) with
    | .ok c => .ok (some c)
    | .error e =>
      if e = .entryNotFound ∨ e = .blobNotFound ∨ e = .valueError ∨ e = .unicodeError then fallback
      else .error e
  match how with
  | .ignore => .ok none
  | .load => load (.error .noCounter)
  | .loadOrReinit => load reinit
  | .reinit => reinit

end Counter
end Pyzim
