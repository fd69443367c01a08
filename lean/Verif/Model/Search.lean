import Verif.Model.PointerList
import Verif.Model.Entry

/-!
# Model of `pyzim/search.py` (without `XapianSearch`, which is an interface to a library)

The archive is reduced to what the search uses: the title pointer list and
`Zim.get_entry_by_url_index` (`entryAt`). A likelihood is the fraction it is computed from; that the
floating point quotient of two lengths is at most 1 iff the first length is at most the second is
arithmetic of the Python runtime.
-/

namespace Pyzim

/-- A `SearchResult`; `pyzim/search.py:47-72`. -/
structure SearchResult where
  number : Int
  likelihood : Nat × Nat
  fullUrl : String
  title : String
deriving DecidableEq

/-- The constructor with its assertions; `pyzim/search.py:62-66`. A likelihood computed from an empty title is the
integer `0` (`pyzim/search.py:266-267`), which is not a `float`. -/
def SearchResult.new (number : Int) (likelihood : Nat × Nat) (fullUrl title : String) : PyRes SearchResult :=
  if number < 1 then .error .assertionError
  else if likelihood.2 = 0 ∨ likelihood.2 < likelihood.1 then .error .assertionError
  else if fullUrl = "" then .error .assertionError
  else .ok { number, likelihood, fullUrl, title }

/-- State of a `TitleStartSearch`: the title list it uses, the entries of the archive by url index, and whether
the list is the one of all entries; `pyzim/search.py:214-236`. -/
structure TitleStartSearch where
  list : PointerList
  entryAt : Int → PyRes Entry
  nonarticles : Bool := false

namespace TitleStartSearch

/-- The key function of the list: the title of the entry, for the list of all entries with the namespace in
front of it; `pyzim/archive.py:440-479`. -/
def key (t : TitleStartSearch) (i : Int) : PyRes Bytes :=
  match t.entryAt i with
  | .error x => .error x
  | .ok e => .ok (encode (if t.nonarticles then e.ns ++ e.title else e.title))

/-- `(term[:-1] + chr(ord(term[-1]) + 1)).encode("utf-8")`; `pyzim/search.py:242`, `252`,
`pyzim/pointerlist.py:633-635`. `chr` raises a `ValueError` beyond the last code point; the successor of
U+D7FF is a surrogate, which cannot be encoded. -/
def nextKey (term : String) : PyRes Bytes :=
  match term.toList.getLast? with
  | none => .error .indexError
  | some c =>
    if h : (c.val.toNat + 1).isValidChar then
      .ok (encode (String.ofList (term.toList.dropLast ++ [Char.ofNatAux (c.val.toNat + 1) h])))
    else if 0x110000 ≤ c.val.toNat + 1 then .error .valueError
    else .error .unicodeError

/-- The range of indexes of the list in which the results are; `pyzim/search.py:240-246`, `250-256`. -/
def bounds (t : TitleStartSearch) (term : String) : PyRes (Nat × Nat) :=
  if term ≠ "" then do
    let first ← t.list.findFirstGreaterEquals t.key (encode term)
    let next ← nextKey term
    let end_ ← t.list.findFirstGreaterEquals t.key next
    pure (first, end_)
  else .ok (0, t.list.len)

/-- `search`: the estimated number of results; `pyzim/search.py:238-247`. -/
def search (t : TitleStartSearch) (term : String) : PyRes Int := do
  let b ← t.bounds term
  pure ((b.2 : Int) - b.1)

/-- The loop over the indexes `i, i+1, …` of the list, with the numbers of the results;
`pyzim/search.py:261-276`. -/
def collect (t : TitleStartSearch) (term : String) : Nat → Int → Int → PyRes (List SearchResult)
  | 0, _, _ => .ok []
  | n + 1, i, number => do
    let pointer ← t.list.getByIndex i
    let e ← t.entryAt pointer
    let r ← SearchResult.new number (term.toList.length, e.title.toList.length) e.fullUrl e.title
    let rest ← collect t term n (i + 1) (number + 1)
    pure (r :: rest)

/-- `search_in_range`; `pyzim/search.py:249-277`. `range(a, a + m)` is empty if `m` is negative. -/
def searchInRange (t : TitleStartSearch) (term : String) (start : Int) (n : Int := 20) :
    PyRes (List SearchResult) := do
  let b ← t.bounds term
  let startPos := (b.1 : Int) + (start - 1)
  let maxN := min n ((b.2 : Int) - startPos)
  t.collect term maxN.toNat startPos 1

/-- `SearchResultSet.__iter__`, consumed completely; `pyzim/search.py:108-123`. The number bounds the rounds of
the loop; `none`: not finished by then. -/
def iter (t : TitleStartSearch) (term : String) : Nat → Int → Option (PyRes (List SearchResult))
  | 0, _ => none
  | fuel + 1, curPos =>
    match t.searchInRange term curPos with
    | .error x => some (.error x)
    | .ok [] => some (.ok [])
    | .ok (r :: rs) =>
      match iter t term fuel (curPos + ((r :: rs).length : Int)) with
      | none => none
      | some (.error x) => some (.error x)
      | some (.ok more) => some (.ok (r :: rs ++ more))

/-- `SearchResultSet.iter_in_range`, consumed completely; `pyzim/search.py:125-144`. -/
def iterInRange (t : TitleStartSearch) (term : String) (start n : Int) :
    Nat → Int → Option (PyRes (List SearchResult))
  | 0, _ => none
  | fuel + 1, curPos =>
    if curPos < start + n then
      match t.searchInRange term curPos n with
      | .error x => some (.error x)
      | .ok [] => some (.ok [])
      | .ok (r :: rs) =>
        match iterInRange t term start n fuel (curPos + ((r :: rs).length : Int)) with
        | none => none
        | some (.error x) => some (.error x)
        | some (.ok more) => some (.ok (r :: rs ++ more))
    else some (.ok [])

end TitleStartSearch
end Pyzim
