import Verif.Model.Search
import Verif.Model.Embedded

/-!
# Model of searching with an index, `pyzim/search.py`

`XapianSearch` asks a library for the documents of an index that match a term. What the library returns is a parameter.
-/

namespace Pyzim

/-- A match returned by the library (an item of an `MSet`): the data of the document, `rank` and `percent`;
`pyzim/search.py:396-407`. -/
structure IndexMatch where
  data : Bytes
  rank : Nat
  percent : Nat
deriving DecidableEq

/-- A `XapianSearch`: its archive, and what the library answers: `get_mset(first, n)` and `get_matches_estimated()` for the
query parsed from a term; `pyzim/search.py:280-325`. -/
structure IndexSearch where
  zim : Embedded
  mset : String → Int → Int → PyRes (List IndexMatch)
  estimated : String → PyRes Nat

namespace IndexSearch

/-- The full url in the data of a document; `pyzim/search.py:398-399`. -/
def urlOf (data : Bytes) : PyRes String := do
  let s ← decode data
  match s.toList with
  | [] => .error .indexError
  | c :: cs => pure (String.ofList (c :: cs.drop 1))

/-- The result for a match; `pyzim/search.py:397-407`. -/
def resultOf (s : IndexSearch) (m : IndexMatch) : PyRes SearchResult := do
  let u ← urlOf m.data
  let e ← s.zim.entryByFullUrl u
  SearchResult.new (m.rank + 1) (m.percent, 100) u e.title

/-- `search` and `__len__` of the result; `pyzim/search.py:381-387`, `146-153`. -/
def search (s : IndexSearch) (term : String) : PyRes Nat := s.estimated term

/-- `search_in_range` (`none` is Python's `None`); `pyzim/search.py:389-409`. -/
def searchInRange (s : IndexSearch) (term : String) (start : Option Int) (n : Int := 20) : PyRes (List SearchResult) := do
  let start := start.getD 1
  let matched ← s.mset term (start - 1) n
  matched.mapM s.resultOf

/-- `SearchResultSet.__iter__`, consumed completely; `pyzim/search.py:108-123`. The number bounds the rounds of the loop;
`none`: not finished by then. -/
def iter (s : IndexSearch) (term : String) : Nat → Int → Option (PyRes (List SearchResult))
  | 0, _ => none
  | fuel + 1, curPos =>
    match s.searchInRange term (some curPos) with
    | .error x => some (.error x)
    | .ok [] => some (.ok [])
    | .ok (r :: rs) =>
      match iter s term fuel (curPos + ((r :: rs).length : Int)) with
      | none => none
      | some (.error x) => some (.error x)
      | some (.ok more) => some (.ok (r :: rs ++ more))

/-- `SearchResultSet.iter_in_range`, consumed completely; `pyzim/search.py:125-144`. -/
def iterInRange (s : IndexSearch) (term : String) (start n : Int) : Nat → Int → Option (PyRes (List SearchResult))
  | 0, _ => none
  | fuel + 1, curPos =>
    if curPos < start + n then
      match s.searchInRange term (some curPos) n with
      | .error x => some (.error x)
      | .ok [] => some (.ok [])
      | .ok (r :: rs) =>
        match iterInRange s term start n fuel (curPos + ((r :: rs).length : Int)) with
        | none => none
        | some (.error x) => some (.error x)
        | some (.ok more) => some (.ok (r :: rs ++ more))
    else some (.ok [])

end IndexSearch
end Pyzim
