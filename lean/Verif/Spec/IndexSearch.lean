import Verif.Model.IndexSearch

/-!
# Searching with an index: what is expected (independent of the code)
-/

namespace Pyzim

/-- The library knows all matches for a term, the best first: it returns those from the `first`-th on (counted from 0), at most
`n`, with their ranks. The data of the document of an entry is its namespace, a slash, and its url. The matches are entries of
the archive. -/
structure FindsAll (s : IndexSearch) (term : String) (found : List (Entry × Nat)) : Prop where
  mset : ∀ first n : Nat, s.mset term first n = .ok (((found.mapIdx fun i f =>
    { data := encode (f.1.ns ++ "/" ++ f.1.url), rank := i, percent := f.2 : IndexMatch }).drop first).take n)
  entries : ∀ f ∈ found, s.zim.entryByFullUrl (f.1.ns ++ f.1.url) = .ok f.1
  namespaces : ∀ f ∈ found, f.1.ns.length = 1
  percents : ∀ f ∈ found, f.2 ≤ 100

/-- What a result says about an entry that is the `number`-th of all matches. -/
def foundResult (f : Entry × Nat) (number : Int) : SearchResult :=
  { number := number, likelihood := (f.2, 100), fullUrl := f.1.ns ++ f.1.url, title := f.1.title }

/-- The results for all matches, numbered from 1. -/
def foundResults (found : List (Entry × Nat)) : List SearchResult := found.mapIdx fun i f => foundResult f (i + 1)

end Pyzim
