import Verif.Model.Search

/-!
# Title search: what is expected (independent of the code)
-/

namespace Pyzim

/-- The entries with the given prefix, in the order of the title list. -/
def withPrefix (titleOf : Entry → String) (entries : List Entry) (term : String) : List Entry :=
  entries.filter fun e => term.toList.isPrefixOf (titleOf e).toList

/-- What a result says about an entry that is the `number`-th of those returned. -/
def resultFor (term : String) (e : Entry) (number : Int) : SearchResult :=
  { number := number, likelihood := (term.toList.length, e.title.toList.length)
    fullUrl := e.ns ++ e.url, title := e.title }

/-- The results for a list of entries, numbered from 1. -/
def numbered (term : String) (es : List Entry) (start : Int := 1) : List SearchResult :=
  es.mapIdx fun i e => resultFor term e (start + i)

/-- The results for a list of entries, numbered from 1 on each page of 20. -/
def numberedByPage (term : String) (es : List Entry) : List SearchResult :=
  es.mapIdx fun i e => resultFor term e (i % 20 + 1 : Nat)

/-- The search term can be searched for: its last character has a successor that is a character. -/
def Searchable (term : String) : Prop :=
  ∀ c, term.toList.getLast? = some c → c.val.toNat ≠ 0xd7ff ∧ c.val.toNat ≠ 0x10ffff

/-- The text by which the search finds an entry: its title, for a search among all entries with the namespace
in front of it. -/
def TitleStartSearch.text (t : TitleStartSearch) (e : Entry) : String :=
  if t.nonarticles then e.ns ++ e.title else e.title

/-- The title list of a search lists `entries` (by their url indexes), sorted by title; no entry has an empty
title or an empty url. -/
structure TitleList (t : TitleStartSearch) (entries : List Entry) : Prop where
  lists : t.list.pointers.mapM t.entryAt = .ok entries
  sorted : entries.Pairwise fun a b => encode (t.text a) ≤ encode (t.text b)
  named : ∀ e ∈ entries, e.title ≠ "" ∧ e.ns ++ e.url ≠ ""

end Pyzim
