import Verif.Spec.Creator

/-!
# Specification vocabulary for calls that do not fail
-/

namespace Pyzim
open Zim (Redirect)

/-- Following redirects of the list from `u`, one arrives at a url for which `p` is true. -/
inductive Reaches (rs : List Redirect) (p : String → Prop) : String → Prop
  | here {u : String} : p u → Reaches rs p u
  | step {s t : String} {title : Option String} : (s, t, title) ∈ rs → Reaches rs p t → Reaches rs p s

/-- The limits of an archive with `r` bytes reserved for mimetypes: no two of the items and redirects have the same full url,
nor that of the list of articles, the mimetypes `mts` of the items fit into the reserved space, together with that of the list
of articles, the offsets in clusters fit into 64 bits and the number of entries into 32 bits. If there are redirects, then the
number of entries also has to be smaller than the size of the header and the reserved space. -/
structure InLimits (r : Nat) (mts : List String) (lists : List (List Sourced)) (rs : List Redirect) : Prop where
  urls : (lists.flatten.map fun p => p.1.fullUrl).Nodup
  other : ∀ p ∈ lists.flatten, p.1.fullUrl ≠ URL_ARTICLES
  mimetypes : ∀ p ∈ lists.flatten, p.1.mimetype ∈ mts
  few : mts.length < 65534
  space : 1 + (("application/octet-stream+zimlisting" :: mts).map fun t => (encode t).length + 1).sum ≤ r
  size : ∀ l ∈ lists, NotHuge l
  apart : Apart rs lists
  entries : 1 + lists.flatten.length + rs.length < 2 ^ 32
  redirects : rs = [] ∨ 1 + lists.flatten.length + rs.length < 80 + r ∧ 80 + r ≤ 2 ^ 32

/-- What is added to an archive between two flushes: items (with the value of the argument which asks to store them
uncompressed) and redirects. -/
structure Load where
  items : List (Sourced × Bool)
  redirects : List Redirect

namespace Creator
variable {D K : Type} (S : Setup D K)

/-- add the items, one after the other -/
def addAll : List (Sourced × Bool) → PyM (Creator D) Unit
  | [] => pure ()
  | p :: ps => do
    addItem S p.1.1 p.2
    addAll ps

/-- add the redirects, one after the other -/
def redirectAll : List Redirect → PyM (Creator D) Unit
  | [] => pure ()
  | q :: qs => do
    addFullUrlRedirect S q.1 q.2.1 q.2.2
    redirectAll qs

/-- for each load: add its items, then its redirects, then flush -/
def fill : List Load → PyM (Creator D) Unit
  | [] => pure ()
  | l :: ls => do
    addAll S l.items
    redirectAll S l.redirects
    flush S
    fill ls

end Creator

/-- the items of the loads, one list for each -/
def allItems (ls : List Load) : List (List Sourced) := ls.map fun l => l.items.map Prod.fst

/-- the redirects of the loads -/
def allRedirects (ls : List Load) : List Redirect := (ls.map fun l => l.redirects).flatten

/-- Each redirect leads, in one or more steps, to an item of the same load or an earlier one, using only redirects of the same
load or earlier ones, and a load with redirects has items. -/
def Resolved (ls : List Load) : Prop :=
  ∀ n (h : n < ls.length), (ls[n].items = [] → ls[n].redirects = []) ∧
    ∀ q ∈ ls[n].redirects, Reaches (allRedirects (ls.take (n + 1)))
      (fun u => ∃ p ∈ (allItems (ls.take (n + 1))).flatten, p.1.fullUrl = u) q.2.1

end Pyzim
