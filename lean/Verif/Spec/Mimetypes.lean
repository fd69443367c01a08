import Verif.Model.Mimetypes
import Verif.Spec.Creator

/-!
# What the mimetypes of an archive should be
-/

namespace Pyzim

/-- The mimetypes of the items can be read: each item has its own, redirects have the one of redirects. Iterating over the
mimetypes yields a list without duplicates, with the mimetypes of all items; the others are that of the list of articles and
those of items that were replaced (`all`: what was ever added). An index yields what is at this place of the list, and an
`IndexError` if there is nothing. -/
structure ShowsMimetypes (z : Zim) (items all : List Sourced) (redirects : List Zim.Redirect) : Prop where
  item : ∀ p ∈ items, ∃ e, z.entryByFullUrl p.1.fullUrl = .ok e ∧ z.mimetypeOfEntry e = .ok p.1.mimetype
  redirect : ∀ r ∈ redirects, ∃ e, z.entryByFullUrl r.1 = .ok e ∧ z.mimetypeOfEntry e = .ok "<redirect>"
  list : ∃ l, z.iterMimetypes = .ok l ∧ l.Nodup ∧ (∀ p ∈ items, p.1.mimetype ∈ l) ∧
    (∀ s ∈ l, s = "application/octet-stream+zimlisting" ∨ ∃ p ∈ all, p.1.mimetype = s) ∧
    (∀ (i : Nat) (s : String), l[i]? = some s → z.mimetypeByIndex i = .ok s) ∧
    ∀ i : Int, i < 0 ∨ (l.length : Int) ≤ i → z.mimetypeByIndex i = .error .indexError

end Pyzim
