import Verif.Model.Entry

/-!
# Model of `RedirectEntry.follow` and `resolve`, `pyzim/entry.py:518-530`, `1007-1035`

The archive is represented by its entries in the order of the url pointer list, all of which are
bound (`Zim.get_entry_at` binds what it returns, `pyzim/archive.py:797-837`).
-/

namespace Pyzim.Entry

/-- `Zim.get_entry_by_url_index`; `pyzim/archive.py:890-912`. -/
def getByUrlIndex (entries : List Entry) (i : Int) : PyRes Entry :=
  if i < 0 then .error .entryNotFound
  else match entries[i.toNat]? with
    | some e => .ok e
    | none => .error .entryNotFound

/-- `follow` of a bound entry; `pyzim/entry.py:1007-1020`. Content entries have no such method. -/
def follow (entries : List Entry) (e : Entry) : PyRes Entry :=
  match e.kind with
  | .redirect i => getByUrlIndex entries i
  | .content _ _ => .error .attributeError

/-- The loop of `resolve`, at most `fuel` evaluations of the loop condition;
`pyzim/entry.py:1032-1035`. `none`: has not returned yet. -/
def resolveLoop (entries : List Entry) : (fuel : Nat) → Entry → Option (PyRes Entry)
  | 0, _ => none
  | fuel + 1, e =>
    if e.isRedirect then
      match follow entries e with
      | .error x => some (.error x)
      | .ok e' => resolveLoop entries fuel e'
    else some (.ok e)

/-- `resolve` of a content entry (`pyzim/entry.py:518-530`) or a redirect entry
(`pyzim/entry.py:1022-1035`), running at most `fuel` iterations. -/
def resolve (entries : List Entry) (fuel : Nat) (e : Entry) : Option (PyRes Entry) :=
  match e.kind with
  | .content _ _ => some (.ok e)
  | .redirect _ => resolveLoop entries fuel e

end Pyzim.Entry
