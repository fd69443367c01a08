import Verif.Model.Archive
import Verif.Model.Counter

/-!
# Model of the methods of archives for mimetypes, `pyzim/archive.py`
-/

namespace Pyzim
namespace Zim

/-- `get_mimetype_by_index`; `pyzim/archive.py:1547-1558`, `pyzim/mimetypelist.py:92-114`. -/
def mimetypeByIndex (z : Zim) (i : Int) : PyRes String := do
  let b ← z.mimetypes.get i
  decode b

/-- `get_mimetype_of_entry`, and `mimetype` of a bound entry; `pyzim/archive.py:1560-1574`, `pyzim/entry.py:356-367`,
`pyzim/constants.py:65`. -/
def mimetypeOfEntry (z : Zim) (e : Entry) : PyRes String :=
  if e.isRedirect then .ok "<redirect>" else z.mimetypeByIndex e.mimetypeId

/-- the loop of `iter_mimetypes` with `as_unicode=True`, run to its end; `pyzim/mimetypelist.py:189-192` -/
def decodeAll : List Bytes → PyRes (List String)
  | [] => .ok []
  | b :: bs =>
    match decode b with
    | .error x => .error x
    | .ok s =>
      match decodeAll bs with
      | .error x => .error x
      | .ok l => .ok (s :: l)

/-- `iter_mimetypes` with `as_unicode=True`; `pyzim/archive.py:1576-1585`, `pyzim/mimetypelist.py:180-192`. -/
def iterMimetypes (z : Zim) : PyRes (List String) := decodeAll z.mimetypes.iterMimetypes

end Zim
end Pyzim
