import Verif.Model.Archive

/-!
# Model of getting entries by namespace and url, `pyzim/archive.py`
-/

namespace Pyzim
namespace Zim

/-- `get_entry_by_url`, given two strings; `pyzim/archive.py:839-854`. -/
def entryByUrl (z : Zim) (ns url : String) : PyRes Entry :=
  if ns.length ≠ 1 then .error .assertionError else z.entryByFullUrl (ns ++ url)

/-- `get_content_entry_by_url`; `pyzim/archive.py:856-871`. -/
def contentEntryByUrl (z : Zim) (url : String) : PyRes Entry := z.entryByUrl "C" url

end Zim
end Pyzim
