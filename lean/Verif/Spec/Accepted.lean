import Verif.Model.Entry

/-!
# What is stored of an entry
-/

namespace Pyzim
namespace Entry

/-- what is read where the bytes of an entry are written -/
def readBack (b : Bytes) : Option Entry :=
  match fromFile ⟨b, 0⟩ none with
  | some (.ok e, _) => some e
  | _ => none

/-- The entry, written to a file, is read with its namespace, url and title. -/
def StoredAsIs (e : Entry) (b : Bytes) : Prop :=
  ∃ e', readBack b = some e' ∧ e'.ns = e.ns ∧ e'.url = e.url ∧ e'.title = e.title ∧ e'.kind = e.kind ∧ e'.mimetypeId = e.mimetypeId

end Entry
end Pyzim
