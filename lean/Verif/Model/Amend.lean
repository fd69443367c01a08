import Verif.Model.Remove

/-!
# Changing the url, the title or the mimetype of an entry
-/

namespace Pyzim

namespace Zim

/-- `mimetype` setter of an entry that is bound to the archive; `pyzim/entry.py:370-396`. The mimetype is listed before it is
checked whether the entry may be changed. -/
def setMimetype (v : StrArg) (e : Entry) : PyM Zim Entry := fun z =>
  match v.both with
  | .error x => (.error x, z)
  | .ok (b, u) =>
    if b.length = 0 then (.error .valueError, z)
    else if (0 : UInt8) ∈ b then (.error .valueError, z)
    else
      match z.mimetypes.getIndex (encode u) true with
      | (.error x, m) => (.error x, { z with mimetypes := m })
      | (.ok none, m) => (.error .typeError, { z with mimetypes := m })
      | (.ok (some i), m) =>
        match e.setMimetypeId i with
        | (.error x, _) => (.error x, { z with mimetypes := m })
        | (.ok (), e') => (.ok e', { z with mimetypes := m })

/-- `flush` of an entry that is bound to the archive; `pyzim/entry.py:485-496`. -/
def flushEntry (depth : Nat) (e : Entry) : PyM Zim Unit :=
  if !e.mutable then PyM.raise .nonMutable
  else if e.dirty then do
    let _ ← writeEntry depth e true true
    pure ()
  else pure ()

end Zim

namespace Creator
variable {D K : Type} (S : Setup D K)

/-- `get_entry_by_full_url`, setting the `title` of the entry, and its `flush`; `pyzim/archive.py:873-888`,
`pyzim/entry.py:252-278`, `pyzim/entry.py:485-496`. No entry cache and no processors. -/
def setTitle (u : String) (v : Option StrArg) : PyM (Creator D) Unit :=
  onArch (Archive.onZim (do
    let z ← PyM.get
    let e ← PyM.lift (z.entryByFullUrl u)
    match e.setTitle v with
    | (.error x, _) => PyM.raise x
    | (.ok (), e') => Zim.flushEntry S.depth e'))

/-- `get_entry_by_full_url`, setting the `mimetype` of the entry, and its `flush`; `pyzim/archive.py:873-888`,
`pyzim/entry.py:370-396`, `pyzim/entry.py:485-496`. No entry cache and no processors. -/
def setMimetype (u : String) (v : StrArg) : PyM (Creator D) Unit :=
  onArch (Archive.onZim (do
    let z ← PyM.get
    let e ← PyM.lift (z.entryByFullUrl u)
    let e' ← Zim.setMimetype v e
    Zim.flushEntry S.depth e'))

/-- `get_entry_by_full_url`, setting the `url` of the entry (in the same namespace), and its `flush`;
`pyzim/archive.py:873-888`, `pyzim/entry.py:212-235`, `pyzim/entry.py:485-496`. No entry cache and no processors. -/
def setUrl (u : String) (v : StrArg) : PyM (Creator D) Unit :=
  onArch (Archive.onZim (do
    let z ← PyM.get
    let e ← PyM.lift (z.entryByFullUrl u)
    match e.setUrl v with
    | (.error x, _) => PyM.raise x
    | (.ok (), e') => Zim.flushEntry S.depth e'))

end Creator
end Pyzim
