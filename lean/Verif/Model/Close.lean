import Verif.Model.Counting
import Verif.Model.SetMetadata

/-!
# Model of closing an archive and of using it in a `with` statement, `pyzim/archive.py`

`close` of the file object is taken to succeed, and to change nothing of what was written to the file.
-/

namespace Pyzim

namespace Creator
variable {D K : Type} (S : Setup D K)

/-- `close`, without processors; `pyzim/archive.py:490-505`. -/
def close : PyM (Creator D) Unit := do
  let c ← PyM.get
  (if c.arch.isDirty then flush S else pure ())
  PyM.modify (fun c => { c with arch := { c.arch with zim := { c.arch.zim with closed := true } } })

/-- `with zim: body`, that is `__enter__`, the body, and `__exit__`, which does not suppress an exception of the body;
`pyzim/archive.py:691-705`. An exception raised by `__exit__` replaces that of the body. -/
def within {α : Type} (body : PyM (Creator D) α) : PyM (Creator D) α := PyM.of fun c =>
  match body c with
  | (r, c1) =>
    if c1.arch.zim.closed then (r, c1)
    else match close S c1 with
      | (.ok (), c2) => (r, c2)
      | (.error x, c2) => (.error x, c2)

end Creator

namespace Counting
variable {D K : Type} (S : Setup D K)

/-- `close`; `pyzim/archive.py:490-505`. The counter does nothing then (`pyzim/processor.py:42-58`). -/
def close : PyM (Counting D) Unit := do
  let c ← PyM.get
  (if c.creator.arch.isDirty then flush S else pure ())
  onCreator (PyM.modify (fun c => { c with arch := { c.arch with zim := { c.arch.zim with closed := true } } }))

/-- `with zim: body`; `pyzim/archive.py:691-705`. -/
def within {α : Type} (body : PyM (Counting D) α) : PyM (Counting D) α := PyM.of fun c =>
  match body c with
  | (r, c1) =>
    if c1.creator.arch.zim.closed then (r, c1)
    else match close S c1 with
      | (.ok (), c2) => (r, c2)
      | (.error x, c2) => (.error x, c2)

end Counting
end Pyzim
