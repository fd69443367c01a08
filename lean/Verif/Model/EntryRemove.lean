import Verif.Model.Archive

/-!
# Model of removing an entry by its object, `pyzim/entry.py`
-/

namespace Pyzim

/-- `remove` of an entry; `pyzim/entry.py:532-546`. `bound` tells whether the entry is bound to the archive; `blobDefault`,
`depth` and `blob` are those of `removeEntry`. -/
def Entry.remove (e : Entry) (bound : Bool) (blobDefault : Entry → PyM Zim Unit) (depth : Nat) (blob : Entry → PyM Zim Unit) :
    PyM Zim Unit := do
  PyM.require bound .bindRequired
  PyM.require e.mutable .nonMutable
  Zim.removeEntry blobDefault depth blob e.fullUrl

end Pyzim
