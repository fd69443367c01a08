import Verif.Model.Creator

/-!
# Model of the metadata interface of an archive being filled, `pyzim/archive.py`
-/

namespace Pyzim

/-- The bytes of an `InMemoryBlobSource(value)`; `pyzim/blob.py:108-124`. -/
def StrArg.content : StrArg → Bytes
  | .bytes b => b
  | .str s => encode s

namespace Creator
variable {D K : Type} (S : Setup D K)

/-- `set_metadata`; `pyzim/archive.py:1912-1944`. -/
def setMetadata (key : String) (value : StrArg) (mimetype : String) : PyM (Creator D) Unit := do
  PyM.require (decide (key ≠ "")) .valueError
  let c ← PyM.get
  PyM.require (!c.arch.zim.closed) .zimFileClosed
  PyM.require c.arch.zim.mutable .nonMutable
  let it ← PyM.lift (Item.new "M" key mimetype (BlobSourceObj.inMemory value.content).toSource none false)
  addItem S it false

/-- `get_metadata`; `pyzim/archive.py:1827-1860`. `_writable` is the value `mutable` was first set to
(`pyzim/archive.py:130`). -/
def getMetadata (key : String) (asUnicode : Bool) : PyM (Creator D) (Option StrArg) := do
  let c ← PyM.get
  (if c.arch.zim.mutable then flush S else pure ())
  let c ← PyM.get
  PyM.lift (c.arch.zim.readMetadata (c.arch.zim.readContent S.X S.kind S.calls) S.follow key asUnicode)

end Creator
end Pyzim
