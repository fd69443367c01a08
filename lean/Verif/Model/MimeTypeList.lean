import Verif.Model.Ioutil

/-!
# Model of `pyzim/mimetypelist.py`

Mimetypes are byte strings; `str` arguments are assumed to be encoded already (the code encodes
them first). The lock in `register` serialises registrations; concurrent registrations are
modelled as some sequence of `register` calls.
-/

namespace Pyzim

/-- State of a `MimeTypeList`; `pyzim/mimetypelist.py:25-38`, with the dirty and mutable flags of
`pyzim/modifiable.py:33-42`. -/
structure MimeTypeList where
  mimetypes : List Bytes
  dirty : Bool := false
  mutable : Bool := true
deriving Repr, DecidableEq

namespace MimeTypeList

/-- `__len__`; `pyzim/mimetypelist.py:40-47`. -/
def len (m : MimeTypeList) : Nat := m.mimetypes.length

/-- The loop of `from_file`, at most `fuel` iterations; `pyzim/mimetypelist.py:74-81`. -/
def fromFileLoop : (fuel : Nat) → (acc : List Bytes) → PyFile → Option (List Bytes × PyFile)
  | 0, _, _ => none
  | fuel + 1, acc, f =>
    match readUntilZero f with
    | none => none
    | some (mt, f') => if mt = [] then some (acc, f') else fromFileLoop fuel (acc ++ [mt]) f'

/-- `from_file`; `pyzim/mimetypelist.py:60-81`. `none`: never returns (unterminated list). Each
iteration consumes a byte, so the file length bounds the iterations. -/
def fromFile (f : PyFile) (seek : Option Nat) : Option (MimeTypeList × PyFile) :=
  let f := match seek with
    | some p => f.seek p
    | none => f
  match fromFileLoop (f.data.length + 1) [] f with
  | none => none
  | some (mts, f') => some ({ mimetypes := mts }, f')

/-- `b"\x00".join(l)`. -/
def joinZero : List Bytes → Bytes
  | [] => []
  | [a] => a
  | a :: b :: rest => a ++ 0 :: joinZero (b :: rest)

/-- `to_bytes`; `pyzim/mimetypelist.py:83-90`. -/
def toBytes (m : MimeTypeList) : Bytes := joinZero m.mimetypes ++ [0, 0]

/-- `get`; `pyzim/mimetypelist.py:92-114`. -/
def get (m : MimeTypeList) (i : Int) : PyRes Bytes :=
  if (m.mimetypes.length : Int) ≤ i ∨ i < 0 then .error .indexError
  else match m.mimetypes[i.toNat]? with
    | some mt => .ok mt
    | none => .error .indexError

/-- `has`; `pyzim/mimetypelist.py:116-128`. -/
def has (m : MimeTypeList) (mt : Bytes) : Bool := decide (mt ∈ m.mimetypes)

/-- The search loop of `get_index`; `pyzim/mimetypelist.py:144-146`. -/
def search (mt : Bytes) : (i : Nat) → List Bytes → Option Nat
  | _, [] => none
  | i, e :: rest => if e = mt then some i else search mt (i + 1) rest

/-- `register`; `pyzim/mimetypelist.py:154-178`. -/
def register (m : MimeTypeList) (mt : Bytes) : PyRes Unit × MimeTypeList :=
  if !m.mutable then (.error .nonMutable, m)
  else if m.has mt then (.ok (), m)
  else (.ok (), { m with mimetypes := m.mimetypes ++ [mt], dirty := true })

/-- `get_index`; `pyzim/mimetypelist.py:130-152`. -/
def getIndex (m : MimeTypeList) (mt : Bytes) (reg : Bool) :
    PyRes (Option Nat) × MimeTypeList :=
  match search mt 0 m.mimetypes with
  | some i => (.ok (some i), m)
  | none =>
    if reg then
      match m.register mt with
      | (.error e, m') => (.error e, m')
      | (.ok (), m') => (.ok (search mt 0 m'.mimetypes), m')
    else (.ok none, m)

/-- `iter_mimetypes`; `pyzim/mimetypelist.py:180-192`. -/
def iterMimetypes (m : MimeTypeList) : List Bytes := m.mimetypes

/-- `get_disk_size`; `pyzim/mimetypelist.py:194-198`. -/
def getDiskSize (m : MimeTypeList) : Nat := m.mimetypes.foldl (fun s mt => s + (mt.length + 1)) 1

end MimeTypeList
end Pyzim
