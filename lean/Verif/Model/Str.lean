import Verif.Model.Base

/-!
# Python strings

A Python `str` is modelled by a Lean `String`, i.e. a sequence of Unicode scalar values. Python
strings may also contain lone surrogates, but these cannot be encoded: every operation of the
repository on such a string raises `UnicodeEncodeError` as soon as it is encoded.
This stands for the Python runtime, not for code of the repository.
-/

namespace Pyzim

/-- `s.encode("utf-8")` -/
def encode (s : String) : Bytes := s.toByteArray.data.toList

/-- `b.decode("utf-8")` -/
def decode (b : Bytes) : PyRes String :=
  if h : (ByteArray.mk b.toArray).IsValidUTF8 then .ok ⟨_, h⟩ else .error .unicodeError

/-- An argument given as `str` or as `bytes`. -/
inductive StrArg
  | str (s : String)
  | bytes (b : Bytes)
deriving DecidableEq

/-- the idiom `if isinstance(value, str): … encode … else … decode …`, e.g.
`pyzim/entry.py:156-161`: encoded and decoded value. -/
def StrArg.both : StrArg → PyRes (Bytes × String)
  | str s => .ok (encode s, s)
  | bytes b =>
    match decode b with
    | .ok s => .ok (b, s)
    | .error e => .error e

end Pyzim
