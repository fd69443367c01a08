import Verif.Model.Base

/-!
# Python's `struct.pack` / `struct.unpack` for mixed formats

Only the little-endian, unpadded formats of the repository: unsigned integers and fixed-size
byte strings. This stands for the Python standard library, not for code of the repository.
-/

namespace Pyzim

/-- One format character: `uint 1/2/4/8` for `B/H/I/Q`, `raw n` for `ns` and `c` (`raw 1`). -/
inductive Fmt
  | uint (w : Nat)
  | raw (n : Nat)
deriving Repr, DecidableEq

/-- A Python value to pack. -/
inductive FVal
  | int (v : Int)
  | raw (b : Bytes)
deriving Repr, DecidableEq

namespace Fmt

/-- `struct.calcsize` of one character -/
def size : Fmt → Nat
  | uint w => w
  | raw n => n

/-- `struct.calcsize` -/
def calcsize (fmt : List Fmt) : Nat := (fmt.map size).sum

/-- Packing of one value. `ns` pads or truncates other lengths in Python; the only such field
of the repository (`16s`) always gets 16 bytes, other lengths are an error in the model. -/
def packOne : Fmt → FVal → PyRes Bytes
  | uint w, .int v => packUInt w v
  | raw n, .raw b => if b.length = n then .ok b else .error .structError
  | _, _ => .error .structError

/-- `struct.pack` -/
def pack : List Fmt → List FVal → PyRes Bytes
  | [], [] => .ok []
  | f :: fs, v :: vs =>
    match packOne f v with
    | .error e => .error e
    | .ok a =>
      match pack fs vs with
      | .error e => .error e
      | .ok b => .ok (a ++ b)
  | _, _ => .error .structError

/-- Unpacking of one value from exactly the right number of bytes. -/
def unpackOne : Fmt → Bytes → FVal
  | uint _, s => .int (leNat s)
  | raw _, s => .raw s

/-- `struct.unpack` -/
def unpack : List Fmt → Bytes → PyRes (List FVal)
  | [], [] => .ok []
  | [], _ :: _ => .error .structError
  | f :: fs, s =>
    if s.length < f.size then .error .structError
    else match unpack fs (s.drop f.size) with
      | .error e => .error e
      | .ok vs => .ok (unpackOne f (s.take f.size) :: vs)

end Fmt
end Pyzim
