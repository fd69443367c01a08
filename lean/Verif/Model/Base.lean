/-!
# Common vocabulary of the model

Byte strings, Python exceptions as values, `struct` packing of little-endian integers, and a
seekable file. These stand for the Python runtime, not for code of the repository.
-/

namespace Pyzim

/-- Python `bytes`. -/
abbrev Bytes := List UInt8

/-- The exceptions raised by the modelled code (Python built-ins and `pyzim/exceptions.py:1-138`). -/
inductive PyErr
  | valueError | keyError | indexError | typeError | attributeError | assertionError
  | structError            -- `struct.error`
  | ioError
  | unicodeError           -- `UnicodeEncodeError` / `UnicodeDecodeError`
  | nonMutable | unsortedList | operationNotSupported
  | notAZimFile | incompatibleZimFile | unsupportedCompression
  | entryNotFound | blobNotFound | clusterNotFound | unresolvedRedirect | alreadyBound
  | zimFileClosed | zimWrite | bindRequired | zimFeatureMissing
  | runtimeError | notImplemented | noCounter | bindingError
  | hang                   -- not an exception: the call never returns
deriving DecidableEq, Repr

/-- Result of a Python call that may raise. -/
abbrev PyRes (α : Type) := Except PyErr α

deriving instance DecidableEq for Except

/-- `w` little-endian bytes of `v` (the upper digits are dropped). -/
def leBytes : Nat → Nat → Bytes
  | 0, _ => []
  | w + 1, v => UInt8.ofNat (v % 256) :: leBytes w (v / 256)

/-- Value of little-endian bytes. -/
def leNat : Bytes → Nat
  | [] => 0
  | b :: bs => b.toNat + 256 * leNat bs

/-- `struct.pack("<...", v)` of one unsigned field of `w` bytes (`B`=1, `H`=2, `I`=4, `Q`=8):
raises `struct.error` if `v` does not fit. -/
def packUInt (w : Nat) (v : Int) : PyRes Bytes :=
  if 0 ≤ v ∧ v < 256 ^ w then .ok (leBytes w v.toNat) else .error .structError

/-- `struct.pack` of several fields given by their width. -/
def packFields : List (Nat × Int) → PyRes Bytes
  | [] => .ok []
  | (w, v) :: rest => do
    let a ← packUInt w v
    let b ← packFields rest
    return a ++ b

/-- `struct.unpack("<...", s)` for unsigned fields of the given widths; raises `struct.error` if
the length does not match. -/
def unpackFields : List Nat → Bytes → PyRes (List Nat)
  | [], [] => .ok []
  | [], _ :: _ => .error .structError
  | w :: ws, s =>
    if s.length < w then .error .structError
    else do
      let rest ← unpackFields ws (s.drop w)
      return leNat (s.take w) :: rest

/-- A seekable file: its content and the current position. -/
structure PyFile where
  data : Bytes
  pos : Nat := 0
deriving Repr, DecidableEq

namespace PyFile

/-- `f.seek(p)` -/
def seek (f : PyFile) (p : Nat) : PyFile := { f with pos := p }

/-- `f.read(n)`, reading as many bytes as there are (a regular file or `BytesIO`). -/
def read (f : PyFile) (n : Nat) : Bytes × PyFile :=
  let d := (f.data.drop f.pos).take n
  (d, { f with pos := f.pos + d.length })

/-- `f.write(d)`; a gap behind the end of the file is filled with zeros, unless `d` is empty. -/
def write (f : PyFile) (d : Bytes) : PyFile :=
  if d.isEmpty then f
  else
    { data := (f.data ++ List.replicate (f.pos - f.data.length) 0).take f.pos ++ d ++
        f.data.drop (f.pos + d.length)
      pos := f.pos + d.length }

/-- `f.truncate()` / `f.truncate(size)` for sizes not beyond the end. -/
def truncate (f : PyFile) (size : Nat) : PyFile := { f with data := f.data.take size }

end PyFile

/-- Python's `d[a:b]` for a byte string, negative indexes counting from the end. -/
def pySlice (d : Bytes) (a b : Int) : Bytes :=
  let norm (i : Int) : Nat := if i < 0 then (i + d.length).toNat else min i.toNat d.length
  (d.drop (norm a)).take (norm b - norm a)

/-- A method call on an object (or several objects) of state `σ`: a value or an exception, and the
new state. Effects made before an exception is raised are kept. -/
def PyM (σ α : Type) : Type := σ → PyRes α × σ

namespace PyM
variable {σ α β : Type}

protected def pure (a : α) : PyM σ α := fun s => (.ok a, s)

protected def bind (m : PyM σ α) (k : α → PyM σ β) : PyM σ β := fun s =>
  match m s with
  | (.ok a, s') => k a s'
  | (.error e, s') => (.error e, s')

instance : Monad (PyM σ) where
  pure := PyM.pure
  bind := PyM.bind

/-- A state transformer as a method call. -/
def of (f : σ → PyRes α × σ) : PyM σ α := f

/-- `raise e` -/
def raise (e : PyErr) : PyM σ α := fun s => (.error e, s)

/-- Read the state. -/
def get : PyM σ σ := fun s => (.ok s, s)

/-- Change the state. -/
def modify (f : σ → σ) : PyM σ Unit := fun s => (.ok (), f s)

/-- A computation that does not touch the state. -/
def lift (x : PyRes α) : PyM σ α := fun s => (x, s)

/-- `if not c: raise e` -/
def require (c : Bool) (e : PyErr) : PyM σ Unit := fun s => (if c then .ok () else .error e, s)

end PyM
end Pyzim
