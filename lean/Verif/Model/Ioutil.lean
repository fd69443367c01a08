import Verif.Model.Base

/-!
# Model of `pyzim/util/ioutil.py`

A file is anything with a `read` method. The two functions are modelled over an arbitrary reader
`read : F → Nat → Bytes × F` (the file object and its state). Loops carry fuel; running out of
fuel (`none`) stands for "has not returned yet".
-/

namespace Pyzim

/-- The loop of `read_until_zero` (`strip_zero=True`, no decoding), at most `fuel` iterations;
`pyzim/util/ioutil.py:19-27`. -/
def readUntilZeroLoop {F : Type} (read : F → Nat → Bytes × F) :
    (fuel : Nat) → (s : Bytes) → F → Option (Bytes × F)
  | 0, _, _ => none
  | fuel + 1, s, f =>
    let (c, f') := read f 1
    if c = [0] then some (s, f') else readUntilZeroLoop read fuel (s ++ c) f'

/-- `read_until_zero` on a regular file; `pyzim/util/ioutil.py:6-31`. `none`: the call never
returns (it reads empty strings at the end of the file for ever). That the fuel used here is
enough whenever any is, is theorem `C51_read_until_zero_total`. -/
def readUntilZero (f : PyFile) : Option (Bytes × PyFile) :=
  readUntilZeroLoop PyFile.read (f.data.length + 1) [] f

/-- The loop of `read_n_bytes`; `pyzim/util/ioutil.py:51-61`. `remaining` decreases in every
iteration that continues, so `remaining + 1` iterations are enough. -/
def readNBytesLoop {F : Type} (read : F → Nat → Bytes × F) (raiseOnIncomplete : Bool) :
    (fuel : Nat) → (rbuff : Bytes) → (remaining : Nat) → F → Option (PyRes Bytes × F)
  | 0, _, _, _ => none
  | fuel + 1, rbuff, remaining, f =>
    if 0 < remaining then
      let (data, f') := read f remaining
      if data = [] then
        if raiseOnIncomplete then some (.error .ioError, f') else some (.ok rbuff, f')
      else readNBytesLoop read raiseOnIncomplete fuel (rbuff ++ data) (remaining - data.length) f'
    else some (.ok rbuff, f)

/-- `read_n_bytes`; `pyzim/util/ioutil.py:34-61`. `none`: has not returned after `n + 1`
iterations (proved impossible). -/
def readNBytes {F : Type} (read : F → Nat → Bytes × F) (n : Nat) (raiseOnIncomplete : Bool)
    (f : F) : Option (PyRes Bytes × F) :=
  readNBytesLoop read raiseOnIncomplete (n + 1) [] n f

/-- A file whose reads may be short, as allowed for raw files, sockets and pipes: the `k`-th
`read(n)` returns at most `max 1 (limit k)` bytes, and returns nothing only at the end (or when
asked for nothing). This stands for the Python runtime. -/
structure ShortFile where
  data : Bytes
  pos : Nat
  calls : Nat
  limit : Nat → Nat

/-- `read(n)` of such a file. -/
def ShortFile.read (f : ShortFile) (n : Nat) : Bytes × ShortFile :=
  let d := (f.data.drop f.pos).take (min n (max 1 (f.limit f.calls)))
  (d, { f with pos := f.pos + d.length, calls := f.calls + 1 })

end Pyzim
