import Verif.Model.Base

/-!
# Model of `Zim.open`, `pyzim/archive.py`

The file system is a map from paths to contents. Permissions, links and directories are not modelled.
-/

namespace Pyzim

/-- The files, by path. -/
abbrev Disk := String → Option Bytes

/-- The disk with a file changed. -/
def Disk.put (d : Disk) (path : String) (content : Bytes) : Disk := fun p => if p = path then some content else d p

/-- Exceptions of `Zim.open`. -/
inductive OpenErr
  | fileExistsError | fileNotFoundError | valueError
deriving DecidableEq, Repr

/-- Modes of the built-in `open` that are used. -/
inductive FileMode
  | rb | wplusb | rplusb
deriving DecidableEq

/-- The built-in `open`: `rb` and `r+b` need the file, `w+b` creates or empties it. (Part of the Python runtime.) -/
def Disk.openFile (d : Disk) (path : String) : FileMode → Except OpenErr Unit × Disk
  | .wplusb => (.ok (), d.put path [])
  | _ => if (d path).isSome then (.ok (), d) else (.error .fileNotFoundError, d)

/-- What the constructor of `Zim` is called with, besides the file and the policy. -/
structure Opened where
  mode : String
  offset : Int
deriving DecidableEq

/-- The mode of the file and that of the archive; `pyzim/archive.py:207-221`. `pathExists` is what `os.path.exists` says. -/
def openModes (pathExists : Bool) (mode : String) : Except OpenErr (FileMode × String) :=
  if mode = "r" then .ok (.rb, mode)
  else if mode = "w" then .ok (.wplusb, mode)
  else if mode = "x" then
    if pathExists then .error .fileExistsError else .ok (.wplusb, "w")
  else if mode = "u" ∨ mode = "a" then .ok (.rplusb, mode)
  else .error .valueError

/-- `Zim.open(path, mode, offset)`; `pyzim/archive.py:185-225`. `others` is what other processes do to the files between the
call of `os.path.exists` and that of `open`. The constructor is called without the argument `offset`, whose default is 0
(`pyzim/archive.py:91`); the call itself is not part of this model. -/
def zimOpen (others : Disk → Disk) (path mode : String) (_offset : Int) (d : Disk) : Except OpenErr Opened × Disk :=
  match openModes (d path).isSome mode with
  | .error x => (.error x, others d)
  | .ok (fmode, zmode) =>
    match (others d).openFile path fmode with
    | (.error x, d') => (.error x, d')
    | (.ok (), d') => (.ok { mode := zmode, offset := 0 }, d')

end Pyzim
