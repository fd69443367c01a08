import Verif.Model.Archive

/-!
# Model of `pyzim/operationbuffer.py` and of the methods of `pyzim/archive.py` that use it

The simplifications are those of `Verif/Model/Archive.lean`; the `TypeError`s for arguments that are no strings are
left out.
-/

namespace Pyzim
namespace Zim

/-- A buffered redirect: source, target (full urls) and title. -/
abbrev Redirect := String × String × Option String

/-- `buffer_add_redirect`; `pyzim/operationbuffer.py:48-62`. -/
def bufferAddRedirect (r : Redirect) : PyM Zim Unit :=
  PyM.modify (fun z => { z with bufferedRedirects := z.bufferedRedirects ++ [r] })

/-- `buffer_set_mainpage_url`; `pyzim/operationbuffer.py:88-100`. -/
def bufferSetMainpageUrl (url : Option String) : PyM Zim Unit :=
  PyM.modify (fun z => { z with bufferedMainpage := some url })

/-- The redirect object made by `add_full_url_redirect`, with `source[0]` and `source[1:]`;
`pyzim/archive.py:1533-1540`. -/
def redirectEntry (source : String) (index : Nat) (title : String) : PyRes Entry :=
  match source.toList with
  | [] => .error .indexError
  | c :: cs => Entry.newRedirect (String.ofList [c]) 0 index (String.ofList cs) (some title) []

/-- `add_full_url_redirect`; `pyzim/archive.py:1484-1544`. -/
def addFullUrlRedirect (depth : Nat) (source target : String) (title : Option String) : PyM Zim Unit := do
  PyM.require (decide (source ≠ target)) .valueError
  PyM.require (decide (source ≠ "" ∧ target ≠ "")) .valueError
  let z ← PyM.get
  PyM.require (!z.closed) .zimFileClosed
  PyM.require z.mutable .nonMutable
  match z.urlIndex target with
  | .error .keyError => bufferAddRedirect (source, target, title)
  | .error x => PyM.raise x
  | .ok index => do
    let t ← (match title with
      | some t => pure t
      | none => do
        let e ← PyM.lift (z.entryByFullUrl target)
        pure e.title)
    let e ← PyM.lift (redirectEntry source index t)
    let _ ← writeEntry depth e true true

/-- `add_redirect`; `pyzim/archive.py:1448-1482`. -/
def addRedirect (depth : Nat) (source target : String) (title : Option String) : PyM Zim Unit := do
  PyM.require (decide (source ≠ target)) .valueError
  addFullUrlRedirect depth ("C" ++ source) ("C" ++ target) title

/-- `URL_MAINPAGE_REDIRECT`; `pyzim/constants.py:59`. -/
def URL_MAINPAGE_REDIRECT : String := "WmainPage"

/-- `try: remove_entry_by_full_url(...) except EntryNotFound: pass`; `pyzim/archive.py:1007-1013`. -/
def removeMainpageRedirect (blob : Entry → PyM Zim Unit) (depth : Nat) : PyM Zim Unit := fun z =>
  match removeEntry blob depth blob URL_MAINPAGE_REDIRECT z with
  | (.error .entryNotFound, z') => (.ok (), z')
  | r => r

/-- `set_mainpage_url`; `pyzim/archive.py:988-1033`. -/
def setMainpageUrl (blob : Entry → PyM Zim Unit) (depth : Nat) (url : Option String) : PyM Zim Unit := do
  let z ← PyM.get
  PyM.require (!z.closed) .zimFileClosed
  PyM.require z.mutable .nonMutable
  removeMainpageRedirect blob depth
  match url with
  | none => do
    onHeader (fun h => h.setMainPage none)
    bufferSetMainpageUrl none
  | some u => do
    addFullUrlRedirect depth URL_MAINPAGE_REDIRECT ("C" ++ u) none
    let z ← PyM.get
    match z.urlIndex URL_MAINPAGE_REDIRECT with
    | .error .keyError => bufferSetMainpageUrl (some u)
    | .error x => PyM.raise x
    | .ok i => onHeader (fun h => h.setMainPage (some (i : Int)))

/-- The `for` loop of `_apply_redirects`; `pyzim/operationbuffer.py:80-81`. -/
def addBuffered (depth : Nat) : List Redirect → PyM Zim Unit
  | [] => pure ()
  | r :: rs => do
    addFullUrlRedirect depth r.1 r.2.1 r.2.2
    addBuffered depth rs

/-- The `while` loop of `_apply_redirects`; `pyzim/operationbuffer.py:76-82`. `passes` bounds the number of passes;
needing more is the error `hang`. -/
def redirectLoop (depth : Nat) : (passes : Nat) → PyM Zim Unit
  | 0 => PyM.raise .hang
  | passes + 1 => do
    let z ← PyM.get
    PyM.modify (fun z => { z with bufferedRedirects := [] })
    addBuffered depth z.bufferedRedirects
    let z' ← PyM.get
    if z'.bufferedRedirects ≠ z.bufferedRedirects then redirectLoop depth passes else pure ()

/-- `_apply_redirects`, with a bound for the number of passes; `pyzim/operationbuffer.py:64-86`. -/
def applyRedirects (depth passes : Nat) : PyM Zim Unit := do
  redirectLoop depth passes
  let z ← PyM.get
  PyM.require (decide (z.bufferedRedirects.length = 0)) .unresolvedRedirect

/-- `_apply_set_mainpage_url`; `pyzim/operationbuffer.py:102-119`. -/
def applySetMainpageUrl (blob : Entry → PyM Zim Unit) (depth : Nat) : PyM Zim Unit := do
  let z ← PyM.get
  match z.bufferedMainpage with
  | none => pure ()
  | some url => do
    PyM.modify (fun z => { z with bufferedMainpage := none })
    setMainpageUrl blob depth url
    let z ← PyM.get
    PyM.require (decide (z.bufferedMainpage = none ∨ z.bufferedMainpage = some none)) .unresolvedRedirect

/-- `finalize_entry_dependent_operations`; `pyzim/operationbuffer.py:37-46`. -/
def finalizeOperations (blob : Entry → PyM Zim Unit) (depth passes : Nat) : PyM Zim Unit := do
  applyRedirects depth passes
  applySetMainpageUrl blob depth

end Zim
end Pyzim
