import Verif.Model.Header
import Verif.Model.MimeTypeList
import Verif.Model.PointerList
import Verif.Model.Entry

/-!
# The modifying calls of the objects of an archive, and what is expected of them
-/

namespace Pyzim

/-- A modifying call on an object with a mutability flag respects it: on an immutable object it raises
and changes nothing, and what it raises is `NonMutable` unless the same call raises the same exception
on a mutable object. -/
def RespectsImmutability {α : Type} (isMutable : α → Bool) (thaw : α → α) (call : α → PyRes Unit × α) :
    Prop :=
  ∀ x, isMutable x = false → (call x).2 = x ∧ ∃ err, (call x).1 = .error err ∧
    (err ≠ .nonMutable → (call (thaw x)).1 = .error err)

/-- A modifying call keeps the dirty flag right: the object is dirty afterwards iff it was dirty before
or has been changed by the call, and a call that raises changes nothing. -/
def TracksChanges {α : Type} (isDirty : α → Bool) (call : α → PyRes Unit × α) : Prop :=
  ∀ x, (isDirty (call x).2 = true ↔ isDirty x = true ∨ (call x).2 ≠ x) ∧
    (∀ err, (call x).1 = .error err → (call x).2 = x)

/-- A modifying call never leaves a changed object clean. -/
def NeverClean {α : Type} (isDirty : α → Bool) (call : α → PyRes Unit × α) : Prop :=
  ∀ x, (call x).2 ≠ x → isDirty (call x).2 = true

/-- Modifying calls of a header. -/
inductive Header.Call
  | magicNumber (v : Int) | majorVersion (v : Int) | minorVersion (v : Int) | uuid (v : Bytes)
  | entryCount (v : Int) | clusterCount (v : Int) | urlPointerPosition (v : Int)
  | titlePointerPosition (v : Int) | clusterPointerPosition (v : Int) | mimeListPosition (v : Int)
  | mainPage (v : Option Int) | layoutPage (v : Option Int) | checksumPosition (v : Int)

/-- The call. -/
def Header.Call.exec (h : Header) : Header.Call → PyRes Unit × Header
  | .magicNumber v => h.setMagicNumber v
  | .majorVersion v => h.setMajorVersion v
  | .minorVersion v => h.setMinorVersion v
  | .uuid v => h.setUuid v
  | .entryCount v => h.setEntryCount v
  | .clusterCount v => h.setClusterCount v
  | .urlPointerPosition v => h.setUrlPointerPosition v
  | .titlePointerPosition v => h.setTitlePointerPosition v
  | .clusterPointerPosition v => h.setClusterPointerPosition v
  | .mimeListPosition v => h.setMimeListPosition v
  | .mainPage v => h.setMainPage v
  | .layoutPage v => h.setLayoutPage v
  | .checksumPosition v => h.setChecksumPosition v

/-- Modifying calls of a pointer list (ordered lists also have `add` and `remove`), except
`mass_update`. -/
inductive PointerList.Call
  | append (p : Int)
  | set (i p : Int) (addPlaceholders : Bool)
  | removeByIndex (i : Int)
  | add (keyf : Int → PyRes Bytes) (key : Bytes) (p : Int)
  | remove (keyf : Int → PyRes Bytes) (key : Bytes)

/-- The call; the result of `add` is dropped. -/
def PointerList.Call.exec (l : PointerList) : PointerList.Call → PyRes Unit × PointerList
  | .append p => l.append p
  | .set i p a => l.set i p a
  | .removeByIndex i => l.removeByIndex i
  | .add keyf key p => ((l.add keyf key p).1.map fun _ => (), (l.add keyf key p).2)
  | .remove keyf key => l.remove keyf key

/-- Modifying calls of an entry. -/
inductive Entry.Call
  | mimetypeId (v : Int)
  | namespace (v : StrArg)
  | url (v : StrArg)
  | title (v : Option StrArg)
  | fullUrl (v : StrArg)
  | isArticle (v : Bool)
  | clusterNumber (v : Int)
  | blobNumber (v : Int)
  | redirectIndex (v : Int)

/-- The call. -/
def Entry.Call.exec (e : Entry) : Entry.Call → PyRes Unit × Entry
  | .mimetypeId v => e.setMimetypeId v
  | .namespace v => e.setNamespace v
  | .url v => e.setUrl v
  | .title v => e.setTitle v
  | .fullUrl v => e.setFullUrl v
  | .isArticle v => e.setIsArticle v
  | .clusterNumber v => e.setClusterNumber v
  | .blobNumber v => e.setBlobNumber v
  | .redirectIndex v => e.setRedirectIndex v

end Pyzim
