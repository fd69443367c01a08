import Verif.Model.OperationBuffer
import Verif.Spec.ArchiveMap

/-!
# Specification of buffered operations
-/

namespace Pyzim
namespace Zim

/-- there is an entry `u` -/
def Has (z : Zim) (u : String) : Prop := z.hasEntry u = .ok true

/-- Following the redirects of the list `B` from `u` leads to an entry of the archive. -/
inductive Resolvable (z : Zim) (B : List Redirect) : String → Prop
  | entry {u : String} : Has z u → Resolvable z B u
  | redirect {s t : String} {title : Option String} : (s, t, title) ∈ B → Resolvable z B t → Resolvable z B s

/-- A redirect whose strings are accepted: the source consists of a namespace, a single byte, and a url without a zero
byte, the title has no zero byte either, and the source is not the target. -/
structure Redirect.Valid (r : Redirect) : Prop where
  source : ∃ (c : Char) (url : String), r.1 = String.singleton c ++ url ∧ c.val < 128 ∧ (0 : UInt8) ∉ encode url
  target : r.2.1 ≠ ""
  title : ∀ t, r.2.2 = some t → (0 : UInt8) ∉ encode t
  noLoop : r.1 ≠ r.2.1

end Zim
end Pyzim

namespace Pyzim
namespace Zim

/-- The main page is what `set_mainpage_url` was given: nothing, or the page `url` in the namespace `C`, to which the
entry "WmainPage" leads. -/
def ShowsMain (z : Zim) : Option String → Prop
  | none => z.mainpageEntry = .error .entryNotFound
  | some url => MainPage z "WmainPage" ∧ Leads z "WmainPage" ("C" ++ url)

/-- "WmainPage" is only used by the library: it is a redirect to some entry, if it exists at all, and no redirect leads to it. -/
structure MainUnused (z : Zim) : Prop where
  redirect : Has z "WmainPage" → ∃ t, Leads z "WmainPage" t
  target : ∀ s, ¬ Leads z s "WmainPage"

/-- consecutive calls of `set_mainpage_url` -/
def setMainpageUrls (blob : Entry → PyM Zim Unit) (depth : Nat) : List (Option String) → PyM Zim Unit
  | [] => pure ()
  | url :: urls => do
    setMainpageUrl blob depth url
    setMainpageUrls blob depth urls

end Zim
end Pyzim

namespace Pyzim
namespace Zim

/-- the calls of a history with settings of the main page -/
inductive MainStep
  | setMain (url : Option String)
  | add (e : Entry)

/-- the calls in order -/
def runSteps (blob : Entry → PyM Zim Unit) (depth : Nat) : List MainStep → PyM Zim Unit
  | [] => pure ()
  | .setMain url :: steps => do
    setMainpageUrl blob depth url
    runSteps blob depth steps
  | .add e :: steps => do
    let _ ← writeEntry depth e true true
    runSteps blob depth steps

/-- the page given by the last setting -/
def lastMain : List MainStep → Option (Option String)
  | [] => none
  | .setMain url :: steps => some ((lastMain steps).getD url)
  | .add _ :: steps => lastMain steps

end Zim
end Pyzim
