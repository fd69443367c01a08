import Verif.Spec.Creator
import Verif.Spec.OperationBuffer
import Verif.Model.SetMain

/-!
# Histories in which the main page is set again and again
-/

namespace Pyzim
variable {D K : Type}

/-- What happens to an archive without flushing it: items and redirects are added to `c0`, and the main page is set or unset;
every call succeeds. A setting counts as the redirect from "WmainPage". -/
inductive MainRun (S : Setup D K) (c0 : Creator D) : Creator D → (items : List Sourced) → (redirects : List Zim.Redirect) → Prop
  | start : MainRun S c0 c0 [] []
  | add {c c' : Creator D} {items : List Sourced} {rs : List Zim.Redirect} {p : Sourced} {forceUncompressed : Bool} :
      MainRun S c0 c items rs → Item.Admissible p → Creator.addItem S p.1 forceUncompressed c = (.ok (), c') →
      MainRun S c0 c' (items ++ [p]) rs
  | redirect {c c' : Creator D} {items : List Sourced} {rs : List Zim.Redirect} {r : Zim.Redirect} :
      MainRun S c0 c items rs → r.Valid → Creator.addFullUrlRedirect S r.1 r.2.1 r.2.2 c = (.ok (), c') →
      c'.arch.isDirty = true → MainRun S c0 c' items (rs ++ [r])
  | set {c c' : Creator D} {items : List Sourced} {rs : List Zim.Redirect} {u : String} :
      MainRun S c0 c items rs → Creator.setMainpage S (some u) c = (.ok (), c') → c'.arch.isDirty = true →
      MainRun S c0 c' items (rs ++ [("WmainPage", "C" ++ u, none)])
  | unset {c c' : Creator D} {items : List Sourced} {rs : List Zim.Redirect} :
      MainRun S c0 c items rs → Creator.setMainpage S none c = (.ok (), c') → c'.arch.isDirty = true →
      MainRun S c0 c' items rs

end Pyzim
