import Verif.Spec.Total

/-!
# Specification: what is added to an archive while some of its flushes are refused
-/

namespace Pyzim
variable {D K : Type}

/-- Items and redirects are added to `c0`; each of these calls succeeds. Between them `flush` may be called any number of
times; each of these calls raises an error, before the file is as long as the largest offset that can be stored, and the
archive still says that it has unsaved changes. -/
inductive Retried (S : Setup D K) (c0 : Creator D) : Creator D → (items : List Sourced) → (redirects : List Zim.Redirect) →
    Prop
  | start : Retried S c0 c0 [] []
  | add {c c' : Creator D} {items : List Sourced} {rs : List Zim.Redirect} {p : Sourced} {forceUncompressed : Bool} :
      Retried S c0 c items rs → Item.Admissible p → Creator.addItem S p.1 forceUncompressed c = (.ok (), c') →
      Retried S c0 c' (items ++ [p]) rs
  | redirect {c c' : Creator D} {items : List Sourced} {rs : List Zim.Redirect} {r : Zim.Redirect} :
      Retried S c0 c items rs → r.Valid → Creator.addFullUrlRedirect S r.1 r.2.1 r.2.2 c = (.ok (), c') →
      c'.arch.isDirty = true → Retried S c0 c' items (rs ++ [r])
  | refused {c c' : Creator D} {items : List Sourced} {rs : List Zim.Redirect} {x : PyErr} :
      Retried S c0 c items rs → Creator.flush S c = (.error x, c') → c'.arch.zim.file.length < 2 ^ 64 →
      c'.arch.isDirty = true → Retried S c0 c' items rs

end Pyzim
