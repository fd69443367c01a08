import Verif.Model.Counting
import Verif.Spec.Creator
import Verif.Spec.Counter

/-!
# Specification vocabulary for archives that count mimetypes
-/

namespace Pyzim
variable {D K : Type}

/-- the item that holds the counter, before the counter is written -/
def counterPlace : Sourced := (Counting.counterItem, [])

/-- A history of an archive that counts mimetypes: as `CreatorHist`, with the default policy. The lists have the items that
the user added. The user does not set the content of the entry with the counter. -/
inductive CountHist (S : Setup D K) : Counting D → (done : List (List Sourced)) → (recent : List Sourced) →
    (redirects : List Zim.Redirect) → Prop
  | new {uuid : Bytes} {main plain : Strategy D} {t : CompressionType} {c : Counting D} :
      uuid.length = 16 → Working S.X S.C t → main.IsNew t → plain.IsNew .none → Counting.new S uuid main plain = .ok c →
      CountHist S c [] [] []
  | add {c c' : Counting D} {done : List (List Sourced)} {recent : List Sourced} {rs : List Zim.Redirect} {p : Sourced}
      {forceUncompressed : Bool} :
      CountHist S c done recent rs → Item.Admissible p → Counting.addItem S p.1 forceUncompressed c = (.ok (), c') →
      CountHist S c' done (recent ++ [p]) rs
  | redirect {c c' : Counting D} {done : List (List Sourced)} {recent : List Sourced} {rs : List Zim.Redirect}
      {r : Zim.Redirect} :
      CountHist S c done recent rs → r.Valid → Counting.addFullUrlRedirect S r.1 r.2.1 r.2.2 c = (.ok (), c') →
      c'.creator.arch.isDirty = true → CountHist S c' done recent (rs ++ [r])
  | set {c c' : Counting D} {done : List (List Sourced)} {recent : List Sourced} {rs : List Zim.Redirect} {u : String}
      {src : BlobSource} {content : Bytes} :
      CountHist S c done recent rs → (∀ l ∈ done, NotHuge (counterPlace :: l)) → u ≠ URL_ARTICLES → u ≠ URL_COUNTER →
      (∀ p ∈ recent, p.1.fullUrl ≠ u) → Delivers src content → Counting.setContent S u src c = (.ok (), c') →
      CountHist S c' (setContentIn u src content done) recent rs
  | flush {c c' : Counting D} {done : List (List Sourced)} {recent : List Sourced} {rs : List Zim.Redirect} :
      CountHist S c done recent rs → Counting.flush S c = (.ok (), c') → CountHist S c' (done ++ [recent]) [] rs
  | reopen {c c' : Counting D} {done : List (List Sourced)} {recent : List Sourced} {rs : List Zim.Redirect}
      {main plain : Strategy D} {t : CompressionType} {titles : Zim → PyRes PointerList} :
      CountHist S c done recent rs → c.creator.arch.isDirty = false → Working S.X S.C t → main.IsNew t → plain.IsNew .none →
      Counting.reopen S titles main plain c.creator.arch.zim.file = .ok c' → CountHist S c' done recent rs

/-- The number of items in the namespace `C` with a mimetype. -/
def itemsWith (mt : String) (items : List Sourced) : Nat :=
  (items.filter fun p => p.1.ns = "C" ∧ p.1.mimetype = mt).length

end Pyzim
