import Verif.Model.Amend
import Verif.Spec.Creator

/-!
# Specification vocabulary for removing and changing entries while an archive is filled
-/

namespace Pyzim
variable {D K : Type}

/-- What is asked of the items and redirects of an archive. -/
structure Sound (mts : List String) (rs : List Zim.Redirect) (lists : List (List Sourced)) : Prop where
  apart : Apart rs lists
  urls : ∀ l ∈ lists, (l.map fun p => p.1.fullUrl).Nodup
  mimetypes : ∀ l ∈ lists, ∀ p ∈ l, p.1.mimetype ∈ mts
  other : ∀ l ∈ lists, ∀ p ∈ l, p.1.fullUrl ≠ URL_ARTICLES
  size : ∀ l ∈ lists, NotHuge l

/-- The lists of items without those at the full url `u`. -/
def dropUrl (u : String) (lists : List (List Sourced)) : List (List Sourced) :=
  lists.map fun l => l.filter fun p => p.1.fullUrl ≠ u

/-- What is asked of an entry that is removed: it is not the list of articles, nothing with its full url was added since the
last flush, it is no redirect and no target of one, and it is an article, or no articles are behind it (in the order of full
urls). It is known where the redirects lead to: their targets were added only once. -/
structure Removable (u : String) (done : List (List Sourced)) (recent : List Sourced) (rs : List Zim.Redirect) : Prop where
  other : u ≠ URL_ARTICLES
  flushed : ∀ p ∈ recent, p.1.fullUrl ≠ u
  redirects : ∀ r ∈ rs, r.1 ≠ u ∧ r.2.1 ≠ u
  targets : ∀ r ∈ rs, ((done ++ [recent]).flatten.map fun p => p.1.fullUrl).count r.2.1 ≤ 1
  articles : (∃ p ∈ current done, p.1.fullUrl = u ∧ p.1.isArticle = true) ∨
    ∀ p ∈ current done ++ recent, p.1.isArticle = true → encode p.1.fullUrl ≤ encode u

/-- What is asked of a redirect that is removed: no redirect leads to it, and no articles are behind it (in the order of full
urls). It is known where the redirects lead to: their targets were added only once. -/
structure Unlinked (u : String) (done : List (List Sourced)) (recent : List Sourced) (rs : List Zim.Redirect) : Prop where
  redirect : ∃ r ∈ rs, r.1 = u
  unused : ∀ r ∈ rs, r.2.1 ≠ u
  targets : ∀ r ∈ rs, ((done ++ [recent]).flatten.map fun p => p.1.fullUrl).count r.2.1 ≤ 1
  articles : ∀ p ∈ current done ++ recent, p.1.isArticle = true → encode p.1.fullUrl ≤ encode u

/-- The redirects without the one at the full url `u`. -/
def dropRedirect (u : String) (rs : List Zim.Redirect) : List Zim.Redirect := rs.filter fun r => r.1 ≠ u

/-- The item, changed by `g` if it has the given full url. -/
def amended (u : String) (g : Item → Item) (p : Sourced) : Sourced := if p.1.fullUrl = u then (g p.1, p.2) else p

/-- The lists of items after the item with the full url `u` was changed: earlier items with the same full url (which it
replaced) stay as they are. -/
def amendIn (u : String) (g : Item → Item) (lists : List (List Sourced)) : List (List Sourced) :=
  replaceLast (fun l => l.any fun p => p.1.fullUrl = u) (fun l => l.map (amended u g)) lists

/-- the item with another mimetype -/
def Item.retyped (m : String) (it : Item) : Item := { it with mimetype := m }

/-- the item with another title -/
def Item.retitled (t : String) (it : Item) : Item := { it with titleRaw := some t }

/-- the item with another url, and the same title -/
def Item.renamed (n : String) (it : Item) : Item := { it with url := n, titleRaw := some it.title }

/-- What is asked of an item that gets another url, so that its full url is not `u` but `w`: neither is that of the list of
articles, nothing with one of them was added since the last flush, the item was added once, it has a title of its own, and
there is no item with the new full url and no redirect from or to one of them. -/
structure Renamable (u w n : String) (done : List (List Sourced)) (recent : List Sourced) (rs : List Zim.Redirect) : Prop where
  other : u ≠ URL_ARTICLES ∧ w ≠ URL_ARTICLES
  named : n ≠ "" ∧ ∀ l ∈ done, ∀ p ∈ l, p.1.fullUrl = u → p.1.ns ++ n = w
  flushed : ∀ p ∈ recent, p.1.fullUrl ≠ u ∧ p.1.fullUrl ≠ w
  unused : ∀ l ∈ done, ∀ p ∈ l, p.1.fullUrl ≠ w
  once : (done.flatten.map fun p => p.1.fullUrl).count u ≤ 1
  titled : ∀ l ∈ done, ∀ p ∈ l, p.1.fullUrl = u → p.1.title ≠ "" ∧ p.1.title ≠ p.1.url
  redirects : ∀ r ∈ rs, (r.1 ≠ u ∧ r.1 ≠ w) ∧ r.2.1 ≠ u ∧ r.2.1 ≠ w

/-- What is asked of an entry whose mimetype or title is changed: it is not the list of articles, nothing with its full url
was added since the last flush, and it is no redirect. -/
structure Amendable (u : String) (recent : List Sourced) (rs : List Zim.Redirect) : Prop where
  other : u ≠ URL_ARTICLES
  flushed : ∀ p ∈ recent, p.1.fullUrl ≠ u
  item : ∀ r ∈ rs, r.1 ≠ u

/-- A history of an archive, as in `CreatorHist`, in which entries are also removed, and mimetypes, titles and urls changed. The blobs of the removed entries are kept
or emptied. -/
inductive EditHist (S : Setup D K) (mts : List String) : Creator D → (done : List (List Sourced)) → (recent : List Sourced) →
    (redirects : List Zim.Redirect) → Prop
  | new {uuid : Bytes} {main plain : Strategy D} {t : CompressionType} {c : Creator D} :
      uuid.length = 16 → Working S.X S.C t → main.IsNew t → plain.IsNew .none → Creator.new S uuid main plain = .ok c →
      EditHist S mts c [] [] []
  | add {c c' : Creator D} {done : List (List Sourced)} {recent : List Sourced} {rs : List Zim.Redirect} {p : Sourced}
      {forceUncompressed : Bool} :
      EditHist S mts c done recent rs → Item.Admissible p → Sound mts rs (done ++ [recent ++ [p]]) →
      Creator.addItem S p.1 forceUncompressed c = (.ok (), c') → EditHist S mts c' done (recent ++ [p]) rs
  | redirect {c c' : Creator D} {done : List (List Sourced)} {recent : List Sourced} {rs : List Zim.Redirect}
      {r : Zim.Redirect} :
      EditHist S mts c done recent rs → r.Valid → Apart (rs ++ [r]) (done ++ [recent]) →
      Creator.addFullUrlRedirect S r.1 r.2.1 r.2.2 c = (.ok (), c') → c'.arch.isDirty = true →
      EditHist S mts c' done recent (rs ++ [r])
  | set {c c' : Creator D} {done : List (List Sourced)} {recent : List Sourced} {rs : List Zim.Redirect} {u : String}
      {src : BlobSource} {content : Bytes} :
      EditHist S mts c done recent rs → Replaceable S.X S.C → u ≠ URL_ARTICLES → (∀ p ∈ recent, p.1.fullUrl ≠ u) →
      Delivers src content → (∀ l ∈ setContentIn u src content done, NotHuge l) →
      Creator.setContent S u src c = (.ok (), c') → EditHist S mts c' (setContentIn u src content done) recent rs
  | remove {c c' : Creator D} {done : List (List Sourced)} {recent : List Sourced} {rs : List Zim.Redirect} {u : String}
      {mode : BlobMode} :
      EditHist S mts c done recent rs → Removable u done recent rs → mode ≠ .remove → (mode = .empty → Replaceable S.X S.C) →
      Creator.remove S mode u c = (.ok (), c') → EditHist S mts c' (dropUrl u done) recent rs
  | unlink {c c' : Creator D} {done : List (List Sourced)} {recent : List Sourced} {rs : List Zim.Redirect} {u : String}
      {mode : BlobMode} :
      EditHist S mts c done recent rs → Unlinked u done recent rs → Creator.remove S mode u c = (.ok (), c') →
      EditHist S mts c' done recent (dropRedirect u rs)
  | retype {c c' : Creator D} {done : List (List Sourced)} {recent : List Sourced} {rs : List Zim.Redirect} {u : String}
      {v : StrArg} {b : Bytes} {m : String} :
      EditHist S mts c done recent rs → Amendable u recent rs → v.both = .ok (b, m) → m ∈ mts →
      Creator.setMimetype S u v c = (.ok (), c') → EditHist S mts c' (amendIn u (Item.retyped m) done) recent rs
  | retitle {c c' : Creator D} {done : List (List Sourced)} {recent : List Sourced} {rs : List Zim.Redirect} {u : String}
      {v : Option StrArg} {b : Bytes} {t : String} :
      EditHist S mts c done recent rs → Amendable u recent rs → (∀ r ∈ rs, r.2.1 ≠ u) → (v.getD (.str "")).both = .ok (b, t) →
      Creator.setTitle S u v c = (.ok (), c') → EditHist S mts c' (amendIn u (Item.retitled t) done) recent rs
  | rename {c c' : Creator D} {done : List (List Sourced)} {recent : List Sourced} {rs : List Zim.Redirect} {u w : String}
      {v : StrArg} {b : Bytes} {n : String} :
      EditHist S mts c done recent rs → Renamable u w n done recent rs → v.both = .ok (b, n) →
      Creator.setUrl S u v c = (.ok (), c') → EditHist S mts c' (amendIn u (Item.renamed n) done) recent rs
  | flush {c c' : Creator D} {done : List (List Sourced)} {recent : List Sourced} {rs : List Zim.Redirect} :
      EditHist S mts c done recent rs → Creator.flush S c = (.ok (), c') → EditHist S mts c' (done ++ [recent]) [] rs
  | reopen {c c' : Creator D} {done : List (List Sourced)} {recent : List Sourced} {rs : List Zim.Redirect}
      {main plain : Strategy D} {t : CompressionType} {titles : Zim → PyRes PointerList} :
      EditHist S mts c done recent rs → c.arch.isDirty = false → Working S.X S.C t → main.IsNew t → plain.IsNew .none →
      Creator.reopen S titles main plain c.arch.zim.file = .ok c' → EditHist S mts c' done recent rs

end Pyzim
