import Verif.Model.Creator
import Verif.Spec.Strategy
import Verif.Spec.Checksum
import Verif.Spec.OperationBuffer
import Verif.Props.Item

/-!
# Specification vocabulary for filling an archive with items
-/

namespace Pyzim
variable {D K : Type}

/-- What is assumed of the surroundings of an archive: the md5 object computes `md5`, reads of the file deliver something,
uncompressed data is stored as it is, the policy reserves `reserve` bytes for the mimetype list, and the loop over buffered
operations may turn once. -/
structure Setup.Good (S : Setup D K) (md5 : Bytes → Bytes) (reserve : Option Nat) : Prop where
  hasher : S.H.Computes md5
  short : Delivering S.short
  chunksize : 0 < S.chunksize
  policy : S.policy.reserveMimetypeSpace = reserve
  passes : 0 < S.passes
  plain : Working S.X S.C .none
  passthrough : Passthrough S.X S.C

/-- A new strategy, of either kind, for a type of compression. -/
def Strategy.IsNew (t : CompressionType) (s : Strategy D) : Prop :=
  ∃ maxSize, s = .simple (Simple.new t maxSize) ∨ s = .byMimetype { compressionType := t, maxSize := maxSize }

/-- the full url of an item -/
def Item.fullUrl (it : Item) : String := it.ns ++ it.url

/-- An item that can be added: it has the form that the constructor and the setters ensure, its content is delivered, and
only items in the namespace `C` are articles. -/
def Item.Admissible (p : Sourced) : Prop := p.1.Valid ∧ Storable p

/-- Apply `f` to the last element for which `has` is true, if there is one. -/
def replaceLast {α : Type} (has : α → Bool) (f : α → α) : List α → List α
  | [] => []
  | x :: xs => if xs.any has then x :: replaceLast has f xs else (if has x then f x else x) :: xs

/-- The item, with another content if it has the given full url. -/
def withContent (u : String) (src : BlobSource) (content : Bytes) (p : Sourced) : Sourced :=
  if p.1.fullUrl = u then ({ p.1 with source := src }, content) else p

/-- The lists of items after the content of the item with the full url `u` was set: earlier items with the same full url
(which it replaced) stay as they are. -/
def setContentIn (u : String) (src : BlobSource) (content : Bytes) (lists : List (List Sourced)) : List (List Sourced) :=
  replaceLast (fun l => l.any fun p => p.1.fullUrl = u) (fun l => l.map (withContent u src content)) lists

/-- A history of an archive: it is created, items (to be compressed or not) and redirects are added, contents of items that
were added before the last flush are set, it is flushed, and it is opened again after a flush; every call succeeds. `done` are the items that were added before the last flush, one list for
each flush; `recent` are those added since; `redirects` are all redirects that were added. Redirects are only added if there
are unsaved changes then. (There are if the target of the redirect exists; but a redirect that has to wait for its target is
no unsaved change itself.) -/
inductive CreatorHist (S : Setup D K) : Creator D → (done : List (List Sourced)) → (recent : List Sourced) →
    (redirects : List Zim.Redirect) → Prop
  | new {uuid : Bytes} {main plain : Strategy D} {t : CompressionType} {c : Creator D} :
      uuid.length = 16 → Working S.X S.C t → main.IsNew t → plain.IsNew .none → Creator.new S uuid main plain = .ok c →
      CreatorHist S c [] [] []
  | add {c c' : Creator D} {done : List (List Sourced)} {recent : List Sourced} {rs : List Zim.Redirect} {p : Sourced}
      {forceUncompressed : Bool} :
      CreatorHist S c done recent rs → Item.Admissible p → Creator.addItem S p.1 forceUncompressed c = (.ok (), c') →
      CreatorHist S c' done (recent ++ [p]) rs
  | redirect {c c' : Creator D} {done : List (List Sourced)} {recent : List Sourced} {rs : List Zim.Redirect}
      {r : Zim.Redirect} :
      CreatorHist S c done recent rs → r.Valid → Creator.addFullUrlRedirect S r.1 r.2.1 r.2.2 c = (.ok (), c') →
      c'.arch.isDirty = true → CreatorHist S c' done recent (rs ++ [r])
  | set {c c' : Creator D} {done : List (List Sourced)} {recent : List Sourced} {rs : List Zim.Redirect} {u : String}
      {src : BlobSource} {content : Bytes} :
      CreatorHist S c done recent rs → Replaceable S.X S.C → (∀ l ∈ done, NotHuge l) → u ≠ URL_ARTICLES →
      (∀ p ∈ recent, p.1.fullUrl ≠ u) → Delivers src content → Creator.setContent S u src c = (.ok (), c') →
      CreatorHist S c' (setContentIn u src content done) recent rs
  | flush {c c' : Creator D} {done : List (List Sourced)} {recent : List Sourced} {rs : List Zim.Redirect} :
      CreatorHist S c done recent rs → Creator.flush S c = (.ok (), c') → CreatorHist S c' (done ++ [recent]) [] rs
  | reopen {c c' : Creator D} {done : List (List Sourced)} {recent : List Sourced} {rs : List Zim.Redirect}
      {main plain : Strategy D} {t : CompressionType} {titles : Zim → PyRes PointerList} :
      CreatorHist S c done recent rs → c.arch.isDirty = false → Working S.X S.C t → main.IsNew t → plain.IsNew .none →
      Creator.reopen S titles main plain c.arch.zim.file = .ok c' → CreatorHist S c' done recent rs

/-- What happens to an archive without flushing it: items and redirects are added to `c0`; every call succeeds. -/
inductive AddedTo (S : Setup D K) (c0 : Creator D) : Creator D → (items : List Sourced) → (redirects : List Zim.Redirect) →
    Prop
  | start : AddedTo S c0 c0 [] []
  | add {c c' : Creator D} {items : List Sourced} {rs : List Zim.Redirect} {p : Sourced} {forceUncompressed : Bool} :
      AddedTo S c0 c items rs → Item.Admissible p → Creator.addItem S p.1 forceUncompressed c = (.ok (), c') →
      AddedTo S c0 c' (items ++ [p]) rs
  | redirect {c c' : Creator D} {items : List Sourced} {rs : List Zim.Redirect} {r : Zim.Redirect} :
      AddedTo S c0 c items rs → r.Valid → Creator.addFullUrlRedirect S r.1 r.2.1 r.2.2 c = (.ok (), c') →
      c'.arch.isDirty = true → AddedTo S c0 c' items (rs ++ [r])

/-- The sources of the redirects differ from each other, from the full urls of the items and from that of the list of
articles. -/
structure Apart (redirects : List Zim.Redirect) (lists : List (List Sourced)) : Prop where
  nodup : (redirects.map fun r => r.1).Nodup
  articles : ∀ r ∈ redirects, r.1 ≠ URL_ARTICLES
  items : ∀ r ∈ redirects, ∀ l ∈ lists, ∀ p ∈ l, p.1.fullUrl ≠ r.1

/-- The items an archive should have after the given lists of items were added, one list after the other: an item replaces
earlier ones with the same full url. -/
def current (lists : List (List Sourced)) : List Sourced :=
  lists.foldl (fun items l => items.filter (fun p => l.all fun q => q.1.fullUrl ≠ p.1.fullUrl) ++ l) []

/-- The archive shows exactly the items and the redirects (and the entry for the list of articles): each item is found by
its full url, with its title, mimetype, size and content, each redirect by its source, with the title it was given; other
urls are not found; iterating over the entries yields each of them once, and iterating over the articles yields exactly the
items which are articles, in the order of their titles. -/
structure ShowsItems (X : Codecs D) (kind : ClusterKind) (calls : Nat) (z : Zim) (items : List Sourced)
    (redirects : List Zim.Redirect) : Prop where
  item : ∀ p ∈ items, ∃ e, z.entryByFullUrl p.1.fullUrl = .ok e ∧ e.ns = p.1.ns ∧ e.url = p.1.url ∧
    e.title = (if p.1.title = "" then p.1.url else p.1.title) ∧
    z.mimetypes.get e.mimetypeId = .ok (encode p.1.mimetype) ∧
    z.contentSize X kind calls e = .ok (p.2.length : Int) ∧ z.readContent X kind calls e = .ok p.2
  redirect : ∀ r ∈ redirects, ∃ e, z.entryByFullUrl r.1 = .ok e ∧ e.isRedirect = true ∧ e.fullUrl = r.1 ∧
    ∀ t, r.2.2 = some t → e.title = if t = "" then e.url else t
  missing : ∀ u, u ≠ URL_ARTICLES → (∀ p ∈ items, p.1.fullUrl ≠ u) → (∀ r ∈ redirects, r.1 ≠ u) →
    z.entryByFullUrl u = .error .entryNotFound
  entries : ∃ es, z.iterEntries = .ok es ∧
    (es.map Entry.fullUrl).Perm (URL_ARTICLES :: ((items.map fun p => p.1.fullUrl) ++ redirects.map fun r => r.1))
  articles : ∃ es, z.iterArticles = .ok es ∧
    (es.map Entry.fullUrl).Perm ((items.filter fun p => p.1.isArticle).map fun p => p.1.fullUrl) ∧
    es.Pairwise (fun d e => encode d.title ≤ encode e.title)

end Pyzim
