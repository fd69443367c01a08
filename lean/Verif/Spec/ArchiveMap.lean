import Verif.Spec.Archive

/-!
# Specification of an archive as a map

What a user of an archive sees through its methods, and what the operations should do to it. Nothing in this file
depends on how entries are stored.
-/

namespace Pyzim

/-- The kind of an entry. Where a redirect leads to is treated separately (`Zim.Leads`). -/
inductive Body where
  | content (cluster blob : Nat)
  | redirect
deriving DecidableEq

/-- All that a reader sees of an entry. -/
structure View where
  ns : String
  url : String
  title : String
  mimetype : Nat
  body : Body
deriving DecidableEq

/-- what a reader sees of the entry `e` -/
def Entry.view (e : Entry) : View where
  ns := e.ns
  url := e.url
  title := e.title
  mimetype := e.mimetypeId
  body := match e.kind with
    | .content c b => .content c b
    | .redirect _ => .redirect

/-- a catalogue: what is stored under each full url -/
abbrev Catalogue := String → Option View

/-- `m` after writing `e`, which was known as `old` before -/
def Catalogue.write (m : Catalogue) (e : Entry) (old : Option String) : Catalogue := fun u =>
  if u = e.fullUrl then some e.view else if some u = old then none else m u

/-- `m` without the entries in `D` -/
noncomputable def Catalogue.without (m : Catalogue) (D : String → Prop) : Catalogue := fun u =>
  open Classical in if D u then none else m u

namespace Zim

/-- A well-formed open archive. -/
def Ready (z : Zim) : Prop := ∃ rows other, Rep z rows other

/-- The archive shows exactly the catalogue `m`: looking up a url yields what `m` contains, or `EntryNotFound`;
iterating yields every entry of `m` exactly once, in the order of the urls; the number of entries is right. -/
structure Shows (z : Zim) (m : Catalogue) : Prop where
  found : ∀ u v, m u = some v → ∃ e, z.entryByFullUrl u = .ok e ∧ e.fullUrl = u ∧ e.view = v
  missing : ∀ u, m u = none → z.entryByFullUrl u = .error .entryNotFound
  has : ∀ u, z.hasEntry u = .ok (m u).isSome
  iter : ∃ es, z.iterEntries = .ok es ∧ es.Pairwise (fun d e => encode d.fullUrl < encode e.fullUrl) ∧
    (∀ u v, m u = some v ↔ ∃ e ∈ es, e.fullUrl = u ∧ e.view = v) ∧ z.urls.len = es.length

/-- the entry `s` is a redirect leading to the entry `t` -/
def Leads (z : Zim) (s t : String) : Prop :=
  ∃ e i e', z.entryByFullUrl s = .ok e ∧ e.fullUrl = s ∧ e.kind = .redirect i ∧ z.entryByIndex i = .ok e' ∧ e'.fullUrl = t

/-- following redirects from `s` may lead to `u` -/
inductive Reaches (z : Zim) (u : String) : String → Prop
  | refl : Reaches z u u
  | step {s t : String} : Leads z s t → Reaches z u t → Reaches z u s

/-- the main page of the archive is the entry `w` -/
def MainPage (z : Zim) (w : String) : Prop := ∃ e, z.mainpageEntry = .ok e ∧ e.fullUrl = w

/-- The articles of the archive are exactly the entries in `S`: iterating over the articles yields each of them once,
in the order of the titles. -/
structure Articles (z : Zim) (S : String → Prop) : Prop where
  iter : ∃ es, z.iterArticles = .ok es ∧ (es.map Entry.fullUrl).Nodup ∧ (∀ u, S u ↔ ∃ e ∈ es, e.fullUrl = u) ∧
    es.Pairwise (fun d e => encode d.title ≤ encode e.title) ∧ z.articles.len = es.length
  asked : ∀ url, ∃ b, z.entryIsArticle ("C" ++ url) = .ok b ∧ (b = true ↔ S ("C" ++ url))

/-- `write_entry` is called as intended: an entry is not renamed to the url of another one. -/
structure Accepts (z : Zim) (e : Entry) : Prop where
  proper : e.Proper
  url : z.hasEntry e.fullUrl = .ok true → e.oldFullUrl = some e.fullUrl

/-- `e` marks its entry as an article, in an archive with articles `S` -/
def MarksArticle (e : Entry) (S : String → Prop) : Prop :=
  match e.forceIsArticle with
  | some b => b = true
  | none => e.ns = "C" ∧ ∃ u, e.oldFullUrl = some u ∧ S u

/-- What is done to the blob of a removed entry leaves the entries alone. -/
def Quiet (blob : Entry → PyM Zim Unit) (z : Zim) : Prop :=
  ∀ e z1 rows other, Rep z rows other → blob e z = (.ok (), z1) →
    ∃ other1, Rep z1 rows other1 ∧ z1.articles = z.articles ∧ z1.header.mainPage = z.header.mainPage

/-- A history of successful calls of `write_entry` and `remove_entry_by_full_url` that leads from `z0`, showing `m0`,
to `z`, and the catalogue which is to be shown then. -/
inductive Hist (z0 : Zim) (m0 : Catalogue) : Zim → Catalogue → Prop
  | start : Hist z0 m0 z0 m0
  | write {z z' : Zim} {m : Catalogue} {e e' : Entry} {d : Nat} {upd att : Bool} : Hist z0 m0 z m → Accepts z e →
      writeEntry d e upd att z = (.ok e', z') → Hist z0 m0 z' (m.write e e.oldFullUrl)
  | remove {z z' : Zim} {m : Catalogue} {u : String} {bd blob : Entry → PyM Zim Unit} {d : Nat} : Hist z0 m0 z m →
      Quiet blob z → removeEntry bd d blob u z = (.ok (), z') → Hist z0 m0 z' (m.without (Reaches z u))

/-- A well-formed open archive whose articles are exactly the entries in `S`. -/
def ReadyWith (z : Zim) (S : String → Prop) : Prop := ∃ rows other, Rep z rows other ∧ Art z.articles rows S

/-- the articles `S` after writing `e`, which was known as `old` before -/
def articlesAfter (S : String → Prop) (e : Entry) (attach : Bool) : String → Prop := fun u =>
  (S u ∧ u ≠ e.fullUrl ∧ some u ≠ e.oldFullUrl) ∨ (u = e.fullUrl ∧ attach = true ∧ MarksArticle e S)

/-- A history of successful calls of `write_entry` and `remove_entry_by_full_url`, and the articles there are to be
then. `allowed` tells which removals are allowed. -/
inductive ArticleHist (allowed : Zim → (String → Prop) → String → Prop) (z0 : Zim) (S0 : String → Prop) :
    Zim → (String → Prop) → Prop
  | start : ArticleHist allowed z0 S0 z0 S0
  | write {z z' : Zim} {S : String → Prop} {e e' : Entry} {d : Nat} {upd att : Bool} : ArticleHist allowed z0 S0 z S →
      Accepts z e → writeEntry d e upd att z = (.ok e', z') → ArticleHist allowed z0 S0 z' (articlesAfter S e att)
  | remove {z z' : Zim} {S : String → Prop} {u : String} {bd blob : Entry → PyM Zim Unit} {d : Nat} :
      ArticleHist allowed z0 S0 z S → allowed z S u → Quiet blob z → removeEntry bd d blob u z = (.ok (), z') →
      ArticleHist allowed z0 S0 z' (fun w => S w ∧ ¬ Reaches z u w)

end Zim
end Pyzim

namespace Pyzim
namespace Zim

/-- A well-formed archive with the articles `S`, in which every redirect leads to an entry, the first `L` bytes of the
file are used for other things than entries, and there are less than `L` entries. -/
def Roomy (z : Zim) (S : String → Prop) (L : Nat) : Prop :=
  ∃ rows other, Rep z rows other ∧ Art z.articles rows S ∧ (∀ x, x < L → other x) ∧ rows.length < L ∧ L ≤ 2 ^ 32 ∧
    ∀ r ∈ rows, ∀ i, r.2.kind = .redirect i → i < rows.length

end Zim
end Pyzim
