import Verif.Model.Embedded

/-! Two archives that cannot be told apart by reading them. -/

namespace Pyzim

/-- All calls that read have the same result, whether a value or an exception: looking up entries by index and by url,
the lists of titles, the main page, listing the entries and the articles, following redirects, and reading content, completely, in part, and
piece by piece. -/
structure ReadsAlike {D : Type} (X : Codecs D) (kind : ClusterKind) (calls : Nat) (e : Embedded) (z : Zim) : Prop where
  header : e.zim.header = z.header
  mimetypes : e.zim.mimetypes = z.mimetypes
  titleList : e.zim.titles = z.titles
  articleList : e.zim.articles = z.articles
  byIndex : ∀ i, e.entryByIndex i = z.entryByIndex i
  byUrl : ∀ u, e.entryByFullUrl u = z.entryByFullUrl u
  has : ∀ u, e.hasEntry u = z.hasEntry u
  mainpage : e.mainpageEntry = z.mainpageEntry
  entries : ∀ a b, e.iterEntries a b = z.iterEntries a b
  articles : ∀ a b, e.iterArticles a b = z.iterArticles a b
  resolve : ∀ n x, e.resolve n x = z.resolve n x
  size : ∀ x, e.contentSize X kind x = z.contentSize X kind calls x
  read : ∀ x a b, e.readContent X kind x a b = z.readContent X kind calls x a b
  pieces : ∀ x bs a b n, e.iterContent X kind x bs a b n = z.iterContent X kind calls x bs a b n

end Pyzim
