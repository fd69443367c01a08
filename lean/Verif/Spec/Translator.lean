import Verif.Model.Translator

/-!
# What a translated archive is expected to get
-/

namespace Pyzim

/-- pyzim creates these itself: the title listings and the mimetype counter. -/
def CreatedByPyzim (e : Entry) : Prop :=
  e.ns ++ e.url ∈ ["Xlisting/titleOrdered/v0", "Xlisting/titleOrdered/v1", "MCounter"] ∧
    ∃ c b, e.kind = .content c b

/-- The item has everything of the content entry `e` of the archive `inp`. -/
structure ItemFor (inp : TransInput) (e : Entry) (it : Item) : Prop where
  ns : it.ns = e.ns
  url : it.url = e.url
  title : it.title = e.title
  mimetype : (inp.mimetypes.mimetypes)[e.mimetypeId]? = some (encode it.mimetype)
  content : it.source = inp.source e
  article : it.isArticle = (decide (e.ns = "C") && inp.article e.oldFullUrl)

/-- The call copies the entry: a redirect to the same full url, or an item with the same content. -/
def CopiedBy (inp : TransInput) (e : Entry) : TransCall → Prop
  | .addItem it => (∃ c b, e.kind = .content c b) ∧ ItemFor inp e it
  | .addRedirect source target title => source = e.ns ++ e.url ∧
      (∃ i t, e.kind = .redirect i ∧ inp.entries[i]? = some t ∧ target = t.ns ++ t.url) ∧
      title.getD e.url = e.title
  | _ => False

/-- After a redirect there are only redirects. -/
def RedirectsLast (entries : List Entry) : Prop :=
  entries.Pairwise fun a b => (∃ i, a.kind = .redirect i) → ∃ i, b.kind = .redirect i

/-- Entries as they are read from a well-formed archive: pairwise different urls, attributes that
can be written, mimetypes that exist and redirects that lead to entries. -/
structure TransInput.WellFormed (inp : TransInput) : Prop where
  urls : (inp.entries.map fun e => e.ns ++ e.url).Nodup
  kind : ∀ e ∈ inp.entries,
    e.isRedirect = (match e.kind with | .content _ _ => false | .redirect _ => true)
  ns : ∀ e ∈ inp.entries, (encode e.ns).length = 1
  url : ∀ e ∈ inp.entries, e.url.length ≠ 0 ∧ (0 : UInt8) ∉ encode e.url
  title : ∀ e ∈ inp.entries, (0 : UInt8) ∉ encode e.title
  read : ∀ e ∈ inp.entries, e.forceIsArticle = none
  mimetype : ∀ e ∈ inp.entries, ∀ c b, e.kind = .content c b →
    ∃ mt, mt ≠ "" ∧ (0 : UInt8) ∉ encode mt ∧
      inp.mimetypes.mimetypes[e.mimetypeId]? = some (encode mt)
  target : ∀ e ∈ inp.entries, ∀ i, e.kind = .redirect i → ∃ t, inp.entries[i]? = some t

/-- The main page of the archive is the content entry `e`, possibly by way of redirects. -/
def TransInput.MainPage (inp : TransInput) (e : Entry) : Prop :=
  ∃ i m n, inp.mainPage = some i ∧ inp.entries[i]? = some m ∧ n ≤ inp.entries.length ∧
    Leads inp.entries n m e ∧ ∃ c b, e.kind = .content c b
where
  /-- `e` is reached from `m` by following `n` redirects. -/
  Leads (entries : List Entry) : Nat → Entry → Entry → Prop
    | 0, m, e => m = e
    | n + 1, m, e => ∃ i t, m.kind = .redirect i ∧ entries[i]? = some t ∧ Leads entries n t e

end Pyzim
