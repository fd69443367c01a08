import Verif.Spec.Translator
import Verif.Spec.Creator

/-!
# What a translated copy of an archive is expected to show
-/

namespace Pyzim
variable {D : Type}

/-- Archives that can be copied. `content` are the contents of the entries. If there is an entry "WmainPage", it is a redirect,
and the list of articles is none; redirects lead to other entries, which come before "WmainPage" in the order of urls; the
sizes are within the limits of the format. -/
structure TransInput.Copyable (inp : TransInput) (content : Entry → Bytes) : Prop where
  wellFormed : inp.WellFormed
  delivers : ∀ e ∈ inp.entries, ∀ c b, e.kind = .content c b → Delivers (inp.source e) (content e)
  redirects : ∃ e ∈ inp.entries, ∃ i, e.kind = .redirect i
  mainRedirect : ∀ e ∈ inp.entries, e.ns ++ e.url = "WmainPage" → ∃ i, e.kind = .redirect i
  listing : ∀ e ∈ inp.entries, ∀ i, e.kind = .redirect i → e.ns ++ e.url ≠ "Xlisting/titleOrdered/v1"
  targets : ∀ e ∈ inp.entries, ∀ i t, e.kind = .redirect i → inp.entries[i]? = some t →
    t.ns ++ t.url ≠ e.ns ++ e.url ∧ encode (t.ns ++ t.url) < encode "WmainPage"
  mimetypes : inp.mimetypes.mimetypes.length < 65534
  size : 8 * (inp.entries.length + 1) + (inp.entries.map fun e => (content e).length).sum < 2 ^ 64

/-- The archive `z` shows what the archive `inp` has: each entry that is not created by pyzim itself is found by its full
url, content with its title, mimetype, size and content, redirects as redirects to the same full url (except for
"WmainPage", the redirect to the main page); nothing else is found, except for the list of articles and the redirect to the
main page; and the articles are the same. -/
structure IsCopy (X : Codecs D) (kind : ClusterKind) (calls : Nat) (inp : TransInput) (content : Entry → Bytes) (z : Zim) :
    Prop where
  contents : ∀ e ∈ inp.entries, ∀ c b, e.kind = .content c b → ¬ CreatedByPyzim e →
    ∃ e' mt, z.entryByFullUrl (e.ns ++ e.url) = .ok e' ∧ e'.ns = e.ns ∧ e'.url = e.url ∧ e'.title = e.title ∧
      inp.mimetypes.mimetypes[e.mimetypeId]? = some mt ∧ z.mimetypes.get e'.mimetypeId = .ok mt ∧
      z.contentSize X kind calls e' = .ok ((content e).length : Int) ∧ z.readContent X kind calls e' = .ok (content e)
  redirects : ∀ e ∈ inp.entries, ∀ i t, e.kind = .redirect i → inp.entries[i]? = some t → e.ns ++ e.url ≠ "WmainPage" →
    ∃ e' j t', z.entryByFullUrl (e.ns ++ e.url) = .ok e' ∧ e'.isRedirect = true ∧ e'.kind = .redirect j ∧
      z.entryByIndex j = .ok t' ∧ t'.fullUrl = t.ns ++ t.url
  others : ∀ u, u ≠ "Xlisting/titleOrdered/v1" → u ≠ "WmainPage" →
    (∀ e ∈ inp.entries, e.ns ++ e.url = u → CreatedByPyzim e) → z.entryByFullUrl u = .error .entryNotFound
  articles : ∃ es, z.iterArticles = .ok es ∧
    (es.map Entry.fullUrl).Perm ((inp.entries.filter fun e => !e.isRedirect && e.ns = "C" && inp.article e.oldFullUrl).map
      fun e => e.ns ++ e.url)

/-- The redirects have the titles they had, except for that to the main page. -/
def SameTitles (inp : TransInput) (z : Zim) : Prop :=
  ∀ e ∈ inp.entries, ∀ i, e.kind = .redirect i → e.ns ++ e.url ≠ "WmainPage" → ∃ e', z.entryByFullUrl (e.ns ++ e.url) = .ok e' ∧ e'.title = e.title

end Pyzim
