import Verif.Model.Lookup
import Verif.Spec.Creator

/-!
# What looking entries up by namespace and url should give
-/

namespace Pyzim

/-- The items, redirects and nothing else are found by their namespaces and urls: each item by its own, with its title and
content (and by its url alone if its namespace is `C`), each redirect by those its source consists of; other pairs of a
namespace and an url are not found. -/
structure FoundByUrl {D : Type} (X : Codecs D) (kind : ClusterKind) (calls : Nat) (z : Zim) (items : List Sourced)
    (redirects : List Zim.Redirect) : Prop where
  item : ∀ p ∈ items, ∃ e, z.entryByUrl p.1.ns p.1.url = .ok e ∧ e.ns = p.1.ns ∧ e.url = p.1.url ∧
    e.title = (if p.1.title = "" then p.1.url else p.1.title) ∧ z.readContent X kind calls e = .ok p.2
  content : ∀ p ∈ items, p.1.ns = "C" → ∃ e, z.contentEntryByUrl p.1.url = .ok e ∧ e.ns = "C" ∧ e.url = p.1.url ∧
    z.readContent X kind calls e = .ok p.2
  redirect : ∀ r ∈ redirects, ∀ ns url, ns.length = 1 → r.1 = ns ++ url →
    ∃ e, z.entryByUrl ns url = .ok e ∧ e.isRedirect = true ∧ e.ns = ns ∧ e.url = url
  missing : ∀ ns url, ns.length = 1 → ns ++ url ≠ URL_ARTICLES → (∀ p ∈ items, (p.1.ns, p.1.url) ≠ (ns, url)) →
    (∀ r ∈ redirects, r.1 ≠ ns ++ url) → z.entryByUrl ns url = .error .entryNotFound
  missing_content : ∀ url, (∀ p ∈ items, (p.1.ns, p.1.url) ≠ ("C", url)) → (∀ r ∈ redirects, r.1 ≠ "C" ++ url) →
    z.contentEntryByUrl url = .error .entryNotFound

end Pyzim
