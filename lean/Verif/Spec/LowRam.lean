import Verif.Model.LowRam
import Verif.Spec.ModCluster
import Verif.Spec.Archive

/-!
# Reading an archive with little memory: what is expected
-/

namespace Pyzim

/-- Two open archives show the same: all entries, by every way to ask for them, the articles, the main page, and the contents and
sizes of all entries, if the clusters are of the same class. -/
structure ShowsSame {D : Type} (X : Codecs D) (l : LowRam) (z : Embedded) : Prop where
  header : l.header = z.zim.header
  mimetypes : l.mimetypes = z.zim.mimetypes
  byIndex : ∀ i, l.entryByIndex i = z.entryByIndex i
  byUrl : ∀ u, l.entryByFullUrl u = z.entryByFullUrl u
  has : ∀ u, l.hasEntry u = z.hasEntry u
  mainPage : l.mainpageEntry = z.mainpageEntry
  entries : ∀ start stop, l.iterEntries start stop = z.iterEntries start stop
  articles : ∀ start stop, l.iterArticles start stop = z.iterArticles start stop
  resolved : ∀ follow e, l.resolve follow e = z.resolve follow e
  contents : ∀ kind e start stop, l.readContent X kind e start stop = z.readContent X kind e start stop
  sizes : ∀ kind e, l.contentSize X kind e = z.contentSize X kind e

/-- The list of titles at a url, or at what a redirect there leads to, is in a cluster that is not compressed. -/
def PlainListing (z : Embedded) (follow : Nat) (u : String) : Prop :=
  ∃ e e' c b pos ext blobs, z.entryByFullUrl u = .ok e ∧ z.resolve follow e = .ok e' ∧ e'.kind = .content c b ∧
    z.zim.clusters.getByIndex c = .ok pos ∧ Holds z.zim.file (z.base + pos.toNat) (plainBytes ext blobs) ∧
    PlainFits ext blobs ∧ b < blobs.length

end Pyzim
