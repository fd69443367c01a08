import Verif.Model.Strategy
import Verif.Spec.ModCluster
import Verif.Props.Cluster
import Batteries.Data.List.Basic

/-!
# Specification vocabulary for the compression strategies
-/

namespace Pyzim

/-- An item with the content its source delivers. -/
abbrev Sourced := Item × Bytes

/-- The bytes are those of a cluster with the given blobs: wherever they are put into a file, with
other data behind them, any kind of cluster object reads these blobs from there, whatever was read
with it before. -/
def HoldsBlobs {D : Type} (X : Codecs D) (bytes : Bytes) (blobs : List Bytes) : Prop :=
  ∀ (file : Bytes) (o : Nat) (rest : Bytes), rest ≠ [] → file.drop o = bytes ++ rest →
    ∀ s, Cluster.Reached X file o s →
      (Cluster.getNumberOfBlobs X s).1 = .ok (blobs.length : Int) ∧
      ∀ i (hi : i < blobs.length), Cluster.Gives X s i blobs[i]

/-- The entry has the values of the item and refers to the given blob. -/
structure EntryFor (mts : MimeTypeList) (it : Item) (cluster blob : Nat) (e : Entry) : Prop where
  ns : e.ns = it.ns
  url : e.url = it.url
  title : e.titleRaw = some it.title
  article : ∀ lookup, e.isArticle lookup = .ok it.isArticle
  mimetype : mts.get e.mimetypeId = .ok (encode it.mimetype)
  location : e.kind = .content cluster blob

/-- The decompressed size of a cluster with these blobs: the offset table (one offset more than
blobs, of 4 bytes each, or of 8 if the data needs it) and the blobs. -/
def clusterSize (g : List Sourced) : Nat :=
  let content := (g.map fun p => p.2.length).sum
  (if 2 ^ 32 ≤ 4 * (g.length + 1) + content then 8 else 4) * (g.length + 1) + content

/-- How items are distributed to clusters of a maximal size: the finished clusters and the one being
filled. -/
def distribute (maxSize : Int) (items : List Sourced) : List (List Sourced) × List Sourced :=
  items.foldl (init := ([], [])) fun st p =>
    if st.2 ≠ [] ∧ maxSize < (clusterSize st.2 : Int) + p.2.length then (st.1 ++ [st.2], [p])
    else (st.1, st.2 ++ [p])

/-- All clusters, the last one included. -/
def clustersOf (maxSize : Int) (items : List Sourced) : List (List Sourced) :=
  let r := distribute maxSize items
  if r.2 = [] then r.1 else r.1 ++ [r.2]

/-- Items with their cluster number and blob number. -/
def slots (base : Nat) : List (List Sourced) → List (Item × Nat × Nat)
  | [] => []
  | g :: gs => (g.zipIdx.map fun p => (p.1.1, base, p.2)) ++ slots (base + 1) gs

/-- The bytes are those of a cluster with the given blobs, written with a compressor of type `t`: an information byte, and
what the compressor makes of the body of the cluster. -/
def WrittenAs {K : Type} (C : Compressors K) (t : CompressionType) (bytes : Bytes) (blobs : List Bytes) : Prop :=
  ∃ ext info k chunks out, Cluster.generateInfobyte t ext = .ok info ∧ C.new t = .ok k ∧ Compresses C k chunks out ∧
    chunks.flatten = clusterBody (if ext then 8 else 4) blobs ∧ PlainFits ext blobs ∧ bytes = info ++ out

/-- The cluster has these blobs, at least one: they are read from it, and it was written by the compressor of a known
type. -/
def HasBlobs {D K : Type} (X : Codecs D) (C : Compressors K) (bytes : Bytes) (blobs : List Bytes) : Prop :=
  HoldsBlobs X bytes blobs ∧ blobs ≠ [] ∧ ∃ t, t ≠ .unknown ∧ WrittenAs C t bytes blobs

/-- Going from `z` to `z'`, exactly one cluster was written for each group of items, in this order,
and one entry for each item, referring to the place of its content. -/
def Wrote {D K : Type} (X : Codecs D) (C : Compressors K) (groups : List (List Sourced)) (z z' : ZimLog) : Prop :=
  ∃ cs es, z'.clusters = z.clusters ++ cs ∧ z'.entries = z.entries ++ es ∧
    List.Forall₂ (fun g b => HasBlobs X C b (g.map Prod.snd)) groups cs ∧
    List.Forall₂ (fun s e => EntryFor z'.mts s.1 s.2.1 s.2.2 e) (slots z.clusters.length groups) es

/-- Going from `z` to `z'`, every item was stored exactly once: there is one new entry for each item,
with the item's values, referring to a blob in a new cluster that has the item's content; no two
entries refer to the same blob, and every blob of every new cluster belongs to an entry. Nothing
written before is changed. -/
def StoredOnce {D : Type} (X : Codecs D) (items : List Sourced) (z z' : ZimLog) : Prop :=
  ∃ (stored : List Sourced) (cs : List Bytes) (blobs : List (List Bytes)) (es : List Entry),
    stored.Perm items ∧ z'.clusters = z.clusters ++ cs ∧ z'.entries = z.entries ++ es ∧
    List.Forall₂ (HoldsBlobs X) cs blobs ∧
    List.Forall₂ (fun p e => ∃ c b contents, EntryFor z'.mts p.1 (z.clusters.length + c) b e ∧
      blobs[c]? = some contents ∧ contents[b]? = some p.2) stored es ∧
    (es.map Entry.kind).Nodup ∧
    ∀ c contents, blobs[c]? = some contents → ∀ b < contents.length,
      ∃ e ∈ es, e.kind = .content (z.clusters.length + c) b

/-- The items can be stored at all: their sources deliver their content, articles are in namespace
`C`. -/
def Storable (p : Sourced) : Prop :=
  Delivers p.1.source p.2 ∧ (p.1.isArticle = true → p.1.ns = "C")

/-- The compressor in use: it works, and it is lossless. -/
structure Working {D K : Type} (X : Codecs D) (C : Compressors K) (t : CompressionType) : Prop where
  known : t ≠ .unknown
  works : ∃ k, C.new t = .ok k ∧ ∀ cs, ∃ out, Compresses C k cs out
  lossless : Lossless X C t

/-- All cluster offsets fit into 64 bits. -/
def NotHuge (items : List Sourced) : Prop :=
  8 * (items.length + 1) + (items.map fun p => p.2.length).sum < 2 ^ 64

namespace Simple

/-- Add the items one after the other, then flush. -/
def addAll {D K : Type} (X : Codecs D) (C : Compressors K) : List Item → PyM (Simple D × ZimLog) Unit
  | [] => Simple.flush X C
  | it :: rest => do
    Simple.addItem X C it
    addAll X C rest

end Simple

namespace ByMimetype

/-- Add the items one after the other, then flush. -/
def addAll {D K : Type} (X : Codecs D) (C : Compressors K) : List Item → PyM (ByMimetype D × ZimLog) Unit
  | [] => ByMimetype.flush X C
  | it :: rest => do
    ByMimetype.addItem X C it
    addAll X C rest

end ByMimetype
end Pyzim
