import Verif.Model.Load
import Verif.Spec.Clusters

/-!
# Specification vocabulary for the layout of the file
-/

namespace Pyzim
namespace Archive
open SpaceAllocator (InBlock)
open Zim (Row Stored Clustered Works)

/-- the piece of the file set aside for the mimetype list, as position and length -/
def mimePiece (reserve : Option Nat) (a : Archive) : Block :=
  match reserve with
  | some r => (80, r)
  | none => (a.zim.header.mimeListPosition, a.mimeSize)

/-- The pieces of the file for the header, the mimetype list, the url pointer list and the cluster pointer list, as they
were last written. -/
def fixed (reserve : Option Nat) (a : Archive) : List Block :=
  [(0, 80), a.mimePiece reserve, (a.zim.header.urlPointerPosition, a.urlSize),
    (a.zim.header.clusterPointerPosition, a.clusterSize)]

/-- Without reserved space there is a mimetype; an empty list takes two bytes of reserved space. -/
def Room (reserve : Option Nat) (m : MimeTypeList) : Prop :=
  match reserve with
  | none => m.mimetypes ≠ []
  | some r => 2 ≤ r

/-- where the mimetype list, as the bytes `b`, is in the file -/
def Placed (reserve : Option Nat) (position size : Nat) (b : Bytes) : Prop :=
  match reserve with
  | none => size = b.length
  | some r => position = 80 ∧ b.length ≤ r

/-- An archive (with the given entries and clusters, and `extra` further bytes in use) whose parts have their own pieces
of the file. A part that is not marked as to be written is in the file. -/
structure Parts (reserve : Option Nat) (a : Archive) (rows : List Row) (cs : List Stored) (extra : Nat → Prop) : Prop where
  content : Clustered a.zim rows cs (fun x => extra x ∨ ∃ p ∈ a.fixed reserve, InBlock p x)
  disjoint : (a.fixed reserve).Pairwise (fun p q => ∀ x, InBlock p x → ¬ InBlock q x)
  apart : ∀ p ∈ a.fixed reserve, ∀ x, InBlock p x → ¬ extra x
  room : Room reserve a.zim.mimetypes
  version : 6 < a.zim.header.majorVersion ∨ (a.zim.header.majorVersion = 6 ∧ 3 ≤ a.zim.header.minorVersion)
  listable : ∀ m ∈ a.zim.mimetypes.mimetypes, m ≠ [] ∧ (0 : UInt8) ∉ m
  header : a.zim.header.dirty = false → ∃ b, a.zim.header.toBytes = .ok b ∧ Holds a.zim.file 0 b
  mimetypes : a.zim.mimetypes.dirty = false →
    Holds a.zim.file a.zim.header.mimeListPosition a.zim.mimetypes.toBytes ∧
    Placed reserve a.zim.header.mimeListPosition a.mimeSize a.zim.mimetypes.toBytes
  urls : a.zim.urls.dirty = false → ∃ b, a.zim.urls.toBytes 8 = .ok b ∧
    Holds a.zim.file a.zim.header.urlPointerPosition b ∧ a.zim.header.entryCount = a.zim.urls.len ∧
    a.urlSize = 8 * a.zim.urls.len
  clusters : a.zim.clusters.dirty = false → ∃ b, a.zim.clusters.toBytes 8 = .ok b ∧
    Holds a.zim.file a.zim.header.clusterPointerPosition b ∧ a.zim.header.clusterCount = a.zim.clusters.len ∧
    a.clusterSize = 8 * a.zim.clusters.len

/-- Moreover, unless there is something to write, the file ends with the checksum. -/
structure Laid (reserve : Option Nat) (a : Archive) (rows : List Row) (cs : List Stored) (extra : Nat → Prop) : Prop
    extends Parts reserve a rows cs extra where
  ends : a.zim.header.dirty = false → a.zim.mimetypes.dirty = false → a.zim.urls.dirty = false →
    a.zim.clusters.dirty = false → a.zim.header.checksumPosition = a.zim.space.fileEnd ∧
      a.zim.file.length = a.zim.space.fileEnd + 16

/-- What is assumed of the parts of `flush` that are parameters: executing the buffered operations and flushing the
compression strategies (`content`) and setting the content of the article title list (`setContent`) write clusters and
entries, register mimetypes and so on. -/
structure Contents {K : Type} (O : ClusterOps K) (content : PyM Zim Unit) (setContent : Bytes → PyM Zim Unit)
    (a : Archive) (cs cs' : List Stored) : Prop where
  works : a.isDirty = true → ∃ z1 cs1 z2, content a.zim = (.ok (), z1) ∧ Works O a.zim cs z1 cs1 ∧
    (z1.articles.dirty = true → ∃ b, z1.articles.toBytes 4 = .ok b ∧ setContent b z1 = (.ok (), z2) ∧
      Works O z1 cs1 z2 cs') ∧
    (z1.articles.dirty = false → cs' = cs1)
  clean : a.isDirty = false → cs' = cs

/-- The surroundings of an archive: the hash function, how it is read, and the policy. -/
structure Env where
  hasher : Hasher
  short : Nat → Nat → Nat
  chunksize : Nat
  policy : FlushPolicy

/-- A history of modifications and successful flushes of an archive, beginning with `a` and its clusters `cs`; the
archive may also be opened again after a flush. -/
inductive LayoutHist {K : Type} (O : ClusterOps K) (E : Env) (a : Archive) (cs : List Stored) :
    Archive → List Stored → Prop
  | start : LayoutHist O E a cs a cs
  | work {a1 : Archive} {z2 : Zim} {cs1 cs2 : List Stored} :
      LayoutHist O E a cs a1 cs1 → Works O a1.zim cs1 z2 cs2 → LayoutHist O E a cs { a1 with zim := z2 } cs2
  | touch {a1 : Archive} {cs1 : List Stored} :
      LayoutHist O E a cs a1 cs1 → LayoutHist O E a cs { a1 with dirty := true } cs1
  | flush {a1 a2 : Archive} {cs1 cs2 : List Stored} {content : PyM Zim Unit} {setContent : Bytes → PyM Zim Unit} :
      LayoutHist O E a cs a1 cs1 → Contents O content setContent a1 cs1 cs2 →
      flush E.hasher E.short E.chunksize E.policy content setContent a1 = (.ok (), a2) → LayoutHist O E a cs a2 cs2
  | reopen {a1 a2 : Archive} {cs1 : List Stored} {titles articles : Zim → PyRes PointerList} :
      LayoutHist O E a cs a1 cs1 → a1.isDirty = false → load titles articles true a1.zim.file = .ok a2 →
      LayoutHist O E a cs a2 cs1

/-- The data `p.2` for the position `p.1`. -/
def Occupied (p : Nat × Bytes) (x : Nat) : Prop := p.1 ≤ x ∧ x < p.1 + p.2.length

/-- The file contains the data at the given positions; they are pairwise disjoint and below the limit. -/
structure Within (file : Bytes) (limit : Nat) (parts : List (Nat × Bytes)) : Prop where
  holds : ∀ p ∈ parts, Holds file p.1 p.2
  disjoint : parts.Pairwise (fun p q => ∀ x, ¬ (Occupied p x ∧ Occupied q x))
  below : ∀ p ∈ parts, ∀ x, Occupied p x → x < limit

/-- The file of the archive is what it should be: it consists of the header, the mimetype list, the two pointer lists, the
entries and the clusters (as positions with bytes), where the header and the pointers say, and then a checksum. -/
structure LaidOut (z : Zim) (es cs : List (Nat × Bytes)) : Prop where
  parts : ∃ h u c, z.header.toBytes = .ok h ∧ z.urls.toBytes 8 = .ok u ∧ z.clusters.toBytes 8 = .ok c ∧
    Within z.file z.header.checksumPosition
      ((0, h) :: (z.header.mimeListPosition, z.mimetypes.toBytes) :: (z.header.urlPointerPosition, u) ::
        (z.header.clusterPointerPosition, c) :: (es ++ cs))
  urls : z.urls.pointers = es.map (fun p => (p.1 : Int))
  entries : ∀ p ∈ es, ∃ e, z.entryAt p.1 = .ok e ∧ e.toBytes = .ok p.2
  entryCount : z.header.entryCount = es.length
  clusters : z.clusters.pointers = cs.map (fun p => (p.1 : Int))
  clusterCount : z.header.clusterCount = cs.length
  length : z.file.length = z.header.checksumPosition + 16

/-- an archive that is laid out, with the given clusters, whatever else is in the file -/
def Sane (reserve : Option Nat) (a : Archive) (cs : List Stored) : Prop := ∃ rows extra, Laid reserve a rows cs extra

end Archive
end Pyzim
