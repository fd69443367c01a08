import Verif.Model.Archive
import Verif.Lemmas.SpaceAllocator
import Verif.Props.Entry

/-!
# Specification vocabulary for archives

What it means that the state of a `Zim` object stands for a list of entries. A row is an offset in the file and the
entry stored there; the rows of an archive are listed in the order of its url pointer list.
-/

namespace Pyzim

/-- the bytes `b` are in the file at offset `off` -/
def Holds (file : Bytes) (off : Nat) (b : Bytes) : Prop :=
  ∀ i, i < b.length → file[off + i]? = b[i]?

/-- An entry object as it is after being read from a file: it can be stored, a redirect is marked as such, and there
are no unsaved changes. -/
structure Entry.Clean (e : Entry) : Prop where
  storable : e.Storable
  fresh : e.fresh = e
  kind : (∃ r, e.kind = .redirect r) ↔ e.mimetypeId = 0xffff

/-- An entry object that `write_entry` accepts: the strings contain no zero byte and the title is set, a redirect is
marked as such, and only an entry in the namespace `C` is made an article. (The setters and constructors ensure all
but a missing title and the zero bytes of strings passed to a constructor.) -/
structure Entry.Proper (e : Entry) : Prop where
  url : (0 : UInt8) ∉ encode e.url
  title : ∃ t, e.titleRaw = some t ∧ (0 : UInt8) ∉ encode t
  kind : (∃ r, e.kind = .redirect r) ↔ e.mimetypeId = 0xffff
  article : e.forceIsArticle = some true → e.ns = "C"

namespace Zim

/-- an entry and its offset in the file -/
abbrev Row := Nat × Entry

/-- byte `x` belongs to the row -/
def InRow (r : Row) (x : Nat) : Prop := r.1 ≤ x ∧ x < r.1 + r.2.getDiskSize

/-- The rows are in the file, on pairwise disjoint pieces; the space allocator considers exactly them and the bytes
`other` (header, clusters, …) as in use. -/
structure Store (file : Bytes) (space : SpaceAllocator) (rows : List Row) (other : Nat → Prop) : Prop where
  clean : ∀ r ∈ rows, r.2.Clean
  stored : ∀ r ∈ rows, ∃ b, r.2.toBytes = .ok b ∧ Holds file r.1 b
  disjoint : rows.Pairwise (fun r s => ∀ x, InRow r x → ¬ InRow s x)
  apart : ∀ r ∈ rows, ∀ x, InRow r x → ¬ other x
  /-- at most a checksum follows the bytes that are managed -/
  length : file.length ≤ space.fileEnd + 16
  /-- bytes in use and free blocks partition the bytes below the file end -/
  space : space.Inv (fun x => other x ∨ ∃ r ∈ rows, InRow r x)

/-- An open, writable archive (without a list of all titles) whose url pointer list lists the rows, strictly sorted
by full url. -/
structure Rep (z : Zim) (rows : List Row) (other : Nat → Prop) : Prop where
  store : Store z.file z.space rows other
  sorted : rows.Pairwise (fun r s => encode r.2.fullUrl < encode s.2.fullUrl)
  urls : z.urls.pointers = rows.map (fun r => (r.1 : Int))
  urlsMutable : z.urls.mutable = true
  isOpen : z.closed = false
  isMutable : z.mutable = true
  noTitles : z.titles = none
  headerMutable : z.header.mutable = true

/-- bytes of `other` stay -/
def KeepsBytes (other : Nat → Prop) (file file' : Bytes) : Prop :=
  ∀ x b, other x → file[x]? = some b → file'[x]? = some b

/-- Nothing but the main page may differ, and then the header is marked as to be written. -/
def MainOnly (h h' : Header) : Prop := h' = h ∨ ∃ m, h' = { h with mainPageRaw := m, dirty := true }

/-- Nothing but the entries, the url and article title lists and the main page may differ: the bytes in `other`, the
list of mimetypes, the list of clusters and the buffered operations are the same. What differs is marked as to be
written. -/
structure Frame (other : Nat → Prop) (z z' : Zim) : Prop where
  bytes : KeepsBytes other z.file z'.file
  mimetypes : z'.mimetypes = z.mimetypes
  clusters : z'.clusters = z.clusters
  clusterNum : z'.clusterNum = z.clusterNum
  redirects : z'.bufferedRedirects = z.bufferedRedirects
  mainpage : z'.bufferedMainpage = z.bufferedMainpage
  header : MainOnly z.header z'.header
  urls : z'.urls = z.urls ∨ z'.urls.dirty = true
  space : (z'.space = z.space ∧ z'.file.length = z.file.length) ∨ z'.urls.dirty = true

/-- the title of the `i`-th row -/
def titleOf (rows : List Row) (i : Nat) : Bytes :=
  match rows[i]? with
  | some r => encode r.2.title
  | none => []

/-- The article title list lists exactly the rows whose full url is in `S`, each once, sorted by title. -/
structure Art (l : PointerList) (rows : List Row) (S : String → Prop) : Prop where
  mutable : l.mutable = true
  nonneg : ∀ p ∈ l.pointers, 0 ≤ p
  nodup : l.pointers.Nodup
  mem : ∀ i : Nat, (i : Int) ∈ l.pointers ↔ ∃ r, rows[i]? = some r ∧ S r.2.fullUrl
  sorted : l.pointers.Pairwise (fun p q => titleOf rows p.toNat ≤ titleOf rows q.toNat)
  /-- articles are in the namespace `C` -/
  inC : ∀ r ∈ rows, S r.2.fullUrl → r.2.ns = "C"
  /-- articles are entries -/
  dom : ∀ u, S u → ∃ r ∈ rows, r.2.fullUrl = u

end Zim
end Pyzim
