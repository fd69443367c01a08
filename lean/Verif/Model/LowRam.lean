import Verif.Model.Embedded

/-!
# Model of reading an archive with `LOW_RAM_DECOMP_POLICY`, `pyzim/archive.py`, `pyzim/policy.py`

With this policy (`pyzim/policy.py:206-216`) the pointer lists are not read into memory. The methods are those of
`Verif/Model/Embedded.lean`, with the lists of `Verif/Model/PointerList.lean` that stay in the file. The class of the clusters is
a parameter. The policy has no caches.
-/

namespace Pyzim

/-- An archive opened with `LOW_RAM_DECOMP_POLICY`; `file` is the content of the whole file, in which the archive starts at
`base`; `pyzim/archive.py:76-110`, as far as reading depends on it. -/
structure LowRam where
  base : Nat
  file : Bytes
  header : Header
  mimetypes : MimeTypeList
  urls : OnDiskList
  clusters : OnDiskList
  titles : Option OnDiskList := none
  articles : OnDiskList
  closed : Bool := false

namespace LowRam

/-- `get_entry_at`; `pyzim/archive.py:797-837`. -/
def entryAt (z : LowRam) (location : Int) : PyRes Entry :=
  if location < 0 then .error .assertionError
  else match Entry.fromFile ⟨z.file, 0⟩ (some (z.base + location.toNat)) with
    | none => .error .hang
    | some (r, _) => r

/-- `_get_full_url_for_entry_at`; `pyzim/archive.py:425-438`. -/
def urlKey (z : LowRam) (location : Int) : PyRes Bytes :=
  match z.entryAt location with
  | .error x => .error x
  | .ok e => .ok (encode e.fullUrl)

/-- `get_entry_by_url_index`; `pyzim/archive.py:890-912`. -/
def entryByIndex (z : LowRam) (i : Int) : PyRes Entry :=
  if i < 0 then .error .entryNotFound
  else match z.urls.getByIndex i with
    | .error .indexError => .error .entryNotFound
    | .error x => .error x
    | .ok location => z.entryAt location

/-- `get_entry_by_full_url`; `pyzim/archive.py:873-888`. -/
def entryByFullUrl (z : LowRam) (fullUrl : String) : PyRes Entry :=
  match z.urls.get z.urlKey (encode fullUrl) with
  | .error .keyError => .error .entryNotFound
  | .error x => .error x
  | .ok location => z.entryAt location

/-- `has_entry_for_full_url`; `pyzim/archive.py:915-924`. -/
def hasEntry (z : LowRam) (fullUrl : String) : PyRes Bool := z.urls.has z.urlKey (encode fullUrl)

/-- `get_mainpage_entry`; `pyzim/archive.py:926-939`. -/
def mainpageEntry (z : LowRam) : PyRes Entry :=
  match z.header.mainPage with
  | none => .error .entryNotFound
  | some i =>
    match z.urls.getByIndex i with
    | .error x => .error x
    | .ok location => z.entryAt location

/-- `iter_entries_by_url`, consumed completely; `pyzim/archive.py:1215-1232`. -/
def iterEntries (z : LowRam) (start end_ : Option Nat) : PyRes (List Entry) := do
  let ps ← z.urls.iterPointers start end_
  ps.mapM z.entryAt

/-- `iter_articles`, consumed completely; `pyzim/archive.py:1234-1254`. -/
def iterArticles (z : LowRam) (start end_ : Option Nat) : PyRes (List Entry) := do
  let ps ← z.articles.iterPointers start end_
  ps.mapM z.entryByIndex

/-- `entry_at_url_is_article`; `pyzim/archive.py:1156-1190`. -/
def entryIsArticle (z : LowRam) (fullUrl : String) : PyRes Bool :=
  if fullUrl.toList.head? ≠ some 'C' then .error .valueError
  else if z.closed then .error .zimFileClosed
  else match z.urls.getIndex z.urlKey (encode fullUrl) with
    | .error .keyError => .ok false
    | .error x => .error x
    | .ok i =>
      match z.articles.getByPointer i with
      | .error .keyError => .ok false
      | .error x => .error x
      | .ok _ => .ok true

/-- The loop of `RedirectEntry.resolve`; `pyzim/entry.py:1033-1035`. -/
def resolveLoop (z : LowRam) : (fuel : Nat) → Entry → PyRes Entry
  | 0, _ => .error .hang
  | fuel + 1, e =>
    if e.isRedirect then
      match e.kind with
      | .redirect i =>
        match z.entryByIndex i with
        | .error x => .error x
        | .ok e' => resolveLoop z fuel e'
      | .content _ _ => .error .attributeError
    else .ok e

/-- `resolve`; `pyzim/entry.py:518-530` and `1022-1035`. -/
def resolve (z : LowRam) (fuel : Nat) (e : Entry) : PyRes Entry :=
  match e.kind with
  | .content _ _ => .ok e
  | .redirect _ => resolveLoop z fuel e

section
variable {D : Type} (X : Codecs D) (kind : ClusterKind)

/-- `get_cluster_by_index` in a read-only archive; `pyzim/archive.py:1590-1635`. -/
def clusterByIndex (z : LowRam) (i : Nat) : PyRes (CSt D) := do
  let pos ← z.clusters.getByIndex i
  (if z.closed then .error .zimFileClosed else .ok ())
  pure ⟨{ kind := kind, offset := z.base + pos.toNat }, ⟨z.file, 0⟩⟩

/-- `read` of an entry; `pyzim/entry.py:762-795`. -/
def readContent (z : LowRam) (e : Entry) (start stop : Option Int) : PyRes Bytes :=
  match e.kind with
  | .redirect _ => .error .attributeError
  | .content c b => do
    let r ← Zim.checkRange start stop
    let s ← z.clusterByIndex kind c
    (Cluster.readBlob X b r.1 r.2 s).1

/-- `get_size` of an entry; `pyzim/entry.py:748-760`. -/
def contentSize (z : LowRam) (e : Entry) : PyRes Int :=
  match e.kind with
  | .redirect _ => .error .attributeError
  | .content c b => do
    let s ← z.clusterByIndex kind c
    (Cluster.getBlobSize X b s).1

/-- `from_zim_entry` of a title list that stays in the file; `pyzim/pointerlist.py:824-831`, `815-822`. Whether the cluster is
compressed is not checked. -/
def listFromEntry (follow : Nat) (fullUrl : String) (z : LowRam) : PyRes OnDiskList := do
  let e ← z.entryByFullUrl fullUrl
  let e ← z.resolve follow e
  let size ← z.contentSize X kind e
  match e.kind with
  | .redirect _ => .error .attributeError
  | .content c b => do
    let s ← z.clusterByIndex kind c
    let o ← (Cluster.getOffset X b s).1
    pure { file := z.file, offset := s.c.offset + 1 + o, n := (size / 4).toNat, w := 4 }

/-- The list of all titles; `pyzim/archive.py:308-338`. -/
def titleList (follow : Nat) (z : LowRam) : PyRes OnDiskList := do
  let has ← z.hasEntry "Xlisting/titleOrdered/v0"
  if has then listFromEntry X kind follow "Xlisting/titleOrdered/v0" z
  else .ok { file := z.file, offset := z.header.titlePointerPosition, n := z.header.entryCount, w := 4 }

/-- `Zim(f, offset=base, policy=LOW_RAM_DECOMP_POLICY)` for reading; `pyzim/archive.py:113-182`, `254-367`. `new` of the lists
that stay in the file raises (`pyzim/pointerlist.py:804-805`). -/
def load (follow : Nat) (base : Nat) (file : Bytes) : PyRes LowRam := do
  let header ← Header.fromFile ⟨file, 0⟩ base
  let mimetypes ← match MimeTypeList.fromFile ⟨file, 0⟩ (some (base + header.mimeListPosition)) with
    | none => .error .hang
    | some (m, _) => .ok m
  let z : LowRam :=
    { base := base
      file := file
      header := { header with mutable := false }
      mimetypes := { mimetypes with mutable := false }
      urls := { file := file, offset := base + header.urlPointerPosition, n := header.entryCount, w := 8 }
      clusters := { file := file, offset := base + header.clusterPointerPosition, n := header.clusterCount, w := 8 }
      articles := { file := file, offset := 0, n := 0, w := 4 } }
  let ts ← if 6 < header.majorVersion ∨ (header.majorVersion = 6 ∧ 3 ≤ header.minorVersion) then .ok none
    else match titleList X kind follow z with
      | .error x => .error x
      | .ok l => .ok (some l)
  let has ← hasEntry z "Xlisting/titleOrdered/v1"
  let as ← if has then listFromEntry X kind follow "Xlisting/titleOrdered/v1" { z with titles := ts }
    else .error .operationNotSupported
  .ok { z with titles := ts, articles := as }

end
end LowRam
end Pyzim
