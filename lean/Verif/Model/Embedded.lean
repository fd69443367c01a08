import Verif.Model.Content
import Verif.Model.Load

/-!
# Model of reading an archive that starts at an offset of its file, `pyzim/archive.py`

`Zim(f, offset=...)` of an archive opened for reading. The simplifications are those of `Verif/Model/Archive.lean`, except
that the archive starts at `base` (`_base_offset`). The end of `flush` is modelled as well.
-/

namespace Pyzim

/-- An archive that starts at offset `base` of its file. `zim.file` is the content of the whole file. -/
structure Embedded where
  base : Nat
  zim : Zim
deriving DecidableEq

namespace Embedded

/-- `get_entry_at`; `pyzim/archive.py:797-837`. -/
def entryAt (z : Embedded) (location : Int) : PyRes Entry :=
  if location < 0 then .error .assertionError
  else match Entry.fromFile ⟨z.zim.file, 0⟩ (some (z.base + location.toNat)) with
    | none => .error .hang
    | some (r, _) => r

/-- `_get_full_url_for_entry_at`; `pyzim/archive.py:425-438`. -/
def urlKey (z : Embedded) (location : Int) : PyRes Bytes :=
  match z.entryAt location with
  | .error x => .error x
  | .ok e => .ok (encode e.fullUrl)

/-- `get_entry_by_url_index`; `pyzim/archive.py:890-912`. -/
def entryByIndex (z : Embedded) (i : Int) : PyRes Entry :=
  if i < 0 then .error .entryNotFound
  else match z.zim.urls.getByIndex i with
    | .error .indexError => .error .entryNotFound
    | .error x => .error x
    | .ok location => z.entryAt location

/-- `get_entry_by_full_url`; `pyzim/archive.py:873-888`. -/
def entryByFullUrl (z : Embedded) (fullUrl : String) : PyRes Entry :=
  match z.zim.urls.get z.urlKey (encode fullUrl) with
  | .error .keyError => .error .entryNotFound
  | .error x => .error x
  | .ok location => z.entryAt location

/-- `has_entry_for_full_url`; `pyzim/archive.py:915-924`. -/
def hasEntry (z : Embedded) (fullUrl : String) : PyRes Bool := z.zim.urls.has z.urlKey (encode fullUrl)

/-- `get_mainpage_entry`; `pyzim/archive.py:926-939`. -/
def mainpageEntry (z : Embedded) : PyRes Entry :=
  match z.zim.header.mainPage with
  | none => .error .entryNotFound
  | some i =>
    match z.zim.urls.getByIndex i with
    | .error x => .error x
    | .ok location => z.entryAt location

/-- `iter_entries_by_url`, consumed completely; `pyzim/archive.py:1215-1232`. -/
def iterEntries (z : Embedded) (start end_ : Option Nat) : PyRes (List Entry) := do
  let ps ← z.zim.urls.iterPointers start end_
  ps.mapM z.entryAt

/-- `iter_articles`, consumed completely; `pyzim/archive.py:1234-1254`. -/
def iterArticles (z : Embedded) (start end_ : Option Nat) : PyRes (List Entry) := do
  let ps ← z.zim.articles.iterPointers start end_
  ps.mapM z.entryByIndex

/-- The loop of `RedirectEntry.resolve`; `pyzim/entry.py:1033-1035`. -/
def resolveLoop (z : Embedded) : (fuel : Nat) → Entry → PyRes Entry
  | 0, _ => .error .hang
  | fuel + 1, e =>
    if e.isRedirect then
      match e.kind with
      | .redirect i =>
        match z.entryByIndex i with
        | .error x => .error x
        | .ok e' => resolveLoop z fuel e'
      | .content _ _ => .error .attributeError
    else .ok e

/-- `resolve`; `pyzim/entry.py:518-530` and `1022-1035`. -/
def resolve (z : Embedded) (fuel : Nat) (e : Entry) : PyRes Entry :=
  match e.kind with
  | .content _ _ => .ok e
  | .redirect _ => resolveLoop z fuel e

section
variable {D : Type} (X : Codecs D) (kind : ClusterKind) (calls : Nat)

/-- `get_cluster_by_index` in a read-only archive; `pyzim/archive.py:1590-1635`. -/
def clusterByIndex (z : Embedded) (i : Nat) : PyRes (CSt D) := do
  let pos ← z.zim.clusters.getByIndex i
  (if z.zim.closed then .error .zimFileClosed else .ok ())
  pure ⟨{ kind := kind, offset := z.base + pos.toNat }, ⟨z.zim.file, 0⟩⟩

/-- `read` of an entry; `pyzim/entry.py:762-795`. -/
def readContent (z : Embedded) (e : Entry) (start stop : Option Int) : PyRes Bytes :=
  match e.kind with
  | .redirect _ => .error .attributeError
  | .content c b => do
    let r ← Zim.checkRange start stop
    let s ← z.clusterByIndex kind c
    (Cluster.readBlob X b r.1 r.2 s).1

/-- `iter_read` of an entry, for the first `n` calls of `next`; `pyzim/entry.py:797-828`. -/
def iterContent (z : Embedded) (e : Entry) (bs : Nat) (start stop : Option Int) (n : Nat) : PyRes (List Bytes × Bool) :=
  match e.kind with
  | .redirect _ => .error .attributeError
  | .content c b =>
    if n = 0 then .ok ([], false)
    else do
      let r ← Zim.checkRange start stop
      let s ← z.clusterByIndex kind c
      (Cluster.iterReadBlob X b bs r.1 r.2 n s).1

/-- `get_size` of an entry; `pyzim/entry.py:748-760`. -/
def contentSize (z : Embedded) (e : Entry) : PyRes Int :=
  match e.kind with
  | .redirect _ => .error .attributeError
  | .content c b => do
    let s ← z.clusterByIndex kind c
    (Cluster.getBlobSize X b s).1

/-- `get_total_compressed_size` of a cluster; `pyzim/cluster.py:377-406`. -/
def clusterSize (z : Embedded) (i : Nat) : PyRes Int := do
  let s ← z.clusterByIndex kind i
  (Cluster.getTotalCompressedSize X calls s).1

/-- `from_zim_entry` of the pointer lists kept in memory; `pyzim/pointerlist.py:502-519`. -/
def listFromEntry (follow : Nat) (fullUrl : String) (z : Embedded) : PyRes PointerList := do
  let e ← z.entryByFullUrl fullUrl
  let e ← z.resolve follow e
  let b ← z.readContent X kind e none none
  PointerList.fromBytes 4 b

/-- The list of all titles; `pyzim/archive.py:308-338`. If there is no entry with it, it is read at the position given in
the header, to which `_base_offset` is not added. -/
def titleList (follow : Nat) (z : Embedded) : PyRes PointerList := do
  let has ← z.hasEntry "Xlisting/titleOrdered/v0"
  if has then listFromEntry X kind follow "Xlisting/titleOrdered/v0" z
  else PointerList.fromFile 4 ⟨z.zim.file, 0⟩ z.zim.header.entryCount z.zim.header.titlePointerPosition

/-- `Zim(f, offset=base)` for reading: `_load_header`, `_load_mimetypelist` and `_load_pointerlists`;
`pyzim/archive.py:113-182`, `254-367`. -/
def load (follow : Nat) (base : Nat) (file : Bytes) : PyRes Embedded := do
  let header ← Header.fromFile ⟨file, 0⟩ base
  let mimetypes ← match MimeTypeList.fromFile ⟨file, 0⟩ (some (base + header.mimeListPosition)) with
    | none => .error .hang
    | some (m, _) => .ok m
  let urls ← PointerList.fromFile 8 ⟨file, 0⟩ header.entryCount (base + header.urlPointerPosition)
  let clusters ← PointerList.fromFile 8 ⟨file, 0⟩ header.clusterCount (base + header.clusterPointerPosition)
  let z : Zim :=
    { file := file
      header := { header with mutable := false }
      mimetypes := { mimetypes with mutable := false }
      urls := { urls with mutable := false }
      clusters := { clusters with mutable := false }
      articles := { pointers := [], mutable := false }
      space := SpaceAllocator.new header.checksumPosition
      clusterNum := clusters.len
      mutable := false }
  let ts ← if 6 < header.majorVersion ∨ (header.majorVersion = 6 ∧ 3 ≤ header.minorVersion) then .ok none
    else match titleList X kind follow ⟨base, z⟩ with
      | .error x => .error x
      | .ok l => .ok (some { l with mutable := false })
  let has ← hasEntry ⟨base, z⟩ "Xlisting/titleOrdered/v1"
  let as ← if has then listFromEntry X kind follow "Xlisting/titleOrdered/v1" ⟨base, { z with titles := ts }⟩
    else .ok { pointers := [] }
  .ok ⟨base, { z with titles := ts, articles := { as with mutable := false } }⟩

end

/-- `get_checksum`; `pyzim/archive.py:1975-1990`. `_base_offset` is not added. -/
def getChecksum (z : Embedded) : PyRes Bytes := z.zim.getChecksum

/-- `calculate_checksum`; `pyzim/archive.py:1994-2016`. It starts at the beginning of the file. -/
def calculateChecksum (H : Hasher) (short : Nat → Nat → Nat) (chunksize : Nat) (z : Embedded) : PyRes Bytes :=
  z.zim.calculateChecksum H short chunksize

/-- The end of `flush`: `update_checksum` and `truncate`; `pyzim/archive.py:676-684`, `2017-2030`. `_base_offset` is not
added here either. -/
def finishFlush (H : Hasher) (short : Nat → Nat → Nat) (chunksize : Nat) (truncate : Bool) (z : Embedded) :
    PyRes Unit × Embedded :=
  let r := (Zim.updateChecksum H short chunksize >>= fun _ =>
    if truncate then Zim.truncateAt (z.zim.header.checksumPosition + 16) else pure ()) z.zim
  (r.1, { z with zim := r.2 })

end Embedded
end Pyzim
