import Verif.Model.Strategy
import Verif.Model.Content
import Verif.Model.Load

/-!
# Model of an archive being filled with items, `pyzim/archive.py`

An archive with its two compression strategies. The simplifications are those of `Verif/Model/Archive.lean`,
`Verif/Model/Flush.lean` and `Verif/Model/Load.lean`; what these files have as parameters (the content written by a flush,
setting the content of the entry of the article title list, reading it) is what the code does. The policy does not count
mimetypes (`counter="ignore"`), and there are no processors.
-/

namespace Pyzim

/-- the entry with the article title list; `pyzim/constants.py:56` -/
def URL_ARTICLES : String := "Xlisting/titleOrdered/v1"

namespace Zim
variable {D K : Type} (X : Codecs D) (C : Compressors K)

/-- What a strategy calls, for the model of the archive: `item.to_entry(zim)` (`pyzim/item.py:235-260`), `write_cluster` of
a new cluster object and `write_entry`; `pyzim/compressionstrategy.py:133-137`, `169`. `depth` bounds the depth of the
recursion of `write_entry`. -/
def backend (depth : Nat) : Backend Zim D where
  toEntry it := PyM.of fun z =>
    let r := it.toEntry z.mimetypes
    (r.1, { z with mimetypes := r.2 })
  writeCluster m := do
    let r ← writeClusterObj X C { m := m }
    pure r.1
  writeEntry e := do
    let _ ← writeEntry depth e true true
    pure ()

end Zim

/-- The compression strategies of the package; `pyzim/compressionstrategy.py:80-253`. -/
inductive Strategy (D : Type)
  | simple (s : Simple D)
  | byMimetype (s : ByMimetype D)

namespace Strategy
variable {D K σ : Type} (X : Codecs D)

/-- `add_item`; `pyzim/compressionstrategy.py:163-173`, `241-247`. -/
def addItemOn (B : Backend σ D) (it : Item) : PyM (Strategy D × σ) Unit := PyM.of fun s =>
  match s.1 with
  | .simple t =>
    let r := Simple.addItemOn X B it (t, s.2)
    (r.1, (.simple r.2.1, r.2.2))
  | .byMimetype t =>
    let r := ByMimetype.addItemOn X B it (t, s.2)
    (r.1, (.byMimetype r.2.1, r.2.2))

/-- `flush`; `pyzim/compressionstrategy.py:175-179`, `249-253`. -/
def flushOn (B : Backend σ D) : PyM (Strategy D × σ) Unit := PyM.of fun s =>
  match s.1 with
  | .simple t =>
    let r := Simple.flushOn B (t, s.2)
    (r.1, (.simple r.2.1, r.2.2))
  | .byMimetype t =>
    let r := ByMimetype.flushOn B (t, s.2)
    (r.1, (.byMimetype r.2.1, r.2.2))

end Strategy

/-- What does not change during the life of an archive: the compression interfaces, the md5 object, how short the reads of
the file are, the policy, the class of clusters; and bounds for loops. -/
structure Setup (D K : Type) where
  X : Codecs D
  C : Compressors K
  H : Hasher
  short : Nat → Nat → Nat
  chunksize : Nat := 8192
  policy : FlushPolicy
  kind : ClusterKind := .remembering
  /-- what removing a blob does -/
  blob : Entry → PyM Zim Unit
  /-- depth of the recursion of `write_entry` -/
  depth : Nat
  /-- passes over the buffered redirects -/
  passes : Nat
  /-- chunks of a cluster read to measure it -/
  calls : Nat
  /-- redirects followed -/
  follow : Nat

/-- A writable archive with its compression strategies. -/
structure Creator (D : Type) where
  arch : Archive
  /-- `compression_strategy` -/
  main : Strategy D
  /-- `uncompressed_compression_strategy` -/
  plain : Strategy D

namespace Creator
variable {D K : Type} (S : Setup D K)

/-- A method of the compression strategy. -/
def onMain {α : Type} (g : PyM (Strategy D × Zim) α) : PyM (Creator D) α := PyM.of fun c =>
  let r := g (c.main, c.arch.zim)
  (r.1, { c with main := r.2.1, arch := { c.arch with zim := r.2.2 } })

/-- A method of the compression strategy for uncompressed content. -/
def onPlain {α : Type} (g : PyM (Strategy D × Zim) α) : PyM (Creator D) α := PyM.of fun c =>
  let r := g (c.plain, c.arch.zim)
  (r.1, { c with plain := r.2.1, arch := { c.arch with zim := r.2.2 } })

/-- A method of the archive which does not touch the strategies. -/
def onArch {α : Type} (g : PyM Archive α) : PyM (Creator D) α := PyM.of fun c =>
  let r := g c.arch
  (r.1, { c with arch := r.2 })

/-- `add_item`; `pyzim/archive.py:1950-1973`. -/
def addItem (it : Item) (forceUncompressed : Bool) : PyM (Creator D) Unit := do
  let c ← PyM.get
  PyM.require (!c.arch.zim.closed) .zimFileClosed
  PyM.require c.arch.zim.mutable .nonMutable
  (if forceUncompressed then onPlain (Strategy.addItemOn S.X (Zim.backend S.X S.C S.depth) it)
    else onMain (Strategy.addItemOn S.X (Zim.backend S.X S.C S.depth) it))
  PyM.modify (fun c => { c with arch := { c.arch with dirty := true } })

/-- `add_full_url_redirect`; `pyzim/archive.py:1484-1544`. -/
def addFullUrlRedirect (source target : String) (title : Option String) : PyM (Creator D) Unit :=
  onArch (Archive.onZim (Zim.addFullUrlRedirect S.depth source target title))

/-- `add_redirect`; `pyzim/archive.py:1448-1482`. -/
def addRedirect (source target : String) (title : Option String) : PyM (Creator D) Unit :=
  onArch (Archive.onZim (Zim.addRedirect S.depth source target title))

/-- `get_entry_by_full_url` and `set_content` of the entry, with a flush of the cluster that this returns;
`pyzim/archive.py:873-888`, `pyzim/entry.py:830-855`, `pyzim/cluster.py:1037-1046`. -/
def setContent (u : String) (src : BlobSource) : PyM (Creator D) Unit :=
  onArch (Archive.onZim (do
    let z ← PyM.get
    let e ← PyM.lift (z.entryByFullUrl u)
    Zim.setContent S.X S.C S.kind S.calls e src))

/-- The item of `_init_new`; `pyzim/archive.py:413-419`. -/
def placeholder : Item :=
  { ns := "X", url := "listing/titleOrdered/v1", mimetype := "application/octet-stream+zimlisting",
    source := BlobSourceObj.empty.toSource, isArticle := false }

/-- `Zim(..., mode="w")`: `_init_new` and the end of `__init__`; `pyzim/archive.py:131-139`, `165-182`, `369-423`. `main`
and `plain` are the new strategies. -/
def new (uuid : Bytes) (main plain : Strategy D) : PyRes (Creator D) :=
  match Archive.new S.policy.reserveMimetypeSpace uuid with
  | .error x => .error x
  | .ok a =>
    match (addItem S placeholder true >>= fun _ =>
        onPlain (Strategy.flushOn (Zim.backend S.X S.C S.depth))) { arch := a, main := main, plain := plain } with
    | (.error x, _) => .error x
    | (.ok (), c) => .ok { c with arch := { c.arch with dirty := false } }

/-- Setting the content of the entry of the article title list; `pyzim/archive.py:583-584`. -/
def setListing (b : Bytes) : PyM Zim Unit := do
  let z ← PyM.get
  let e ← PyM.lift (z.entryByFullUrl URL_ARTICLES)
  Zim.setContent S.X S.C S.kind S.calls e (BlobSourceObj.inMemory b).toSource

/-- `flush`; `pyzim/archive.py:517-689`. -/
def flush : PyM (Creator D) Unit := do
  let c ← PyM.get
  PyM.require (!c.arch.zim.closed) .zimFileClosed
  PyM.require c.arch.zim.mutable .nonMutable
  if c.arch.isDirty then do
    onMain (Strategy.flushOn (Zim.backend S.X S.C S.depth))
    onPlain (Strategy.flushOn (Zim.backend S.X S.C S.depth))
    onArch (Archive.flushDirty S.H S.short S.chunksize S.policy
      (Zim.finalizeOperations S.blob S.depth S.passes) (setListing S))
  else pure ()

/-- `Zim(...)` of an existing archive; `pyzim/archive.py:113-182`, `254-367`. The list of all titles of archives of an
older version is read from the file (`pyzim/archive.py:308-338`). -/
def openArchive (titles : Zim → PyRes PointerList) (writable : Bool) (file : Bytes) : PyRes Archive :=
  Archive.load titles (Zim.listFromEntry S.X S.kind S.calls S.follow URL_ARTICLES) writable file

/-- `Zim(..., mode="u")` of an existing archive, with new strategies; `pyzim/archive.py:113-182`. -/
def reopen (titles : Zim → PyRes PointerList) (main plain : Strategy D) (file : Bytes) : PyRes (Creator D) :=
  match openArchive S titles true file with
  | .error x => .error x
  | .ok a => .ok { arch := a, main := main, plain := plain }

end Creator
end Pyzim
