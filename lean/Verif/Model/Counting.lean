import Verif.Model.Creator
import Verif.Model.Counter

/-!
# Model of an archive that counts mimetypes, `pyzim/archive.py` with `pyzim/counter.py`

The archive of `Verif/Model/Creator.lean`, with the counter that the default policy installs as a processor
(`counter="load_or_reinit"`). There are no other processors.
-/

namespace Pyzim

/-- the entry with the counter; `pyzim/constants.py:60` -/
def URL_COUNTER : String := "MCounter"

/-- The entry that `write_entry` tells the processors about as `old_entry`; `pyzim/archive.py:1306-1326`. -/
def Zim.oldEntry (z : Zim) (e : Entry) : PyRes (Option Entry) :=
  match e.oldFullUrl with
  | none => .error .typeError
  | some u =>
    match z.urlIndex u with
    | .error .keyError => .ok none
    | .error x => .error x
    | .ok i => do
      let offset ← z.urls.getByIndex i
      let old ← z.entryAt offset
      pure (some old)

/-- An archive with its strategies and its counter (`_counter`). -/
structure Counting (D : Type) where
  creator : Creator D
  counter : Counter

namespace Counting
variable {D K : Type} (S : Setup D K)

/-- A method of the archive that the counter does not notice. -/
def onZim {α : Type} (g : PyM Zim α) : PyM (Zim × Counter) α := PyM.of fun s =>
  let r := g s.1
  (r.1, (r.2, s.2))

/-- A method of the counter. -/
def onCounter {α : Type} (g : Zim → Counter → PyRes α × Counter) : PyM (Zim × Counter) α := PyM.of fun s =>
  let r := g s.1 s.2
  (r.1, (s.1, r.2))

/-- What a strategy calls: `write_entry` ends with telling the counter about the entry; `pyzim/archive.py:1435-1446`. The
entries that `write_entry` writes by itself are redirects, which are not counted (`pyzim/counter.py:216-218`). The old entry
is looked up a little earlier than in the code, which only matters for which exception is raised. -/
def backend : Backend (Zim × Counter) D where
  toEntry it := onZim ((Zim.backend S.X S.C S.depth).toEntry it)
  writeCluster m := onZim ((Zim.backend S.X S.C S.depth).writeCluster m)
  writeEntry e := do
    let s ← PyM.get
    let old ← PyM.lift (s.1.oldEntry e)
    onZim ((Zim.backend S.X S.C S.depth).writeEntry e)
    onCounter (fun z n => n.afterEntryWrite z.mimetypes e old)

/-- A method of the compression strategy. -/
def onMain {α : Type} (g : PyM (Strategy D × Zim × Counter) α) : PyM (Counting D) α := PyM.of fun c =>
  let r := g (c.creator.main, c.creator.arch.zim, c.counter)
  (r.1, ⟨{ c.creator with main := r.2.1, arch := { c.creator.arch with zim := r.2.2.1 } }, r.2.2.2⟩)

/-- A method of the compression strategy for uncompressed content. -/
def onPlain {α : Type} (g : PyM (Strategy D × Zim × Counter) α) : PyM (Counting D) α := PyM.of fun c =>
  let r := g (c.creator.plain, c.creator.arch.zim, c.counter)
  (r.1, ⟨{ c.creator with plain := r.2.1, arch := { c.creator.arch with zim := r.2.2.1 } }, r.2.2.2⟩)

/-- A method that the counter does not notice. -/
def onCreator {α : Type} (g : PyM (Creator D) α) : PyM (Counting D) α := PyM.of fun c =>
  let r := g c.creator
  (r.1, { c with creator := r.2 })

/-- `add_item`; `pyzim/archive.py:1950-1973`. -/
def addItem (it : Item) (forceUncompressed : Bool) : PyM (Counting D) Unit := do
  let c ← PyM.get
  PyM.require (!c.creator.arch.zim.closed) .zimFileClosed
  PyM.require c.creator.arch.zim.mutable .nonMutable
  (if forceUncompressed then onPlain (Strategy.addItemOn S.X (backend S) it)
    else onMain (Strategy.addItemOn S.X (backend S) it))
  PyM.modify (fun c => { c with creator := { c.creator with arch := { c.creator.arch with dirty := true } } })

/-- `add_full_url_redirect`; `pyzim/archive.py:1484-1544`. Redirects are not counted. -/
def addFullUrlRedirect (source target : String) (title : Option String) : PyM (Counting D) Unit :=
  onCreator (Creator.addFullUrlRedirect S source target title)

/-- `set_content` of the entry with a full url, and `flush` of the cluster. The counter is not told about the writing of
clusters; `pyzim/counter.py:198-242`. -/
def setContent (u : String) (src : BlobSource) : PyM (Counting D) Unit := onCreator (Creator.setContent S u src)

/-- The item of `on_install`; `pyzim/counter.py:204-210`. -/
def counterItem : Item :=
  { ns := "M", url := "Counter", mimetype := "text/plain", source := BlobSourceObj.empty.toSource, isArticle := false }

/-- What `load_from_archive` reads; `pyzim/counter.py:100-102`. -/
def stored (z : Zim) : PyRes String := do
  let e ← z.entryByFullUrl URL_COUNTER
  let b ← z.readContent S.X S.kind S.calls e
  decode b

/-- `load_from_archive`, with `how="load_or_reinit"`; `pyzim/counter.py:67-124`. An exception raised while iterating over the
entries only matters if the counter cannot be loaded. -/
def loadCounter (isNew : Bool) (z : Zim) : PyRes Counter :=
  match (if isNew then .ok [] else z.iterEntries) with
  | .error x =>
    (match Counter.loadFromArchive z.mimetypes (stored S z) isNew [] .load with
    | .ok (some n) => .ok n
    | _ => .error x)
  | .ok es =>
    (match Counter.loadFromArchive z.mimetypes (stored S z) isNew es .loadOrReinit with
    | .ok (some n) => .ok n
    | .ok none => .error .runtimeError
    | .error x => .error x)

/-- The end of the constructor of an archive: the counter is loaded and installed; `pyzim/archive.py:178-181`, `2068-2081`,
`pyzim/counter.py:200-211`. While it is being installed, the counter is not told about entries. -/
def start (isNew : Bool) (c : Creator D) : PyRes (Counting D) :=
  match loadCounter S isNew c.arch.zim with
  | .error x => .error x
  | .ok n =>
    match c.arch.zim.hasEntry URL_COUNTER with
    | .error x => .error x
    | .ok true => .ok ⟨{ c with arch := { c.arch with dirty := false } }, n⟩
    | .ok false =>
      match Creator.addItem S counterItem false c with
      | (.error x, _) => .error x
      | (.ok (), c) => .ok ⟨{ c with arch := { c.arch with dirty := false } }, n⟩

/-- `Zim(..., mode="w")`; `pyzim/archive.py:131-182`, `369-423`. -/
def new (uuid : Bytes) (main plain : Strategy D) : PyRes (Counting D) :=
  match Creator.new S uuid main plain with
  | .error x => .error x
  | .ok c => start S true c

/-- `Zim(..., mode="u")` of an existing archive; `pyzim/archive.py:113-182`, `254-367`. -/
def reopen (titles : Zim → PyRes PointerList) (main plain : Strategy D) (file : Bytes) : PyRes (Counting D) :=
  match Creator.reopen S titles main plain file with
  | .error x => .error x
  | .ok c => start S false c

/-- `after_content_flush`; `pyzim/counter.py:236-242`. -/
def store (n : Counter) : PyM Zim Unit :=
  if n.dirty then do
    let z ← PyM.get
    let e ← PyM.lift (z.entryByFullUrl URL_COUNTER)
    Zim.setContent S.X S.C S.kind S.calls e (BlobSourceObj.inMemory (encode n.toString)).toSource
  else pure ()

/-- `flush`; `pyzim/archive.py:517-689`. The counter does not change while its content is written, and is marked as clean
after that; here that happens at the end. -/
def flush : PyM (Counting D) Unit := do
  let c ← PyM.get
  PyM.require (!c.creator.arch.zim.closed) .zimFileClosed
  PyM.require c.creator.arch.zim.mutable .nonMutable
  if c.creator.arch.isDirty then do
    onMain (Strategy.flushOn (backend S))
    onPlain (Strategy.flushOn (backend S))
    let c ← PyM.get
    onCreator (Creator.onArch (Archive.flushDirty S.H S.short S.chunksize S.policy
      (Zim.finalizeOperations S.blob S.depth S.passes >>= fun _ => store S c.counter) (Creator.setListing S)))
    PyM.modify (fun c => { c with counter := { c.counter with dirty := false } })
  else pure ()

end Counting
end Pyzim
