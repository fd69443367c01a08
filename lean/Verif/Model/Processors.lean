import Verif.Model.Embedded

/-!
# Model of processors when reading, `pyzim/processor.py` and `pyzim/archive.py`

An archive opened for reading (as in `Verif/Model/Embedded.lean`), with processors installed. What the processors remember is one
state `σ` that all of them share. The methods of the processors may raise. Simplifications: those of `Verif/Model/Archive.lean` (the
caches are `NoOpCache`s); a processor changes an entry by returning another one; it does not change the archive. The keyword
argument `allow_cache_replacement` is not modelled.
-/

namespace Pyzim

/-- A processor: the methods that are called when reading; `pyzim/processor.py:11-105`, `128-170`. -/
structure Processor (σ D : Type) where
  /-- `before_entry_get(location)` -/
  beforeEntry : Int → PyM σ Unit := fun _ => pure ()
  /-- `after_entry_get(location, entry)`; the default returns the entry -/
  afterEntry : Int → Entry → PyM σ Entry := fun _ e => pure e
  /-- `before_cluster_get(location)` -/
  beforeCluster : Int → PyM σ Unit := fun _ => pure ()
  /-- `after_cluster_get(cluster)`; the default returns the cluster -/
  afterCluster : CSt D → PyM σ (CSt D) := fun c => pure c

/-- an archive with processors, in the order in which they were installed; `pyzim/archive.py:126`, `2068-2081` -/
structure Processed (σ D : Type) where
  arch : Embedded
  processors : List (Processor σ D) := []

/-- `except` clauses -/
def PyM.catching {σ α : Type} (m : PyM σ α) (f : PyErr → PyErr) : PyM σ α := fun s =>
  match m s with
  | (.ok a, s') => (.ok a, s')
  | (.error x, s') => (.error (f x), s')

/-- `binarysearch` with a key that calls processors; `pyzim/pointerlist.py:44-50`. -/
def searchLoopM {σ : Type} (keyAt : Nat → PyM σ Bytes) (element : Bytes) (start end_ : Nat) : PyM σ Nat :=
  if _h : start < end_ then do
    let k ← keyAt ((start + end_) / 2)
    if k < element then searchLoopM keyAt element ((start + end_) / 2 + 1) end_
    else searchLoopM keyAt element start ((start + end_) / 2)
  else pure start
termination_by end_ - start

/-- The `for` loops over the processors that ignore what is returned; `pyzim/archive.py:816-817`, `1605-1606`. -/
def tellAll {σ : Type} : List (PyM σ Unit) → PyM σ Unit
  | [] => pure ()
  | m :: ms => do m; tellAll ms

/-- The `for` loops over the processors in which each gets what the one before returned; `pyzim/archive.py:831-836`, `1622-1623`. -/
def passOn {σ α : Type} : List (α → PyM σ α) → α → PyM σ α
  | [], a => pure a
  | f :: fs, a => do
    let a ← f a
    passOn fs a

/-- a `for` loop that collects what a function gives -/
def collect {σ α β : Type} (f : α → PyM σ β) : List α → PyM σ (List β)
  | [] => pure []
  | a :: as => do
    let b ← f a
    let bs ← collect f as
    pure (b :: bs)

namespace Processed
variable {σ D : Type}

/-- `install_processor`, given a `BaseProcessor`; `pyzim/archive.py:2068-2081`. (`on_install` only sets `zim`.) -/
def install (p : Processor σ D) (a : Processed σ D) : Processed σ D := { a with processors := a.processors ++ [p] }

/-- `get_entry_at`; `pyzim/archive.py:797-837`. -/
def entryAt (a : Processed σ D) (location : Int) : PyM σ Entry := do
  PyM.require (decide (0 ≤ location)) .assertionError
  tellAll (a.processors.map fun p => p.beforeEntry location)
  let e ← PyM.lift (a.arch.entryAt location)
  passOn (a.processors.map fun p => p.afterEntry location) e

/-- `_get_full_url_for_entry_at`; `pyzim/archive.py:425-438`. The processors are called here, too. -/
def urlKey (a : Processed σ D) (location : Int) : PyM σ Bytes := do
  let e ← a.entryAt location
  pure (encode e.fullUrl)

/-- `key(self[i])` for the url pointer list; `pyzim/pointerlist.py:46`, `202-214`. -/
def keyAt (a : Processed σ D) (i : Nat) : PyM σ Bytes := do
  let p ← PyM.lift (a.arch.zim.urls.getByIndex i)
  a.urlKey p

/-- `binarysearch` in the url pointer list; `pyzim/pointerlist.py:13-50`. -/
def search (a : Processed σ D) (key : Bytes) : PyM σ Nat :=
  if a.arch.zim.urls.len - 0 = 0 then pure 0 else searchLoopM a.keyAt key 0 a.arch.zim.urls.len

/-- `get_index` of the url pointer list; `pyzim/pointerlist.py:536-554`. -/
def urlIndex (a : Processed σ D) (key : Bytes) : PyM σ Nat := do
  let i ← a.search key
  if i ≠ a.arch.zim.urls.len then do
    let k ← a.keyAt i
    if k = key then pure i else PyM.raise .keyError
  else PyM.raise .keyError

/-- `get` of the url pointer list; `pyzim/pointerlist.py:521-534`. -/
def urlPointer (a : Processed σ D) (key : Bytes) : PyM σ Int := do
  let i ← a.urlIndex key
  PyM.lift (a.arch.zim.urls.getByIndex i)

/-- `get_entry_by_url_index`; `pyzim/archive.py:890-912`. -/
def entryByIndex (a : Processed σ D) (i : Int) : PyM σ Entry :=
  if i < 0 then PyM.raise .entryNotFound
  else do
    let location ← PyM.catching (PyM.lift (a.arch.zim.urls.getByIndex i)) fun x => if x = .indexError then .entryNotFound else x
    a.entryAt location

/-- `get_entry_by_full_url`; `pyzim/archive.py:873-888`. -/
def entryByFullUrl (a : Processed σ D) (fullUrl : String) : PyM σ Entry := do
  let location ← PyM.catching (a.urlPointer (encode fullUrl)) fun x => if x = .keyError then .entryNotFound else x
  a.entryAt location

/-- `has_entry_for_full_url`; `pyzim/archive.py:915-924`, `pyzim/pointerlist.py:556-573`. -/
def hasEntry (a : Processed σ D) (fullUrl : String) : PyM σ Bool := fun s =>
  match a.urlPointer (encode fullUrl) s with
  | (.ok _, s') => (.ok true, s')
  | (.error .keyError, s') => (.ok false, s')
  | (.error x, s') => (.error x, s')

/-- `get_mainpage_entry`; `pyzim/archive.py:926-939`. -/
def mainpageEntry (a : Processed σ D) : PyM σ Entry :=
  match a.arch.zim.header.mainPage with
  | none => PyM.raise .entryNotFound
  | some i => do
    let location ← PyM.lift (a.arch.zim.urls.getByIndex i)
    a.entryAt location

/-- `iter_entries_by_url`, consumed completely; `pyzim/archive.py:1215-1232`. -/
def iterEntries (a : Processed σ D) (start end_ : Option Nat) : PyM σ (List Entry) := do
  let ps ← PyM.lift (a.arch.zim.urls.iterPointers start end_)
  collect a.entryAt ps

/-- `iter_articles`, consumed completely; `pyzim/archive.py:1234-1254`. -/
def iterArticles (a : Processed σ D) (start end_ : Option Nat) : PyM σ (List Entry) := do
  let ps ← PyM.lift (a.arch.zim.articles.iterPointers start end_)
  collect a.entryByIndex ps

/-- The loop of `RedirectEntry.resolve`; `pyzim/entry.py:1033-1035`. -/
def resolveLoop (a : Processed σ D) : (fuel : Nat) → Entry → PyM σ Entry
  | 0, _ => PyM.raise .hang
  | fuel + 1, e =>
    if e.isRedirect then
      match e.kind with
      | .redirect i => do
        let e' ← a.entryByIndex i
        resolveLoop a fuel e'
      | .content _ _ => PyM.raise .attributeError
    else pure e

/-- `resolve`; `pyzim/entry.py:518-530` and `1022-1035`. -/
def resolve (a : Processed σ D) (fuel : Nat) (e : Entry) : PyM σ Entry :=
  match e.kind with
  | .content _ _ => pure e
  | .redirect _ => a.resolveLoop fuel e

/-- `get_cluster_by_index` and `get_cluster_at` in a read-only archive; `pyzim/archive.py:1590-1635`. -/
def clusterByIndex (kind : ClusterKind) (a : Processed σ D) (i : Nat) : PyM σ (CSt D) := do
  let pos ← PyM.lift (a.arch.zim.clusters.getByIndex i)
  tellAll (a.processors.map fun p => p.beforeCluster pos)
  let c ← PyM.lift (a.arch.clusterByIndex kind i)
  passOn (a.processors.map fun p => p.afterCluster) c

/-- `read` of an entry; `pyzim/entry.py:762-795`. -/
def readContent (X : Codecs D) (kind : ClusterKind) (a : Processed σ D) (e : Entry) (start stop : Option Int) : PyM σ Bytes :=
  match e.kind with
  | .redirect _ => PyM.raise .attributeError
  | .content c b => do
    let r ← PyM.lift (Zim.checkRange start stop)
    let s ← a.clusterByIndex kind c
    PyM.lift (Cluster.readBlob X b r.1 r.2 s).1

/-- `get_size` of an entry; `pyzim/entry.py:748-760`. -/
def contentSize (X : Codecs D) (kind : ClusterKind) (a : Processed σ D) (e : Entry) : PyM σ Int :=
  match e.kind with
  | .redirect _ => PyM.raise .attributeError
  | .content c b => do
    let s ← a.clusterByIndex kind c
    PyM.lift (Cluster.getBlobSize X b s).1

end Processed
end Pyzim
