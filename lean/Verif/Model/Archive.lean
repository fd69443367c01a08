import Verif.Model.SpaceAllocator
import Verif.Model.PointerList
import Verif.Model.Header
import Verif.Model.MimeTypeList
import Verif.Model.Entry

/-!
# Model of the entry functions of `pyzim/archive.py`

The state of a `Zim` object is the content of its file, the header, the pointer lists, the mimetype list
and the space allocator. Simplifications:

* The archive starts at offset 0 of the file (`_base_offset == 0`; `Zim.open` drops the offset anyway).
* The caches are `NoOpCache`s: `get_entry_at` always reads the file and returns a new object. (That a cache does
  not change what a reader sees is C43.)
* No processors are installed. The locks are dropped: each method is one atomic step.
* Python's recursion limit is an explicit bound on the depth of nested calls of `write_entry` and
  `remove_entry_by_full_url`; exceeding it raises `RecursionError` (`runtimeError`, of which it is a subclass).
* A call which never returns (an unterminated string at the end of the file) is the error `hang`.
* Logging is dropped, except for the call of `get_entry_by_url_index` in the arguments of a log call at the end of
  `write_entry`, which can raise.
-/

namespace Pyzim

/-- State of a `Zim` object; `pyzim/archive.py:118-183`, `284-423`, `pyzim/operationbuffer.py:29-37`.
`bufferedMainpage` is `none` for Python's `False` ("nothing buffered"). -/
structure Zim where
  file : Bytes
  header : Header
  mimetypes : MimeTypeList
  urls : PointerList
  clusters : PointerList
  articles : PointerList
  /-- the entry title pointer list; `None` for archives of version 6.3 or later -/
  titles : Option PointerList := none
  space : SpaceAllocator
  clusterNum : Nat := 0
  closed : Bool := false
  mutable : Bool := true
  bufferedRedirects : List (String × String × Option String) := []
  bufferedMainpage : Option (Option String) := none
deriving DecidableEq

namespace Zim

/-! ## Reading -/

/-- `get_entry_at`; `pyzim/archive.py:797-837`. -/
def entryAt (z : Zim) (location : Int) : PyRes Entry :=
  if location < 0 then .error .assertionError
  else match Entry.fromFile ⟨z.file, 0⟩ (some location.toNat) with
    | none => .error .hang
    | some (r, _) => r

/-- `_get_full_url_for_entry_at`, the key of the url pointer list; `pyzim/archive.py:425-438`. -/
def urlKey (z : Zim) (location : Int) : PyRes Bytes :=
  match z.entryAt location with
  | .error x => .error x
  | .ok e => .ok (encode e.fullUrl)

/-- `get_entry_by_url_index`; `pyzim/archive.py:890-912`. -/
def entryByIndex (z : Zim) (i : Int) : PyRes Entry :=
  if i < 0 then .error .entryNotFound
  else match z.urls.getByIndex i with
    | .error .indexError => .error .entryNotFound
    | .error x => .error x
    | .ok location => z.entryAt location

/-- `_get_title_for_entry_by_url_index`, the key of the article title pointer list;
`pyzim/archive.py:466-479`. -/
def titleKey (z : Zim) (i : Int) : PyRes Bytes :=
  match z.entryByIndex i with
  | .error x => .error x
  | .ok e => .ok (encode e.title)

/-- `_get_namespace_title_for_entry_by_url_index`, the key of the entry title pointer list;
`pyzim/archive.py:440-464`. -/
def nsTitleKey (z : Zim) (i : Int) : PyRes Bytes :=
  match z.entryByIndex i with
  | .error x => .error x
  | .ok e => .ok (encode (e.ns ++ e.title))

/-- `self._url_pointer_list.get_index(full_url)` -/
def urlIndex (z : Zim) (fullUrl : String) : PyRes Nat := z.urls.getIndex z.urlKey (encode fullUrl)

/-- `get_entry_by_full_url`; `pyzim/archive.py:873-888`. -/
def entryByFullUrl (z : Zim) (fullUrl : String) : PyRes Entry :=
  match z.urls.get z.urlKey (encode fullUrl) with
  | .error .keyError => .error .entryNotFound
  | .error x => .error x
  | .ok location => z.entryAt location

/-- `has_entry_for_full_url`; `pyzim/archive.py:915-924`. -/
def hasEntry (z : Zim) (fullUrl : String) : PyRes Bool := z.urls.has z.urlKey (encode fullUrl)

/-- `get_mainpage_entry`; `pyzim/archive.py:926-939`. -/
def mainpageEntry (z : Zim) : PyRes Entry :=
  match z.header.mainPage with
  | none => .error .entryNotFound
  | some i =>
    match z.urls.getByIndex i with
    | .error x => .error x
    | .ok location => z.entryAt location

/-- `iter_entries_by_url`, consumed completely without changing the archive; `pyzim/archive.py:1215-1232`
(`iter_entries`, `1192-1213`, is the same). -/
def iterEntries (z : Zim) (start : Option Nat := none) (end_ : Option Nat := none) : PyRes (List Entry) := do
  let ps ← z.urls.iterPointers start end_
  ps.mapM z.entryAt

/-- `iter_articles`, consumed completely; `pyzim/archive.py:1234-1254`. -/
def iterArticles (z : Zim) (start : Option Nat := none) (end_ : Option Nat := none) : PyRes (List Entry) := do
  let ps ← z.articles.iterPointers start end_
  ps.mapM z.entryByIndex

/-- `entry_at_url_is_article`; `pyzim/archive.py:1156-1190`. -/
def entryIsArticle (z : Zim) (fullUrl : String) : PyRes Bool :=
  if fullUrl.toList.head? ≠ some 'C' then .error .valueError
  else if z.closed then .error .zimFileClosed
  else match z.urlIndex fullUrl with
    | .error .keyError => .ok false
    | .error x => .error x
    | .ok i =>
      match z.articles.getByPointer i with
      | .error .keyError => .ok false
      | .error x => .error x
      | .ok _ => .ok true

/-- `is_article` of an entry bound to the archive; `pyzim/entry.py:399-414`. -/
def isArticle (z : Zim) (e : Entry) : PyRes Bool :=
  match e.forceIsArticle with
  | some b => .ok b
  | none =>
    if e.ns ≠ "C" then .ok false
    else match e.oldFullUrl with
      | none => .error .typeError
      | some u => z.entryIsArticle u

/-! ## Parts of the state -/

/-- A method of the url pointer list. -/
def onUrls {α : Type} (f : PointerList → PyRes α × PointerList) : PyM Zim α := fun z =>
  let r := f z.urls
  (r.1, { z with urls := r.2 })

/-- A method of the article title pointer list. -/
def onArticles {α : Type} (f : PointerList → PyRes α × PointerList) : PyM Zim α := fun z =>
  let r := f z.articles
  (r.1, { z with articles := r.2 })

/-- A method of the entry title pointer list, called if there is one. -/
def onTitles {α : Type} (f : PointerList → PyRes α × PointerList) : PyM Zim Unit := fun z =>
  match z.titles with
  | none => (.ok (), z)
  | some l =>
    let r := f l
    (r.1.map (fun _ => ()), { z with titles := some r.2 })

/-- A setter of the header. -/
def onHeader {α : Type} (f : Header → PyRes α × Header) : PyM Zim α := fun z =>
  let r := f z.header
  (r.1, { z with header := r.2 })

/-- `self.spaceallocator.allocate(n)` -/
def allocate (n : Nat) : PyM Zim Nat := fun z =>
  let r := z.space.allocate n
  (.ok r.1, { z with space := r.2 })

/-- `self.spaceallocator.mark_free(start, length)` -/
def markFree (start length : Nat) : PyM Zim Unit := fun z =>
  (.ok (), { z with space := z.space.markFree start length })

/-- `with self.acquire_file() as f: f.seek(offset); f.write(data)`, where computing the data may raise. -/
def writeAt (offset : Nat) (data : PyRes Bytes) : PyM Zim Unit := fun z =>
  if z.closed then (.error .zimFileClosed, z)
  else match data with
    | .error x => (.error x, z)
    | .ok d => (.ok (), { z with file := (((PyFile.mk z.file 0).seek offset).write d).data })

/-- The loop of `_update_url_pointers` over the redirects; `pyzim/archive.py:976-982`. `rewrite` is `write_entry`.
Line 981 compares the new index with what `get` returns, which is the *offset* of the redirect. -/
def shiftRedirects (rewrite : Entry → PyM Zim Entry) (start : Nat) (diff : Int) (skip : List String) :
    List Nat → PyM Zim Unit
  | [] => pure ()
  | i :: is => do
    let z ← PyM.get
    let location ← PyM.lift (z.urls.getByIndex i)
    let e ← PyM.lift (z.entryAt location)
    if e.isRedirect = true ∧ e.fullUrl ∉ skip then
      match e.kind with
      | .content _ _ => PyM.raise .attributeError
      | .redirect r =>
        if start ≤ r then do
          PyM.lift (e.setRedirectIndex (r + diff)).1
          let pointer ← PyM.lift (z.urls.get z.urlKey (encode e.fullUrl))
          PyM.require (decide ((r : Int) + diff ≠ pointer)) .assertionError
          let _ ← rewrite (e.setRedirectIndex (r + diff)).2
          shiftRedirects rewrite start diff skip is
        else shiftRedirects rewrite start diff skip is
    else shiftRedirects rewrite start diff skip is

/-- Lines 983-986: the main page is moved if it is *behind* `start`. -/
def shiftMainPage (start : Nat) (diff : Int) : PyM Zim Unit := do
  let z ← PyM.get
  match z.header.mainPage with
  | none => pure ()
  | some m => if m > start then onHeader (fun h => h.setMainPage (some (m + diff))) else pure ()

/-- `_update_url_pointers` (always called with `edit_etpl` and `update_redirects` true);
`pyzim/archive.py:941-986`. -/
def updateUrlPointers (rewrite : Entry → PyM Zim Entry) (start : Nat) (diff : Int) (editAtpl : Bool)
    (skip : List String) : PyM Zim Unit := do
  onTitles (fun l => l.massUpdate diff (some start) none)
  (if editAtpl then onArticles (fun l => l.massUpdate diff (some start) none) else pure ())
  let z ← PyM.get
  shiftRedirects rewrite start diff skip (List.range z.urls.len)
  shiftMainPage start diff

/-! ## Writing entries -/

/-- What `write_entry` remembers about the entry currently in the archive; `pyzim/archive.py:1307-1363`. -/
structure Old where
  index : Nat
  offset : Int
  size : Nat
  articleIndex : Option Nat
  titleIndex : Option Nat
deriving DecidableEq

/-- `get_by_pointer` in a `try` block for `KeyError` -/
def pointerIndex (l : PointerList) (p : Int) : PyRes (Option Nat) :=
  match l.getByPointer p with
  | .ok i => .ok (some i)
  | .error .keyError => .ok none
  | .error x => .error x

/-- Stage 1 of `write_entry`, the current entry; `pyzim/archive.py:1306-1363`. -/
def findOld (z : Zim) (e : Entry) : PyRes (Option Old) :=
  match e.oldFullUrl with
  | none => .error .typeError
  | some u =>
    match z.urlIndex u with
    | .error .keyError => .ok none
    | .error x => .error x
    | .ok i => do
      let offset ← z.urls.getByIndex i
      let old ← z.entryAt offset
      let titleIndex ← (match z.titles with
        | none => .ok none
        | some l => do
          let t ← pointerIndex l i
          if t.isNone && !e.isRedirect then .error .keyError else pure t)
      let articleIndex ← pointerIndex z.articles i
      pure (some { index := i, offset := offset, size := old.getDiskSize, articleIndex, titleIndex })

/-- Stage 1 of `write_entry`, the redirects leading to the entry; `pyzim/archive.py:1366-1370`. -/
def redirectsTo (z : Zim) (index : Nat) : PyRes (List String) := do
  let es ← z.iterEntries
  pure ((es.filter (fun e => e.isRedirect && decide (e.kind = .redirect index))).map Entry.fullUrl)

/-- Stage 2 of `write_entry`, the place of the entry; `pyzim/archive.py:1373-1381`. -/
def place (old : Option Old) (newSize : Nat) : PyM Zim Nat :=
  match old with
  | none => allocate newSize
  | some o =>
    if o.size ≠ newSize then do
      markFree o.offset.toNat o.size
      allocate newSize
    else pure o.offset.toNat

/-- Stage 3 of `write_entry`: delete the entry from the title lists; `pyzim/archive.py:1393-1398`. -/
def removeTitles (o : Old) : PyM Zim Unit := do
  (match o.titleIndex with
    | some i => onTitles (fun l => l.removeByIndex i)
    | none => pure ())
  (match o.articleIndex with
    | some i => onArticles (fun l => l.removeByIndex i)
    | none => pure ())

/-- Stage 3 of `write_entry`: delete the entry from the url pointer list; `pyzim/archive.py:1400-1402`. -/
def removeUrl (rewrite : Entry → PyM Zim Entry) (index : Nat) : PyM Zim Unit := do
  onUrls (fun l => l.removeByIndex index)
  updateUrlPointers rewrite index (-1) true []

/-- Stage 3 of `write_entry`: insert the entry into the url pointer list; returns its index and the entry object;
`pyzim/archive.py:1404-1415`. -/
def insertUrl (rewrite : Entry → PyM Zim Entry) (e : Entry) (offset : Nat) : PyM Zim (Nat × Entry) := do
  let z ← PyM.get
  let index ← onUrls (fun l => l.add z.urlKey (encode e.fullUrl) offset)
  updateUrlPointers rewrite index 1 true [e.fullUrl]
  match e.isRedirect, e.kind with
  | true, .content _ _ => PyM.raise .attributeError
  | false, _ => pure (index, e)
  | true, .redirect r =>
    if index ≤ r then do
      PyM.lift (e.setRedirectIndex (r + 1)).1
      let e := (e.setRedirectIndex (r + 1)).2
      writeAt offset e.toBytes
      PyM.require (decide (r + 1 ≠ index)) .assertionError
      pure (index, e.afterFlushOrRead)
    else do
      PyM.require (decide (r ≠ index)) .assertionError
      pure (index, e)

/-- Stage 3 of `write_entry`: insert the entry into the title lists; `pyzim/archive.py:1419-1424`. -/
def addTitles (e : Entry) (isArticle : Bool) (index : Nat) : PyM Zim Unit := do
  let z ← PyM.get
  onTitles (fun l => l.add z.nsTitleKey (encode (e.ns ++ e.title)) index)
  if isArticle then do
    let _ ← onArticles (fun l => l.add z.titleKey (encode e.title) index)
  else pure ()

/-- Stage 3 of `write_entry`: let the redirects lead to the new index; `pyzim/archive.py:1428-1432`. `rewrite` is
`write_entry(…, update_redirects=False)`. -/
def retarget (rewrite : Entry → PyM Zim Entry) (index : Nat) : List String → PyM Zim Unit
  | [] => pure ()
  | u :: us => do
    let z ← PyM.get
    let e ← PyM.lift (z.entryByFullUrl u)
    PyM.lift (e.setRedirectIndex index).1
    let _ ← rewrite (e.setRedirectIndex index).2
    retarget rewrite index us

/-- The argument of the last log call of `write_entry`; `pyzim/archive.py:1445-1446`. -/
def logRedirect (e : Entry) : PyM Zim Unit := do
  let z ← PyM.get
  if e.isRedirect then
    match e.kind with
    | .content _ _ => PyM.raise .attributeError
    | .redirect r => do
      let _ ← PyM.lift (z.entryByIndex r)
  else pure ()

/-- `write_entry` of an entry bound to the archive; `pyzim/archive.py:1256-1446`. Returns the entry object as it is
after the call. The first argument bounds the depth of nested calls. -/
def writeEntry : (depth : Nat) → Entry → (updateRedirects addToTitles : Bool) → PyM Zim Entry
  | 0, _, _, _ => PyM.raise .runtimeError
  | depth + 1, e, updateRedirects, addToTitles => do
    let z ← PyM.get
    PyM.require (!z.closed) .zimFileClosed
    PyM.require z.mutable .nonMutable
    let isArticle ← PyM.lift (z.isArticle e)
    let newSize := e.getDiskSize
    let old ← PyM.lift (z.findOld e)
    let sizeChanged : Bool := match old with
      | none => true
      | some o => decide (o.size ≠ newSize)
    let urlChanged : Bool := decide (e.oldFullUrl ≠ some e.fullUrl) || old.isNone
    let redirects ← PyM.lift (match old with
      | none => .ok []
      | some o => if updateRedirects && urlChanged then z.redirectsTo o.index else .ok [])
    let offset ← place old newSize
    writeAt offset e.toBytes
    let e := e.afterFlushOrRead
    (match old with
      | none => pure ()
      | some o => removeTitles o)
    (match old with
      | none => pure ()
      | some o =>
        if urlChanged || sizeChanged then
          removeUrl (fun e => writeEntry depth e true true) o.index
        else pure ())
    let r ← (match old, urlChanged || sizeChanged with
      | some o, false => pure (o.index, e)
      | _, _ => insertUrl (fun e => writeEntry depth e true true) e offset)
    (if addToTitles then addTitles r.2 isArticle r.1 else pure ())
    (if old.map Old.index ≠ some r.1 then
      retarget (fun e => writeEntry depth e false true) r.1 redirects
    else pure ())
    logRedirect r.2
    pure r.2

/-! ## Removing entries -/

/-- The redirects leading to the entry, except for one leading to itself; `pyzim/archive.py:1106-1114`. -/
def redirectsToRemove (z : Zim) (index : Nat) : PyRes (List String) := do
  let es ← z.iterEntries
  let es := es.filter (fun e => e.isRedirect && decide (e.kind = .redirect index))
  let target ← (if es = [] then .ok "" else do
    let t ← z.entryByIndex index
    pure t.fullUrl)
  pure ((es.filter (fun e => decide (target ≠ e.fullUrl))).map Entry.fullUrl)

/-- Remove the entry from the entry title list; `pyzim/archive.py:1123-1125`. -/
def removeTitle (index : Nat) : PyM Zim Unit := fun z =>
  match z.titles with
  | none => (.ok (), z)
  | some l =>
    match l.getByPointer index with
    | .error x => (.error x, z)
    | .ok i => onTitles (fun l => l.removeByIndex i) z

/-- Remove the entry from the article title list; `pyzim/archive.py:1118-1121`. -/
def removeArticle (index : Nat) : PyM Zim Unit := do
  let z ← PyM.get
  let a ← PyM.lift (z.articles.getByPointer index)
  onArticles (fun l => l.removeByIndex a)

/-- The loop removing the redirects; `pyzim/archive.py:1141-1143`. -/
def removeAll (remove : String → PyM Zim Unit) : List String → PyM Zim Unit
  | [] => pure ()
  | u :: us => do
    remove u
    removeAll remove us

/-- Unset the main page if it is the entry; `pyzim/archive.py:1133-1134`. -/
def clearMainPage (index : Nat) : PyM Zim Unit := do
  let z ← PyM.get
  if z.header.mainPage = some index then onHeader (fun h => h.setMainPage none) else pure ()

/-- `remove_entry_by_full_url`; `pyzim/archive.py:1035-1154`. `blob` is what happens to the blob of a content entry
(lines 1093-1102: nothing for `blob="keep"`, otherwise the blob is emptied or removed and its cluster written);
redirects leading to the entry are removed with the default `blob="empty"`, which is `blobDefault`. -/
def removeEntry (blobDefault : Entry → PyM Zim Unit) :
    (depth : Nat) → (blob : Entry → PyM Zim Unit) → String → PyM Zim Unit
  | 0, _, _ => PyM.raise .runtimeError
  | depth + 1, blob, fullUrl => do
    let z ← PyM.get
    PyM.require (!z.closed) .zimFileClosed
    PyM.require z.mutable .nonMutable
    let index ← PyM.lift (match z.urlIndex fullUrl with
      | .error .keyError => .error .entryNotFound
      | r => r)
    let offset ← PyM.lift (z.urls.getByIndex index)
    let e ← PyM.lift (z.entryAt offset)
    (if e.isRedirect then pure () else blob e)
    let z ← PyM.get
    let redirects ← PyM.lift (z.redirectsToRemove index)
    let isArticle ← PyM.lift (if e.ns = "C" then z.entryIsArticle fullUrl else .ok false)
    (if isArticle then removeArticle index else pure ())
    removeTitle index
    onUrls (fun l => l.removeByIndex index)
    clearMainPage index
    updateUrlPointers (fun e => writeEntry depth e true true) index (-1) isArticle []
    markFree offset.toNat e.getDiskSize
    removeAll (removeEntry blobDefault depth blobDefault) redirects

end Zim
end Pyzim
