import Verif.Model.IterByCluster
import Verif.Model.Item
import Verif.Model.Resolve

/-!
# Model of `ZimTranslator`, `pyzim/util/translator.py`

The input archive is represented by its entries in the order of the url pointer list, its main page,
its mimetypes and the content of its entries. What is modelled of the output archive are the calls
made on it; they are assumed to return. How the archives are opened is left to subclasses and not
part of the model.
-/

namespace Pyzim

/-- The input of a translation. -/
structure TransInput where
  /-- by full url, all bound -/
  entries : List Entry
  /-- `header.main_page` -/
  mainPage : Option Nat
  mimetypes : MimeTypeList
  /-- `entry_at_url_is_article` -/
  article : Option String → Bool
  /-- `EntryBlobSource(entry)` -/
  source : Entry → BlobSource

/-- The calls made on the archives while translating. -/
inductive TransCall where
  | setMainpage (url : String)
  | addItem (it : Item)
  | addRedirect (source target : String) (title : Option String)
  | flushOut
  | closeIn
  | closeOut

namespace TransInput

/-- A call on one of the archives. -/
def call (c : TransCall) : PyM (List TransCall) Unit := PyM.modify (· ++ [c])

/-- `get_mainpage_entry`; `pyzim/archive.py:926-939`. -/
def mainpageEntry (inp : TransInput) : PyRes Entry :=
  match inp.mainPage with
  | none => .error .entryNotFound
  | some i => match inp.entries[i]? with
    | some e => .ok e
    | none => .error .indexError

/-- `entry.resolve()`; a circle of redirects is never left. -/
def resolved (inp : TransInput) (e : Entry) : PyRes Entry :=
  match Entry.resolve inp.entries (inp.entries.length + 1) e with
  | some r => r
  | none => .error .hang

/-- `handle_header`; `pyzim/util/translator.py:99-114`. -/
def handleHeader (inp : TransInput) : PyM (List TransCall) Unit := do
  let m ← PyM.lift inp.mainpageEntry
  let e ← PyM.lift (inp.resolved m)
  call (.setMainpage e.url)

/-- `get_entry_by_full_url`; that the search by url finds exactly the entries of the archive is C06
and C33. -/
def entryByFullUrl (inp : TransInput) (u : String) : PyRes Entry :=
  match inp.entries.find? (fun e => e.fullUrl = u) with
  | some e => .ok e
  | none => .error .entryNotFound

/-- `handle_redirect`; `pyzim/util/translator.py:116-130`. -/
def handleRedirect (inp : TransInput) (e : Entry) : PyM (List TransCall) Unit := do
  let t ← PyM.lift (e.follow inp.entries)
  call (.addRedirect e.fullUrl t.fullUrl (if e.title ≠ e.url then some e.title else none))

/-- `handle_X`; `pyzim/util/translator.py:170-194`. -/
def handleX (it : Item) : List Item :=
  if it.url ∉ ["listing/titleOrdered/v0", "listing/titleOrdered/v1"] then [it] else []

/-- `handle_M`; `pyzim/util/translator.py:196-214`. -/
def handleM (it : Item) : List Item :=
  if it.url ∉ ["Counter"] then [it] else []

/-- `handle_item` with the handlers of the class itself; `pyzim/util/translator.py:132-168`. A
namespace is one byte, so `handle_header` and the like are never meant. -/
def handleItem (it : Item) : List Item :=
  if it.ns = "X" then handleX it
  else if it.ns = "M" then handleM it
  else [it]

/-- `for new_item in new_items: self.zim_out.add_item(new_item)`; `pyzim/util/translator.py:88-94`. -/
def addItems : List Item → PyM (List TransCall) Unit
  | [] => pure ()
  | it :: its => do
    call (.addItem it)
    addItems its

/-- The body of the loop over the urls, with `handle` for `handle_item`;
`pyzim/util/translator.py:80-94`. -/
def translateOne (inp : TransInput) (handle : Item → List Item) (u : String) :
    PyM (List TransCall) Unit := do
  let e ← PyM.lift (inp.entryByFullUrl u)
  if e.isRedirect then inp.handleRedirect e
  else do
    let it ← PyM.lift (Item.fromEntry e inp.mimetypes inp.article (inp.source e))
    addItems (handle it)

/-- The loop over the urls of a group, or of all groups; `pyzim/util/translator.py:78-95`. -/
def translateAll (inp : TransInput) (handle : Item → List Item) : List String →
    PyM (List TransCall) Unit
  | [] => pure ()
  | u :: us => do
    inp.translateOne handle u
    inp.translateAll handle us

/-- `finalize`; `pyzim/util/translator.py:216-224`. -/
def finalize : PyM (List TransCall) Unit := do
  call .flushOut
  call .closeIn
  call .closeOut

/-- `translate`; `pyzim/util/translator.py:70-97`. The groups are translated as they are yielded,
before the generator raises. -/
def translate (inp : TransInput) (handle : Item → List Item) : PyM (List TransCall) Unit := do
  inp.handleHeader
  inp.translateAll handle (IterByCluster.run inp.entries).1.flatten
  PyM.lift (IterByCluster.run inp.entries).2
  finalize

end TransInput
end Pyzim
