import Verif.Model.Archive

/-!
# Model of `resolve` of entries and of the reading part of the metadata interface of `pyzim/archive.py`

The simplifications are those of `Verif/Model/Archive.lean`. Reading the content of an entry and the flush that precedes
reading from a writable archive are parameters.
-/

namespace Pyzim
namespace Zim

/-- The loop of `RedirectEntry.resolve`; `pyzim/entry.py:1033-1035`, with `follow`, `pyzim/entry.py:1007-1020`. `fuel`
bounds the number of turns; needing more is the error `hang`. -/
def resolveLoop (z : Zim) : (fuel : Nat) → Entry → PyRes Entry
  | 0, _ => .error .hang
  | fuel + 1, e =>
    if e.isRedirect then
      match e.kind with
      | .redirect i =>
        match z.entryByIndex i with
        | .error x => .error x
        | .ok e' => resolveLoop z fuel e'
      | .content _ _ => .error .attributeError
    else .ok e

/-- `resolve`; `pyzim/entry.py:518-530` and `1022-1035`. -/
def resolve (z : Zim) (fuel : Nat) (e : Entry) : PyRes Entry :=
  match e.kind with
  | .content _ _ => .ok e
  | .redirect _ => resolveLoop z fuel e

/-- The loop of `get_metadata_keys` over the `n` entries from index `i` on; `pyzim/archive.py:1878-1888`, with the
generators of `iter_entries_by_url` and `iter_pointers`, which are not read further after the end of the namespace. -/
def metadataKeysFrom (z : Zim) : (n i : Nat) → PyRes (List String)
  | 0, _ => .ok []
  | n + 1, i =>
    match z.urls.getByIndex i with
    | .error x => .error x
    | .ok p =>
      match z.entryAt p with
      | .error x => .error x
      | .ok e =>
        if e.ns ≠ "M" then .ok []
        else match metadataKeysFrom z n (i + 1) with
          | .error x => .error x
          | .ok ks => .ok (e.url :: ks)

/-- `get_metadata_keys()`; `pyzim/archive.py:1862-1889`. -/
def metadataKeys (z : Zim) : PyRes (List String) :=
  match z.urls.findFirstGreaterEquals z.urlKey (encode "M") with
  | .error x => .error x
  | .ok start => if z.urls.len < start then .error .assertionError else z.metadataKeysFrom (z.urls.len - start) start

/-- `get_metadata_keys(as_unicode)`; `pyzim/archive.py:1862-1889`. -/
def getMetadataKeys (z : Zim) (asUnicode : Bool) : PyRes (List StrArg) :=
  match z.metadataKeys with
  | .error x => .error x
  | .ok ks => .ok (ks.map (fun k => if asUnicode then .str k else .bytes (encode k)))

/-- `get_metadata`, after the flush; `pyzim/archive.py:1852-1860`, with `get_entry_by_url`, `839-854`. -/
def readMetadata (z : Zim) (read : Entry → PyRes Bytes) (fuel : Nat) (key : String) (asUnicode : Bool) :
    PyRes (Option StrArg) :=
  match z.entryByFullUrl ("M" ++ key) with
  | .error .entryNotFound => .ok none
  | .error x => .error x
  | .ok e =>
    match z.resolve fuel e with
    | .error .entryNotFound => .ok none
    | .error x => .error x
    | .ok e' =>
      match read e' with
      | .error x => .error x
      | .ok b =>
        if asUnicode then
          match decode b with
          | .error x => .error x
          | .ok s => .ok (some (.str s))
        else .ok (some (.bytes b))

/-- `get_metadata`; `pyzim/archive.py:1827-1860`. `writable` is `_writable`. -/
def getMetadata (writable : Bool) (flush : PyM Zim Unit) (read : Zim → Entry → PyRes Bytes) (fuel : Nat) (key : String)
    (asUnicode : Bool) : PyM Zim (Option StrArg) := do
  (if writable then flush else pure ())
  let z ← PyM.get
  PyM.lift (z.readMetadata (read z) fuel key asUnicode)

/-- `metadata[key] = value` for a dict, given by its items in order -/
def dictSet {α : Type} (d : List (StrArg × α)) (k : StrArg) (v : α) : List (StrArg × α) :=
  if d.any (fun kv => kv.1 = k) then d.map (fun kv => if kv.1 = k then (k, v) else kv) else d ++ [(k, v)]

/-- The loop of `get_metadata_dict`; `pyzim/archive.py:1906-1909`. -/
def metadataDictLoop (writable : Bool) (flush : PyM Zim Unit) (read : Zim → Entry → PyRes Bytes) (fuel : Nat)
    (asUnicode : Bool) : List StrArg → List (StrArg × Option StrArg) → PyM Zim (List (StrArg × Option StrArg))
  | [], d => pure d
  | k :: ks, d => do
    let u ← PyM.lift (match k with | .bytes b => decode b | .str s => .ok s)
    let v ← getMetadata writable flush read fuel u (asUnicode && !("Illustration_".toList.isPrefixOf u.toList))
    metadataDictLoop writable flush read fuel asUnicode ks (dictSet d k v)

/-- `get_metadata_dict`; `pyzim/archive.py:1891-1910`. -/
def getMetadataDict (writable : Bool) (flush : PyM Zim Unit) (read : Zim → Entry → PyRes Bytes) (fuel : Nat)
    (asUnicode : Bool) : PyM Zim (List (StrArg × Option StrArg)) := do
  let z ← PyM.get
  let ks ← PyM.lift (z.getMetadataKeys asUnicode)
  metadataDictLoop writable flush read fuel asUnicode ks []

end Zim
end Pyzim
