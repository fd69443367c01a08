import Verif.Model.Counter
import Verif.Model.Blob

/-!
# Model of `pyzim/item.py`

Type checks on arguments are dropped, `str` arguments are Lean strings.
-/

namespace Pyzim

/-- State of an `Item`; `pyzim/item.py:17-38`. -/
structure Item where
  ns : String
  url : String
  mimetype : String
  source : BlobSource
  /-- `_title`, which may be `None` -/
  titleRaw : Option String := none
  isArticle : Bool := false

namespace Item

/-- `title` getter; `pyzim/item.py:74-85`. -/
def title (it : Item) : String :=
  match it.titleRaw with
  | none => it.url
  | some t => t

/-- `title` setter; `pyzim/item.py:87-103`. -/
def setTitle (it : Item) (v : Option String) : PyRes Unit × Item :=
  match v with
  | none => (.ok (), { it with titleRaw := none })
  | some t =>
    if (0 : UInt8) ∈ encode t then (.error .valueError, it)
    else (.ok (), { it with titleRaw := some t })

/-- `url` setter; `pyzim/item.py:115-132`. -/
def setUrl (it : Item) (v : String) : PyRes Unit × Item :=
  if v.length = 0 then (.error .valueError, it)
  else if (0 : UInt8) ∈ encode v then (.error .valueError, it)
  else (.ok (), { it with url := v })

/-- `namespace` setter; `pyzim/item.py:144-158`. -/
def setNamespace (it : Item) (v : String) : PyRes Unit × Item :=
  if (encode v).length ≠ 1 then (.error .valueError, it)
  else (.ok (), { it with ns := v })

/-- `mimetype` setter; `pyzim/item.py:170-187`. -/
def setMimetype (it : Item) (v : String) : PyRes Unit × Item :=
  if v.length = 0 then (.error .valueError, it)
  else if (0 : UInt8) ∈ encode v then (.error .valueError, it)
  else (.ok (), { it with mimetype := v })

/-- `blob_source` setter; `pyzim/item.py:199-210`. -/
def setBlobSource (it : Item) (v : BlobSource) : Item := { it with source := v }

/-- `is_article` setter; `pyzim/item.py:222-233`. -/
def setIsArticle (it : Item) (v : Bool) : Item := { it with isArticle := v }

/-- `Item(...)`; `pyzim/item.py:39-72`. The attributes not yet set have arbitrary values. -/
def new (ns url mimetype : String) (source : BlobSource) (title : Option String) (isArticle : Bool) :
    PyRes Item :=
  let it : Item := { ns := "", url := "", mimetype := "", source := source }
  match it.setNamespace ns with
  | (.error e, _) => .error e
  | (.ok (), it) =>
    match it.setUrl url with
    | (.error e, _) => .error e
    | (.ok (), it) =>
      match it.setMimetype mimetype with
      | (.error e, _) => .error e
      | (.ok (), it) =>
        match (it.setBlobSource source).setTitle title with
        | (.error e, _) => .error e
        | (.ok (), it) => .ok (it.setIsArticle isArticle)

/-- `to_entry`; `pyzim/item.py:235-260`. The mimetype list is the one of the archive. -/
def toEntry (it : Item) (mts : MimeTypeList) : PyRes Entry × MimeTypeList :=
  match mts.getIndex (encode it.mimetype) true with
  | (.error e, mts) => (.error e, mts)
  | (.ok none, mts) => (.error .assertionError, mts)
  | (.ok (some id), mts) =>
    match Entry.newContent id it.ns 0 0 0 it.url (some it.title) [] with
    | .error e => (.error e, mts)
    | .ok e =>
      match e.setIsArticle it.isArticle with
      | (.error x, _) => (.error x, mts)
      | (.ok (), e) => (.ok e, mts)

/-- `from_entry` for a bound content entry; `pyzim/item.py:262-284`. `lookup` is the archive's
`entry_at_url_is_article`, `source` is `EntryBlobSource(entry)`. -/
def fromEntry (e : Entry) (mts : MimeTypeList) (lookup : Option String → Bool) (source : BlobSource) :
    PyRes Item :=
  match e.kind with
  | .redirect _ => .error .typeError
  | .content _ _ =>
    let title := if e.title ≠ "" then some e.title else none
    match Counter.mimetypeOf mts e, e.isArticle (some lookup) with
    | .error x, _ => .error x
    | .ok _, .error x => .error x
    | .ok mt, .ok a => Item.new e.ns e.url mt source title a

end Item
end Pyzim
