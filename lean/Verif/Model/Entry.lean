import Verif.Model.Struct
import Verif.Model.Str
import Verif.Model.Ioutil

/-!
# Model of `pyzim/entry.py`

`revision` and `parameters` are omitted from the state: the constructor asserts that they are `0`
and `[]` (`pyzim/entry.py:77`, `80`) and the setters accept only these values
(`pyzim/entry.py:182-199`, `293-310`). Type checks on arguments are dropped.
-/

namespace Pyzim

/-- The two subclasses and their additional attributes; `pyzim/entry.py:549-602`, `858-902`. -/
inductive EntryKind
  | content (clusterNumber blobNumber : Nat)
  | redirect (redirectIndex : Nat)
deriving Repr, DecidableEq

/-- State of an entry; `pyzim/entry.py:85-93`, flags of `pyzim/modifiable.py:33-42`. -/
structure Entry where
  mimetypeId : Nat
  ns : String
  url : String
  /-- `_title`, which may be `None` -/
  titleRaw : Option String
  kind : EntryKind
  oldFullUrl : Option String := none
  forceIsArticle : Option Bool := none
  dirty : Bool := false
  mutable : Bool := true
deriving DecidableEq

namespace Entry

/-- `MIMETYPE_ID_REDIRECT`; `pyzim/entry.py:48`. -/
def MIMETYPE_ID_REDIRECT : Nat := 0xffff

/-- `full_url` getter; `pyzim/entry.py:323-330`. -/
def fullUrl (e : Entry) : String := e.ns ++ e.url

/-- `after_flush_or_read`, as far as the modelled attributes are concerned;
`pyzim/entry.py:498-504`, `pyzim/modifiable.py:100-118`. -/
def afterFlushOrRead (e : Entry) : Entry := { e with oldFullUrl := some (e.ns ++ e.url), dirty := false }

/-- `ContentEntry(...)`; `pyzim/entry.py:566-602` with `50-93`. -/
def newContent (mimetype : Nat) (ns : String) (revision clusterNumber blobNumber : Nat)
    (url : String) (title : Option String) (parameters : List String) : PyRes Entry :=
  if revision = 0 ∧ parameters = [] then
    .ok (afterFlushOrRead { mimetypeId := mimetype, ns := ns, url := url, titleRaw := title
                            kind := .content clusterNumber blobNumber })
  else .error .assertionError

/-- `RedirectEntry(...)`; `pyzim/entry.py:873-902` with `50-93`. -/
def newRedirect (ns : String) (revision redirectIndex : Nat) (url : String)
    (title : Option String) (parameters : List String) : PyRes Entry :=
  if revision = 0 ∧ parameters = [] then
    .ok (afterFlushOrRead { mimetypeId := MIMETYPE_ID_REDIRECT, ns := ns, url := url
                            titleRaw := title, kind := .redirect redirectIndex })
  else .error .assertionError

/-! ## Properties (getters and setters) -/

/-- `mimetype_id` setter; `pyzim/entry.py:111-128`. -/
def setMimetypeId (e : Entry) (v : Int) : PyRes Unit × Entry :=
  if v < 0 then (.error .valueError, e)
  else if !e.mutable then (.error .nonMutable, e)
  else if v.toNat ≠ e.mimetypeId then (.ok (), { e with mimetypeId := v.toNat, dirty := true })
  else (.ok (), e)

/-- `namespace` setter; `pyzim/entry.py:141-169`. -/
def setNamespace (e : Entry) (v : StrArg) : PyRes Unit × Entry :=
  match v.both with
  | .error x => (.error x, e)
  | .ok (b, u) =>
    if b.length ≠ 1 then (.error .valueError, e)
    else if !e.mutable then (.error .nonMutable, e)
    else if u ≠ e.ns then
      let e := { e with ns := u }
      let e := if u ≠ "C" then { e with forceIsArticle := some false } else e
      (.ok (), { e with dirty := true })
    else (.ok (), e)

/-- `url` setter; `pyzim/entry.py:212-235`. -/
def setUrl (e : Entry) (v : StrArg) : PyRes Unit × Entry :=
  match v.both with
  | .error x => (.error x, e)
  | .ok (b, u) =>
    if (0 : UInt8) ∈ b then (.error .valueError, e)
    else if !e.mutable then (.error .nonMutable, e)
    else if u ≠ e.url then (.ok (), { e with url := u, dirty := true })
    else (.ok (), e)

/-- `title` getter; `pyzim/entry.py:238-249`. -/
def title (e : Entry) : String :=
  match e.titleRaw with
  | none => e.url
  | some t => if t = "" then e.url else t

/-- `title` setter (`none` is Python's `None`); `pyzim/entry.py:252-278`. -/
def setTitle (e : Entry) (v : Option StrArg) : PyRes Unit × Entry :=
  match (v.getD (.str "")).both with
  | .error x => (.error x, e)
  | .ok (b, u) =>
    if (0 : UInt8) ∈ b then (.error .valueError, e)
    else if !e.mutable then (.error .nonMutable, e)
    else if some u ≠ e.titleRaw then (.ok (), { e with titleRaw := some u, dirty := true })
    else (.ok (), e)

/-- `is_redirect`; `pyzim/entry.py:313-320`. -/
def isRedirect (e : Entry) : Bool := e.mimetypeId = MIMETYPE_ID_REDIRECT

/-- `full_url` setter; `pyzim/entry.py:333-354`. -/
def setFullUrl (e : Entry) (v : StrArg) : PyRes Unit × Entry :=
  match (match v with | .str s => .ok s | .bytes b => decode b : PyRes String) with
  | .error x => (.error x, e)
  | .ok u =>
    match u.toList with
    | [] => (.error .valueError, e)
    | c :: rest =>
      match e.setNamespace (.str (String.singleton c)) with
      | (.error x, e') => (.error x, e')
      | (.ok (), e') => e'.setUrl (.str (String.ofList rest))

/-- `is_article` getter; `pyzim/entry.py:399-414`. `lookup` is `None` for an unbound entry,
otherwise the method `entry_at_url_is_article` of the archive. -/
def isArticle (e : Entry) (lookup : Option (Option String → Bool)) : PyRes Bool :=
  match e.forceIsArticle with
  | some b => .ok b
  | none =>
    match lookup with
    | none => .error .bindRequired
    | some f => if e.ns ≠ "C" then .ok false else .ok (f e.oldFullUrl)

/-- `is_article` setter; `pyzim/entry.py:417-434`. -/
def setIsArticle (e : Entry) (v : Bool) : PyRes Unit × Entry :=
  if !e.mutable then (.error .nonMutable, e)
  else if v = true ∧ e.ns ≠ "C" then (.error .valueError, e)
  else if some v ≠ e.forceIsArticle then
    (.ok (), { e with forceIsArticle := some v, dirty := true })
  else (.ok (), e)

/-- `cluster_number` setter of a content entry; `pyzim/entry.py:617-634`. On a redirect the
attribute does not exist as a property (`AttributeError` in the model). -/
def setClusterNumber (e : Entry) (v : Int) : PyRes Unit × Entry :=
  match e.kind with
  | .redirect _ => (.error .attributeError, e)
  | .content c b =>
    if v < 0 then (.error .valueError, e)
    else if !e.mutable then (.error .nonMutable, e)
    else if v.toNat ≠ c then (.ok (), { e with kind := .content v.toNat b, dirty := true })
    else (.ok (), e)

/-- `blob_number` setter of a content entry; `pyzim/entry.py:647-664`. -/
def setBlobNumber (e : Entry) (v : Int) : PyRes Unit × Entry :=
  match e.kind with
  | .redirect _ => (.error .attributeError, e)
  | .content c b =>
    if v < 0 then (.error .valueError, e)
    else if !e.mutable then (.error .nonMutable, e)
    else if v.toNat ≠ b then (.ok (), { e with kind := .content c v.toNat, dirty := true })
    else (.ok (), e)

/-- `redirect_index` setter of a redirect entry; `pyzim/entry.py:917-934`. -/
def setRedirectIndex (e : Entry) (v : Int) : PyRes Unit × Entry :=
  match e.kind with
  | .content _ _ => (.error .attributeError, e)
  | .redirect i =>
    if v < 0 then (.error .valueError, e)
    else if !e.mutable then (.error .nonMutable, e)
    else if v.toNat ≠ i then (.ok (), { e with kind := .redirect v.toNat, dirty := true })
    else (.ok (), e)

/-! ## Serialization -/

/-- `FORMAT_MT`; `pyzim/entry.py:44`. -/
def formatMT : List Fmt := [.uint 2]
/-- `ContentEntry.FORMAT_NMT`, `"<BcIII"`; `pyzim/entry.py:563`. -/
def formatContent : List Fmt := [.uint 1, .raw 1, .uint 4, .uint 4, .uint 4]
/-- `RedirectEntry.FORMAT_NMT`, `"<BcII"`; `pyzim/entry.py:870`. -/
def formatRedirect : List Fmt := [.uint 1, .raw 1, .uint 4, .uint 4]

/-- `read_until_zero(f).decode(...)`, used for url, title and parameters. -/
def readStr (f : PyFile) : Option (PyRes String × PyFile) :=
  match readUntilZero f with
  | none => none
  | some (b, f') => some (decode b, f')

/-- `[read_until_zero(f).decode(...) for i in range(n)]`; `pyzim/entry.py:695`, `968`. -/
def readStrs : Nat → PyFile → Option (PyRes (List String) × PyFile)
  | 0, f => some (.ok [], f)
  | n + 1, f =>
    match readStr f with
    | none => none
    | some (.error x, f') => some (.error x, f')
    | some (.ok s, f') =>
      match readStrs n f' with
      | none => none
      | some (.error x, f'') => some (.error x, f'')
      | some (.ok l, f'') => some (.ok (s :: l), f'')

/-- The zero-terminated part common to both `from_file` methods; `pyzim/entry.py:693-695`,
`966-968`. -/
def readTail (nParameters : Nat) (f : PyFile) :
    Option (PyRes (String × String × List String) × PyFile) :=
  match readStr f with
  | none => none
  | some (.error x, f) => some (.error x, f)
  | some (.ok url, f) =>
    match readStr f with
    | none => none
    | some (.error x, f) => some (.error x, f)
    | some (.ok title, f) =>
      match readStrs nParameters f with
      | none => none
      | some (.error x, f) => some (.error x, f)
      | some (.ok ps, f) => some (.ok (url, title, ps), f)

/-- `ContentEntry.from_file` with a given mimetype; `pyzim/entry.py:669-705`. -/
def contentFromFile (f : PyFile) (mimetype : Nat) : Option (PyRes Entry × PyFile) :=
  let (data, f) := f.read (Fmt.calcsize formatContent)
  match Fmt.unpack formatContent data with
  | .error x => some (.error x, f)
  | .ok [.int nParameters, .raw ns, .int revision, .int clusterNumber, .int blobNumber] =>
    match decode ns with
    | .error x => some (.error x, f)
    | .ok ns =>
      match readTail nParameters.toNat f with
      | none => none
      | some (.error x, f) => some (.error x, f)
      | some (.ok (url, title, ps), f) =>
        some (newContent mimetype ns revision.toNat clusterNumber.toNat blobNumber.toNat url
          (some title) ps, f)
  | .ok _ => some (.error .typeError, f)

/-- `RedirectEntry.from_file` with a given mimetype; `pyzim/entry.py:939-976`. `ParseError` is
represented by `ValueError`. -/
def redirectFromFile (f : PyFile) (mimetype : Nat) : Option (PyRes Entry × PyFile) :=
  if mimetype ≠ MIMETYPE_ID_REDIRECT then some (.error .valueError, f)
  else
    let (data, f) := f.read (Fmt.calcsize formatRedirect)
    match Fmt.unpack formatRedirect data with
    | .error x => some (.error x, f)
    | .ok [.int nParameters, .raw ns, .int revision, .int redirectIndex] =>
      match decode ns with
      | .error x => some (.error x, f)
      | .ok ns =>
        match readTail nParameters.toNat f with
        | none => none
        | some (.error x, f) => some (.error x, f)
        | some (.ok (url, title, ps), f) =>
          some (newRedirect ns revision.toNat redirectIndex.toNat url (some title) ps, f)
    | .ok _ => some (.error .typeError, f)

/-- `BaseEntry.from_file`; `pyzim/entry.py:439-459`. `none`: never returns. -/
def fromFile (f : PyFile) (seek : Option Nat) : Option (PyRes Entry × PyFile) :=
  let f := match seek with
    | some p => f.seek p
    | none => f
  let (data, f) := f.read (Fmt.calcsize formatMT)
  match Fmt.unpack formatMT data with
  | .error x => some (.error x, f)
  | .ok [.int mimetype] =>
    if mimetype.toNat = MIMETYPE_ID_REDIRECT then redirectFromFile f mimetype.toNat
    else contentFromFile f mimetype.toNat
  | .ok _ => some (.error .typeError, f)

/-- `get_disk_size` of both subclasses; `pyzim/entry.py:707-718`, `978-989`. -/
def getDiskSize (e : Entry) : Nat :=
  let urlSize := (encode e.url).length + 1
  let titleSize := match e.titleRaw with
    | none => 1
    | some t => if t = "" then 1 else (encode e.title).length + 1
  let nmt := match e.kind with
    | .content _ _ => Fmt.calcsize formatContent
    | .redirect _ => Fmt.calcsize formatRedirect
  Fmt.calcsize formatMT + nmt + urlSize + titleSize

/-- The packed part of `to_bytes`; `pyzim/entry.py:721-729`, `992-999`. -/
def packHead (e : Entry) : PyRes Bytes :=
  match e.kind with
  | .content c b =>
    Fmt.pack (formatMT ++ formatContent)
      [.int e.mimetypeId, .int 0, .raw (encode e.ns), .int 0, .int c, .int b]
  | .redirect i =>
    Fmt.pack (formatMT ++ formatRedirect)
      [.int e.mimetypeId, .int 0, .raw (encode e.ns), .int 0, .int i]

/-- `to_bytes` of both subclasses; `pyzim/entry.py:720-733`, `991-1003`. A title `None` has no
`encode`. -/
def toBytes (e : Entry) : PyRes Bytes :=
  match e.packHead with
  | .error x => .error x
  | .ok data =>
    match e.titleRaw with
    | none => .error .attributeError
    | some t => .ok (data ++ (encode e.url ++ [0]) ++ (encode t ++ [0]))

end Entry
end Pyzim
