import Verif.Model.Struct

/-!
# Model of `pyzim/header.py`

The uuid is modelled by its `bytes_le` value (16 bytes); `uuid.UUID(bytes_le=b).bytes_le == b` is
standard library behaviour. Type checks are dropped. `dirty`/`mutable` come from
`pyzim/modifiable.py:33-42`.
-/

namespace Pyzim

/-- State of a `Header`; `pyzim/header.py:124-143`. -/
structure Header where
  magicNumber : Int
  majorVersion : Nat
  minorVersion : Nat
  uuid : Bytes
  entryCount : Nat
  clusterCount : Nat
  urlPointerPosition : Nat
  titlePointerPosition : Nat
  clusterPointerPosition : Nat
  mimeListPosition : Nat
  mainPageRaw : Nat
  layoutPageRaw : Nat
  checksumPosition : Nat
  dirty : Bool := false
  mutable : Bool := true
deriving Repr, DecidableEq

namespace Header

/-- `Header.MAGIC_NUMBER`; `pyzim/header.py:53`. -/
def MAGIC_NUMBER : Int := 72173914

/-- `Header.FORMAT`, `"<IHH16sIIQQQQIIQ"`; `pyzim/header.py:54`. -/
def format : List Fmt :=
  [.uint 4, .uint 2, .uint 2, .raw 16, .uint 4, .uint 4, .uint 8, .uint 8, .uint 8, .uint 8,
   .uint 4, .uint 4, .uint 8]

/-- `Header.LENGTH`; `pyzim/header.py:55`. -/
def LENGTH : Nat := Fmt.calcsize format

/-- `Header.placeholder()` with the random uuid as parameter; `pyzim/header.py:149-177`. -/
def placeholder (uuid : Bytes) : Header :=
  { magicNumber := MAGIC_NUMBER, majorVersion := 6, minorVersion := 3, uuid := uuid
    entryCount := 0, clusterCount := 0, urlPointerPosition := 0
    titlePointerPosition := 0xffffffffffffffff, clusterPointerPosition := 0
    mimeListPosition := 0, mainPageRaw := 0xffffffff, layoutPageRaw := 0xffffffff
    checksumPosition := 0, dirty := true }

/-- `check_compatible`; `pyzim/header.py:218-234`. `COMPATIBLE_ZIM_VERSIONS` is `(6,)`
(`pyzim/constants.py:41-46`); the tuple comparison is lexicographic. -/
def checkCompatible (h : Header) : PyRes Unit :=
  if h.magicNumber ≠ MAGIC_NUMBER then .error .notAZimFile
  else if h.majorVersion ∉ [6] then .error .incompatibleZimFile
  else if h.majorVersion < 6 ∨ (h.majorVersion = 6 ∧ h.minorVersion < 1) then
    .error .incompatibleZimFile
  else .ok ()

/-- The common shape of the setters: negative values raise, then `ensure_mutable`, then the value
is stored and the header marked dirty if it differs; e.g. `pyzim/header.py:301-308`. -/
def setNat (get : Header → Nat) (put : Header → Nat → Header) (h : Header) (v : Int) :
    PyRes Unit × Header :=
  if v < 0 then (.error .valueError, h)
  else if !h.mutable then (.error .nonMutable, h)
  else if v.toNat ≠ get h then (.ok (), { put h v.toNat with dirty := true })
  else (.ok (), h)

/-- `magic_number` setter; `pyzim/header.py:264-278` (no check for negative values). -/
def setMagicNumber (h : Header) (v : Int) : PyRes Unit × Header :=
  if !h.mutable then (.error .nonMutable, h)
  else if v ≠ h.magicNumber then (.ok (), { h with magicNumber := v, dirty := true })
  else (.ok (), h)

/-- `major_version` setter; `pyzim/header.py:291-308`. -/
def setMajorVersion := setNat majorVersion (fun h v => { h with majorVersion := v })
/-- `minor_version` setter; `pyzim/header.py:321-338`. -/
def setMinorVersion := setNat minorVersion (fun h v => { h with minorVersion := v })
/-- `uuid` setter; `pyzim/header.py:351-371`, for a value already converted to `bytes_le`. -/
def setUuid (h : Header) (v : Bytes) : PyRes Unit × Header :=
  if v.length ≠ 16 then (.error .valueError, h)
  else if !h.mutable then (.error .nonMutable, h)
  else if v ≠ h.uuid then (.ok (), { h with uuid := v, dirty := true })
  else (.ok (), h)
/-- `entry_count` setter; `pyzim/header.py:384-401`. -/
def setEntryCount := setNat entryCount (fun h v => { h with entryCount := v })
/-- `cluster_count` setter; `pyzim/header.py:414-431`. -/
def setClusterCount := setNat clusterCount (fun h v => { h with clusterCount := v })
/-- `url_pointer_position` setter; `pyzim/header.py:444-461`. -/
def setUrlPointerPosition := setNat urlPointerPosition (fun h v => { h with urlPointerPosition := v })
/-- `title_pointer_position` setter; `pyzim/header.py:474-491`. -/
def setTitlePointerPosition :=
  setNat titlePointerPosition (fun h v => { h with titlePointerPosition := v })
/-- `cluster_pointer_position` setter; `pyzim/header.py:504-521`. -/
def setClusterPointerPosition :=
  setNat clusterPointerPosition (fun h v => { h with clusterPointerPosition := v })
/-- `mime_list_position` setter; `pyzim/header.py:534-551`. -/
def setMimeListPosition := setNat mimeListPosition (fun h v => { h with mimeListPosition := v })
/-- `checksum_position` setter; `pyzim/header.py:652-669`. -/
def setChecksumPosition := setNat checksumPosition (fun h v => { h with checksumPosition := v })

/-- `main_page` getter; `pyzim/header.py:554-563`. -/
def mainPage (h : Header) : Option Nat :=
  if h.mainPageRaw = 0xffffffff then none else some h.mainPageRaw

/-- `main_page` setter; `pyzim/header.py:566-585`. -/
def setMainPage (h : Header) (v : Option Int) : PyRes Unit × Header :=
  match v with
  | some v =>
    if v < 0 then (.error .valueError, h)
    else if !h.mutable then (.error .nonMutable, h)
    else if v.toNat ≠ h.mainPageRaw then (.ok (), { h with mainPageRaw := v.toNat, dirty := true })
    else (.ok (), h)
  | none =>
    if !h.mutable then (.error .nonMutable, h)
    else if 0xffffffff ≠ h.mainPageRaw then
      (.ok (), { h with mainPageRaw := 0xffffffff, dirty := true })
    else (.ok (), h)

/-- `has_main_page`; `pyzim/header.py:588-595`. -/
def hasMainPage (h : Header) : Bool := h.mainPage.isSome

/-- `layout_page` getter; `pyzim/header.py:598-607`. -/
def layoutPage (h : Header) : Option Nat :=
  if h.layoutPageRaw = 0xffffffff then none else some h.layoutPageRaw

/-- `layout_page` setter; `pyzim/header.py:610-629`. -/
def setLayoutPage (h : Header) (v : Option Int) : PyRes Unit × Header :=
  match v with
  | some v =>
    if v < 0 then (.error .valueError, h)
    else if !h.mutable then (.error .nonMutable, h)
    else if v.toNat ≠ h.layoutPageRaw then
      (.ok (), { h with layoutPageRaw := v.toNat, dirty := true })
    else (.ok (), h)
  | none =>
    if !h.mutable then (.error .nonMutable, h)
    else if 0xffffffff ≠ h.layoutPageRaw then
      (.ok (), { h with layoutPageRaw := 0xffffffff, dirty := true })
    else (.ok (), h)

/-- `has_layout_page`; `pyzim/header.py:632-639`. -/
def hasLayoutPage (h : Header) : Bool := h.layoutPage.isSome

/-- The arguments of `struct.pack` in `to_bytes`; `pyzim/header.py:716-731`. -/
def toVals (h : Header) : List FVal :=
  [.int h.magicNumber, .int h.majorVersion, .int h.minorVersion, .raw h.uuid, .int h.entryCount,
   .int h.clusterCount, .int h.urlPointerPosition, .int h.titlePointerPosition,
   .int h.clusterPointerPosition, .int h.mimeListPosition, .int h.mainPageRaw,
   .int h.layoutPageRaw, .int h.checksumPosition]

/-- The constructor applied to unpacked values, `cls(*values)`; `pyzim/header.py:57-146`, `688`.
The assertions of the constructor (no negative values) are the checks here. -/
def ofVals : List FVal → PyRes Header
  | [.int magic, .int major, .int minor, .raw uuid, .int entries, .int clusters, .int urlp,
     .int titlep, .int clusterp, .int mimep, .int mainp, .int layoutp, .int checksump] =>
    if 0 ≤ major ∧ 0 ≤ minor ∧ 0 ≤ entries ∧ 0 ≤ clusters ∧ 0 ≤ urlp ∧ 0 ≤ titlep ∧
        0 ≤ clusterp ∧ 0 ≤ mimep ∧ 0 ≤ mainp ∧ 0 ≤ layoutp ∧ 0 ≤ checksump then
      .ok { magicNumber := magic, majorVersion := major.toNat, minorVersion := minor.toNat
            uuid := uuid, entryCount := entries.toNat, clusterCount := clusters.toNat
            urlPointerPosition := urlp.toNat, titlePointerPosition := titlep.toNat
            clusterPointerPosition := clusterp.toNat, mimeListPosition := mimep.toNat
            mainPageRaw := mainp.toNat, layoutPageRaw := layoutp.toNat
            checksumPosition := checksump.toNat }
    else .error .assertionError
  | _ => .error .typeError

/-- `from_bytes`; `pyzim/header.py:674-689`. -/
def fromBytes (s : Bytes) : PyRes Header :=
  if s.length ≠ LENGTH then .error .valueError
  else match Fmt.unpack format s with
    | .error e => .error e
    | .ok vs => ofVals vs

/-- `from_file` with a seek position; `pyzim/header.py:692-707`. -/
def fromFile (f : PyFile) (seek : Nat) : PyRes Header :=
  fromBytes ((f.seek seek).read LENGTH).1

/-- `to_bytes`; `pyzim/header.py:709-732`. -/
def toBytes (h : Header) : PyRes Bytes := Fmt.pack format h.toVals

end Header
end Pyzim
