import Verif.Model.Clusters
import Verif.Model.OperationBuffer

/-!
# Model of `flush` and the checksum functions of `pyzim/archive.py`

The simplifications are those of `Verif/Model/Archive.lean`. In addition, there is no list of all titles (an archive of
version 6.3 or later), and what is done by the compression strategies and by setting the content of the entry with the
article title list are parameters.
-/

namespace Pyzim

/-- An object with the methods `update` and `digest` (`hashlib.md5()`); external. -/
structure Hasher where
  State : Type
  init : State
  update : State → Bytes → State
  digest : State → Bytes

/-- A `Zim` object with the attributes that only `flush` uses: its own dirty flag and the sizes of the mimetype, url and
cluster pointer list at the time of the last read or write (`get_unmodified_disk_size()`);
`pyzim/modifiable.py:33-42`, `100-118`. -/
structure Archive where
  zim : Zim
  dirty : Bool := false
  mimeSize : Nat
  urlSize : Nat
  clusterSize : Nat

/-- The attributes of a policy that `flush` uses; `pyzim/policy.py:182-200`. -/
structure FlushPolicy where
  truncate : Bool
  reserveMimetypeSpace : Option Nat

namespace Zim

/-- The loop of `calculate_checksum`; `pyzim/archive.py:2010-2014`. `short` is how many bytes a `read` of the file
object at a position delivers at most. `fuel` bounds the number of turns; needing more is the error `hang`. -/
def checksumLoop (H : Hasher) (short : Nat → Nat → Nat) (chunksize : Nat) (file : Bytes) (end_ : Nat) :
    (fuel pos : Nat) → H.State → PyRes H.State
  | 0, pos, s => if pos < end_ then .error .hang else .ok s
  | fuel + 1, pos, s =>
    if pos < end_ then
      let toRead := min chunksize (end_ - pos)
      let data := (((PyFile.mk file 0).seek pos).read (min toRead (short pos toRead))).1
      checksumLoop H short chunksize file end_ fuel (pos + data.length) (H.update s data)
    else .ok s

/-- `calculate_checksum`, where `chunksize` is 8192; `pyzim/archive.py:1994-2016`. Every `read` which does not reach
the end of the file delivers at least one byte, so more than `checksum_position` turns are only needed if the file is too
short, and then the loop never ends. -/
def calculateChecksum (H : Hasher) (short : Nat → Nat → Nat) (chunksize : Nat) (z : Zim) : PyRes Bytes :=
  if z.closed then .error .zimFileClosed
  else match checksumLoop H short chunksize z.file z.header.checksumPosition z.header.checksumPosition 0 H.init with
    | .error x => .error x
    | .ok s => .ok (H.digest s)

/-- `get_checksum`; `pyzim/archive.py:1975-1990`. -/
def getChecksum (z : Zim) : PyRes Bytes :=
  if z.closed then .error .zimFileClosed
  else .ok (((PyFile.mk z.file 0).seek z.header.checksumPosition).read 16).1

/-- `update_checksum`; `pyzim/archive.py:2017-2030`. -/
def updateChecksum (H : Hasher) (short : Nat → Nat → Nat) (chunksize : Nat) : PyM Zim Unit := do
  let z ← PyM.get
  let c ← PyM.lift (calculateChecksum H short chunksize z)
  writeAt z.header.checksumPosition (.ok c)

/-- `f.seek(size); f.truncate()`; `pyzim/archive.py:679-684`. A file that is shorter is extended by zeros. -/
def truncateAt (size : Nat) : PyM Zim Unit := fun z =>
  if z.closed then (.error .zimFileClosed, z)
  else (.ok (), { z with file := (z.file ++ List.replicate (size - z.file.length) 0).take size })

end Zim

namespace Archive

/-- A method of the archive that does not touch the additional attributes. -/
def onZim {α : Type} (m : PyM Zim α) : PyM Archive α := fun a =>
  let r := m a.zim
  (r.1, { a with zim := r.2 })

/-- `dirty`; `pyzim/modifiable.py:44-52` with the submodifiables of `pyzim/archive.py:254-367`. -/
def isDirty (a : Archive) : Bool :=
  a.dirty || a.zim.header.dirty || a.zim.mimetypes.dirty || a.zim.urls.dirty || a.zim.clusters.dirty ||
    a.zim.articles.dirty

/-- The article title list; `pyzim/archive.py:581-586`. `setContent` is getting the entry of the list and setting and
flushing its content. -/
def flushArticles (setContent : Bytes → PyM Zim Unit) : PyM Zim Unit := do
  let z ← PyM.get
  if z.articles.dirty then do
    let b ← PyM.lift (z.articles.toBytes 4)
    setContent b
    PyM.modify (fun z => { z with articles := { z.articles with dirty := false } })
  else pure ()

/-- The place for the mimetype list; `pyzim/archive.py:613-629`. -/
def placeMimetypes (reserve : Option Nat) : PyM Archive Nat := do
  let a ← PyM.get
  match reserve with
  | none => do
    onZim (Zim.markFree a.zim.header.mimeListPosition a.mimeSize)
    onZim (Zim.allocate a.zim.mimetypes.getDiskSize)
  | some r => do
    PyM.require (decide (a.zim.mimetypes.getDiskSize ≤ r)) .zimWrite
    pure 80

/-- The mimetype list; `pyzim/archive.py:610-634`. -/
def flushMimetypes (reserve : Option Nat) : PyM Archive Unit := do
  let a ← PyM.get
  if a.zim.mimetypes.dirty then do
    let position ← placeMimetypes reserve
    onZim (Zim.writeAt position (.ok a.zim.mimetypes.toBytes))
    onZim (Zim.onHeader (fun h => h.setMimeListPosition position))
    PyM.modify (fun a => { a with
      zim := { a.zim with mimetypes := { a.zim.mimetypes with dirty := false } }
      mimeSize := a.zim.mimetypes.getDiskSize })
  else pure ()

/-- The cluster pointer list; `pyzim/archive.py:637-648`. -/
def flushClusters : PyM Archive Unit := do
  let a ← PyM.get
  if a.zim.clusters.dirty then do
    onZim (Zim.markFree a.zim.header.clusterPointerPosition a.clusterSize)
    let position ← onZim (Zim.allocate (a.zim.clusters.diskSize 8))
    onZim (Zim.writeAt position (a.zim.clusters.toBytes 8))
    onZim (Zim.onHeader (fun h => h.setClusterPointerPosition position))
    onZim (Zim.onHeader (fun h => h.setClusterCount a.zim.clusters.len))
    PyM.modify (fun a => { a with
      zim := { a.zim with clusters := { a.zim.clusters with dirty := false } }
      clusterSize := a.zim.clusters.diskSize 8 })
  else pure ()

/-- The url pointer list; `pyzim/archive.py:651-662`. -/
def flushUrls : PyM Archive Unit := do
  let a ← PyM.get
  if a.zim.urls.dirty then do
    onZim (Zim.markFree a.zim.header.urlPointerPosition a.urlSize)
    let position ← onZim (Zim.allocate (a.zim.urls.diskSize 8))
    onZim (Zim.writeAt position (a.zim.urls.toBytes 8))
    onZim (Zim.onHeader (fun h => h.setUrlPointerPosition position))
    onZim (Zim.onHeader (fun h => h.setEntryCount a.zim.urls.len))
    PyM.modify (fun a => { a with
      zim := { a.zim with urls := { a.zim.urls with dirty := false } }
      urlSize := a.zim.urls.diskSize 8 })
  else pure ()

/-- The header; `pyzim/archive.py:665-675`. -/
def flushHeader : PyM Archive Unit := do
  let a ← PyM.get
  onZim (Zim.onHeader (fun h => h.setChecksumPosition a.zim.space.fileEnd))
  let a ← PyM.get
  if a.zim.header.dirty then do
    onZim (Zim.writeAt 0 a.zim.header.toBytes)
    PyM.modify (fun a => { a with zim := { a.zim with header := { a.zim.header with dirty := false } } })
  else pure ()

/-- Everything of `flush` that happens if the archive is dirty; `pyzim/archive.py:551-685`. `content` is the flush of the
compression strategies and the execution of buffered operations (551-560). -/
def flushDirty (H : Hasher) (short : Nat → Nat → Nat) (chunksize : Nat) (policy : FlushPolicy) (content : PyM Zim Unit)
    (setContent : Bytes → PyM Zim Unit) : PyM Archive Unit := do
  onZim content
  onZim (flushArticles setContent)
  flushMimetypes policy.reserveMimetypeSpace
  flushClusters
  flushUrls
  flushHeader
  onZim (Zim.updateChecksum H short chunksize)
  let a ← PyM.get
  (if policy.truncate then onZim (Zim.truncateAt (a.zim.header.checksumPosition + 16)) else pure ())
  PyM.modify (fun a => { a with dirty := false })

/-- `flush`; `pyzim/archive.py:517-689`. -/
def flush (H : Hasher) (short : Nat → Nat → Nat) (chunksize : Nat) (policy : FlushPolicy) (content : PyM Zim Unit)
    (setContent : Bytes → PyM Zim Unit) : PyM Archive Unit := do
  let a ← PyM.get
  PyM.require (!a.zim.closed) .zimFileClosed
  PyM.require a.zim.mutable .nonMutable
  if a.isDirty then flushDirty H short chunksize policy content setContent else pure ()

end Archive
end Pyzim
