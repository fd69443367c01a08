import Verif.Model.Item
import Verif.Model.ModCluster

/-!
# Model of `pyzim/compressionstrategy.py`

The functions are given the methods of the archive that they call (`Backend`). For the properties of the strategies
themselves the archive is reduced to what the strategy does to it (`ZimLog`): the mimetype list, the bytes of the clusters
written so far (the list position is the cluster number) and the entries written so far. `Verif/Model/Creator.lean` has the
strategies with the model of the archive. The locks serialise the calls; concurrent calls are modelled as some sequence of
calls.
-/

namespace Pyzim

/-- What a strategy calls of an archive with state `σ`: `item.to_entry(zim)`, `write_cluster` of a new cluster and
`write_entry`; `pyzim/compressionstrategy.py:133-137`, `169`. -/
structure Backend (σ D : Type) where
  toEntry : Item → PyM σ Entry
  writeCluster : MCluster D → PyM σ Nat
  writeEntry : Entry → PyM σ Unit

/-- The archive as a strategy sees it. -/
structure ZimLog where
  mts : MimeTypeList
  clusters : List Bytes := []
  entries : List Entry := []

namespace ZimLog

/-- `write_cluster` of a new cluster: it gets the next number; `pyzim/archive.py:1717-1802`. -/
def writeCluster {D K : Type} (X : Codecs D) (C : Compressors K) (m : MCluster D) : PyM ZimLog Nat :=
  PyM.of fun z =>
    match (MCluster.iterWrite X C m).1 with
    | .error e => (.error e, z)
    | .ok out => (.ok z.clusters.length, { z with clusters := z.clusters ++ [out.flatten] })

/-- `write_entry`; `pyzim/archive.py:1256-1448`. -/
def writeEntry (e : Entry) : PyM ZimLog Unit :=
  PyM.modify fun z => { z with entries := z.entries ++ [e] }

/-- The methods of the reduced archive; `to_entry` is `pyzim/item.py:235-260`. -/
def backend {D K : Type} (X : Codecs D) (C : Compressors K) : Backend ZimLog D where
  toEntry it := PyM.of fun z =>
    let r := it.toEntry z.mts
    (r.1, { z with mts := r.2 })
  writeCluster := writeCluster X C
  writeEntry := writeEntry

end ZimLog

/-- State of a `SimpleCompressionStrategy`; `pyzim/compressionstrategy.py:94-112`. -/
structure Simple (D : Type) where
  compressionType : CompressionType
  maxSize : Int
  entries : List Entry := []
  cluster : MCluster D

namespace Simple
variable {D K : Type} (X : Codecs D) (C : Compressors K)

/-- `_new_cluster`; `pyzim/compressionstrategy.py:117-126` with `pyzim/archive.py:1804-1823`. -/
def newCluster (t : CompressionType) : MCluster D :=
  MCluster.setCompression (some t) { inner := .empty }

/-- The constructor; `pyzim/compressionstrategy.py:94-112`. -/
def new (t : CompressionType) (maxSize : Int) : Simple D :=
  { compressionType := t, maxSize := maxSize, cluster := newCluster t }

/-- `has_items`; `pyzim/compressionstrategy.py:114-115`. -/
def hasItems (s : Simple D) : Bool := decide (0 < s.entries.length)

/-- The loop of `_finalize_current_cluster`; `pyzim/compressionstrategy.py:135-137`. -/
def writeEntries {σ : Type} (write : Entry → PyM σ Unit) (num : Nat) : List Entry → PyM σ Unit
  | [] => pure ()
  | e :: es =>
    match e.setClusterNumber num with
    | (.error x, _) => PyM.raise x
    | (.ok (), e) => do
      write e
      writeEntries write num es

/-- A method of the archive called by the strategy. -/
def onZim {σ α : Type} (g : PyM σ α) : PyM (Simple D × σ) α := PyM.of fun s =>
  let r := g s.2
  (r.1, (s.1, r.2))

/-- A method of the current cluster called by the strategy. -/
def onCluster {σ α : Type} (g : PyM (MCluster D) α) : PyM (Simple D × σ) α := PyM.of fun s =>
  let r := g s.1.cluster
  (r.1, ({ s.1 with cluster := r.2 }, s.2))

/-- `_finalize_current_cluster`; `pyzim/compressionstrategy.py:128-138`. -/
def finalizeOn {σ : Type} (B : Backend σ D) : PyM (Simple D × σ) Unit := do
  let s ← PyM.get
  let num ← onZim (B.writeCluster s.1.cluster)
  PyM.modify fun s => ({ s.1 with cluster := newCluster s.1.compressionType }, s.2)
  onZim (writeEntries B.writeEntry num s.1.entries)
  PyM.modify fun s => ({ s.1 with entries := [] }, s.2)

/-- `_new_cluster_needed`; `pyzim/compressionstrategy.py:140-161`. -/
def newClusterNeeded {σ : Type} (it : Item) : PyM (Simple D × σ) Bool := do
  let s ← PyM.get
  if s.1.entries.isEmpty then pure false
  else do
    let current ← onCluster (MCluster.getTotalDecompressedSize X)
    pure (decide (s.1.maxSize < current + it.source.size))

/-- `add_item`; `pyzim/compressionstrategy.py:163-173`. -/
def addItemOn {σ : Type} (B : Backend σ D) (it : Item) : PyM (Simple D × σ) Unit := do
  let needed ← newClusterNeeded X it
  (if needed then finalizeOn B else pure ())
  let e ← onZim (B.toEntry it)
  let num ← onCluster (MCluster.appendBlob X it.source)
  match e.setBlobNumber num with
  | (.error x, _) => PyM.raise x
  | (.ok (), e) => PyM.modify fun s => ({ s.1 with entries := s.1.entries ++ [e] }, s.2)

/-- `flush`; `pyzim/compressionstrategy.py:175-179`. -/
def flushOn {σ : Type} (B : Backend σ D) : PyM (Simple D × σ) Unit := do
  let s ← PyM.get
  if s.1.entries.isEmpty then pure () else finalizeOn B

/-- `_finalize_current_cluster` for the reduced archive; `pyzim/compressionstrategy.py:128-138`. -/
def finalizeCluster : PyM (Simple D × ZimLog) Unit := finalizeOn (ZimLog.backend X C)

/-- `add_item` for the reduced archive; `pyzim/compressionstrategy.py:163-173`. -/
def addItem (it : Item) : PyM (Simple D × ZimLog) Unit := addItemOn X (ZimLog.backend X C) it

/-- `flush` for the reduced archive; `pyzim/compressionstrategy.py:175-179`. -/
def flush : PyM (Simple D × ZimLog) Unit := flushOn (ZimLog.backend X C)

end Simple

/-- State of a `MimetypeBasedCompressionStrategy` whose sub-strategies are simple ones with the given
arguments; `pyzim/compressionstrategy.py:196-214`. -/
structure ByMimetype (D : Type) where
  compressionType : CompressionType
  maxSize : Int
  strategies : List (String × Simple D) := []

namespace ByMimetype
variable {D K : Type} (X : Codecs D) (C : Compressors K)

/-- `has_items`; `pyzim/compressionstrategy.py:216-220`. -/
def hasItems (s : ByMimetype D) : Bool := s.strategies.any fun p => p.2.hasItems

/-- `_get_cs`; `pyzim/compressionstrategy.py:222-239`. -/
def getCs (mt : String) (s : ByMimetype D) : Simple D × ByMimetype D :=
  match dictGet mt s.strategies with
  | some cs => (cs, s)
  | none =>
    let cs := Simple.new s.compressionType s.maxSize
    (cs, { s with strategies := dictSet mt cs s.strategies })

/-- `add_item`; `pyzim/compressionstrategy.py:241-247`. -/
def addItemOn {σ : Type} (B : Backend σ D) (it : Item) : PyM (ByMimetype D × σ) Unit := PyM.of fun s =>
  let r := getCs it.mimetype s.1
  let q := Simple.addItemOn X B it (r.1, s.2)
  (q.1, ({ r.2 with strategies := dictSet it.mimetype q.2.1 r.2.strategies }, q.2.2))

/-- The loop of `flush`; `pyzim/compressionstrategy.py:252-253`. -/
def flushAllOn {σ : Type} (B : Backend σ D) : List (String × Simple D) → σ → PyRes Unit × List (String × Simple D) × σ
  | [], z => (.ok (), [], z)
  | (mt, cs) :: rest, z =>
    match Simple.flushOn B (cs, z) with
    | (.error e, cs, z) => (.error e, (mt, cs) :: rest, z)
    | (.ok (), cs, z) =>
      let r := flushAllOn B rest z
      (r.1, (mt, cs) :: r.2.1, r.2.2)

/-- `flush`; `pyzim/compressionstrategy.py:249-253`. -/
def flushOn {σ : Type} (B : Backend σ D) : PyM (ByMimetype D × σ) Unit := PyM.of fun s =>
  let r := flushAllOn B s.1.strategies s.2
  (r.1, ({ s.1 with strategies := r.2.1 }, r.2.2))

/-- `add_item` for the reduced archive; `pyzim/compressionstrategy.py:241-247`. -/
def addItem (it : Item) : PyM (ByMimetype D × ZimLog) Unit := addItemOn X (ZimLog.backend X C) it

/-- `flush` for the reduced archive; `pyzim/compressionstrategy.py:249-253`. -/
def flush : PyM (ByMimetype D × ZimLog) Unit := flushOn (ZimLog.backend X C)

end ByMimetype
end Pyzim
