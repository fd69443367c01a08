import Verif.Lemmas.Keeps
import Verif.Lemmas.CreatorShows

/-!
# What is in the header of an archive without a main page
-/

namespace Pyzim
namespace Zim

/-- The header of an archive without a main page: the fields that are not positions and counts. -/
structure _root_.Pyzim.Header.Plain (h : Header) : Prop where
  magic : h.magicNumber = Header.MAGIC_NUMBER
  version : h.majorVersion = 6 ∧ h.minorVersion = 3
  uuid : h.uuid.length = 16
  title : h.titlePointerPosition < 2 ^ 64
  main : h.mainPageRaw = 0xffffffff
  layout : h.layoutPageRaw < 2 ^ 32

/-- no main page was set -/
structure PlainHead (z : Zim) : Prop where
  header : z.header.Plain
  mainpage : z.bufferedMainpage = none

theorem plain_onArticles {α : Type} (f : PointerList → PyRes α × PointerList) : Keeps PlainHead (onArticles f) :=
  fun _ h => ⟨h.1, h.2⟩

theorem plain_onTitles {α : Type} (f : PointerList → PyRes α × PointerList) : Keeps PlainHead (onTitles f) := by
  intro z hz
  unfold onTitles
  split <;> exact ⟨hz.1, hz.2⟩

theorem plain_onUrls {α : Type} (f : PointerList → PyRes α × PointerList) : Keeps PlainHead (onUrls f) :=
  fun _ h => ⟨h.1, h.2⟩

theorem plain_onClusters {α : Type} (f : PointerList → PyRes α × PointerList) : Keeps PlainHead (onClusters f) :=
  fun _ h => ⟨h.1, h.2⟩

theorem plain_onHeader {α : Type} {f : Header → PyRes α × Header} (hf : ∀ h : Header, h.Plain → (f h).2.Plain) :
    Keeps PlainHead (onHeader f) := fun _ h => ⟨hf _ h.1, h.2⟩

theorem plain_allocate (k : Nat) : Keeps PlainHead (allocate k) := fun _ h => ⟨h.1, h.2⟩

theorem plain_markFree (s k : Nat) : Keeps PlainHead (markFree s k) := fun _ h => ⟨h.1, h.2⟩

theorem plain_writeAt (o : Nat) (d : PyRes Bytes) : Keeps PlainHead (writeAt o d) := by
  intro z hz
  unfold writeAt
  split
  · exact hz
  · cases d with
    | error e => exact hz
    | ok d => exact ⟨hz.1, hz.2⟩

theorem plain_shiftRedirects {rw' : Entry → PyM Zim Entry} (h : ∀ e, Keeps PlainHead (rw' e)) (start : Nat) (diff : Int)
    (skip : List String) : ∀ l : List Nat, Keeps PlainHead (shiftRedirects rw' start diff skip l)
  | [] => Keeps.pure _
  | i :: is => by
    unfold shiftRedirects
    refine Keeps.get.bind fun z => (Keeps.lift _).bind fun loc => (Keeps.lift _).bind fun e => ?_
    split
    · split
      · exact Keeps.raise _
      · split
        · exact (Keeps.lift _).bind fun _ => (Keeps.lift _).bind fun _ => (Keeps.require _ _).bind fun _ =>
            (h _).bind fun _ => plain_shiftRedirects h start diff skip is
        · exact plain_shiftRedirects h start diff skip is
    · exact plain_shiftRedirects h start diff skip is

theorem plain_updateUrlPointers {rw' : Entry → PyM Zim Entry} (h : ∀ e, Keeps PlainHead (rw' e)) (start : Nat)
    (diff : Int) (b : Bool) (skip : List String) : Keeps PlainHead (updateUrlPointers rw' start diff b skip) := by
  unfold updateUrlPointers
  refine (plain_onTitles _).bind fun _ => Keeps.bind ?_ fun _ => Keeps.get.bind fun z =>
    (plain_shiftRedirects h start diff skip _).bind fun _ => ?_
  · split
    · exact plain_onArticles _
    · exact Keeps.pure _
  · intro z hz
    unfold shiftMainPage
    rw [PyM.get_bind]
    have : z.header.mainPage = none := by unfold Header.mainPage; rw [if_pos hz.1.main]
    rw [this]
    exact hz

theorem plain_retarget {rw' : Entry → PyM Zim Entry} (h : ∀ e, Keeps PlainHead (rw' e)) (index : Nat) :
    ∀ l : List String, Keeps PlainHead (retarget rw' index l)
  | [] => Keeps.pure _
  | _ :: us => Keeps.get.bind fun _ => (Keeps.lift _).bind fun _ => (Keeps.lift _).bind fun _ => (h _).bind fun _ =>
      plain_retarget h index us

theorem plain_insertUrl {rw' : Entry → PyM Zim Entry} (h : ∀ e, Keeps PlainHead (rw' e)) (e : Entry) (offset : Nat) :
    Keeps PlainHead (insertUrl rw' e offset) := by
  unfold insertUrl
  refine Keeps.get.bind fun z => (plain_onUrls _).bind fun i => (plain_updateUrlPointers h _ _ _ _).bind fun _ => ?_
  split
  · exact Keeps.raise _
  · exact Keeps.pure _
  · split
    · exact (Keeps.lift _).bind fun _ => (plain_writeAt _ _).bind fun _ => (Keeps.require _ _).bind fun _ => Keeps.pure _
    · exact (Keeps.require _ _).bind fun _ => Keeps.pure _

/-- Writing an entry sets no main page. -/
theorem plain_writeEntry : ∀ (depth : Nat) (e : Entry) (u t : Bool),
    Keeps PlainHead (writeEntry depth e u t)
  | 0, _, _, _ => Keeps.raise _
  | depth + 1, e, u, t => by
    have ih := plain_writeEntry depth
    unfold writeEntry
    refine Keeps.get.bind fun z => (Keeps.require _ _).bind fun _ => (Keeps.require _ _).bind fun _ =>
      (Keeps.lift _).bind fun ia => (Keeps.lift _).bind fun old => (Keeps.lift _).bind fun reds => ?_
    refine Keeps.bind ?_ fun off => (plain_writeAt _ _).bind fun _ => Keeps.bind ?_ fun _ => Keeps.bind ?_ fun _ =>
      Keeps.bind ?_ fun r => Keeps.bind ?_ fun _ => Keeps.bind ?_ fun _ => Keeps.bind ?_ fun _ => Keeps.pure _
    · unfold place
      split
      · exact plain_allocate _
      · split
        · exact (plain_markFree _ _).bind fun _ => plain_allocate _
        · exact Keeps.pure _
    · split
      · exact Keeps.pure _
      · unfold removeTitles
        refine Keeps.bind ?_ fun _ => ?_
        · split
          · exact plain_onTitles _
          · exact Keeps.pure _
        · split
          · exact plain_onArticles _
          · exact Keeps.pure _
    · cases old with
      | none => exact Keeps.pure _
      | some o =>
        dsimp only
        split
        · exact (plain_onUrls _).bind fun _ => plain_updateUrlPointers (fun e => ih e true true) _ _ _ _
        · exact Keeps.pure _
    · split
      · exact Keeps.pure _
      · exact plain_insertUrl (fun e => ih e true true) _ _
    · split
      · unfold addTitles
        refine Keeps.get.bind fun z => (plain_onTitles _).bind fun _ => ?_
        split
        · exact (plain_onArticles _).bind fun _ => Keeps.pure _
        · exact Keeps.pure _
      · exact Keeps.pure _
    · split
      · exact plain_retarget (fun e => ih e false true) _ _
      · exact Keeps.pure _
    · unfold logRedirect
      refine Keeps.get.bind fun z => ?_
      split
      · split
        · exact Keeps.raise _
        · exact (Keeps.lift _).bind fun _ => Keeps.pure _
      · exact Keeps.pure _

theorem plain_addFullUrlRedirect (depth : Nat) (source target : String) (title : Option String) :
    Keeps PlainHead (addFullUrlRedirect depth source target title) := by
  unfold addFullUrlRedirect
  refine (Keeps.require _ _).bind fun _ => (Keeps.require _ _).bind fun _ => Keeps.get.bind fun z =>
    (Keeps.require _ _).bind fun _ => (Keeps.require _ _).bind fun _ => ?_
  split
  · exact Keeps.modify fun z hz => ⟨hz.1, hz.2⟩
  · exact Keeps.raise _
  · refine Keeps.bind ?_ fun t => (Keeps.lift _).bind fun e => (plain_writeEntry _ _ _ _).bind fun _ => Keeps.pure _
    split
    · exact Keeps.pure _
    · exact (Keeps.lift _).bind fun _ => Keeps.pure _

theorem plain_addBuffered (depth : Nat) : ∀ l : List Redirect, Keeps PlainHead (addBuffered depth l)
  | [] => Keeps.pure _
  | _ :: rs => (plain_addFullUrlRedirect _ _ _ _).bind fun _ => plain_addBuffered depth rs

theorem plain_redirectLoop (depth : Nat) : ∀ passes : Nat, Keeps PlainHead (redirectLoop depth passes)
  | 0 => Keeps.raise _
  | passes + 1 => by
    unfold redirectLoop
    refine Keeps.get.bind fun z => (Keeps.modify fun z hz => ⟨hz.1, hz.2⟩).bind fun _ =>
      (plain_addBuffered depth _).bind fun _ => Keeps.get.bind fun z' => ?_
    split
    · exact plain_redirectLoop depth passes
    · exact Keeps.pure _

theorem plain_finalizeOperations (blob : Entry → PyM Zim Unit) (depth passes : Nat) :
    Keeps PlainHead (finalizeOperations blob depth passes) := by
  unfold finalizeOperations applyRedirects
  refine ((plain_redirectLoop _ _).bind fun _ => Keeps.get.bind fun z => Keeps.require _ _).bind fun _ => ?_
  intro z hz
  unfold applySetMainpageUrl
  rw [PyM.get_bind, hz.2]
  exact hz

section
variable {K : Type} (O : ClusterOps K)

theorem plain_writeChunks (c : K) : ∀ fuel i pos : Nat, Keeps PlainHead (writeChunks O c fuel i pos)
  | 0, _, _ => Keeps.raise _
  | fuel + 1, i, pos => by
    unfold writeChunks
    refine Keeps.get.bind fun z => (Keeps.lift _).bind fun d => ?_
    split
    · exact Keeps.pure _
    · exact (plain_writeAt _ _).bind fun _ => plain_writeChunks c fuel _ _

theorem plain_writeCluster (fuel : Nat) (c : K) (num : Option Int) : Keeps PlainHead (writeCluster O fuel c num) := by
  unfold writeCluster
  refine (Keeps.require _ _).bind fun _ => Keeps.get.bind fun z => (Keeps.require _ _).bind fun _ =>
    (Keeps.require _ _).bind fun _ => (Keeps.require _ _).bind fun _ => (Keeps.lift _).bind fun n => Keeps.bind ?_ fun k =>
    (plain_allocate _).bind fun off => (plain_writeChunks O c _ _ _).bind fun _ => (plain_onClusters _).bind fun _ =>
    Keeps.get.bind fun z => (Keeps.lift _).bind fun c' => Keeps.bind ?_ fun _ => Keeps.pure _
  · unfold clusterNumber
    refine Keeps.get.bind fun z => ?_
    split
    · exact fun _ h => ⟨h.1, h.2⟩
    · exact Keeps.lift _
    · exact Keeps.pure _
  · split
    · exact plain_markFree _ _
    · exact Keeps.pure _

end

variable {D K : Type} (X : Codecs D) (C : Compressors K)

theorem plain_writeClusterObj (c : ClusterObj D) : Keeps PlainHead (writeClusterObj X C c) :=
  fun z hz => plain_writeCluster (ClusterObj.ops X C) _ c none z hz

theorem plain_setContent (kind : ClusterKind) (calls : Nat) (e : Entry) (src : BlobSource) :
    Keeps PlainHead (setContent X C kind calls e src) := by
  unfold setContent
  split
  · exact Keeps.raise _
  · refine (Keeps.require _ _).bind fun _ => Keeps.get.bind fun z => (Keeps.lift _).bind fun o => ?_
    split
    · exact Keeps.raise _
    · split
      · exact (plain_writeClusterObj X C _).bind fun _ => Keeps.pure _
      · exact Keeps.pure _

end Zim

/-- The methods of the archive that a strategy calls keep `P`. -/
structure Backend.Kept {σ D : Type} (B : Backend σ D) (P : σ → Prop) : Prop where
  toEntry : ∀ it, Keeps P (B.toEntry it)
  writeCluster : ∀ m, Keeps P (B.writeCluster m)
  writeEntry : ∀ e, Keeps P (B.writeEntry e)

section
variable {D σ : Type} {B : Backend σ D} {P : σ → Prop}

theorem Backend.Kept.entries (H : Backend.Kept B P) (num : Nat) : ∀ es : List Entry,
    Keeps P (Simple.writeEntries B.writeEntry num es)
  | [] => Keeps.pure _
  | e :: es => by
    unfold Simple.writeEntries
    split
    · exact Keeps.raise _
    · exact (H.writeEntry _).bind fun _ => H.entries num es

theorem kept_onZim {α : Type} {g : PyM σ α} (h : Keeps P g) : Keeps (fun q : Simple D × σ => P q.2) (Simple.onZim g) :=
  fun q hq => h q.2 hq

theorem kept_onCluster {α : Type} (g : PyM (MCluster D) α) : Keeps (fun q : Simple D × σ => P q.2) (Simple.onCluster g) :=
  fun _ hq => hq

theorem Backend.Kept.finalize (H : Backend.Kept B P) : Keeps (fun q : Simple D × σ => P q.2) (Simple.finalizeOn B) := by
  unfold Simple.finalizeOn
  exact Keeps.get.bind fun s => (kept_onZim (H.writeCluster _)).bind fun num => Keeps.bind (Keeps.modify fun _ h => h) fun _ =>
    (kept_onZim (H.entries num _)).bind fun _ => Keeps.modify fun _ h => h

theorem Backend.Kept.simpleFlush (H : Backend.Kept B P) : Keeps (fun q : Simple D × σ => P q.2) (Simple.flushOn B) := by
  unfold Simple.flushOn
  refine Keeps.get.bind fun s => ?_
  split
  · exact Keeps.pure _
  · exact H.finalize

theorem Backend.Kept.simpleAdd (H : Backend.Kept B P) (X : Codecs D) (it : Item) :
    Keeps (fun q : Simple D × σ => P q.2) (Simple.addItemOn X B it) := by
  unfold Simple.addItemOn
  refine Keeps.bind ?_ fun needed => Keeps.bind ?_ fun _ => (kept_onZim (H.toEntry it)).bind fun e =>
    (kept_onCluster _).bind fun num => ?_
  · unfold Simple.newClusterNeeded
    refine Keeps.get.bind fun s => ?_
    split
    · exact Keeps.pure _
    · exact (kept_onCluster _).bind fun _ => Keeps.pure _
  · split
    · exact H.finalize
    · exact Keeps.pure _
  · split
    · exact Keeps.raise _
    · exact Keeps.modify fun _ h => h

theorem Backend.Kept.flushAll (H : Backend.Kept B P) : ∀ (L : List (String × Simple D)) (z : σ), P z →
    P (ByMimetype.flushAllOn B L z).2.2 := by
  intro L
  induction L with
  | nil => exact fun z h => h
  | cons q L ih =>
    intro z h
    obtain ⟨mt, cs⟩ := q
    unfold ByMimetype.flushAllOn
    have h1 := H.simpleFlush (cs, z) h
    cases hq : Simple.flushOn B (cs, z) with
    | mk r p =>
      rw [hq] at h1
      obtain ⟨cs1, z1⟩ := p
      cases r with
      | error x => exact h1
      | ok u => exact ih z1 h1

theorem Backend.Kept.add (H : Backend.Kept B P) (X : Codecs D) (it : Item) :
    Keeps (fun q : Strategy D × σ => P q.2) (Strategy.addItemOn X B it) := by
  rintro ⟨s, z⟩ hz
  cases s with
  | simple s => exact H.simpleAdd X it (s, z) hz
  | byMimetype s => exact H.simpleAdd X it _ hz

theorem Backend.Kept.flush (H : Backend.Kept B P) : Keeps (fun q : Strategy D × σ => P q.2) (Strategy.flushOn B) := by
  rintro ⟨s, z⟩ hz
  cases s with
  | simple s => exact H.simpleFlush (s, z) hz
  | byMimetype s => exact H.flushAll s.strategies z hz

end

variable {D K : Type} (X : Codecs D) (C : Compressors K)

theorem Zim.backend_plain (depth : Nat) : Backend.Kept (Zim.backend X C depth) Zim.PlainHead where
  toEntry it := fun z hz => ⟨hz.1, hz.2⟩
  writeCluster m := (Zim.plain_writeClusterObj X C _).bind fun _ => Keeps.pure _
  writeEntry e := (Zim.plain_writeEntry _ _ _ _).bind fun _ => Keeps.pure _

theorem Header.Plain.setNat {get : Header → Nat} {put : Header → Nat → Header}
    (hp : ∀ (h : Header) (v : Nat), h.Plain → ({ put h v with dirty := true } : Header).Plain) {h : Header} (hh : h.Plain) (v : Int) :
    (Header.setNat get put h v).2.Plain := by
  unfold Header.setNat
  split
  · exact hh
  · split
    · exact hh
    · split
      · exact hp _ _ hh
      · exact hh

theorem Zim.plain_setMimeListPosition (v : Int) : Keeps Zim.PlainHead (Zim.onHeader fun h => h.setMimeListPosition v) := by
  refine Zim.plain_onHeader fun h hh => ?_
  unfold Header.setMimeListPosition
  refine Header.Plain.setNat ?_ hh v
  exact fun _ _ hh => ⟨hh.1, hh.2, hh.3, hh.4, hh.5, hh.6⟩

theorem Zim.plain_setClusterPointerPosition (v : Int) : Keeps Zim.PlainHead (Zim.onHeader fun h => h.setClusterPointerPosition v) := by
  refine Zim.plain_onHeader fun h hh => ?_
  unfold Header.setClusterPointerPosition
  refine Header.Plain.setNat ?_ hh v
  exact fun _ _ hh => ⟨hh.1, hh.2, hh.3, hh.4, hh.5, hh.6⟩

theorem Zim.plain_setClusterCount (v : Int) : Keeps Zim.PlainHead (Zim.onHeader fun h => h.setClusterCount v) := by
  refine Zim.plain_onHeader fun h hh => ?_
  unfold Header.setClusterCount
  refine Header.Plain.setNat ?_ hh v
  exact fun _ _ hh => ⟨hh.1, hh.2, hh.3, hh.4, hh.5, hh.6⟩

theorem Zim.plain_setUrlPointerPosition (v : Int) : Keeps Zim.PlainHead (Zim.onHeader fun h => h.setUrlPointerPosition v) := by
  refine Zim.plain_onHeader fun h hh => ?_
  unfold Header.setUrlPointerPosition
  refine Header.Plain.setNat ?_ hh v
  exact fun _ _ hh => ⟨hh.1, hh.2, hh.3, hh.4, hh.5, hh.6⟩

theorem Zim.plain_setEntryCount (v : Int) : Keeps Zim.PlainHead (Zim.onHeader fun h => h.setEntryCount v) := by
  refine Zim.plain_onHeader fun h hh => ?_
  unfold Header.setEntryCount
  refine Header.Plain.setNat ?_ hh v
  exact fun _ _ hh => ⟨hh.1, hh.2, hh.3, hh.4, hh.5, hh.6⟩

theorem Zim.plain_setChecksumPosition (v : Int) : Keeps Zim.PlainHead (Zim.onHeader fun h => h.setChecksumPosition v) := by
  refine Zim.plain_onHeader fun h hh => ?_
  unfold Header.setChecksumPosition
  refine Header.Plain.setNat ?_ hh v
  exact fun _ _ hh => ⟨hh.1, hh.2, hh.3, hh.4, hh.5, hh.6⟩

namespace Archive

theorem plain_onZim {α : Type} {g : PyM Zim α} (h : Keeps Zim.PlainHead g) : Keeps (fun a : Archive => a.zim.PlainHead) (onZim g) :=
  fun a ha => h a.zim ha

theorem plain_flushArticles {set : Bytes → PyM Zim Unit} (h : ∀ b, Keeps Zim.PlainHead (set b)) :
    Keeps Zim.PlainHead (flushArticles set) := by
  unfold flushArticles
  refine Keeps.get.bind fun z => ?_
  split
  · exact (Keeps.lift _).bind fun b => (h b).bind fun _ => Keeps.modify fun z hz => ⟨hz.1, hz.2⟩
  · exact Keeps.pure _

theorem plain_flushMimetypes (reserve : Option Nat) : Keeps (fun a : Archive => a.zim.PlainHead) (flushMimetypes reserve) := by
  unfold flushMimetypes
  refine Keeps.get.bind fun a => ?_
  split
  · refine Keeps.bind ?_ fun pos => (plain_onZim (Zim.plain_writeAt _ _)).bind fun _ => (plain_onZim (Zim.plain_setMimeListPosition _)).bind fun _ => Keeps.modify fun a ha => ⟨ha.1, ha.2⟩
    unfold placeMimetypes
    refine Keeps.get.bind fun a => ?_
    cases reserve with
    | none => exact (plain_onZim (Zim.plain_markFree _ _)).bind fun _ => plain_onZim (Zim.plain_allocate _)
    | some r => exact (Keeps.require _ _).bind fun _ => Keeps.pure _
  · exact Keeps.pure _

theorem plain_flushClusters : Keeps (fun a : Archive => a.zim.PlainHead) flushClusters := by
  unfold flushClusters
  refine Keeps.get.bind fun a => ?_
  split
  · exact (plain_onZim (Zim.plain_markFree _ _)).bind fun _ => (plain_onZim (Zim.plain_allocate _)).bind fun pos =>
      (plain_onZim (Zim.plain_writeAt _ _)).bind fun _ => (plain_onZim (Zim.plain_setClusterPointerPosition _)).bind fun _ => (plain_onZim (Zim.plain_setClusterCount _)).bind fun _ => Keeps.modify fun a ha => ⟨ha.1, ha.2⟩
  · exact Keeps.pure _

theorem plain_flushUrls : Keeps (fun a : Archive => a.zim.PlainHead) flushUrls := by
  unfold flushUrls
  refine Keeps.get.bind fun a => ?_
  split
  · exact (plain_onZim (Zim.plain_markFree _ _)).bind fun _ => (plain_onZim (Zim.plain_allocate _)).bind fun pos =>
      (plain_onZim (Zim.plain_writeAt _ _)).bind fun _ => (plain_onZim (Zim.plain_setUrlPointerPosition _)).bind fun _ => (plain_onZim (Zim.plain_setEntryCount _)).bind fun _ => Keeps.modify fun a ha => ⟨ha.1, ha.2⟩
  · exact Keeps.pure _

theorem plain_flushHeader : Keeps (fun a : Archive => a.zim.PlainHead) flushHeader := by
  unfold flushHeader
  refine Keeps.get.bind fun a => (plain_onZim (Zim.plain_setChecksumPosition _)).bind fun _ => Keeps.get.bind fun a => ?_
  split
  · exact (plain_onZim (Zim.plain_writeAt _ _)).bind fun _ => Keeps.modify fun a ha => ⟨⟨ha.1.1, ha.1.2, ha.1.3, ha.1.4, ha.1.5, ha.1.6⟩, ha.2⟩
  · exact Keeps.pure _

theorem plain_restOf (H : Hasher) (short : Nat → Nat → Nat) (chunksize : Nat) (policy : FlushPolicy) :
    Keeps (fun a : Archive => a.zim.PlainHead) (restOf H short chunksize policy) := by
  unfold restOf
  refine (plain_flushMimetypes _).bind fun _ => plain_flushClusters.bind fun _ => plain_flushUrls.bind fun _ =>
    plain_flushHeader.bind fun _ => Keeps.bind ?_ fun _ => Keeps.get.bind fun a => Keeps.bind ?_ fun _ =>
    Keeps.modify fun a ha => ha
  · refine plain_onZim ?_
    unfold Zim.updateChecksum
    exact Keeps.get.bind fun z => (Keeps.lift _).bind fun c => Zim.plain_writeAt _ _
  · split
    · refine plain_onZim fun z hz => ?_
      unfold Zim.truncateAt
      split
      · exact hz
      · exact ⟨hz.1, hz.2⟩
    · exact Keeps.pure _

end Archive

section
variable {D K : Type} {S : Setup D K} {c c' : Creator D}

def Creator.PlainHead (c : Creator D) : Prop := c.arch.zim.PlainHead

theorem Creator.plain_addItem (it : Item) (force : Bool) : Keeps Creator.PlainHead (Creator.addItem S it force) := by
  have H := (Zim.backend_plain S.X S.C S.depth).add S.X it
  unfold Creator.addItem
  refine Keeps.get.bind fun c => (Keeps.require _ _).bind fun _ => (Keeps.require _ _).bind fun _ => Keeps.bind ?_ fun _ =>
    Keeps.modify fun c hc => hc
  split
  · exact fun c hc => H (c.plain, c.arch.zim) hc
  · exact fun c hc => H (c.main, c.arch.zim) hc

theorem Creator.plain_addFullUrlRedirect (s t : String) (title : Option String) :
    Keeps Creator.PlainHead (Creator.addFullUrlRedirect S s t title) :=
  fun c hc => Zim.plain_addFullUrlRedirect S.depth s t title c.arch.zim hc

theorem Creator.plain_setContent (u : String) (src : BlobSource) : Keeps Creator.PlainHead (Creator.setContent S u src) := by
  have H : Keeps Zim.PlainHead (PyM.get >>= fun z : Zim => PyM.lift (z.entryByFullUrl u) >>= fun e =>
      Zim.setContent S.X S.C S.kind S.calls e src) :=
    Keeps.get.bind fun z => (Keeps.lift _).bind fun e => Zim.plain_setContent _ _ _ _ _ _
  exact fun c hc => H c.arch.zim hc

theorem Creator.plain_flush : Keeps Creator.PlainHead (Creator.flush S) := by
  have H := (Zim.backend_plain S.X S.C S.depth).flush
  unfold Creator.flush
  refine Keeps.get.bind fun c => (Keeps.require _ _).bind fun _ => (Keeps.require _ _).bind fun _ => ?_
  split
  · refine Keeps.bind (fun c hc => H (c.main, c.arch.zim) hc) fun _ => Keeps.bind (fun c hc => H (c.plain, c.arch.zim) hc) fun _ => ?_
    have H2 : Keeps (fun a : Archive => a.zim.PlainHead) (Archive.flushDirty S.H S.short S.chunksize S.policy
        (Zim.finalizeOperations S.blob S.depth S.passes) (Creator.setListing S)) := by
      rw [Archive.flushDirty_eq]
      refine (Archive.plain_onZim (Zim.plain_finalizeOperations _ _ _)).bind fun _ =>
        (Archive.plain_onZim (Archive.plain_flushArticles fun b => ?_)).bind fun _ => Archive.plain_restOf _ _ _ _
      unfold Creator.setListing
      exact Keeps.get.bind fun z => (Keeps.lift _).bind fun e => Zim.plain_setContent _ _ _ _ _ _
    exact fun c hc => H2 c.arch hc
  · exact Keeps.pure _

end
end Pyzim
