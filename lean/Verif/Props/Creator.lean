import Verif.Lemmas.CreatorShows
import Verif.Props.Layout

/-!
# Filling an archive with items
-/

namespace Pyzim
namespace Creator
open Zim (toyHasher toyHash toyHasher_computes)

variable {D K : Type} {S : Setup D K} {md5 : Bytes → Bytes} {r : Nat} {c c' : Creator D} {done : List (List Sourced)}
  {recent : List Sourced} {rs : List Zim.Redirect} {mts : List String}

/-- What is asked of the items that are added between two flushes: their full urls differ from each other and from that of
the list of articles, there are not too many mimetypes (`mts`), and the offsets in clusters fit into 64 bits. -/
structure Batch (mts : List String) (l : List Sourced) : Prop where
  urls : (l.map fun p => p.1.fullUrl).Nodup
  mimetypes : ∀ p ∈ l, p.1.mimetype ∈ mts
  other : ∀ p ∈ l, p.1.fullUrl ≠ URL_ARTICLES
  size : NotHuge l

/-- **C70.** However items and redirects were added to an archive and however often it was flushed and opened again: once
there are no unsaved changes, opening the file (with any class of clusters) shows exactly the items that were added, with
their values and contents, and the redirects; an item replaces those with the same full url that were added before an
earlier flush. -/
theorem C70_items_survive (hr : 2 ≤ r) (hS : S.Good md5 (some r)) (h : CreatorHist S c done recent rs)
    (hA : Apart rs (done ++ [recent])) (hd : c.arch.isDirty = false) (hmts : mts.length < 65534) (hl : ∀ l ∈ done ++ [recent], Batch mts l)
    (kind : ClusterKind) (calls follow : Nat) (titles : Zim → PyRes PointerList) :
    ∃ a, openArchive { S with kind := kind, calls := calls, follow := follow } titles false c.arch.zim.file = .ok a ∧
      ShowsItems S.X kind calls a.zim (current (done ++ [recent])) rs := by
  refine h.shows hr hS hA hd (ML := encode placeholder.mimetype :: mts.map encode) ?_ List.mem_cons_self ?_ kind calls follow titles
  · rw [List.length_cons, List.length_map]; omega
  · intro l h
    have := hl l h
    exact ⟨this.urls, this.size, fun p hp => ⟨List.mem_cons_of_mem _ (List.mem_map.2 ⟨_, this.mimetypes p hp, rfl⟩),
      this.other p hp⟩⟩

/-- **C70.** After a flush there are no unsaved changes; all items that were added are there. -/
theorem C70_after_flush (hr : 2 ≤ r) (hS : S.Good md5 (some r)) (h : CreatorHist S c done recent rs)
    (hA : Apart rs (done ++ [recent])) (hf : flush S c = (.ok (), c')) (hmts : mts.length < 65534) (hl : ∀ l ∈ done ++ [recent], Batch mts l)
    (kind : ClusterKind) (calls follow : Nat) (titles : Zim → PyRes PointerList) :
    c'.arch.isDirty = false ∧
    ∃ a, openArchive { S with kind := kind, calls := calls, follow := follow } titles false c'.arch.zim.file = .ok a ∧
      ShowsItems S.X kind calls a.zim (current (done ++ [recent])) rs := by
  have hd : c'.arch.isDirty = false := by
    obtain ⟨Gb, h1, h2⟩ := h.has hr hS hA (ML := encode placeholder.mimetype :: mts.map encode)
      (by rw [List.length_cons, List.length_map]; omega) List.mem_cons_self fun l h =>
        ⟨(hl l h).urls, (hl l h).size, fun p hp => ⟨List.mem_cons_of_mem _ (List.mem_map.2 ⟨_, (hl l h).mimetypes p hp, rfl⟩), (hl l h).other p hp⟩⟩
    have := hl recent (by simp)
    exact (h2.flush hS this.size this.other (hA.separate h.valid h1) hf).2
  refine ⟨hd, ?_⟩
  have := C70_items_survive hr hS (.flush h hf) (hA.sub (List.Sublist.refl _) fun x hx p hp => by
    rcases List.mem_append.1 hx with hx | hx
    · exact ⟨x, hx, hp⟩
    · rw [List.mem_singleton] at hx; subst hx; cases hp) hd hmts (fun l h => by
    rcases List.mem_append.1 h with h | h
    · exact hl l h
    · rw [List.mem_singleton] at h
      rw [h]
      exact ⟨by simp, by simp, by simp, by unfold NotHuge; simp⟩) kind calls follow titles
  rw [current_snoc] at this
  simpa using this

/-! ### Which of several items with the same url counts -/

/-- the items in the order of adding, each on its own -/
def singly (lists : List (List Sourced)) : List (List Sourced) := lists.flatten.map fun p => [p]

/-- **C71, in full.** Of several items with the same full url the one that was added last is in the archive. -/
def C71Full (D K : Type) : Prop := ∀ (S : Setup D K) (md5 : Bytes → Bytes) (r : Nat) (c : Creator D)
  (done : List (List Sourced)) (recent : List Sourced) (rs : List Zim.Redirect) (mts : List String), 2 ≤ r → S.Good md5 (some r) →
  CreatorHist S c done recent rs → Apart rs (done ++ [recent]) → c.arch.isDirty = false → mts.length < 65534 →
  (∀ l ∈ done ++ [recent], NotHuge l ∧ ∀ p ∈ l, p.1.mimetype ∈ mts ∧ p.1.fullUrl ≠ URL_ARTICLES) →
  ∀ (kind : ClusterKind) (calls follow : Nat) (titles : Zim → PyRes PointerList),
    ∃ a, openArchive { S with kind := kind, calls := calls, follow := follow } titles false c.arch.zim.file = .ok a ∧
      ShowsItems S.X kind calls a.zim (current (singly (done ++ [recent]))) rs

theorem current_singly_snoc (l : List Sourced) (p : Sourced) :
    current ((l ++ [p]).map fun p => [p]) = (current (l.map fun p => [p])).filter (fun q => urlOf p ≠ urlOf q) ++ [p] := by
  rw [List.map_append, List.map_cons, List.map_nil, current_snoc]
  simp

theorem current_singly {lists : List (List Sourced)} (h : ∀ l ∈ lists, (l.map urlOf).Nodup) :
    current (singly lists) = current lists := by
  have h1 : ∀ l : List Sourced, current (l.map fun p => [p]) = lastOnes urlOf l := by
    intro l
    induction l using snoc_induction with
    | h0 => rfl
    | h1 l p ih => rw [current_singly_snoc, lastOnes_snoc, ih]
  unfold singly
  rw [h1]
  induction lists using snoc_induction with
  | h0 => rfl
  | h1 ls l ih =>
    rw [List.flatten_append, current_snoc, ← ih fun l hl => h l (List.mem_append_left _ hl)]
    have e : ([l] : List (List Sourced)).flatten = l := by simp
    rw [e, lastOnes_append urlOf _ (h l (by simp))]

/-- **C71, partial.** The item that was added last counts if there is a flush between adding items with the same full
url. -/
theorem C71_last_added_partial (hr : 2 ≤ r) (hS : S.Good md5 (some r)) (h : CreatorHist S c done recent rs)
    (hA : Apart rs (done ++ [recent])) (hd : c.arch.isDirty = false) (hmts : mts.length < 65534) (hl : ∀ l ∈ done ++ [recent], Batch mts l)
    (kind : ClusterKind) (calls follow : Nat) (titles : Zim → PyRes PointerList) :
    ∃ a, openArchive { S with kind := kind, calls := calls, follow := follow } titles false c.arch.zim.file = .ok a ∧
      ShowsItems S.X kind calls a.zim (current (singly (done ++ [recent]))) rs := by
  rw [current_singly fun l h => (hl l h).urls]
  exact C70_items_survive hr hS h hA hd hmts hl kind calls follow titles

theorem apart_nil (ls : List (List Sourced)) : Apart [] ls := ⟨by simp, by simp, by simp⟩

/-! ### A concrete archive -/

/-- a setup with uncompressed clusters -/
def demoSetup : Setup Bytes Unit where
  X := Cluster.rawCodecs
  C := MCluster.rawCompressors
  H := toyHasher
  short := fun pos n => if pos % 2 = 1 then 1 else n
  chunksize := 7
  policy := ⟨true, some 90⟩
  blob := fun _ => pure ()
  depth := 4
  passes := 4
  calls := 64
  follow := 4

theorem demoSetup_good : demoSetup.Good toyHash (some 90) where
  hasher := toyHasher_computes
  short pos n hn := by
    show 0 < if pos % 2 = 1 then 1 else n
    split <;> omega
  chunksize := Nat.succ_pos 6
  policy := rfl
  passes := Nat.succ_pos 3
  plain := Strategy.raw_working
  passthrough := MCluster.rawPassthrough

open Strategy (item)

/-- the strategies -/
def demoMain : Strategy Bytes := .byMimetype { compressionType := .none, maxSize := 16 }
/-- the strategies -/
def demoPlain : Strategy Bytes := .simple (Simple.new .none 16)

theorem demoMain_new : demoMain.IsNew .none := ⟨16, .inr rfl⟩
theorem demoPlain_new : demoPlain.IsNew .none := ⟨16, .inl rfl⟩

/-- a value, or something else -/
def orElse {α : Type} (r : PyRes α) (d : α) : α :=
  match r with
  | .ok x => x
  | .error _ => d

def blank : Creator Bytes := { arch := Archive.demo0 (some 90), main := demoMain, plain := demoPlain }

/-- a new archive -/
def demoA : Creator Bytes := orElse (new demoSetup (List.replicate 16 1) demoMain demoPlain) blank

theorem orElse_eq {α : Type} {r : PyRes α} {d : α} (h : r.isOk = true) : r = .ok (orElse r d) := by
  cases r with
  | ok x => rfl
  | error x => cases h

theorem demoA_eq : new demoSetup (List.replicate 16 1) demoMain demoPlain = .ok demoA :=
  orElse_eq (by decide +kernel)

def step (g : PyM (Creator Bytes) Unit) (c : Creator Bytes) : Creator Bytes := (g c).2

theorem step_eq {g : PyM (Creator Bytes) Unit} {c : Creator Bytes} (h : (g c).1 = .ok ()) : g c = (.ok (), step g c) :=
  Prod.ext h rfl

def add (p : Sourced) (force : Bool) : PyM (Creator Bytes) Unit := addItem demoSetup p.1 force

theorem item_admissible (u m : String) (b : Bytes) (hu : u.length ≠ 0 ∧ (0 : UInt8) ∉ encode u)
    (hm : m.length ≠ 0 ∧ (0 : UInt8) ∉ encode m) : Item.Admissible (item u m b) :=
  ⟨⟨show (encode "C").length = 1 by decide +kernel, hu, hm, by intro t h; cases h⟩, MCluster.mem_delivers _, fun _ => rfl⟩

/-- with a page, … -/
def demoA1 : Creator Bytes := step (add (item "a" "text/html" [1, 2, 3]) false) demoA
/-- two pages, … -/
def demoA2 : Creator Bytes := step (add (item "b" "image/png" [4, 5]) true) demoA1
/-- three pages, … -/
def demoB : Creator Bytes := step (add (item "c" "text/html" [6]) false) demoA2
/-- flushed, … -/
def demoC : Creator Bytes := step (flush demoSetup) demoB
/-- opened again, … -/
def demoD : Creator Bytes := orElse (reopen demoSetup (fun _ => .error .hang) demoMain demoPlain demoC.arch.zim.file) blank
/-- with a page replaced, … -/
def demoD1 : Creator Bytes := step (add (item "a" "text/html" [7, 8]) true) demoD
/-- and flushed. -/
def demoE : Creator Bytes := step (flush demoSetup) demoD1

theorem demoA1_eq : addItem demoSetup (item "a" "text/html" [1, 2, 3]).1 false demoA = (.ok (), demoA1) :=
  step_eq (g := add (item "a" "text/html" [1, 2, 3]) false) (by decide +kernel)
theorem demoA2_eq : addItem demoSetup (item "b" "image/png" [4, 5]).1 true demoA1 = (.ok (), demoA2) :=
  step_eq (g := add (item "b" "image/png" [4, 5]) true) (by decide +kernel)
theorem demoB_eq : addItem demoSetup (item "c" "text/html" [6]).1 false demoA2 = (.ok (), demoB) :=
  step_eq (g := add (item "c" "text/html" [6]) false) (by decide +kernel)
theorem demoC_eq : flush demoSetup demoB = (.ok (), demoC) := step_eq (g := flush demoSetup) (by decide +kernel)
theorem demoC_clean : demoC.arch.isDirty = false := by decide +kernel
theorem demoD_eq : reopen demoSetup (fun _ => .error .hang) demoMain demoPlain demoC.arch.zim.file = .ok demoD :=
  orElse_eq (by decide +kernel)
theorem demoD1_eq : addItem demoSetup (item "a" "text/html" [7, 8]).1 true demoD = (.ok (), demoD1) :=
  step_eq (g := add (item "a" "text/html" [7, 8]) true) (by decide +kernel)
theorem demoE_eq : flush demoSetup demoD1 = (.ok (), demoE) := step_eq (g := flush demoSetup) (by decide +kernel)

theorem demoA_hist : CreatorHist demoSetup demoA [] [] [] :=
  .new (by decide) Strategy.raw_working demoMain_new demoPlain_new demoA_eq

theorem demoB_hist : CreatorHist demoSetup demoB []
    [item "a" "text/html" [1, 2, 3], item "b" "image/png" [4, 5], item "c" "text/html" [6]] [] := by
  have h1 := CreatorHist.add demoA_hist
    (item_admissible "a" "text/html" [1, 2, 3] (by decide +kernel) (by decide +kernel)) demoA1_eq
  have h2 := CreatorHist.add h1 (item_admissible "b" "image/png" [4, 5] (by decide +kernel) (by decide +kernel)) demoA2_eq
  exact CreatorHist.add h2 (item_admissible "c" "text/html" [6] (by decide +kernel) (by decide +kernel)) demoB_eq

theorem demoE_hist : CreatorHist demoSetup demoE
    [[item "a" "text/html" [1, 2, 3], item "b" "image/png" [4, 5], item "c" "text/html" [6]],
      [item "a" "text/html" [7, 8]]] [] [] := by
  have h1 := CreatorHist.flush demoB_hist demoC_eq
  have h2 := CreatorHist.reopen h1 demoC_clean Strategy.raw_working demoMain_new demoPlain_new demoD_eq
  have h3 := CreatorHist.add h2 (item_admissible "a" "text/html" [7, 8] (by decide +kernel) (by decide +kernel)) demoD1_eq
  exact CreatorHist.flush h3 demoE_eq

theorem demoE_clean : demoE.arch.isDirty = false := by decide +kernel

theorem demoE_batches : ∀ l ∈ [[item "a" "text/html" [1, 2, 3], item "b" "image/png" [4, 5], item "c" "text/html" [6]],
      [item "a" "text/html" [7, 8]]] ++ [[]], Batch ["text/html", "image/png"] l := by
  intro l hl
  simp only [List.cons_append, List.nil_append, List.mem_cons, List.not_mem_nil, or_false] at hl
  rcases hl with rfl | rfl | rfl <;>
    exact ⟨by decide +kernel, by decide +kernel, by decide +kernel, by unfold NotHuge; decide⟩

example (kind : ClusterKind) : ∃ a, openArchive { demoSetup with kind := kind, calls := 0, follow := 0 }
      (fun _ => .error .hang) false demoE.arch.zim.file = .ok a ∧
    ShowsItems Cluster.rawCodecs kind 0 a.zim
      [item "b" "image/png" [4, 5], item "c" "text/html" [6], item "a" "text/html" [7, 8]] [] :=
  C70_items_survive (by omega) demoSetup_good demoE_hist (apart_nil _) demoE_clean (by decide) demoE_batches kind 0 0 _

/-- an item that is not to be compressed, … -/
def demoA3 : Creator Bytes := step (add (item "a" "text/html" [1, 2, 3]) true) demoA
/-- another one with the same url, … -/
def demoA4 : Creator Bytes := step (add (item "a" "text/html" [7, 8]) false) demoA3
/-- flushed -/
def demoF : Creator Bytes := step (flush demoSetup) demoA4

theorem demoA3_eq : addItem demoSetup (item "a" "text/html" [1, 2, 3]).1 true demoA = (.ok (), demoA3) :=
  step_eq (g := add (item "a" "text/html" [1, 2, 3]) true) (by decide +kernel)
theorem demoA4_eq : addItem demoSetup (item "a" "text/html" [7, 8]).1 false demoA3 = (.ok (), demoA4) :=
  step_eq (g := add (item "a" "text/html" [7, 8]) false) (by decide +kernel)
theorem demoF_eq : flush demoSetup demoA4 = (.ok (), demoF) := step_eq (g := flush demoSetup) (by decide +kernel)
theorem demoF_clean : demoF.arch.isDirty = false := by decide +kernel

theorem demoF_hist : CreatorHist demoSetup demoF [[item "a" "text/html" [1, 2, 3], item "a" "text/html" [7, 8]]] [] [] := by
  have h1 := CreatorHist.add demoA_hist
    (item_admissible "a" "text/html" [1, 2, 3] (by decide +kernel) (by decide +kernel)) demoA3_eq
  have h2 := CreatorHist.add h1 (item_admissible "a" "text/html" [7, 8] (by decide +kernel) (by decide +kernel)) demoA4_eq
  exact CreatorHist.flush h2 demoF_eq

/-- the content of the page `Ca` in a file -/
def contentOf (file : Bytes) : PyRes Bytes := do
  let a ← openArchive { demoSetup with kind := .remembering, calls := 0, follow := 0 } (fun _ => .error .hang) false file
  let e ← a.zim.entryByFullUrl "Ca"
  a.zim.readContent Cluster.rawCodecs .remembering 0 e

theorem demoF_content : contentOf demoF.arch.zim.file = .ok [1, 2, 3] := by decide +kernel

/-- **C71, finding.** The claim is false in full: of two items with the same url, the first of which was not to be
compressed, the first one is in the archive, as `flush` flushes the strategy for uncompressed content last. -/
theorem C71_full_fails : ¬ C71Full Bytes Unit := by
  intro h
  obtain ⟨a, h1, h2⟩ := h demoSetup toyHash 90 demoF _ _ _ ["text/html"] (by omega) demoSetup_good demoF_hist
    (apart_nil _) demoF_clean (by decide) (by
      intro l hl
      simp only [List.cons_append, List.nil_append, List.mem_cons, List.not_mem_nil, or_false] at hl
      rcases hl with rfl | rfl <;> exact ⟨by unfold NotHuge; decide, by decide +kernel⟩) .remembering 0 0 (fun _ => .error .hang)
  obtain ⟨e, k1, -, -, -, -, -, k2⟩ := h2.item (item "a" "text/html" [7, 8]) (by
    rw [show current (singly ([[item "a" "text/html" [1, 2, 3], item "a" "text/html" [7, 8]]] ++ [[]])) =
      [item "a" "text/html" [7, 8]] from rfl]
    simp)
  have h3 := demoF_content
  unfold contentOf at h3
  rw [h1] at h3
  simp only [bind, Except.bind] at h3
  rw [show a.zim.entryByFullUrl "Ca" = .ok e from k1] at h3
  simp only at h3
  rw [show a.zim.readContent Cluster.rawCodecs .remembering 0 e = .ok [7, 8] from k2] at h3
  injection h3 with h3
  cases h3

end Creator
end Pyzim
