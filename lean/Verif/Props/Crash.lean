import Verif.Props.Redirecting
import Verif.Lemmas.CreatorCrash

/-!
# What is in the file before the next flush (C76)
-/

namespace Pyzim
namespace Creator
open Zim (Redirect toyHash)

variable {D K : Type} {S : Setup D K} {md5 : Bytes → Bytes} {r : Nat} {c c0 : Creator D} {done : List (List Sourced)}
  {recent items : List Sourced} {rs rs' : List Redirect} {mts : List String}

/-- no item has the full url of an earlier one -/
def NothingReplaced (items : List Sourced) (earlier : List (List Sourced)) : Prop :=
  ∀ p ∈ items, ∀ l ∈ earlier, ∀ q ∈ l, p.1.fullUrl ≠ q.1.fullUrl

theorem batch_left {l l' : List Sourced} (h : Batch mts (l ++ l')) : Batch mts l :=
  ⟨h.urls.sublist ((List.sublist_append_left l l').map _), fun p hp => h.mimetypes p (List.mem_append_left _ hp),
    fun p hp => h.other p (List.mem_append_left _ hp), h.size.sublist (List.sublist_append_left l l')⟩

/-- **C76, partial.** Items and redirects are added to an archive without unsaved changes, and then the program ends without
flushing the archive: opening the file shows exactly what it showed before, if no item was replaced. -/
theorem C76_unflushed_partial (hr : 2 ≤ r) (hS : S.Good md5 (some r)) (h0 : CreatorHist S c0 done recent rs)
    (hd : c0.arch.isDirty = false) (h : AddedTo S c0 c items rs') (hA : Apart (rs ++ rs') (done ++ [recent ++ items]))
    (hnew : NothingReplaced items (done ++ [recent])) (hmts : mts.length < 65534)
    (hl : ∀ l ∈ done ++ [recent ++ items], Batch mts l) (kind : ClusterKind) (calls follow : Nat)
    (titles : Zim → PyRes PointerList) :
    ∃ a, openArchive { S with kind := kind, calls := calls, follow := follow } titles false c.arch.zim.file = .ok a ∧
      ShowsItems S.X kind calls a.zim (current (done ++ [recent])) rs := by
  refine h.shows hr hS h0 hd hA (ML := encode placeholder.mimetype :: mts.map encode) ?_ List.mem_cons_self ?_ ?_ hnew kind
    calls follow titles
  · rw [List.length_cons, List.length_map]; omega
  · intro l h
    rcases List.mem_append.1 h with h | h
    · exact (hl l (List.mem_append_left _ h)).urls
    · rw [List.mem_singleton] at h
      rw [h]
      exact (batch_left (hl (recent ++ items) (by simp))).urls
  · intro l h
    have := hl l h
    exact ⟨this.size, fun p hp => ⟨List.mem_cons_of_mem _ (List.mem_map.2 ⟨_, this.mimetypes p hp, rfl⟩), this.other p hp⟩⟩

/-- **C76, in full.** The same if items are replaced, … -/
def C76Replacing (D K : Type) : Prop := ∀ (S : Setup D K) (md5 : Bytes → Bytes) (r : Nat) (c c0 : Creator D)
  (done : List (List Sourced)) (recent items : List Sourced) (rs rs' : List Redirect) (mts : List String), 2 ≤ r →
  S.Good md5 (some r) → CreatorHist S c0 done recent rs → c0.arch.isDirty = false → AddedTo S c0 c items rs' →
  Apart (rs ++ rs') (done ++ [recent ++ items]) → mts.length < 65534 →
  (∀ l ∈ done ++ [recent ++ items], Batch mts l) →
  ∀ (kind : ClusterKind) (calls follow : Nat) (titles : Zim → PyRes PointerList),
    ∃ a, openArchive { S with kind := kind, calls := calls, follow := follow } titles false c.arch.zim.file = .ok a ∧
      ShowsItems S.X kind calls a.zim (current (done ++ [recent])) rs

/-- … and the redirects lead where they led before. -/
def C76Redirects (D K : Type) : Prop := ∀ (S : Setup D K) (md5 : Bytes → Bytes) (r : Nat) (c c0 : Creator D)
  (done : List (List Sourced)) (recent items : List Sourced) (rs rs' : List Redirect) (mts : List String), 2 ≤ r →
  S.Good md5 (some r) → CreatorHist S c0 done recent rs → c0.arch.isDirty = false → AddedTo S c0 c items rs' →
  Apart (rs ++ rs') (done ++ [recent ++ items]) → NothingReplaced items (done ++ [recent]) → mts.length < 65534 →
  (∀ l ∈ done ++ [recent ++ items], Batch mts l) → ∀ x ∈ rs, RedirectWorks c0.arch.zim x →
  ∀ (kind : ClusterKind) (calls follow : Nat) (titles : Zim → PyRes PointerList),
    ∃ a, openArchive { S with kind := kind, calls := calls, follow := follow } titles false c.arch.zim.file = .ok a ∧
      RedirectWorks a.zim x

/-! ### Concrete archives -/

open Strategy (item)

def page (u : String) : Sourced := item u "text/html" (List.replicate 30 5)

theorem page_admissible (u : String) (hu : u.length ≠ 0 ∧ (0 : UInt8) ∉ encode u) : Item.Admissible (page u) :=
  item_admissible u "text/html" _ hu (by decide +kernel)

/-- the archive with the redirects, and a page, … -/
def demoX1 : Creator Bytes := step (add (page "0z") false) demoG
/-- another page (so that the first one is written), … -/
def demoX2 : Creator Bytes := step (add (page "0y") false) demoX1
/-- and another redirect -/
def demoX : Creator Bytes := step (addRed ("Cs", "Ca", none)) demoX2

/-- where the redirect at this url leads after opening the file -/
def leadsAfter (f : Bytes) (u : String) : PyRes String :=
  match openArchive demoSetup (fun _ => .error .hang) false f with
  | .ok a => leadsTo a.zim u
  | .error e => .error e

/-- All of this succeeds. -/
theorem demoX_runs : (add (page "0z") false demoG).1 = .ok () ∧ (add (page "0y") false demoX1).1 = .ok () ∧
    (addRed ("Cs", "Ca", none) demoX2).1 = .ok () ∧ demoX.arch.isDirty = true ∧
    leadsAfter demoX2.arch.zim.file "Cr" = .ok "Cq" ∧ demoX.arch.zim.file ≠ demoG.arch.zim.file := by decide +kernel

theorem demoX1_eq : addItem demoSetup (page "0z").1 false demoG = (.ok (), demoX1) :=
  step_eq (g := add (page "0z") false) demoX_runs.1
theorem demoX2_eq : addItem demoSetup (page "0y").1 false demoX1 = (.ok (), demoX2) :=
  step_eq (g := add (page "0y") false) demoX_runs.2.1
theorem demoX_eq : addFullUrlRedirect demoSetup "Cs" "Ca" none demoX2 = (.ok (), demoX) :=
  step_eq (g := addRed ("Cs", "Ca", none)) demoX_runs.2.2.1

theorem valid_Cs : Redirect.Valid ("Cs", "Ca", none) :=
  ⟨⟨'C', "s", rfl, by decide, by decide +kernel⟩, by decide, (by intro t h; cases h), by decide⟩

theorem demoX2_added : AddedTo demoSetup demoG demoX2 [page "0z", page "0y"] [] :=
  .add (.add .start (page_admissible "0z" (by decide +kernel)) demoX1_eq) (page_admissible "0y" (by decide +kernel)) demoX2_eq

theorem demoX_added : AddedTo demoSetup demoG demoX [page "0z", page "0y"] [("Cs", "Ca", none)] :=
  .redirect (r := ("Cs", "Ca", none)) demoX2_added valid_Cs demoX_eq demoX_runs.2.2.2.1

theorem demoX_apart : Apart ([("Cr", "Ca", none), ("Cq", "Cr", some "Q")] ++ [("Cs", "Ca", none)])
    ([[item "0" "text/html" [9], item "a" "text/html" [1, 2, 3]]] ++ [[] ++ [page "0z", page "0y"]]) :=
  ⟨by decide +kernel, by decide +kernel, by decide +kernel⟩

theorem demoX_new : NothingReplaced [page "0z", page "0y"]
    ([[item "0" "text/html" [9], item "a" "text/html" [1, 2, 3]]] ++ [[]]) := by
  unfold NothingReplaced; decide +kernel

theorem demoX_batches : ∀ l ∈ [[item "0" "text/html" [9], item "a" "text/html" [1, 2, 3]]] ++ [[] ++ [page "0z", page "0y"]],
    Batch ["text/html"] l := by
  intro l hl
  simp only [List.cons_append, List.nil_append, List.mem_cons, List.not_mem_nil, or_false] at hl
  rcases hl with rfl | rfl <;>
    exact ⟨by decide +kernel, by decide +kernel, by decide +kernel, by unfold NotHuge; decide⟩

/-- The file is not the one that was flushed; but it still shows the two items. -/
example (kind : ClusterKind) : demoX.arch.zim.file ≠ demoG.arch.zim.file ∧
    ∃ a, openArchive { demoSetup with kind := kind, calls := 0, follow := 0 } (fun _ => .error .hang) false
      demoX.arch.zim.file = .ok a ∧
    ShowsItems Cluster.rawCodecs kind 0 a.zim [item "0" "text/html" [9], item "a" "text/html" [1, 2, 3]]
      [("Cr", "Ca", none), ("Cq", "Cr", some "Q")] :=
  ⟨demoX_runs.2.2.2.2.2, C76_unflushed_partial (by omega) demoSetup_good demoG_hist demoG_clean demoX_added demoX_apart demoX_new
    (by decide) demoX_batches kind 0 0 _⟩

theorem demoX_leads : leadsAfter demoX2.arch.zim.file "Cr" = .ok "Cq" := demoX_runs.2.2.2.2.1

/-- **C76, finding.** Redirects are not safe: writing an item changes the indices in all redirects to entries behind it at
once, so that those lead elsewhere until the next flush. -/
theorem C76_redirects_fail : ¬ C76Redirects Bytes Unit := by
  intro h
  have hx := C75_live_partial (by omega) demoSetup_good demoG_hist demoG_apart demoG_clean (by decide) demoG_batches
    ("Cr", "Ca", none) (by simp) (by decide +kernel)
  obtain ⟨a, h1, h2⟩ := h demoSetup toyHash 90 demoX2 demoG _ _ _ _ [] ["text/html"] (by omega) demoSetup_good demoG_hist
    demoG_clean demoX2_added (demoX_apart.sub (by simp) fun x hx p hp => ⟨x, hx, hp⟩) demoX_new (by decide) demoX_batches
    ("Cr", "Ca", none) (by simp) hx .remembering 64 4 (fun _ => .error .hang)
  have h3 := h2.leadsTo
  have h4 := demoX_leads
  unfold leadsAfter at h4
  rw [show openArchive demoSetup (fun _ => .error .hang) false demoX2.arch.zim.file = .ok a from h1] at h4
  simp only [h3] at h4
  exact absurd h4 (by decide)

/-- the archive with the redirects and a page replaced, … -/
def demoY1 : Creator Bytes := step (add (page "a") false) demoG
/-- and another page (so that the first one is written) -/
def demoY : Creator Bytes := step (add (page "b") false) demoY1

/-- the content at this url after opening the file -/
def readAfter (f : Bytes) (u : String) : PyRes Bytes :=
  match openArchive demoSetup (fun _ => .error .hang) false f with
  | .ok a =>
    match a.zim.entryByFullUrl u with
    | .ok e => a.zim.readContent demoSetup.X .remembering 64 e
    | .error x => .error x
  | .error x => .error x

/-- All of this succeeds. -/
theorem demoY_runs : (add (page "a") false demoG).1 = .ok () ∧ (add (page "b") false demoY1).1 = .ok () ∧
    (readAfter demoY.arch.zim.file "Ca").isOk = false := by decide +kernel

theorem demoY1_eq : addItem demoSetup (page "a").1 false demoG = (.ok (), demoY1) :=
  step_eq (g := add (page "a") false) demoY_runs.1
theorem demoY_eq : addItem demoSetup (page "b").1 false demoY1 = (.ok (), demoY) :=
  step_eq (g := add (page "b") false) demoY_runs.2.1

theorem demoY_added : AddedTo demoSetup demoG demoY [page "a", page "b"] [] :=
  .add (.add .start (page_admissible "a" (by decide +kernel)) demoY1_eq) (page_admissible "b" (by decide +kernel)) demoY_eq

theorem demoY_apart : Apart ([("Cr", "Ca", none), ("Cq", "Cr", some "Q")] ++ [])
    ([[item "0" "text/html" [9], item "a" "text/html" [1, 2, 3]]] ++ [[] ++ [page "a", page "b"]]) :=
  ⟨by decide +kernel, by decide +kernel, by decide +kernel⟩

theorem demoY_batches : ∀ l ∈ [[item "0" "text/html" [9], item "a" "text/html" [1, 2, 3]]] ++ [[] ++ [page "a", page "b"]],
    Batch ["text/html"] l := by
  intro l hl
  simp only [List.cons_append, List.nil_append, List.mem_cons, List.not_mem_nil, or_false] at hl
  rcases hl with rfl | rfl <;>
    exact ⟨by decide +kernel, by decide +kernel, by decide +kernel, by unfold NotHuge; decide⟩

theorem demoY_read : (readAfter demoY.arch.zim.file "Ca").isOk = false := demoY_runs.2.2

/-- **C76, finding.** Nor are items that are replaced: the entry of the new item is written over the old one at once, but
the list with the cluster it refers to is not; so that, until the next flush, the file has neither content. -/
theorem C76_replacing_fails : ¬ C76Replacing Bytes Unit := by
  intro h
  obtain ⟨a, h1, h2⟩ := h demoSetup toyHash 90 demoY demoG _ _ _ _ [] ["text/html"] (by omega) demoSetup_good demoG_hist
    demoG_clean demoY_added demoY_apart (by decide) demoY_batches .remembering 64 4 (fun _ => .error .hang)
  obtain ⟨e, e1, -, -, -, -, -, e2⟩ := h2.item (item "a" "text/html" [1, 2, 3]) (by
    show item "a" "text/html" [1, 2, 3] ∈ [item "0" "text/html" [9], item "a" "text/html" [1, 2, 3]]
    simp)
  have h4 := demoY_read
  unfold readAfter at h4
  rw [show openArchive demoSetup (fun _ => .error .hang) false demoY.arch.zim.file = .ok a from h1] at h4
  simp only [show a.zim.entryByFullUrl "Ca" = .ok e from e1] at h4
  rw [show a.zim.readContent demoSetup.X .remembering 64 e = _ from e2] at h4
  cases h4

end Creator
end Pyzim
