import Verif.Props.Crash
import Verif.Lemmas.Interrupted

/-!
# What is in the file if a flush is not finished (C84)
-/

namespace Pyzim
namespace Creator
open Zim (Redirect toyHash)
open Strategy (item)

variable {D K : Type} {S : Setup D K} {md5 : Bytes → Bytes} {r : Nat} {c c' c0 : Creator D} {done : List (List Sourced)}
  {recent items : List Sourced} {rs rs' : List Redirect} {mts : List String} {n : Nat}

theorem onArch_bind {α β : Type} (f : PyM Archive α) (g : α → PyM Archive β) :
    (onArch (f >>= g) : PyM (Creator D) β) = (onArch f >>= fun x => onArch (g x)) := by
  funext s
  simp only [onArch, PyM.of_apply, bind, PyM.of, PyM.bind]
  cases f s.arch with
  | mk x a => cases x <;> rfl

/-- A flush of an archive with unsaved changes is what the ten parts do one after the other; then the archive is marked as
saved. -/
theorem C84_parts (ho : c.arch.zim.closed = false) (hm : c.arch.zim.mutable = true) (hd : c.arch.isDirty = true) :
    flush S c = (interrupted S 10 >>= fun _ => onArch (PyM.modify fun a => { a with dirty := false })) c := by
  unfold flush
  rw [PyM.get_bind, ho, hm, hd]
  rw [PyM.bind_ok (show PyM.require (!false) .zimFileClosed c = (.ok (), c) from rfl),
    PyM.bind_ok (show PyM.require true .nonMutable c = (.ok (), c) from rfl), if_pos rfl]
  unfold interrupted flushParts Archive.flushDirty
  simp only [List.take_succ_cons, List.take_zero, runParts, onArch_bind, PyM.bind_assoc_fn]
  rfl

/-- **C84, partial.** Items and redirects are added to an archive without unsaved changes, none of them replacing an item, and
the archive is flushed; the program ends before the pointer lists are written: opening the file shows exactly what it showed
before. -/
theorem C84_before_partial (hr : 2 ≤ r) (hS : S.Good md5 (some r)) (h0 : CreatorHist S c0 done recent rs)
    (hd : c0.arch.isDirty = false) (h : AddedTo S c0 c items rs') (hA : Apart (rs ++ rs') (done ++ [recent ++ items]))
    (hnew : NothingReplaced items (done ++ [recent])) (hmts : mts.length < 65534)
    (hl : ∀ l ∈ done ++ [recent ++ items], Batch mts l) (hn : n ≤ 5) (hok : interrupted S n c = (.ok (), c'))
    (kind : ClusterKind) (calls follow : Nat) (titles : Zim → PyRes PointerList) :
    ∃ a, openArchive { S with kind := kind, calls := calls, follow := follow } titles false c'.arch.zim.file = .ok a ∧
      ShowsItems S.X kind calls a.zim (current (done ++ [recent])) rs := by
  refine h.interrupted_shows hr hS h0 hd hA (ML := encode placeholder.mimetype :: mts.map encode) ?_ List.mem_cons_self ?_ ?_
    hnew hn hok kind calls follow titles
  · rw [List.length_cons, List.length_map]; omega
  · intro l h
    rcases List.mem_append.1 h with h | h
    · exact (hl l (List.mem_append_left _ h)).urls
    · rw [List.mem_singleton] at h
      rw [h]
      exact (batch_left (hl (recent ++ items) (by simp))).urls
  · intro l h
    have := hl l h
    exact ⟨this.size, fun p hp => ⟨List.mem_cons_of_mem _ (List.mem_map.2 ⟨_, this.mimetypes p hp, rfl⟩), this.other p hp⟩⟩

/-- **C84, partial.** The program ends after the header was written (before or after the checksum is): opening the file shows
the archive with everything that was added, replaced items included. -/
theorem C84_after_partial (hr : 2 ≤ r) (hS : S.Good md5 (some r)) (h : CreatorHist S c done items rs)
    (hA : Apart rs (done ++ [items])) (hmts : mts.length < 65534) (hl : ∀ l ∈ done ++ [items], Batch mts l)
    (hn : 8 ≤ n) (hR : n = 8 → Replaceable S.X S.C) (hok : interrupted S n c = (.ok (), c'))
    (kind : ClusterKind) (calls follow : Nat) (titles : Zim → PyRes PointerList) :
    ∃ a, openArchive { S with kind := kind, calls := calls, follow := follow } titles false c'.arch.zim.file = .ok a ∧
      ShowsItems S.X kind calls a.zim (current (done ++ [items])) rs := by
  refine h.interrupted_shows hr hS hA (ML := encode placeholder.mimetype :: mts.map encode) ?_ List.mem_cons_self ?_
    hn hR hok kind calls follow titles
  · rw [List.length_cons, List.length_map]; omega
  · intro l h
    have := hl l h
    exact ⟨this.urls, this.size, fun p hp => ⟨List.mem_cons_of_mem _ (List.mem_map.2 ⟨_, this.mimetypes p hp, rfl⟩), this.other p hp⟩⟩

/-- **C84, in full.** Wherever the flush ends, opening the file shows what it showed before, or all of it. -/
def C84Full (D K : Type) : Prop := ∀ (S : Setup D K) (md5 : Bytes → Bytes) (r : Nat) (c c' c0 : Creator D)
  (done : List (List Sourced)) (recent items : List Sourced) (rs rs' : List Redirect) (mts : List String) (n : Nat), 2 ≤ r →
  S.Good md5 (some r) → CreatorHist S c0 done recent rs → c0.arch.isDirty = false → AddedTo S c0 c items rs' →
  Apart (rs ++ rs') (done ++ [recent ++ items]) → NothingReplaced items (done ++ [recent]) → mts.length < 65534 →
  (∀ l ∈ done ++ [recent ++ items], Batch mts l) → (n = 8 → Replaceable S.X S.C) → interrupted S n c = (.ok (), c') →
  ∀ (kind : ClusterKind) (calls follow : Nat) (titles : Zim → PyRes PointerList),
    ∃ a, openArchive { S with kind := kind, calls := calls, follow := follow } titles false c'.arch.zim.file = .ok a ∧
      (ShowsItems S.X kind calls a.zim (current (done ++ [recent])) rs ∨
        ShowsItems S.X kind calls a.zim (current (done ++ [recent ++ items])) (rs ++ rs'))

/-! ### Concrete archives -/

/-- the archive with the redirects to which a page is added, and the first `n` parts of a flush -/
def demoPart (n : Nat) : Creator Bytes := step (interrupted demoSetup n) demoX1

/-- All of this succeeds; but the file is not readable after six or seven parts. -/
theorem demoPart_runs : (interrupted demoSetup 4 demoX1).1 = .ok () ∧ (interrupted demoSetup 5 demoX1).1 = .ok () ∧
    (interrupted demoSetup 6 demoX1).1 = .ok () ∧ (interrupted demoSetup 9 demoX1).1 = .ok () ∧
    (openArchive demoSetup (fun _ => .error .hang) false (demoPart 6).arch.zim.file).isOk = false ∧
    (openArchive demoSetup (fun _ => .error .hang) false (demoPart 7).arch.zim.file).isOk = false ∧
    (demoPart 5).arch.zim.file ≠ demoG.arch.zim.file := by decide +kernel

theorem demoX1_added : AddedTo demoSetup demoG demoX1 [page "0z"] [] :=
  .add .start (page_admissible "0z" (by decide +kernel)) demoX1_eq

theorem demoX1_apart : Apart ([("Cr", "Ca", none), ("Cq", "Cr", some "Q")] ++ [])
    ([[item "0" "text/html" [9], item "a" "text/html" [1, 2, 3]]] ++ [[] ++ [page "0z"]]) :=
  ⟨by decide +kernel, by decide +kernel, by decide +kernel⟩

theorem demoX1_new : NothingReplaced [page "0z"] ([[item "0" "text/html" [9], item "a" "text/html" [1, 2, 3]]] ++ [[]]) := by
  unfold NothingReplaced; decide +kernel

theorem demoX1_batches : ∀ l ∈ [[item "0" "text/html" [9], item "a" "text/html" [1, 2, 3]]] ++ [[] ++ [page "0z"]],
    Batch ["text/html"] l := by
  intro l hl
  simp only [List.cons_append, List.nil_append, List.mem_cons, List.not_mem_nil, or_false] at hl
  rcases hl with rfl | rfl <;>
    exact ⟨by decide +kernel, by decide +kernel, by decide +kernel, by unfold NotHuge; decide⟩

theorem demoPart_eq (n : Nat) (h : (interrupted demoSetup n demoX1).1 = .ok ()) :
    interrupted demoSetup n demoX1 = (.ok (), demoPart n) := step_eq (g := interrupted demoSetup n) h

/-- The program ends after the fifth part: the file has changed, but it shows the two items. -/
example (kind : ClusterKind) : (demoPart 5).arch.zim.file ≠ demoG.arch.zim.file ∧
    ∃ a, openArchive { demoSetup with kind := kind, calls := 0, follow := 0 } (fun _ => .error .hang) false
      (demoPart 5).arch.zim.file = .ok a ∧
    ShowsItems Cluster.rawCodecs kind 0 a.zim [item "0" "text/html" [9], item "a" "text/html" [1, 2, 3]]
      [("Cr", "Ca", none), ("Cq", "Cr", some "Q")] :=
  ⟨demoPart_runs.2.2.2.2.2.2, C84_before_partial (by omega) demoSetup_good demoG_hist demoG_clean demoX1_added demoX1_apart
    demoX1_new (by decide) demoX1_batches (Nat.le_refl 5) (demoPart_eq 5 demoPart_runs.2.1) kind 0 0 _⟩

/-- The program ends before the file is shortened: the file shows the three items. -/
example (kind : ClusterKind) :
    ∃ a, openArchive { demoSetup with kind := kind, calls := 0, follow := 0 } (fun _ => .error .hang) false
      (demoPart 9).arch.zim.file = .ok a ∧
    ShowsItems Cluster.rawCodecs kind 0 a.zim [item "0" "text/html" [9], item "a" "text/html" [1, 2, 3], page "0z"]
      [("Cr", "Ca", none), ("Cq", "Cr", some "Q")] :=
  C84_after_partial (by omega) demoSetup_good (demoX1_added.hist demoG_hist) demoX1_apart (by decide) demoX1_batches
    (by omega) (by omega) (demoPart_eq 9 demoPart_runs.2.2.2.1) kind 0 0 _

/-- **C84, finding.** If the program ends after the cluster pointer list was written, but before the header is, the file cannot
be opened: the new list overwrites the old one, to which the header still points. -/
theorem C84_fails : ¬ C84Full Bytes Unit := by
  intro h
  obtain ⟨a, h1, -⟩ := h demoSetup toyHash 90 demoX1 (demoPart 6) demoG _ _ _ _ [] ["text/html"] 6 (by omega) demoSetup_good demoG_hist
    demoG_clean demoX1_added demoX1_apart demoX1_new (by decide) demoX1_batches (by omega) (demoPart_eq 6 demoPart_runs.2.2.1)
    .remembering 64 4 (fun _ => .error .hang)
  have h2 := demoPart_runs.2.2.2.2.1
  rw [show openArchive demoSetup (fun _ => .error .hang) false (demoPart 6).arch.zim.file = .ok a from h1] at h2
  cases h2

end Creator
end Pyzim
