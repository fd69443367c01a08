import Verif.Props.Interrupted
import Verif.Lemmas.TornHist

/-!
# What is in the file if not all of what was written has reached the disk (C87)
-/

namespace Pyzim
namespace Creator
open Zim (Redirect toyHash)
open Strategy (item)

variable {D K : Type} {S : Setup D K} {md5 : Bytes → Bytes} {r : Nat} {c c' c0 : Creator D} {done : List (List Sourced)}
  {recent items : List Sourced} {rs rs' : List Redirect} {mts : List String} {n : Nat} {f : Bytes}

theorem fresh_of (hA : Apart (rs ++ rs') (done ++ [recent ++ items])) (hnew : NothingReplaced items (done ++ [recent]))
    (hl : ∀ l ∈ done ++ [recent ++ items], Batch mts l) :
    Fresh (encode placeholder.mimetype :: mts.map encode) done recent rs items rs' where
  apart := hA
  ok l h := ⟨(hl l h).size, fun p hp => ⟨List.mem_cons_of_mem _ (List.mem_map.2 ⟨_, (hl l h).mimetypes p hp, rfl⟩), (hl l h).other p hp⟩⟩
  new := hnew

/-- **C87, partial.** Items and redirects are added to an archive without unsaved changes, none of them replacing an item, and
the archive may be flushed; but the program or the whole system stops before the flush writes the list of mimetypes and the
pointer lists. Of all the bytes written, any may have reached the disk and any may be wrong: opening the file shows exactly the
items that it showed before, and the redirects. -/
theorem C87_torn_partial (hr : 2 ≤ r) (hS : S.Good md5 (some r)) (h0 : CreatorHist S c0 done recent rs)
    (hd : c0.arch.isDirty = false) (h : AddedTo S c0 c items rs') (hA : Apart (rs ++ rs') (done ++ [recent ++ items]))
    (hnew : NothingReplaced items (done ++ [recent])) (hmts : mts.length < 65534)
    (hl : ∀ l ∈ done ++ [recent ++ items], Batch mts l) (hn : n ≤ 4)
    (hf : Torn c0.arch.zim.file (fun g => StateOfAdding S c0 c items rs' g ∨ StateOfFlush S c n g) f)
    (kind : ClusterKind) (calls follow : Nat) (titles : Zim → PyRes PointerList) :
    ∃ a, openArchive { S with kind := kind, calls := calls, follow := follow } titles false f = .ok a ∧
      ShowsItems S.X kind calls a.zim (current (done ++ [recent])) rs := by
  have hF := fresh_of hA hnew hl
  have hML : (encode placeholder.mimetype :: mts.map encode).length < 65535 := by rw [List.length_cons, List.length_map]; omega
  obtain ⟨Gb, G, rows, cs, extra, es, L, m0, R, hs⟩ := h0.saved hr hS hd hF hML List.mem_cons_self (fun l h => by
    rcases List.mem_append.1 h with h | h
    · exact (hl l (List.mem_append_left _ h)).urls
    · rw [List.mem_singleton] at h
      rw [h]
      exact (batch_left (hl (recent ++ items) (by simp))).urls)
  refine hs.shows hS hF hf ?_ kind calls follow titles
  rintro g (⟨c1, items1, items2, rs1, rs2, g1, -, rfl, rfl, rfl⟩ | ⟨m, c1, g1, g2, rfl⟩)
  · exact hs.added hS hML g1 g1.allValid hF.sub
  · exact hs.interrupted hS hML h h.allValid hF (Nat.le_trans g1 hn) g2

/-- **C87, in full.** The same wherever the flush ends, if the new archive may be shown as well. -/
def C87Full (D K : Type) : Prop := ∀ (S : Setup D K) (md5 : Bytes → Bytes) (r : Nat) (c c0 : Creator D)
  (done : List (List Sourced)) (recent items : List Sourced) (rs rs' : List Redirect) (mts : List String) (n : Nat) (f : Bytes),
  2 ≤ r → S.Good md5 (some r) → CreatorHist S c0 done recent rs → c0.arch.isDirty = false → AddedTo S c0 c items rs' →
  Apart (rs ++ rs') (done ++ [recent ++ items]) → NothingReplaced items (done ++ [recent]) → mts.length < 65534 →
  (∀ l ∈ done ++ [recent ++ items], Batch mts l) →
  Torn c0.arch.zim.file (fun g => StateOfAdding S c0 c items rs' g ∨ StateOfFlush S c n g) f →
  ∀ (kind : ClusterKind) (calls follow : Nat) (titles : Zim → PyRes PointerList),
    ∃ a, openArchive { S with kind := kind, calls := calls, follow := follow } titles false f = .ok a ∧
      (ShowsItems S.X kind calls a.zim (current (done ++ [recent])) rs ∨
        ShowsItems S.X kind calls a.zim (current (done ++ [recent ++ items])) (rs ++ rs'))

/-- a file each of whose bytes is from the old file or from some state since then -/
theorem torn_of_bytes {old : Bytes} {since : Bytes → Prop} (hlen : old.length ≤ f.length)
    (h : ∀ i, i < old.length → f[i]? = old[i]? ∨ ∃ g, since g ∧ f[i]? = g[i]?) : Torn old since f :=
  ⟨hlen, fun i hi hs => by
    rcases h i hi with h | ⟨g, hg, h⟩
    · exact h
    · exact h.trans (hs g hg)⟩

/-! ### Concrete archives -/

/-- the file if only each second byte has been written, and zeros instead of those behind the end -/
def halfWritten (old new : Bytes) : Bytes :=
  (List.range new.length).map fun i => if i % 2 = 0 then (old[i]?).getD 0 else if i < old.length then (new[i]?).getD 0 else 0

theorem halfWritten_torn {old new : Bytes} {since : Bytes → Prop} (h : old.length ≤ new.length) (hs : since new) :
    Torn old since (halfWritten old new) := by
  refine torn_of_bytes (by simpa [halfWritten] using h) fun i hi => ?_
  have h1 : (halfWritten old new)[i]? = some (if i % 2 = 0 then (old[i]?).getD 0 else (new[i]?).getD 0) := by
    unfold halfWritten
    rw [List.getElem?_map, List.getElem?_range (by omega), Option.map_some, if_pos hi]
  rw [h1]
  have h2 : new[i]? = some (new[i]'(by omega)) := List.getElem?_eq_getElem _
  have h3 : old[i]? = some (old[i]'hi) := List.getElem?_eq_getElem _
  by_cases he : i % 2 = 0
  · exact .inl (by rw [if_pos he, h3]; rfl)
  · exact .inr ⟨new, hs, by rw [if_neg he, h2]; rfl⟩

/-- Both half-written files are neither the old nor the new ones. -/
theorem halfWritten_runs : (demoG.arch.zim.file.length ≤ demoX.arch.zim.file.length ∧
    halfWritten demoG.arch.zim.file demoX.arch.zim.file ≠ demoG.arch.zim.file ∧
    halfWritten demoG.arch.zim.file demoX.arch.zim.file ≠ demoX.arch.zim.file) ∧
    (demoG.arch.zim.file.length ≤ (demoPart 4).arch.zim.file.length ∧
    halfWritten demoG.arch.zim.file (demoPart 4).arch.zim.file ≠ demoG.arch.zim.file ∧
    halfWritten demoG.arch.zim.file (demoPart 4).arch.zim.file ≠ (demoPart 4).arch.zim.file) ∧
    demoG.arch.zim.file.length ≤ (demoPart 6).arch.zim.file.length := by decide +kernel

/-- Half of what was written while the pages were added has reached the disk: the file shows the two items. -/
example (kind : ClusterKind) :
    ∃ a, openArchive { demoSetup with kind := kind, calls := 0, follow := 0 } (fun _ => .error .hang) false
      (halfWritten demoG.arch.zim.file demoX.arch.zim.file) = .ok a ∧
    ShowsItems Cluster.rawCodecs kind 0 a.zim [item "0" "text/html" [9], item "a" "text/html" [1, 2, 3]]
      [("Cr", "Ca", none), ("Cq", "Cr", some "Q")] :=
  C87_torn_partial (by omega) demoSetup_good demoG_hist demoG_clean demoX_added demoX_apart demoX_new
    (by decide) demoX_batches (Nat.zero_le 4) (halfWritten_torn halfWritten_runs.1.1
      (.inl ⟨demoX, _, [], _, [], demoX_added, .start, (List.append_nil _).symm, (List.append_nil _).symm, rfl⟩)) kind 0 0 _

/-- The same during a flush. -/
example (kind : ClusterKind) :
    ∃ a, openArchive { demoSetup with kind := kind, calls := 0, follow := 0 } (fun _ => .error .hang) false
      (halfWritten demoG.arch.zim.file (demoPart 4).arch.zim.file) = .ok a ∧
    ShowsItems Cluster.rawCodecs kind 0 a.zim [item "0" "text/html" [9], item "a" "text/html" [1, 2, 3]]
      [("Cr", "Ca", none), ("Cq", "Cr", some "Q")] :=
  C87_torn_partial (by omega) demoSetup_good demoG_hist demoG_clean demoX1_added demoX1_apart demoX1_new
    (by decide) demoX1_batches (Nat.le_refl 4) (halfWritten_torn halfWritten_runs.2.1.1
      (.inr ⟨4, _, Nat.le_refl 4, demoPart_eq 4 demoPart_runs.1, rfl⟩)) kind 0 0 _

/-- **C87, finding.** Later in the flush this does not hold, even if all that was written has reached the disk. -/
theorem C87_fails : ¬ C87Full Bytes Unit := by
  intro h
  obtain ⟨a, h1, -⟩ := h demoSetup toyHash 90 demoX1 demoG _ _ _ _ [] ["text/html"] 6 (demoPart 6).arch.zim.file (by omega)
    demoSetup_good demoG_hist demoG_clean demoX1_added demoX1_apart demoX1_new (by decide) demoX1_batches
    (torn_of_bytes halfWritten_runs.2.2 fun i _ =>
      .inr ⟨_, .inr ⟨6, _, Nat.le_refl 6, demoPart_eq 6 demoPart_runs.2.2.1, rfl⟩, rfl⟩)
    .remembering 64 4 (fun _ => .error .hang)
  have h2 := demoPart_runs.2.2.2.2.1
  rw [show openArchive demoSetup (fun _ => .error .hang) false (demoPart 6).arch.zim.file = .ok a from h1] at h2
  cases h2

end Creator
end Pyzim
