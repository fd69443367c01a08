import Verif.Lemmas.MainSaved
import Verif.Props.Redirecting
import Verif.Props.Close -- only so that the two are not built at the same time (memory)

/-!
# The main page of an archive that is being filled (C85)

What is meant by a main page is defined in `Verif/Spec/OperationBuffer.lean` (`ShowsMain`).
-/

namespace Pyzim
namespace Creator
open Zim (Redirect ShowsMain)
open Strategy (item)

variable {D K : Type} {S : Setup D K} {md5 : Bytes → Bytes} {r : Nat} {c c0 c1 c2 c3 : Creator D} {done : List (List Sourced)}
  {items more : List Sourced} {rs rs' : List Redirect} {mts : List String} {u : String}

/-- the entry by which the main page is found -/
def toMain (u : String) : Redirect := ("WmainPage", "C" ++ u, none)

/-- **C85, in full.** If the main page is set to the url of an item that is in the archive or gets added to it, opening the
flushed file shows it as the main page. -/
def C85Full (D K : Type) : Prop := ∀ (S : Setup D K) (md5 : Bytes → Bytes) (r : Nat) (c0 c1 c2 c3 : Creator D)
  (done : List (List Sourced)) (items more : List Sourced) (rs rs' : List Redirect) (mts : List String) (u : String), 2 ≤ r →
  S.Good md5 (some r) → 2 ≤ S.depth → CreatorHist S c0 done items rs → setMainpage S (some u) c0 = (.ok (), c1) →
  AddedTo S c1 c2 more rs' → flush S c2 = (.ok (), c3) → Apart (rs ++ [toMain u] ++ rs') (done ++ [items ++ more]) →
  mts.length < 65534 → (∀ l ∈ done ++ [items ++ more], Batch mts l) →
  (∃ p ∈ (done ++ [items ++ more]).flatten, p.1.fullUrl = "C" ++ u) →
  (∀ x ∈ rs ++ [toMain u] ++ rs', timesAdded (done ++ [items ++ more]) x.2.1 ≤ 1 ∧ encode x.2.1 < encode "WmainPage") →
  ∀ (kind : ClusterKind) (calls follow : Nat) (titles : Zim → PyRes PointerList),
    ∃ a, openArchive { S with kind := kind, calls := calls, follow := follow } titles false c3.arch.zim.file = .ok a ∧
      ShowsMain a.zim (some u)

/-- what is seen in the file of an archive whose main page was saved -/
theorem saved_shows {Gb : List (List (List Sourced))} {ML : List Bytes} (hS : S.Good md5 (some r)) (h : Saved S ML (some r) u c.arch Gb items rs)
    (h1 : List.Forall₂ (fun G l => G.flatten.Perm l) Gb done) (hA : Apart rs (done ++ [items])) (hv : ∀ x ∈ rs, x.Valid)
    (ho : ∀ l ∈ done ++ [items], ∀ p ∈ l, p.1.fullUrl ≠ URL_ARTICLES) (hone : ∀ x ∈ rs, timesAdded (done ++ [items]) x.2.1 ≤ 1)
    (hl : ∀ l ∈ done ++ [items], (l.map fun p => p.1.fullUrl).Nodup) (kind : ClusterKind) (calls follow : Nat)
    (titles : Zim → PyRes PointerList) :
    ∃ a, openArchive { S with kind := kind, calls := calls, follow := follow } titles false c.arch.zim.file = .ok a ∧
      ShowsMain a.zim (some u) ∧ ShowsItems S.X kind calls a.zim (current (done ++ [items])) rs ∧
      ∀ x ∈ rs, RedirectWorks a.zim x := by
  obtain ⟨hd, ⟨G, rows, cs, extra, es, L, m0, R, hc, hG, hR⟩, hm⟩ := h
  refine ⟨_, hc.opens (S := { S with kind := kind, calls := calls, follow := follow }) hS.passthrough hd titles false, hm, ?_, fun x hx =>
    redirects_work_core hc hG hR h1 (hA.separate hv h1) ho x hx (hone x hx)⟩
  refine hc.shows hd ?_ hR hA.nodup (fun r hr => hc.apart (hA.separate hv h1) (fun p hp => hG.subset hp) hr) kind calls
  have := current_perm (List.rel_append h1 (.cons hG .nil)) hl
  rw [List.flatten_append] at this
  simpa [present] using this

/-- **C85, partial.** If the main page is set to a page that is not in the archive yet (it may wait in a compression
strategy, or be added later), then after the next flush everybody who opens the file finds that page as the main page, and
all items and redirects besides, each of which leads to its target. Not more than one item may have been added with the url of the page, or with that of the
target of a redirect, and the targets come before "WmainPage". -/
theorem C85_waiting_partial (hr : 2 ≤ r) (hS : S.Good md5 (some r)) (hdep : 2 ≤ S.depth) (h0 : CreatorHist S c0 done items rs)
    (hno : c0.arch.zim.hasEntry ("C" ++ u) = .ok false) (hset : setMainpage S (some u) c0 = (.ok (), c1))
    (hadd : AddedTo S c1 c2 more rs') (hd : c2.arch.isDirty = true) (hfl : flush S c2 = (.ok (), c3))
    (hA : Apart (rs ++ [toMain u] ++ rs') (done ++ [items ++ more])) (hmts : mts.length < 65534)
    (hl : ∀ l ∈ done ++ [items ++ more], Batch mts l)
    (hone : ∀ x ∈ rs ++ [toMain u] ++ rs', timesAdded (done ++ [items ++ more]) x.2.1 ≤ 1 ∧ encode x.2.1 < encode "WmainPage")
    (kind : ClusterKind) (calls follow : Nat) (titles : Zim → PyRes PointerList) :
    c3.arch.isDirty = false ∧
    ∃ a, openArchive { S with kind := kind, calls := calls, follow := follow } titles false c3.arch.zim.file = .ok a ∧
      ShowsMain a.zim (some u) ∧ ShowsItems S.X kind calls a.zim (current (done ++ [items ++ more])) (rs ++ [toMain u] ++ rs') ∧
      ∀ x ∈ rs ++ [toMain u] ++ rs', RedirectWorks a.zim x := by
  have hsub : ∀ x ∈ done ++ [items], ∀ q ∈ x, ∃ y ∈ done ++ [items ++ more], q ∈ y := by
    intro x hx q hq
    rcases List.mem_append.1 hx with hx | hx
    · exact ⟨x, List.mem_append_left _ hx, hq⟩
    · rw [List.mem_singleton] at hx
      exact ⟨_, List.mem_append_right _ (List.mem_singleton.2 rfl), List.mem_append_left _ (hx ▸ hq)⟩
  have hML : (encode placeholder.mimetype :: mts.map encode).length < 65535 := by
    rw [List.length_cons, List.length_map]; omega
  have hl0 : ∀ l ∈ done ++ [items], (l.map urlOf).Nodup ∧ NotHuge l ∧
      ∀ p ∈ l, encode p.1.mimetype ∈ encode placeholder.mimetype :: mts.map encode ∧ p.1.fullUrl ≠ URL_ARTICLES := by
    intro l hl'
    rcases List.mem_append.1 hl' with hl' | hl'
    · have hb := hl l (List.mem_append_left _ hl')
      exact ⟨hb.urls, hb.size, fun p hp => ⟨List.mem_cons_of_mem _ (List.mem_map.2 ⟨_, hb.mimetypes p hp, rfl⟩), hb.other p hp⟩⟩
    · rw [List.mem_singleton] at hl'
      subst hl'
      have hb := hl (l ++ more) (by simp)
      have hsl : l.Sublist (l ++ more) := List.sublist_append_left _ _
      exact ⟨hb.urls.sublist (hsl.map _), hb.size.sublist hsl, fun p hp =>
        ⟨List.mem_cons_of_mem _ (List.mem_map.2 ⟨_, hb.mimetypes p (hsl.subset hp), rfl⟩), hb.other p (hsl.subset hp)⟩⟩
  have hA0 : Apart rs (done ++ [items]) := hA.sub (by rw [List.append_assoc]; exact List.sublist_append_left _ _) hsub
  have hA1 : Apart (rs ++ [toMain u]) (done ++ [items]) := hA.sub (List.sublist_append_left _ _) hsub
  obtain ⟨Gb, h1, G, P1, P2, hat⟩ := h0.has hr hS hA0 hML List.mem_cons_self hl0
  have hv1 : ∀ x ∈ rs ++ [toMain u], x.Valid := by
    intro x hx
    rcases List.mem_append.1 hx with hx | hx
    · exact h0.valid x hx
    · rw [List.mem_singleton] at hx
      rw [hx]
      exact mainRedirect_valid u
  have hv : ∀ x ∈ rs ++ [toMain u] ++ rs', x.Valid := by
    intro x hx
    rcases List.mem_append.1 hx with hx | hx
    · exact hv1 x hx
    · exact hadd.valid x hx
  have hat1 := hat.setMain hdep (hA1.separate hv1 h1) hno hset
  obtain ⟨rows, cs, extra, es, L, m0, R, B, hc1, hB1⟩ := hat1.core
  have hb := hl (items ++ more) (by simp)
  have hsep := hA.separate hv h1
  obtain ⟨Gn, P1', P2', -, -, -, -, -, -, k1, -⟩ := hadd.onward hS hat1 hc1 hB1 hML hb.size
    (fun p hp => ⟨List.mem_cons_of_mem _ (List.mem_map.2 ⟨_, hb.mimetypes p hp, rfl⟩), hb.other p hp⟩) hsep
  have hsv := k1.flushMain hS hdep hb.size h1 hsep
    (List.mem_append_left _ (List.mem_append_right _ (List.mem_singleton.2 rfl))) (fun l h => (hl l h).other) hone hd hfl
  exact ⟨hsv.clean, saved_shows hS hsv h1 hA hv
    (fun l h => (hl l h).other) (fun x hx => (hone x hx).1) (fun l h => (hl l h).urls) kind calls follow titles⟩

/-- **C85, partial.** If the main page of an archive without unsaved changes is set to a page of it, and the archive is
flushed, then everybody who opens the file finds that page as the main page, and all items and redirects besides, except for
what was the main page before; each redirect leads to its target. -/
theorem C85_existing_partial (hr : 2 ≤ r) (hS : S.Good md5 (some r)) (hdep : 2 ≤ S.depth) (h0 : CreatorHist S c0 done items rs)
    (hd : c0.arch.isDirty = false) (hyes : c0.arch.zim.hasEntry ("C" ++ u) = .ok true)
    (hset : setMainpage S (some u) c0 = (.ok (), c1)) (hfl : flush S c1 = (.ok (), c2))
    (hA0 : Apart rs (done ++ [items])) (hA : Apart (rs.filter (·.1 ≠ "WmainPage") ++ [toMain u]) (done ++ [items]))
    (hmts : mts.length < 65534) (hl : ∀ l ∈ done ++ [items], Batch mts l)
    (hone : ∀ x ∈ rs ++ [toMain u], timesAdded (done ++ [items]) x.2.1 ≤ 1 ∧ encode x.2.1 < encode "WmainPage")
    (kind : ClusterKind) (calls follow : Nat) (titles : Zim → PyRes PointerList) :
    ∃ a, openArchive { S with kind := kind, calls := calls, follow := follow } titles false c2.arch.zim.file = .ok a ∧
      ShowsMain a.zim (some u) ∧
      ShowsItems S.X kind calls a.zim (current (done ++ [items])) (rs.filter (·.1 ≠ "WmainPage") ++ [toMain u]) ∧
      ∀ x ∈ rs.filter (·.1 ≠ "WmainPage") ++ [toMain u], RedirectWorks a.zim x := by
  obtain ⟨Gb, h1, G, P1, P2, hat⟩ := h0.has hr hS hA0 (ML := encode placeholder.mimetype :: mts.map encode)
    (by rw [List.length_cons, List.length_map]; omega) List.mem_cons_self fun l h =>
      ⟨(hl l h).urls, (hl l h).size, fun p hp => ⟨List.mem_cons_of_mem _ (List.mem_map.2 ⟨_, (hl l h).mimetypes p hp, rfl⟩), (hl l h).other p hp⟩⟩
  have hv : ∀ x ∈ rs.filter (·.1 ≠ "WmainPage") ++ [toMain u], x.Valid := by
    intro x hx
    rcases List.mem_append.1 hx with hx | hx
    · exact h0.valid x (List.mem_of_mem_filter hx)
    · rw [List.mem_singleton] at hx
      rw [hx]
      exact mainRedirect_valid u
  exact saved_shows hS (hat.setMainNow hS hdep h1 (hA.separate hv h1) (hA0.separate h0.valid h1) (fun l h => (hl l h).other) hone hd hyes
    hset hfl) h1 hA hv (fun l h => (hl l h).other) (fun x hx => (hone x (by
      rcases List.mem_append.1 hx with hx | hx
      · exact List.mem_append_left _ (List.mem_of_mem_filter hx)
      · exact List.mem_append_right _ hx)).1) (fun l h => (hl l h).urls) kind calls follow titles

/-! ### Concrete archives -/

/-- the main page is set while the page waits to be written, … -/
def demoMp1 : Creator Bytes := step (setMainpage demoSetup (some "a")) demoG2
/-- another page and a redirect are added, … -/
def demoMp2 : Creator Bytes := step (add (item "b" "text/html" [4]) false) demoMp1
def demoMp3 : Creator Bytes := step (addRed ("Cr", "Ca", none)) demoMp2
/-- and the archive is flushed. -/
def demoMp : Creator Bytes := step (flush demoSetup) demoMp3

/-- the main page is set to a page that was written before, … -/
def demoN1 : Creator Bytes := step (setMainpage demoSetup (some "a")) demoG
/-- and the archive is flushed. -/
def demoN : Creator Bytes := step (flush demoSetup) demoN1

/-- a page is added, which waits to be written, … -/
def demoO0 : Creator Bytes := step (add (item "z" "text/html" [4]) false) demoG
/-- the main page is set to another page, that was written before, … -/
def demoO1 : Creator Bytes := step (setMainpage demoSetup (some "a")) demoO0
/-- and the archive is flushed. -/
def demoO : Creator Bytes := step (flush demoSetup) demoO1

/-- the url of the main page -/
def mainUrl (z : Zim) : PyRes String := z.mainpageEntry.map Entry.fullUrl

/-- All of this succeeds. -/
theorem demoMp_runs : demoG2.arch.zim.hasEntry ("C" ++ "a") = .ok false ∧ (setMainpage demoSetup (some "a") demoG2).1 = .ok () ∧
    (add (item "b" "text/html" [4]) false demoMp1).1 = .ok () ∧ (addRed ("Cr", "Ca", none) demoMp2).1 = .ok () ∧
    demoMp3.arch.isDirty = true ∧ (flush demoSetup demoMp3).1 = .ok () := by decide +kernel
theorem demoNO_runs : demoG.arch.zim.hasEntry ("C" ++ "a") = .ok true ∧ (setMainpage demoSetup (some "a") demoG).1 = .ok () ∧
    (flush demoSetup demoN1).1 = .ok () ∧ (add (item "z" "text/html" [4]) false demoG).1 = .ok () ∧
    (setMainpage demoSetup (some "a") demoO0).1 = .ok () ∧ (flush demoSetup demoO1).1 = .ok () ∧
    (openArchive { demoSetup with kind := .remembering, calls := 0, follow := 0 } (fun _ => .error .hang) false
      demoO.arch.zim.file).map (fun a => mainUrl a.zim) = .ok (.ok "Cz") := by decide +kernel

theorem demoMp1_eq : setMainpage demoSetup (some "a") demoG2 = (.ok (), demoMp1) :=
  step_eq (g := setMainpage demoSetup (some "a")) demoMp_runs.2.1
theorem demoMp2_eq : addItem demoSetup (item "b" "text/html" [4]).1 false demoMp1 = (.ok (), demoMp2) :=
  step_eq (g := add (item "b" "text/html" [4]) false) demoMp_runs.2.2.1
theorem demoMp3_eq : addFullUrlRedirect demoSetup "Cr" "Ca" none demoMp2 = (.ok (), demoMp3) :=
  step_eq (g := addRed ("Cr", "Ca", none)) demoMp_runs.2.2.2.1
theorem demoMp_eq : flush demoSetup demoMp3 = (.ok (), demoMp) := step_eq (g := flush demoSetup) demoMp_runs.2.2.2.2.2
theorem demoN1_eq : setMainpage demoSetup (some "a") demoG = (.ok (), demoN1) :=
  step_eq (g := setMainpage demoSetup (some "a")) demoNO_runs.2.1
theorem demoN_eq : flush demoSetup demoN1 = (.ok (), demoN) := step_eq (g := flush demoSetup) demoNO_runs.2.2.1
theorem demoO0_eq : addItem demoSetup (item "z" "text/html" [4]).1 false demoG = (.ok (), demoO0) :=
  step_eq (g := add (item "z" "text/html" [4]) false) demoNO_runs.2.2.2.1
theorem demoO1_eq : setMainpage demoSetup (some "a") demoO0 = (.ok (), demoO1) :=
  step_eq (g := setMainpage demoSetup (some "a")) demoNO_runs.2.2.2.2.1
theorem demoO_eq : flush demoSetup demoO1 = (.ok (), demoO) := step_eq (g := flush demoSetup) demoNO_runs.2.2.2.2.2.1

theorem demoG2_hist : CreatorHist demoSetup demoG2 [] [item "0" "text/html" [9], item "a" "text/html" [1, 2, 3]] [] := by
  have h1 := CreatorHist.add demoA_hist (item_admissible "0" "text/html" [9] (by decide +kernel) (by decide +kernel)) demoG1_eq
  exact CreatorHist.add h1 (item_admissible "a" "text/html" [1, 2, 3] (by decide +kernel) (by decide +kernel)) demoG2_eq

theorem demoMp3_added : AddedTo demoSetup demoMp1 demoMp3 [item "b" "text/html" [4]] [("Cr", "Ca", none)] :=
  AddedTo.redirect (r := ("Cr", "Ca", none)) (AddedTo.add AddedTo.start
    (item_admissible "b" "text/html" [4] (by decide +kernel) (by decide +kernel)) demoMp2_eq) valid_Cr demoMp3_eq demoMp_runs.2.2.2.2.1

example (kind : ClusterKind) : demoMp.arch.isDirty = false ∧
    ∃ a, openArchive { demoSetup with kind := kind, calls := 0, follow := 0 }
      (fun _ => .error .hang) false demoMp.arch.zim.file = .ok a ∧ ShowsMain a.zim (some "a") ∧
      ShowsItems demoSetup.X kind 0 a.zim (current ([] ++ [[item "0" "text/html" [9], item "a" "text/html" [1, 2, 3]] ++
        [item "b" "text/html" [4]]])) ([] ++ [toMain "a"] ++ [("Cr", "Ca", none)]) ∧
      ∀ x ∈ [] ++ [toMain "a"] ++ [("Cr", "Ca", none)], RedirectWorks a.zim x := by
  refine C85_waiting_partial (by omega) demoSetup_good (by decide) demoG2_hist demoMp_runs.1 demoMp1_eq demoMp3_added
    demoMp_runs.2.2.2.2.1 demoMp_eq ⟨by decide +kernel, by decide +kernel, by decide +kernel⟩ (mts := ["text/html"]) (by decide) ?_ ?_
    kind 0 0 _
  · intro l hl
    simp only [List.nil_append, List.mem_singleton] at hl
    rw [hl]
    exact ⟨by decide +kernel, by decide +kernel, by decide +kernel, by unfold NotHuge; decide⟩
  · intro x hx
    simp only [List.nil_append, List.mem_append, List.mem_singleton] at hx
    rcases hx with rfl | rfl <;> exact ⟨by decide +kernel, by decide +kernel⟩

example (kind : ClusterKind) : ∃ a, openArchive { demoSetup with kind := kind, calls := 0, follow := 0 }
      (fun _ => .error .hang) false demoN.arch.zim.file = .ok a ∧ ShowsMain a.zim (some "a") := by
  obtain ⟨a, h1, h2, -⟩ := C85_existing_partial (by omega) demoSetup_good (by decide) demoG_hist demoG_clean demoNO_runs.1 demoN1_eq
    demoN_eq demoG_apart ⟨by decide +kernel, by decide +kernel, by decide +kernel⟩ (by decide) demoG_batches (by
      intro x hx
      simp only [List.cons_append, List.nil_append, List.mem_cons, List.not_mem_nil, or_false] at hx
      rcases hx with rfl | rfl | rfl <;> exact ⟨by decide +kernel, by decide +kernel⟩) kind 0 0 (fun _ => .error .hang)
  exact ⟨a, h1, h2⟩

theorem demoO0_hist : CreatorHist demoSetup demoO0 [[item "0" "text/html" [9], item "a" "text/html" [1, 2, 3]]]
    [item "z" "text/html" [4]] [("Cr", "Ca", none), ("Cq", "Cr", some "Q")] :=
  CreatorHist.add demoG_hist (item_admissible "z" "text/html" [4] (by decide +kernel) (by decide +kernel)) demoO0_eq

/-- **C85, finding.** The claim is false in full: if an item waits to be written while the main page is set to a page that is
in the archive already, the flush may make the item the main page. -/
theorem C85_full_fails : ¬ C85Full Bytes Unit := by
  intro h
  obtain ⟨a, h1, ⟨e, h2, h3⟩, -⟩ := h demoSetup Zim.toyHash 90 demoO0 demoO1 demoO1 demoO _ _ [] _ [] ["text/html"] "a" (by omega)
    demoSetup_good (by decide) demoO0_hist demoO1_eq .start demoO_eq ⟨by decide +kernel, by decide +kernel, by decide +kernel⟩
    (by decide) (by
      intro l hl
      simp only [List.cons_append, List.nil_append, List.append_nil, List.mem_cons, List.not_mem_nil, or_false] at hl
      rcases hl with rfl | rfl <;>
        exact ⟨by decide +kernel, by decide +kernel, by decide +kernel, by unfold NotHuge; decide⟩)
    ⟨item "a" "text/html" [1, 2, 3], by simp, by decide +kernel⟩ (by
      intro x hx
      simp only [List.cons_append, List.nil_append, List.append_nil, List.mem_cons, List.not_mem_nil, or_false] at hx
      rcases hx with rfl | rfl | rfl <;> exact ⟨by decide +kernel, by decide +kernel⟩) .remembering 0 0 (fun _ => .error .hang)
  have h4 := demoNO_runs.2.2.2.2.2.2
  rw [h1] at h4
  injection h4 with h4
  unfold mainUrl at h4
  beta_reduce at h4
  rw [h2] at h4
  injection h4 with h4
  rw [h3] at h4
  exact absurd h4 (by decide)

end Creator
end Pyzim
