import Verif.Lemmas.Refused
import Verif.Props.Total

/-!
# Flushes that are refused
-/

namespace Pyzim
namespace Creator
open Zim (Redirect)

variable {D K : Type} {S : Setup D K} {md5 : Bytes → Bytes} {r : Nat} {c0 c c' : Creator D} {done : List (List Sourced)}
  {recent items : List Sourced} {rs0 rs : List Redirect} {mts : List String}

/-- the redirects lead to items, in one or more steps -/
def AllReach (rs : List Redirect) (items : List Sourced) : Prop :=
  ∀ q ∈ rs, Reaches rs (fun u => ∃ p ∈ items, p.1.fullUrl = u) q.2.1

/-- **C98, in full.** Redirects and an item are added. If flushing the archive raises an error, and flushing it once more
succeeds, then the redirects are found by whoever opens the file. -/
def C98Full (D K : Type) : Prop := ∀ (S : Setup D K) (md5 : Bytes → Bytes) (r : Nat) (c c1 c2 c3 c4 c5 : Creator D)
  (q1 q2 : Redirect) (p : Sourced) (force : Bool) (x : PyErr), 2 ≤ r → S.Good md5 (some r) → 2 ≤ S.depth → 3 ≤ S.passes →
  CreatorHist S c [] [] [] → Item.Admissible p → q1.1 ≠ q2.1 → q1.1 ≠ p.1.fullUrl → q2.1 ≠ p.1.fullUrl →
  addFullUrlRedirect S q1.1 q1.2.1 q1.2.2 c = (.ok (), c1) → addFullUrlRedirect S q2.1 q2.2.1 q2.2.2 c1 = (.ok (), c2) →
  addItem S p.1 force c2 = (.ok (), c3) → flush S c3 = (.error x, c4) → flush S c4 = (.ok (), c5) →
  ∀ (kind : ClusterKind) (calls follow : Nat) (titles : Zim → PyRes PointerList),
    ∃ a, openArchive { S with kind := kind, calls := calls, follow := follow } titles false c5.arch.zim.file = .ok a ∧
      (∃ e, a.zim.entryByFullUrl q1.1 = .ok e) ∧ ∃ e, a.zim.entryByFullUrl q2.1 = .ok e

/-- **C98.** Whatever is added, within the limits, and however many flushes were refused before: if a flush raises an error
before the file is as long as the largest offset that can be stored, then the error is `UnresolvedRedirect`, and one of the
redirects does not lead to an item. -/
theorem C98_error (hr : 2 ≤ r) (hS : S.Good md5 (some r)) (hd : 2 ≤ S.depth) (h0 : CreatorHist S c0 done recent rs0)
    (h : Retried S c0 c items rs) (hw : InLimits r mts (done ++ [recent ++ items]) (rs0 ++ rs))
    (hps : (rs0 ++ rs).length + 1 ≤ S.passes) {x : PyErr} (hok : flush S c = (.error x, c'))
    (hlen : c'.arch.zim.file.length < 2 ^ 64) (hdt : c'.arch.isDirty = true) :
    x = .unresolvedRedirect ∧ ¬ AllReach (rs0 ++ rs) (done ++ [recent ++ items]).flatten := by
  obtain ⟨⟨Gb, h1, h2⟩, h3, h4⟩ := h.has hr hS hd h0 hw hps
  have hsep := hw.apart.separate (append_valid h0.valid h.valid) h1
  have hh := (hw.fine.lists (recent ++ items) (by simp)).2.1
  refine ⟨(h2.refused hr hS hd hps hh hsep h3 h4 hw.mimes (hw.fits (all_perm h1 _)) hok hlen hdt).1, fun ha => ?_⟩
  rcases h2.flush_total hr hS hd hps hh hsep h3 h4 hw.mimes (hw.fits (all_perm h1 _)) fun q hq =>
    Reaches.imp (ha q hq) fun u ⟨p, hp, e⟩ => ⟨p, (all_perm h1 _).symm.subset hp, e⟩ with ⟨_, e⟩ | e
  · rw [hok] at e
    cases e
  · rw [hok] at e
    exact absurd hlen (Nat.not_lt.2 e)

/-- **C98.** However many flushes were refused: once each redirect leads to an item, flushing succeeds, unless what is written
is as long as the largest offset that can be stored. -/
theorem C98_again (hr : 2 ≤ r) (hS : S.Good md5 (some r)) (hd : 2 ≤ S.depth) (h0 : CreatorHist S c0 done recent rs0)
    (h : Retried S c0 c items rs) (hw : InLimits r mts (done ++ [recent ++ items]) (rs0 ++ rs))
    (hps : (rs0 ++ rs).length + 1 ≤ S.passes) (ha : AllReach (rs0 ++ rs) (done ++ [recent ++ items]).flatten) :
    (∃ c', flush S c = (.ok (), c')) ∨ 2 ^ 64 ≤ (flush S c).2.arch.zim.file.length := by
  obtain ⟨⟨Gb, h1, h2⟩, h3, h4⟩ := h.has hr hS hd h0 hw hps
  exact h2.flush_total hr hS hd hps (hw.fine.lists (recent ++ items) (by simp)).2.1
    (hw.apart.separate (append_valid h0.valid h.valid) h1) h3 h4 hw.mimes (hw.fits (all_perm h1 _)) fun q hq =>
    Reaches.imp (ha q hq) fun u ⟨p, hp, e⟩ => ⟨p, (all_perm h1 _).symm.subset hp, e⟩

/-- **C98, partial.** However many flushes were refused: once a flush succeeds there are no unsaved changes, and everybody who
opens the file finds exactly the items, with their values and contents, and the redirects, each of which leads to its target,
whether they were added before or after the flushes that were refused. -/
theorem C98_kept_partial (hr : 2 ≤ r) (hS : S.Good md5 (some r)) (hd : 2 ≤ S.depth) (h0 : CreatorHist S c0 done recent rs0)
    (h : Retried S c0 c items rs) (hw : InLimits r mts (done ++ [recent ++ items]) (rs0 ++ rs))
    (hps : (rs0 ++ rs).length + 1 ≤ S.passes) (hok : flush S c = (.ok (), c'))
    (kind : ClusterKind) (calls follow : Nat) (titles : Zim → PyRes PointerList) :
    c'.arch.isDirty = false ∧
    ∃ a, openArchive { S with kind := kind, calls := calls, follow := follow } titles false c'.arch.zim.file = .ok a ∧
      ShowsItems S.X kind calls a.zim (done ++ [recent ++ items]).flatten (rs0 ++ rs) ∧
      ∀ x ∈ rs0 ++ rs, RedirectWorks a.zim x := by
  obtain ⟨⟨Gb, h1, h2⟩, h3, h4⟩ := h.has hr hS hd h0 hw hps
  have hl := hw.fine.lists (recent ++ items) (by simp)
  have hv := append_valid h0.valid h.valid
  obtain ⟨⟨G, k1, k2⟩, hc⟩ := h2.flush hS hl.2.1 (fun q hq => (hl.2.2 q hq).2) (hw.apart.separate hv h1) hok
  refine ⟨hc, ?_⟩
  have g1 : List.Forall₂ (fun G l => G.flatten.Perm l) (Gb ++ [G]) (done ++ [recent ++ items]) := List.rel_append h1 (.cons k1 .nil)
  have hA : Apart (rs0 ++ rs) (done ++ [recent ++ items] ++ [[]]) := hw.apart.sub (List.Sublist.refl _) fun x hx p hp => by
    rcases List.mem_append.1 hx with hx | hx
    · exact ⟨x, hx, hp⟩
    · rw [List.mem_singleton] at hx; subst hx; cases hp
  have hall : ∀ l ∈ done ++ [recent ++ items] ++ [[]], (l.map urlOf).Nodup ∧ ∀ p ∈ l, p.1.fullUrl ≠ URL_ARTICLES := fun l hm => by
    rcases List.mem_append.1 hm with hm | hm
    · exact ⟨(hw.fine.lists l hm).1, fun p hp => ((hw.fine.lists l hm).2.2 p hp).2⟩
    · rw [List.mem_singleton] at hm; subst hm; exact ⟨List.nodup_nil, by simp⟩
  rw [show Gb.flatten ++ G = (Gb ++ [G]).flatten by simp] at k2
  obtain ⟨G', P1, P2, ⟨rows, cs, extra, es, L, m0, R, B, hcore, hB⟩, -, -, -, -, hperm, hcl⟩ := k2
  obtain ⟨rfl, rfl, hb⟩ := hcl hc
  replace hb := hb rfl
  obtain rfl : B = [] := hcore.redirects.symm.trans hb
  rw [List.append_nil] at hB
  refine ⟨_, hcore.opens (S := { S with kind := kind, calls := calls, follow := follow }) hS.passthrough hc titles false, ?_, ?_⟩
  · have hcur := current_perm (List.rel_append g1 (.cons (show G'.flatten.Perm [] by simpa using hperm) .nil)) fun l hm => (hall l hm).1
    have hu : ((done ++ [recent ++ items] ++ [[]]).flatten.map fun p : Sourced => p.1.fullUrl).Nodup := by
      rw [List.flatten_append]
      simpa using hw.urls
    rw [current_flatten _ hu, List.flatten_append, List.flatten_append] at hcur
    refine hcore.shows hc ?_ hB hA.nodup (fun r hr => hcore.apart (hA.separate hv g1) (fun p hp => hperm.subset (by simpa using hp)) hr)
      kind calls
    simpa [present] using hcur
  · intro x hx
    exact redirects_work_core hcore (by simpa using hperm) hB g1 (hA.separate hv g1) (fun l hm => (hall l hm).2) x hx (by
      unfold timesAdded
      rw [List.flatten_append]
      simpa using List.nodup_iff_count_le_one.1 hw.urls x.2.1)

/-- **C98.** However many flushes of an archive that had no unsaved changes were refused: everybody who opens the file finds
exactly the items and redirects that were saved, with their values and contents. -/
theorem C98_file (hr : 2 ≤ r) (hS : S.Good md5 (some r)) (hd : 2 ≤ S.depth) (h0 : CreatorHist S c0 done recent rs0)
    (hcl : c0.arch.isDirty = false) (h : Retried S c0 c items rs)
    (hw : InLimits r mts (done ++ [recent ++ items]) (rs0 ++ rs)) (hps : (rs0 ++ rs).length + 1 ≤ S.passes)
    (kind : ClusterKind) (calls follow : Nat) (titles : Zim → PyRes PointerList) :
    ∃ a, openArchive { S with kind := kind, calls := calls, follow := follow } titles false c.arch.zim.file = .ok a ∧
      ShowsItems S.X kind calls a.zim (done ++ [recent]).flatten rs0 := by
  rw [← current_flatten (done ++ [recent])]
  · exact h.shows hr hS hd h0 hcl hw hps kind calls follow titles
  · refine hw.urls.sublist (List.Sublist.map _ ?_)
    rw [List.flatten_append, List.flatten_append]
    exact List.Sublist.append_left (by simp) _

/-! ### A concrete archive -/

open Strategy (item)

/-- a new archive with a page, … -/
def demoR1 : Creator Bytes := demoG1
/-- a redirect to a page which is not there yet, … -/
def demoR2 : Creator Bytes := step (addRed ("Cr", "Ca", none)) demoR1
/-- a redirect to the redirect, … -/
def demoR3 : Creator Bytes := step (addRed ("Cq", "Cr", some "Q")) demoR2
/-- whose flush is refused, … -/
def demoR4 : Creator Bytes := step (flush demoSetup) demoR3
/-- twice, … -/
def demoR5 : Creator Bytes := step (flush demoSetup) demoR4
/-- with the missing page, … -/
def demoR6 : Creator Bytes := step (add (item "a" "text/html" [1, 2, 3]) false) demoR5
/-- flushed. -/
def demoR : Creator Bytes := step (flush demoSetup) demoR6

theorem demoR_runs : (addRed ("Cr", "Ca", none) demoR1).1 = .ok () ∧ demoR2.arch.isDirty = true ∧
    (addRed ("Cq", "Cr", some "Q") demoR2).1 = .ok () ∧ demoR3.arch.isDirty = true ∧
    (flush demoSetup demoR3).1 = .error .unresolvedRedirect ∧ demoR4.arch.zim.file.length < 2 ^ 64 ∧ demoR4.arch.isDirty = true ∧
    (flush demoSetup demoR4).1 = .error .unresolvedRedirect ∧ demoR5.arch.zim.file.length < 2 ^ 64 ∧ demoR5.arch.isDirty = true ∧
    (add (item "a" "text/html" [1, 2, 3]) false demoR5).1 = .ok () ∧ (flush demoSetup demoR6).1 = .ok () := by
  decide +kernel

theorem step_raises {g : PyM (Creator Bytes) Unit} {c : Creator Bytes} {x : PyErr} (h : (g c).1 = .error x) :
    g c = (.error x, step g c) := Prod.ext h rfl

theorem demoR3_retried : Retried demoSetup demoA demoR3 [item "0" "text/html" [9]] [("Cr", "Ca", none), ("Cq", "Cr", some "Q")] :=
  .redirect (.redirect (.add .start (item_admissible "0" "text/html" [9] (by decide +kernel) (by decide +kernel)) demoG1_eq)
    (r := ("Cr", "Ca", none)) valid_Cr (step_eq (g := addRed ("Cr", "Ca", none)) demoR_runs.1) demoR_runs.2.1)
    (r := ("Cq", "Cr", some "Q")) valid_Cq (step_eq (g := addRed ("Cq", "Cr", some "Q")) demoR_runs.2.2.1) demoR_runs.2.2.2.1

theorem demoR4_eq : flush demoSetup demoR3 = (.error .unresolvedRedirect, demoR4) :=
  step_raises (g := flush demoSetup) demoR_runs.2.2.2.2.1

theorem demoR5_eq : flush demoSetup demoR4 = (.error .unresolvedRedirect, demoR5) :=
  step_raises (g := flush demoSetup) demoR_runs.2.2.2.2.2.2.2.1

theorem demoR6_eq : addItem demoSetup (item "a" "text/html" [1, 2, 3]).1 false demoR5 = (.ok (), demoR6) :=
  step_eq (g := add (item "a" "text/html" [1, 2, 3]) false) demoR_runs.2.2.2.2.2.2.2.2.2.2.1

theorem demoR_eq : flush demoSetup demoR6 = (.ok (), demoR) :=
  step_eq (g := flush demoSetup) demoR_runs.2.2.2.2.2.2.2.2.2.2.2

theorem demoR4_retried : Retried demoSetup demoA demoR4 [item "0" "text/html" [9]] [("Cr", "Ca", none), ("Cq", "Cr", some "Q")] :=
  .refused demoR3_retried demoR4_eq demoR_runs.2.2.2.2.2.1 demoR_runs.2.2.2.2.2.2.1

theorem demoR5_retried : Retried demoSetup demoA demoR5 [item "0" "text/html" [9]] [("Cr", "Ca", none), ("Cq", "Cr", some "Q")] :=
  .refused demoR4_retried demoR5_eq demoR_runs.2.2.2.2.2.2.2.2.1 demoR_runs.2.2.2.2.2.2.2.2.2.1

theorem demoR6_retried : Retried demoSetup demoA demoR6 ([item "0" "text/html" [9]] ++ [item "a" "text/html" [1, 2, 3]])
    [("Cr", "Ca", none), ("Cq", "Cr", some "Q")] :=
  .add (p := item "a" "text/html" [1, 2, 3]) demoR5_retried
    (item_admissible "a" "text/html" [1, 2, 3] (by decide +kernel) (by decide +kernel)) demoR6_eq

/-- the flush of the archive with a redirect to a page that is not there -/
example : PyErr.unresolvedRedirect = .unresolvedRedirect ∧
    ¬ AllReach ([] ++ [("Cr", "Ca", none), ("Cq", "Cr", some "Q")]) ([] ++ [[] ++ [item "0" "text/html" [9]]]).flatten :=
  C98_error (mts := ["text/html"]) (by omega) demoSetup_good (by decide) demoA_hist demoR3_retried
    (demoG4_within.sub (by simp) (by simp) (List.Sublist.refl _)) (by decide) demoR4_eq
    demoR_runs.2.2.2.2.2.1 demoR_runs.2.2.2.2.2.2.1

example : (∃ c', flush demoSetup demoR6 = (.ok (), c')) ∨ 2 ^ 64 ≤ (flush demoSetup demoR6).2.arch.zim.file.length :=
  C98_again (by omega) demoSetup_good (by decide) demoA_hist demoR6_retried demoG4_within (by decide) fun q hq => by
    have ha : Reaches ([] ++ [("Cr", "Ca", none), ("Cq", "Cr", some "Q")])
        (fun u => ∃ p ∈ ([] ++ [[] ++ [item "0" "text/html" [9], item "a" "text/html" [1, 2, 3]]]).flatten, p.1.fullUrl = u) "Ca" :=
      .here ⟨item "a" "text/html" [1, 2, 3], by simp, by decide +kernel⟩
    simp only [List.nil_append, List.mem_cons, List.not_mem_nil, or_false] at hq
    rcases hq with rfl | rfl
    · exact ha
    · exact .step (t := "Ca") (title := none) (by simp) ha

example (kind : ClusterKind) (calls follow : Nat) (titles : Zim → PyRes PointerList) : demoR.arch.isDirty = false ∧
    ∃ a, openArchive { demoSetup with kind := kind, calls := calls, follow := follow } titles false demoR.arch.zim.file = .ok a ∧
      ShowsItems Cluster.rawCodecs kind calls a.zim [item "0" "text/html" [9], item "a" "text/html" [1, 2, 3]]
        [("Cr", "Ca", none), ("Cq", "Cr", some "Q")] ∧
      ∀ x ∈ [("Cr", "Ca", none), ("Cq", "Cr", some "Q")], RedirectWorks a.zim x :=
  C98_kept_partial (by omega) demoSetup_good (by decide) demoA_hist demoR6_retried demoG4_within (by decide)
    demoR_eq kind calls follow titles

/-- a page is added to a saved archive, … -/
def demoS1 : Creator Bytes := step (add (item "b" "text/html" [4]) true) demoG
/-- and a redirect to a missing page; -/
def demoS2 : Creator Bytes := step (addRed ("Cx", "Cmissing", none)) demoS1
/-- its flush is refused, after the page was written -/
def demoS : Creator Bytes := step (flush demoSetup) demoS2

theorem demoS_runs : (add (item "b" "text/html" [4]) true demoG).1 = .ok () ∧ (addRed ("Cx", "Cmissing", none) demoS1).1 = .ok () ∧
    demoS2.arch.isDirty = true ∧ (flush demoSetup demoS2).1 = .error .unresolvedRedirect ∧
    demoS.arch.zim.file.length < 2 ^ 64 ∧ demoS.arch.isDirty = true ∧
    demoS.arch.zim.file ≠ demoG.arch.zim.file := by decide +kernel

theorem demoS1_eq : addItem demoSetup (item "b" "text/html" [4]).1 true demoG = (.ok (), demoS1) :=
  step_eq (g := add (item "b" "text/html" [4]) true) demoS_runs.1

theorem demoS_eq : flush demoSetup demoS2 = (.error .unresolvedRedirect, demoS) := step_raises (g := flush demoSetup) demoS_runs.2.2.2.1

theorem demoS1_retried : Retried demoSetup demoG demoS1 ([] ++ [item "b" "text/html" [4]]) [] :=
  .add (p := item "b" "text/html" [4]) .start (item_admissible "b" "text/html" [4] (by decide +kernel) (by decide +kernel)) demoS1_eq

theorem demoS2_retried : Retried demoSetup demoG demoS2 ([] ++ [item "b" "text/html" [4]]) ([] ++ [("Cx", "Cmissing", none)]) :=
  .redirect demoS1_retried (r := ("Cx", "Cmissing", none)) valid_Cx
    (step_eq (g := addRed ("Cx", "Cmissing", none)) demoS_runs.2.1) demoS_runs.2.2.1

theorem demoS_retried : Retried demoSetup demoG demoS ([] ++ [item "b" "text/html" [4]]) ([] ++ [("Cx", "Cmissing", none)]) :=
  .refused demoS2_retried demoS_eq demoS_runs.2.2.2.2.1 demoS_runs.2.2.2.2.2.1

example (kind : ClusterKind) (calls follow : Nat) (titles : Zim → PyRes PointerList) :
    ∃ a, openArchive { demoSetup with kind := kind, calls := calls, follow := follow } titles false demoS.arch.zim.file = .ok a ∧
      ShowsItems Cluster.rawCodecs kind calls a.zim [item "0" "text/html" [9], item "a" "text/html" [1, 2, 3]]
        [("Cr", "Ca", none), ("Cq", "Cr", some "Q")] :=
  C98_file (mts := ["text/html"]) (by omega) demoSetup_good (by decide) demoG_hist demoG_clean demoS_retried
    (within_of (by decide +kernel) (by decide +kernel) (by decide +kernel) (by decide) (by decide +kernel)
      (by intro l hl
          simp only [List.cons_append, List.nil_append, List.mem_cons, List.not_mem_nil, or_false] at hl
          rcases hl with rfl | rfl <;> (unfold NotHuge; decide))
      ⟨by decide +kernel, by decide +kernel, by decide +kernel⟩ (by decide +kernel) (by decide)) (by decide) kind calls follow titles

/-! ### Another error loses redirects -/

/-- the error of looking up the url in what opening a file gave -/
def lookIn (x : PyRes Archive) (u : String) : Option PyErr :=
  match x with
  | .ok a =>
    match a.zim.entryByFullUrl u with
    | .ok _ => none
    | .error y => some y
  | .error _ => none

/-- a redirect in a namespace that takes two bytes, … -/
def demoLost1 : Creator Bytes := step (addRed ("éx", "C0", none)) demoA
/-- another redirect, … -/
def demoLost2 : Creator Bytes := step (addRed ("Cy", "C0", none)) demoLost1
/-- the page to which they lead, … -/
def demoLost3 : Creator Bytes := step (add (item "0" "text/html" [9]) false) demoLost2
/-- whose flush fails, … -/
def demoLost4 : Creator Bytes := step (flush demoSetup) demoLost3
/-- and succeeds when tried again. -/
def demoLost : Creator Bytes := step (flush demoSetup) demoLost4

theorem demoLost_runs : (addRed ("éx", "C0", none) demoA).1 = .ok () ∧ (addRed ("Cy", "C0", none) demoLost1).1 = .ok () ∧
    (add (item "0" "text/html" [9]) false demoLost2).1 = .ok () ∧ (flush demoSetup demoLost3).1 = .error .structError ∧
    (flush demoSetup demoLost4).1 = .ok () ∧
    lookIn (openArchive { demoSetup with kind := demoSetup.kind, calls := demoSetup.calls, follow := demoSetup.follow } (fun _ => .error .hang) false demoLost.arch.zim.file) "Cy" = some .entryNotFound := by
  decide +kernel

/-- **C98.** The full statement is false: if applying one of the waiting redirects fails, those behind it are forgotten, the
next flush succeeds, and the archive is without them. -/
theorem C98_full_fails : ¬ C98Full Bytes Unit := by
  intro h
  obtain ⟨h1, h2, h3, h4, h5, h6⟩ := demoLost_runs
  obtain ⟨a, ha, -, e, he⟩ := h demoSetup Zim.toyHash 90 demoA demoLost1 demoLost2 demoLost3 demoLost4 demoLost
    ("éx", "C0", none) ("Cy", "C0", none) (item "0" "text/html" [9]) false .structError (by omega) demoSetup_good (by decide)
    (by decide) demoA_hist (item_admissible "0" "text/html" [9] (by decide +kernel) (by decide +kernel)) (by decide) (by decide +kernel)
    (by decide +kernel) (step_eq (g := addRed ("éx", "C0", none)) h1) (step_eq (g := addRed ("Cy", "C0", none)) h2)
    (step_eq (g := add (item "0" "text/html" [9]) false) h3) (step_raises (g := flush demoSetup) h4) (step_eq (g := flush demoSetup) h5)
    demoSetup.kind demoSetup.calls demoSetup.follow (fun _ => .error .hang)
  rw [ha] at h6
  unfold lookIn at h6
  simp only [he] at h6
  cases h6

end Creator
end Pyzim
