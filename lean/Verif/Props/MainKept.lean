import Verif.Lemmas.MainTwice
import Verif.Props.MainSaved

/-!
# The main page, if redirects are added in its place (C85)
-/

namespace Pyzim
namespace Creator
open Zim (Redirect ShowsMain)
open Strategy (item)

variable {D K : Type} {S : Setup D K} {md5 : Bytes → Bytes} {r : Nat} {c c0 c1 c2 c3 : Creator D} {done : List (List Sourced)}
  {items more : List Sourced} {rs rs' : List Redirect} {mts : List String} {u : String}

/-- **C85, partial.** The same as `C85_waiting_partial`, if redirects from "WmainPage" may be added in between: what shows as
the main page is the page that was set. -/
theorem C85_kept_partial (hr : 2 ≤ r) (hS : S.Good md5 (some r)) (hdep : 2 ≤ S.depth) (h0 : CreatorHist S c0 done items rs)
    (hno : c0.arch.zim.hasEntry ("C" ++ u) = .ok false) (hset : setMainpage S (some u) c0 = (.ok (), c1))
    (hadd : AddedTo S c1 c2 more rs') (hd : c2.arch.isDirty = true) (hfl : flush S c2 = (.ok (), c3))
    (hA : Apart (rs ++ [toMain u] ++ rs'.filter (·.1 ≠ "WmainPage")) (done ++ [items ++ more])) (hmts : mts.length < 65534)
    (hl : ∀ l ∈ done ++ [items ++ more], Batch mts l)
    (hone : ∀ x ∈ rs ++ [toMain u] ++ rs', timesAdded (done ++ [items ++ more]) x.2.1 ≤ 1 ∧ encode x.2.1 < encode "WmainPage")
    (kind : ClusterKind) (calls follow : Nat) (titles : Zim → PyRes PointerList) :
    c3.arch.isDirty = false ∧
    ∃ a, openArchive { S with kind := kind, calls := calls, follow := follow } titles false c3.arch.zim.file = .ok a ∧
      ShowsMain a.zim (some u) ∧
      ShowsItems S.X kind calls a.zim (current (done ++ [items ++ more])) (rs ++ [toMain u] ++ rs'.filter (·.1 ≠ "WmainPage")) ∧
      ∀ x ∈ rs ++ [toMain u] ++ rs'.filter (·.1 ≠ "WmainPage"), RedirectWorks a.zim x := by
  have hsub : ∀ x ∈ done ++ [items], ∀ q ∈ x, ∃ y ∈ done ++ [items ++ more], q ∈ y := by
    intro x hx q hq
    rcases List.mem_append.1 hx with hx | hx
    · exact ⟨x, List.mem_append_left _ hx, hq⟩
    · rw [List.mem_singleton] at hx
      exact ⟨_, List.mem_append_right _ (List.mem_singleton.2 rfl), List.mem_append_left _ (hx ▸ hq)⟩
  have hML : (encode placeholder.mimetype :: mts.map encode).length < 65535 := by
    rw [List.length_cons, List.length_map]; omega
  have hl0 : ∀ l ∈ done ++ [items], (l.map urlOf).Nodup ∧ NotHuge l ∧
      ∀ p ∈ l, encode p.1.mimetype ∈ encode placeholder.mimetype :: mts.map encode ∧ p.1.fullUrl ≠ URL_ARTICLES := by
    intro l hl'
    rcases List.mem_append.1 hl' with hl' | hl'
    · have hb := hl l (List.mem_append_left _ hl')
      exact ⟨hb.urls, hb.size, fun p hp => ⟨List.mem_cons_of_mem _ (List.mem_map.2 ⟨_, hb.mimetypes p hp, rfl⟩), hb.other p hp⟩⟩
    · rw [List.mem_singleton] at hl'
      subst hl'
      have hb := hl (l ++ more) (by simp)
      have hsl : l.Sublist (l ++ more) := List.sublist_append_left _ _
      exact ⟨hb.urls.sublist (hsl.map _), hb.size.sublist hsl, fun p hp =>
        ⟨List.mem_cons_of_mem _ (List.mem_map.2 ⟨_, hb.mimetypes p (hsl.subset hp), rfl⟩), hb.other p (hsl.subset hp)⟩⟩
  have hA0 : Apart rs (done ++ [items]) := hA.sub (by rw [List.append_assoc]; exact List.sublist_append_left _ _) hsub
  have hA1 : Apart (rs ++ [toMain u]) (done ++ [items]) := hA.sub (List.sublist_append_left _ _) hsub
  obtain ⟨Gb, h1, G, P1, P2, hat⟩ := h0.has hr hS hA0 hML List.mem_cons_self hl0
  have hv1 : ∀ x ∈ rs ++ [toMain u], x.Valid := by
    intro x hx
    rcases List.mem_append.1 hx with hx | hx
    · exact h0.valid x hx
    · rw [List.mem_singleton] at hx
      rw [hx]
      exact mainRedirect_valid u
  have hv : ∀ x ∈ rs ++ [toMain u] ++ rs', x.Valid := by
    intro x hx
    rcases List.mem_append.1 hx with hx | hx
    · exact hv1 x hx
    · exact hadd.valid x hx
  have hvf : ∀ x ∈ rs ++ [toMain u] ++ rs'.filter (·.1 ≠ "WmainPage"), x.Valid := by
    intro x hx
    rcases List.mem_append.1 hx with hx | hx
    · exact hv1 x hx
    · exact hadd.valid x (List.mem_of_mem_filter hx)
  have hat1 := hat.setMain hdep (hA1.separate hv1 h1) hno hset
  have hb := hl (items ++ more) (by simp)
  -- each redirect by itself
  have hone' : ∀ x ∈ rs ++ [toMain u] ++ rs', Separate [x] Gb.flatten (items ++ more) := by
    intro x hx
    refine Apart.separate (done := done) ⟨by simp, ?_, ?_⟩ (by intro y hy; rw [List.mem_singleton] at hy; rw [hy]; exact hv x hx) h1
    · intro y hy
      rw [List.mem_singleton] at hy
      rw [hy]
      by_cases hw : x.1 = "WmainPage"
      · rw [hw]; decide
      · refine hA.articles x ?_
        rcases List.mem_append.1 hx with hx | hx
        · exact List.mem_append_left _ hx
        · exact List.mem_append_right _ (List.mem_filter.2 ⟨hx, by simpa using hw⟩)
    · intro y hy l hl p hp
      rw [List.mem_singleton] at hy
      rw [hy]
      by_cases hw : x.1 = "WmainPage"
      · rw [hw]; exact hA.items (toMain u) (by simp) l hl p hp
      · refine hA.items x ?_ l hl p hp
        rcases List.mem_append.1 hx with hx | hx
        · exact List.mem_append_left _ hx
        · exact List.mem_append_right _ (List.mem_filter.2 ⟨hx, by simpa using hw⟩)
  -- those not from "WmainPage"
  have hrs : rs.filter (·.1 ≠ "WmainPage") = rs := by
    rw [List.filter_eq_self]
    intro x hx
    have hn := hA1.nodup
    rw [List.map_append, List.nodup_append] at hn
    have := hn.2.2 x.1 (List.mem_map.2 ⟨x, hx, rfl⟩) "WmainPage" (by simp [toMain])
    simpa using this
  have hfil : apartFrom "WmainPage" (rs ++ [toMain u] ++ rs') = rs ++ rs'.filter (·.1 ≠ "WmainPage") := by
    unfold apartFrom
    rw [List.filter_append, List.filter_append, hrs]
    simp [toMain]
  have hperm : (apartFrom "WmainPage" (rs ++ [toMain u] ++ rs') ++ [toMain u]).Perm
      (rs ++ [toMain u] ++ rs'.filter (·.1 ≠ "WmainPage")) := by
    rw [hfil, List.append_assoc, List.append_assoc]
    exact List.perm_append_comm.append_left rs
  have hnod : ((apartFrom "WmainPage" (rs ++ [toMain u] ++ rs')).map (·.1)).Nodup := by
    have := (hperm.map (·.1)).nodup_iff.2 hA.nodup
    exact this.sublist ((List.sublist_append_left _ _).map _)
  obtain ⟨G', P1', P2', rs2, k1, k2⟩ := AddedTo.onwardUpTo (w := "WmainPage") hS hat1 (.of_perm (.refl _)) hadd hML hb.size
    (fun p hp => ⟨List.mem_cons_of_mem _ (List.mem_map.2 ⟨_, hb.mimetypes p hp, rfl⟩), hb.other p hp⟩)
    (fun x hx => ⟨hone' x hx, (hone x hx).2⟩) hnod
  have hm' : ∀ x ∈ rs ++ [toMain u] ++ rs' ++ [toMain u], x ∈ rs ++ [toMain u] ++ rs' := by
    intro x hx
    rcases List.mem_append.1 hx with hx | hx
    · exact hx
    · rw [List.mem_singleton] at hx
      rw [hx]; simp
  have hsv := k1.flushUpTo hS k2 hdep hb.size h1 (fun x hx => hone' x (hm' x hx)) hnod (fun l h => (hl l h).other)
    (fun x hx => hone x (hm' x hx)) hd hfl
  have hsv' : Saved S (encode placeholder.mimetype :: mts.map encode) (some r) u c3.arch Gb (items ++ more) (rs ++ [toMain u] ++ rs'.filter (·.1 ≠ "WmainPage")) := by
    obtain ⟨hc, ⟨G, rows, cs, extra, es, L, m0, R, hc', hG, hR⟩, hm⟩ := hsv
    exact ⟨hc, ⟨G, rows, cs, extra, es, L, m0, R, hc', hG, hR.trans hperm⟩, hm⟩
  refine ⟨hsv.clean, saved_shows hS hsv' h1 hA hvf
    (fun l h => (hl l h).other) (fun x hx => (hone x ?_).1) (fun l h => (hl l h).urls) kind calls follow titles⟩
  rcases List.mem_append.1 hx with hx | hx
  · exact List.mem_append_left _ hx
  · exact List.mem_append_right _ (List.mem_of_mem_filter hx)

/-! ### A concrete archive -/

/-- after the main page was set to a page that waits to be written, a redirect in its place is added, …  -/
def demoMk1 : Creator Bytes := step (addRed ("WmainPage", "Cb", some "M")) demoMp2
/-- and the archive is flushed. -/
def demoMk : Creator Bytes := step (flush demoSetup) demoMk1

theorem demoMk_runs : (addRed ("WmainPage", "Cb", some "M") demoMp2).1 = .ok () ∧ demoMk1.arch.isDirty = true ∧
    (flush demoSetup demoMk1).1 = .ok () := by decide +kernel

theorem demoMk1_eq : addFullUrlRedirect demoSetup "WmainPage" "Cb" (some "M") demoMp2 = (.ok (), demoMk1) :=
  step_eq (g := addRed ("WmainPage", "Cb", some "M")) demoMk_runs.1

theorem demoMk_eq : flush demoSetup demoMk1 = (.ok (), demoMk) := step_eq (g := flush demoSetup) demoMk_runs.2.2

theorem demoMk1_added : AddedTo demoSetup demoMp1 demoMk1 [item "b" "text/html" [4]] [("WmainPage", "Cb", some "M")] :=
  AddedTo.redirect (r := ("WmainPage", "Cb", some "M")) (AddedTo.add AddedTo.start
    (item_admissible "b" "text/html" [4] (by decide +kernel) (by decide +kernel)) demoMp2_eq)
    ⟨⟨'W', "mainPage", by decide, by decide, by decide +kernel⟩, by decide, by decide +kernel, by decide⟩ demoMk1_eq demoMk_runs.2.1

example (kind : ClusterKind) : demoMk.arch.isDirty = false ∧
    ∃ a, openArchive { demoSetup with kind := kind, calls := 0, follow := 0 }
      (fun _ => .error .hang) false demoMk.arch.zim.file = .ok a ∧ ShowsMain a.zim (some "a") ∧
      ShowsItems demoSetup.X kind 0 a.zim (current ([] ++ [[item "0" "text/html" [9], item "a" "text/html" [1, 2, 3]] ++
        [item "b" "text/html" [4]]])) ([] ++ [toMain "a"] ++ [("WmainPage", "Cb", some "M")].filter (·.1 ≠ "WmainPage")) ∧
      ∀ x ∈ [] ++ [toMain "a"] ++ [("WmainPage", "Cb", some "M")].filter (·.1 ≠ "WmainPage"), RedirectWorks a.zim x := by
  refine C85_kept_partial (by omega) demoSetup_good (by decide) demoG2_hist demoMp_runs.1 demoMp1_eq demoMk1_added
    demoMk_runs.2.1 demoMk_eq ⟨by decide +kernel, by decide +kernel, by decide +kernel⟩ (mts := ["text/html"]) (by decide) ?_ ?_
    kind 0 0 _
  · intro l hl
    simp only [List.nil_append, List.mem_singleton] at hl
    rw [hl]
    exact ⟨by decide +kernel, by decide +kernel, by decide +kernel, by unfold NotHuge; decide⟩
  · intro x hx
    simp only [List.nil_append, List.mem_append, List.mem_singleton] at hx
    rcases hx with rfl | rfl <;> exact ⟨by decide +kernel, by decide +kernel⟩

end Creator
end Pyzim
