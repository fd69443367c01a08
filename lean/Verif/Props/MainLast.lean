import Verif.Lemmas.MainLast
import Verif.Props.MainKept
import Verif.Props.Translated -- only so that the two are not built at the same time (memory)

/-!
# The main page, if it is set again and again (C85)
-/

namespace Pyzim
namespace Creator
open Zim (Redirect ShowsMain)
open Strategy (item)

variable {D K : Type} {S : Setup D K} {md5 : Bytes → Bytes} {r : Nat} {c c0 c1 c2 c3 c4 : Creator D} {done : List (List Sourced)}
  {items more more' : List Sourced} {rs rs' rs'' : List Redirect} {mts : List String} {u : String} {v : Option String}

/-- the redirects that are not from "WmainPage", and that to the main page -/
def withMain (rs : List Redirect) (v : Option String) : List Redirect := rs.filter (·.1 ≠ "WmainPage") ++ v.toList.map toMain

/-- what is seen in the file of an archive whose main page was saved -/
theorem savedWith_shows {Gb : List (List (List Sourced))} {ML : List Bytes} (hS : S.Good md5 (some r)) (h : SavedWith S ML (some r) v c.arch Gb items rs)
    (h1 : List.Forall₂ (fun G l => G.flatten.Perm l) Gb done) (hA : Apart rs (done ++ [items])) (hv : ∀ x ∈ rs, x.Valid)
    (ho : ∀ l ∈ done ++ [items], ∀ p ∈ l, p.1.fullUrl ≠ URL_ARTICLES) (hone : ∀ x ∈ rs, timesAdded (done ++ [items]) x.2.1 ≤ 1)
    (hl : ∀ l ∈ done ++ [items], (l.map fun p => p.1.fullUrl).Nodup) (kind : ClusterKind) (calls follow : Nat)
    (titles : Zim → PyRes PointerList) :
    ∃ a, openArchive { S with kind := kind, calls := calls, follow := follow } titles false c.arch.zim.file = .ok a ∧
      ShowsMain a.zim v ∧ ShowsItems S.X kind calls a.zim (current (done ++ [items])) rs ∧
      ∀ x ∈ rs, RedirectWorks a.zim x := by
  obtain ⟨hd, ⟨mp, G, rows, cs, extra, es, L, m0, R, hc, hG, hR⟩, hm⟩ := h
  refine ⟨_, hc.opens (S := { S with kind := kind, calls := calls, follow := follow }) hS.passthrough hd titles false, ?_, ?_, fun x hx =>
    redirects_work_core hc hG hR h1 (hA.separate hv h1) ho x hx (hone x hx)⟩
  · cases v with
    | none => exact hm
    | some u => exact hm
  refine hc.shows hd ?_ hR hA.nodup (fun r hr => hc.apart (hA.separate hv h1) (fun p hp => hG.subset hp) hr) kind calls
  have := current_perm (List.rel_append h1 (.cons hG .nil)) hl
  rw [List.flatten_append] at this
  simpa [present] using this

/-- **C85, partial.** Let the main page be set and unset arbitrarily while items and redirects are added. If the last setting
is one to a page that is not in the archive then, or one to no page, then after the next flush everybody who opens the file
finds that page as the main page, or none, and all items and redirects besides, each of which leads to its target. -/
theorem C85_last_partial (hr : 2 ≤ r) (hS : S.Good md5 (some r)) (hdep : 2 ≤ S.depth) (h0 : CreatorHist S c0 done items rs)
    (hrun : MainRun S c0 c1 more rs') (hset : setMainpage S v c1 = (.ok (), c2)) (hd2 : c2.arch.isDirty = true)
    (hno : ∀ u, v = some u → c1.arch.zim.hasEntry ("C" ++ u) = .ok false) (hadd : AddedTo S c2 c3 more' rs'')
    (hd : c3.arch.isDirty = true) (hfl : flush S c3 = (.ok (), c4)) (hA0 : Apart rs (done ++ [items]))
    (hA : Apart (withMain (rs ++ rs' ++ rs'') (some "")) (done ++ [items ++ more ++ more'])) (hmts : mts.length < 65534)
    (hl : ∀ l ∈ done ++ [items ++ more ++ more'], Batch mts l)
    (hone : ∀ x ∈ rs ++ rs' ++ rs'' ++ v.toList.map toMain,
      timesAdded (done ++ [items ++ more ++ more']) x.2.1 ≤ 1 ∧ encode x.2.1 < encode "WmainPage")
    (kind : ClusterKind) (calls follow : Nat) (titles : Zim → PyRes PointerList) :
    c4.arch.isDirty = false ∧
    ∃ a, openArchive { S with kind := kind, calls := calls, follow := follow } titles false c4.arch.zim.file = .ok a ∧
      ShowsMain a.zim v ∧
      ShowsItems S.X kind calls a.zim (current (done ++ [items ++ more ++ more'])) (withMain (rs ++ rs' ++ rs'') v) ∧
      ∀ x ∈ withMain (rs ++ rs' ++ rs'') v, RedirectWorks a.zim x := by
  have hML : (encode placeholder.mimetype :: mts.map encode).length < 65535 := by
    rw [List.length_cons, List.length_map]; omega
  have hl0 : ∀ l ∈ done ++ [items], (l.map urlOf).Nodup ∧ NotHuge l ∧
      ∀ p ∈ l, encode p.1.mimetype ∈ encode placeholder.mimetype :: mts.map encode ∧ p.1.fullUrl ≠ URL_ARTICLES := by
    intro l hl'
    rcases List.mem_append.1 hl' with hl' | hl'
    · have hb := hl l (List.mem_append_left _ hl')
      exact ⟨hb.urls, hb.size, fun p hp => ⟨List.mem_cons_of_mem _ (List.mem_map.2 ⟨_, hb.mimetypes p hp, rfl⟩), hb.other p hp⟩⟩
    · rw [List.mem_singleton] at hl'
      subst hl'
      have hb := hl (l ++ more ++ more') (by simp)
      have hsl : l.Sublist (l ++ more ++ more') := by rw [List.append_assoc]; exact List.sublist_append_left _ _
      exact ⟨hb.urls.sublist (hsl.map _), hb.size.sublist hsl, fun p hp =>
        ⟨List.mem_cons_of_mem _ (List.mem_map.2 ⟨_, hb.mimetypes p (hsl.subset hp), rfl⟩), hb.other p (hsl.subset hp)⟩⟩
  obtain ⟨Gb, h1, G, P1, P2, hat⟩ := h0.has hr hS hA0 hML List.mem_cons_self hl0
  have hvrun : ∀ {c1 : Creator D} {more : List Sourced} {rs' : List Redirect}, MainRun S c0 c1 more rs' → ∀ x ∈ rs', x.Valid := by
    intro c1 more rs' h
    induction h with
    | start => simp
    | add _ _ _ ih => exact ih
    | redirect _ hv _ _ ih =>
      intro x hx
      rcases List.mem_append.1 hx with hx | hx
      · exact ih x hx
      · rw [List.mem_singleton] at hx
        rw [hx]; exact hv
    | @set _ _ _ _ u _ _ _ ih =>
      intro x hx
      rcases List.mem_append.1 hx with hx | hx
      · exact ih x hx
      · rw [List.mem_singleton] at hx
        rw [hx]; exact mainRedirect_valid u
    | unset _ _ _ ih => exact ih
  have hv : ∀ x ∈ rs ++ rs' ++ rs'' ++ v.toList.map toMain, x.Valid := by
    intro x hx
    simp only [List.mem_append, List.mem_map] at hx
    rcases hx with ((hx | hx) | hx) | ⟨u, -, rfl⟩
    · exact h0.valid x hx
    · exact hvrun hrun x hx
    · exact hadd.valid x hx
    · exact mainRedirect_valid u
  have hall := hl (items ++ more ++ more') (by simp)
  -- each redirect by itself
  have hsep : ∀ x : Redirect, x.Valid → (x.1 = "WmainPage" ∨ x ∈ rs ++ rs' ++ rs'') → Separate [x] Gb.flatten (items ++ more ++ more') := by
    intro x hxv hx
    have hmem : ∃ y ∈ withMain (rs ++ rs' ++ rs'') (some ""), y.1 = x.1 := by
      by_cases hw : x.1 = "WmainPage"
      · exact ⟨toMain "", List.mem_append_right _ (by simp), hw.symm⟩
      · rcases hx with hx | hx
        · exact absurd hx hw
        · exact ⟨x, List.mem_append_left _ (List.mem_filter.2 ⟨hx, by simpa using hw⟩), rfl⟩
    obtain ⟨y, hy, hyx⟩ := hmem
    refine Apart.separate (done := done) ⟨by simp, ?_, ?_⟩ (by intro z hz; rw [List.mem_singleton] at hz; rw [hz]; exact hxv) h1
    · intro z hz
      rw [List.mem_singleton] at hz
      rw [hz, ← hyx]
      exact hA.articles y hy
    · intro z hz l hl p hp
      rw [List.mem_singleton] at hz
      rw [hz, ← hyx]
      exact hA.items y hy l hl p hp
  have hW : Separate [mainRedirect ""] Gb.flatten (items ++ more ++ more') := hsep _ (mainRedirect_valid "") (.inl rfl)
  have hnod : ((apartFrom "WmainPage" (rs ++ rs' ++ rs'')).map (·.1)).Nodup :=
    hA.nodup.sublist ((List.sublist_append_left _ _).map _)
  -- up to the last setting
  have hpre : ∀ q ∈ items ++ more, q ∈ items ++ more ++ more' := fun q hq => List.mem_append_left _ hq
  have hsub1 : ∀ x ∈ rs ++ rs', x ∈ rs ++ rs' ++ rs'' := fun x hx => List.mem_append_left _ hx
  have hin : ∀ x ∈ rs ++ rs' ++ rs'', x ∈ rs ++ rs' ++ rs'' ++ v.toList.map toMain := fun x hx => List.mem_append_left _ hx
  have hsep1 : ∀ x ∈ rs ++ rs', Separate [x] Gb.flatten (items ++ more) := fun x hx =>
    (hsep x (hv x (hin x (hsub1 x hx))) (.inr (hsub1 x hx))).sub (.refl _) hpre
  have ho1 : ∀ l ∈ done ++ [items ++ more], ∀ p ∈ l, p.1.fullUrl ≠ URL_ARTICLES := others_mono (fun l h => (hl l h).other)
  obtain ⟨mp, G1, Q1, Q2, rs2, k1, k2⟩ := hrun.onward hS hdep hat (.of_perm (.refl _)) h1 hML
    (hall.size.sublist (List.sublist_append_left _ _))
    (fun q hq => List.mem_cons_of_mem _ (List.mem_map.2 ⟨_, hall.mimetypes q (hpre q hq), rfl⟩)) ho1 hsep1 (hW.sub (.refl _) hpre)
    (fun x hx => ⟨counts_mono (hone x (hin x (hsub1 x hx))).1, (hone x (hin x (hsub1 x hx))).2⟩)
    (hnod.sublist ((List.Sublist.filter _ (List.sublist_append_left _ _)).map _))
  -- the setting
  have hmain : ∀ x ∈ v.toList.map mainRedirect, x.1 = "WmainPage" ∧ x ∈ rs ++ rs' ++ rs'' ++ v.toList.map toMain := by
    intro x hx
    refine ⟨?_, List.mem_append_right _ hx⟩
    obtain ⟨u, -, rfl⟩ := List.mem_map.1 hx
    rfl
  have hrd : ∀ x ∈ rs ++ rs' ++ v.toList.map mainRedirect, x ∈ rs ++ rs' ++ rs'' ++ v.toList.map toMain ∧
      (x.1 = "WmainPage" ∨ x ∈ rs ++ rs' ++ rs'') := by
    intro x hx
    rcases List.mem_append.1 hx with hx | hx
    · exact ⟨hin x (hsub1 x hx), .inr (hsub1 x hx)⟩
    · exact ⟨(hmain x hx).2, .inl (hmain x hx).1⟩
  obtain ⟨mp', rs3, g1, g2, g3⟩ := k1.setUpTo k2 hdep h1 (l' := rs ++ rs' ++ v.toList.map mainRedirect) rfl
    (fun x hx => (hsep x (hv x (hrd x hx).1) (hrd x hx).2).sub (.refl _) hpre) (hW.sub (.refl _) hpre) ho1
    (fun x hx => ⟨counts_mono (hone x (hrd x hx).1).1, (hone x (hrd x hx).1).2⟩) hset hd2
  have hmp := g3 hno
  subst hmp
  -- what is added later
  have hrd2 : ∀ x ∈ rs ++ rs' ++ v.toList.map mainRedirect ++ rs'', x ∈ rs ++ rs' ++ rs'' ++ v.toList.map toMain ∧
      (x.1 = "WmainPage" ∨ x ∈ rs ++ rs' ++ rs'') := by
    intro x hx
    rcases List.mem_append.1 hx with hx | hx
    · exact hrd x hx
    · exact ⟨hin x (List.mem_append_right _ hx), .inr (List.mem_append_right _ hx)⟩
  have hfil : apartFrom "WmainPage" (rs ++ rs' ++ v.toList.map mainRedirect ++ rs'') = apartFrom "WmainPage" (rs ++ rs' ++ rs'') := by
    unfold apartFrom
    rw [List.filter_append, List.filter_append (l₁ := rs ++ rs'), List.filter_append (l₁ := rs ++ rs') (l₂ := rs'')]
    have : (v.toList.map mainRedirect).filter (·.1 ≠ "WmainPage") = [] := by
      rw [List.filter_eq_nil_iff]
      intro x hx
      rw [(hmain x hx).1]
      simp
    rw [this, List.append_nil]
  have hnod2 : ((apartFrom "WmainPage" (rs ++ rs' ++ v.toList.map mainRedirect ++ rs'')).map (·.1)).Nodup := by rw [hfil]; exact hnod
  obtain ⟨G2, T1, T2, rs4, j1, j2⟩ := AddedTo.onwardUpTo (w := "WmainPage") hS g1 g2 hadd hML hall.size
    (fun p hp => ⟨List.mem_cons_of_mem _ (List.mem_map.2 ⟨_, hall.mimetypes p hp, rfl⟩), hall.other p hp⟩)
    (fun x hx => ⟨hsep x (hv x (hrd2 x hx).1) (hrd2 x hx).2, (hone x (hrd2 x hx).1).2⟩) hnod2
  have ho : ∀ l ∈ done ++ [items ++ more ++ more'], ∀ p ∈ l, p.1.fullUrl ≠ URL_ARTICLES := fun l h => (hl l h).other
  have hsaved : SavedWith S (encode placeholder.mimetype :: mts.map encode) (some r) v c4.arch Gb (items ++ more ++ more')
      (withMain (rs ++ rs' ++ rs'') v) := by
    cases v with
    | none =>
      have := j1.flushNone hS j2 hdep hall.size h1 (fun x hx => hsep x (hv x (hrd2 x hx).1) (hrd2 x hx).2) hW hnod2 ho
        (fun x hx => hone x (hrd2 x hx).1) hd hfl
      rw [show apartFrom Zim.URL_MAINPAGE_REDIRECT (rs ++ rs' ++ (none : Option String).toList.map mainRedirect ++ rs'') = _ from hfil] at this
      rw [show withMain (rs ++ rs' ++ rs'') none = apartFrom "WmainPage" (rs ++ rs' ++ rs'') from List.append_nil _]
      exact this
    | some u =>
      have hrd3 : ∀ x ∈ rs ++ rs' ++ (some u).toList.map mainRedirect ++ rs'' ++ [mainRedirect u],
          x ∈ rs ++ rs' ++ rs'' ++ (some u).toList.map toMain ∧ (x.1 = "WmainPage" ∨ x ∈ rs ++ rs' ++ rs'') := by
        intro x hx
        rcases List.mem_append.1 hx with hx | hx
        · exact hrd2 x hx
        · exact hrd x (List.mem_append_right _ hx)
      obtain ⟨q1, ⟨G, rows, cs, extra, es, L, m0, R, q2, q3, q4⟩, q5⟩ := j1.flushUpTo hS j2 hdep hall.size h1
        (fun x hx => hsep x (hv x (hrd3 x hx).1) (hrd3 x hx).2) hnod2 ho
        (fun x hx => hone x (hrd3 x hx).1) hd hfl
      rw [show apartFrom Zim.URL_MAINPAGE_REDIRECT (rs ++ rs' ++ (some u).toList.map mainRedirect ++ rs'') = _ from hfil] at q4
      exact ⟨q1, ⟨_, G, rows, cs, extra, es, L, m0, R, q2, q3, q4⟩, q5⟩
  have hmem : ∀ x ∈ withMain (rs ++ rs' ++ rs'') v, x ∈ rs ++ rs' ++ rs'' ++ v.toList.map toMain := by
    intro x hx
    rcases List.mem_append.1 hx with hx | hx
    · exact hin x (List.mem_of_mem_filter hx)
    · exact List.mem_append_right _ hx
  have hAv : Apart (withMain (rs ++ rs' ++ rs'') v) (done ++ [items ++ more ++ more']) := by
    cases v with
    | none => exact hA.sub (by unfold withMain; simp) fun x hx q hq => ⟨x, hx, hq⟩
    | some u =>
      have hsrc : (withMain (rs ++ rs' ++ rs'') (some u)).map (·.1) = (withMain (rs ++ rs' ++ rs'') (some "")).map (·.1) := by
        simp [withMain, toMain]
      have hex : ∀ x ∈ withMain (rs ++ rs' ++ rs'') (some u), ∃ y ∈ withMain (rs ++ rs' ++ rs'') (some ""), y.1 = x.1 := by
        intro x hx
        have : x.1 ∈ (withMain (rs ++ rs' ++ rs'') (some u)).map (·.1) := List.mem_map.2 ⟨x, hx, rfl⟩
        rw [hsrc] at this
        exact List.mem_map.1 this
      refine ⟨?_, ?_, ?_⟩
      · have := hA.nodup
        rw [← hsrc] at this
        exact this
      · intro x hx
        obtain ⟨y, hy, hyx⟩ := hex x hx
        rw [← hyx]; exact hA.articles y hy
      · intro x hx l hl p hp
        obtain ⟨y, hy, hyx⟩ := hex x hx
        rw [← hyx]; exact hA.items y hy l hl p hp
  exact ⟨hsaved.clean, savedWith_shows hS hsaved h1 hAv (fun x hx => hv x (hmem x hx)) ho (fun x hx => (hone x (hmem x hx)).1)
    (fun l h => (hl l h).urls) kind calls follow titles⟩

/-! ### Concrete archives -/

/-- The main page is set to a page, then to another one; both wait to be written. A redirect in its place is added, … -/
def demoMl1 : Creator Bytes := step (setMainpage demoSetup (some "b")) demoMp2
def demoMl2 : Creator Bytes := step (addRed ("WmainPage", "Ca", none)) demoMl1
/-- and the archive is flushed. -/
def demoMl : Creator Bytes := step (flush demoSetup) demoMl2
/-- Or the main page is unset, … -/
def demoMn1 : Creator Bytes := step (setMainpage demoSetup none) demoMp2
/-- and the archive is flushed. -/
def demoMn : Creator Bytes := step (flush demoSetup) demoMn1

theorem demoMl_runs : demoMp1.arch.isDirty = true ∧ demoMp2.arch.zim.hasEntry ("C" ++ "b") = .ok false ∧
    (setMainpage demoSetup (some "b") demoMp2).1 = .ok () ∧ demoMl1.arch.isDirty = true ∧
    (addRed ("WmainPage", "Ca", none) demoMl1).1 = .ok () ∧ demoMl2.arch.isDirty = true ∧ (flush demoSetup demoMl2).1 = .ok () ∧
    (setMainpage demoSetup none demoMp2).1 = .ok () ∧ demoMn1.arch.isDirty = true ∧ (flush demoSetup demoMn1).1 = .ok () := by
  decide +kernel

theorem demoMp2_run : MainRun demoSetup demoG2 demoMp2 [item "b" "text/html" [4]] [toMain "a"] :=
  MainRun.add (MainRun.set MainRun.start demoMp1_eq demoMl_runs.1)
    (item_admissible "b" "text/html" [4] (by decide +kernel) (by decide +kernel)) demoMp2_eq

theorem demoMl1_eq : setMainpage demoSetup (some "b") demoMp2 = (.ok (), demoMl1) :=
  step_eq (g := setMainpage demoSetup (some "b")) demoMl_runs.2.2.1
theorem demoMl2_eq : addFullUrlRedirect demoSetup "WmainPage" "Ca" none demoMl1 = (.ok (), demoMl2) :=
  step_eq (g := addRed ("WmainPage", "Ca", none)) demoMl_runs.2.2.2.2.1
theorem demoMl_eq : flush demoSetup demoMl2 = (.ok (), demoMl) := step_eq (g := flush demoSetup) demoMl_runs.2.2.2.2.2.2.1
theorem demoMn1_eq : setMainpage demoSetup none demoMp2 = (.ok (), demoMn1) :=
  step_eq (g := setMainpage demoSetup none) demoMl_runs.2.2.2.2.2.2.2.1
theorem demoMn_eq : flush demoSetup demoMn1 = (.ok (), demoMn) := step_eq (g := flush demoSetup) demoMl_runs.2.2.2.2.2.2.2.2.2

theorem demoMl2_added : AddedTo demoSetup demoMl1 demoMl2 [] [toMain "a"] :=
  AddedTo.redirect (r := toMain "a") .start (mainRedirect_valid "a") demoMl2_eq demoMl_runs.2.2.2.2.2.1

theorem demoMn1_dirty : demoMn1.arch.isDirty = true := demoMl_runs.2.2.2.2.2.2.2.2.1
theorem demoMn1_added : AddedTo demoSetup demoMn1 demoMn1 [] [] := .start

theorem demoMl1_missing (u : String) (hu : some "b" = some u) : demoMp2.arch.zim.hasEntry ("C" ++ u) = .ok false :=
  (congrArg (fun u => demoMp2.arch.zim.hasEntry ("C" ++ u)) (Option.some.inj hu)).symm.trans demoMl_runs.2.1

theorem demoMl_batch : ∀ l ∈ [] ++ [[item "0" "text/html" [9], item "a" "text/html" [1, 2, 3]] ++ [item "b" "text/html" [4]] ++ []],
    Batch ["text/html"] l := by
  intro l hl
  simp only [List.nil_append, List.mem_singleton] at hl
  rw [hl]
  exact ⟨by decide +kernel, by decide +kernel, by decide +kernel, by unfold NotHuge; decide⟩

example (kind : ClusterKind) : demoMl.arch.isDirty = false ∧
    ∃ a, openArchive { demoSetup with kind := kind, calls := 0, follow := 0 } (fun _ => .error .hang) false demoMl.arch.zim.file = .ok a ∧
      ShowsMain a.zim (some "b") ∧
      ShowsItems demoSetup.X kind 0 a.zim (current ([] ++ [[item "0" "text/html" [9], item "a" "text/html" [1, 2, 3]] ++
        [item "b" "text/html" [4]] ++ []])) (withMain ([] ++ [toMain "a"] ++ [toMain "a"]) (some "b")) ∧
      ∀ x ∈ withMain ([] ++ [toMain "a"] ++ [toMain "a"]) (some "b"), RedirectWorks a.zim x := by
  refine C85_last_partial (by omega) demoSetup_good (by decide) demoG2_hist demoMp2_run demoMl1_eq demoMl_runs.2.2.2.1 demoMl1_missing demoMl2_added
    demoMl_runs.2.2.2.2.2.1 demoMl_eq ⟨by decide +kernel, by decide +kernel, by decide +kernel⟩
    ⟨by decide +kernel, by decide +kernel, by decide +kernel⟩ (mts := ["text/html"]) (by decide) demoMl_batch ?_ kind 0 0 _
  intro x hx
  simp only [List.nil_append, Option.toList_some, List.map_cons, List.map_nil, List.mem_append, List.mem_singleton] at hx
  rcases hx with (rfl | rfl) | rfl <;> exact ⟨by decide +kernel, by decide +kernel⟩

example (kind : ClusterKind) : demoMn.arch.isDirty = false ∧
    ∃ a, openArchive { demoSetup with kind := kind, calls := 0, follow := 0 } (fun _ => .error .hang) false demoMn.arch.zim.file = .ok a ∧
      ShowsMain a.zim none ∧
      ShowsItems demoSetup.X kind 0 a.zim (current ([] ++ [[item "0" "text/html" [9], item "a" "text/html" [1, 2, 3]] ++
        [item "b" "text/html" [4]] ++ []])) (withMain ([] ++ [toMain "a"] ++ []) none) ∧
      ∀ x ∈ withMain ([] ++ [toMain "a"] ++ []) none, RedirectWorks a.zim x := by
  refine C85_last_partial (by omega) demoSetup_good (by decide) demoG2_hist demoMp2_run demoMn1_eq demoMn1_dirty
    (fun u hu => by cases hu) demoMn1_added demoMn1_dirty demoMn_eq ⟨by decide +kernel, by decide +kernel, by decide +kernel⟩
    ⟨by decide +kernel, by decide +kernel, by decide +kernel⟩ (mts := ["text/html"]) (by decide) demoMl_batch ?_ kind 0 0 _
  intro x hx
  simp only [List.nil_append, Option.toList_none, List.map_nil, List.append_nil, List.mem_singleton] at hx
  rw [hx]
  exact ⟨by decide +kernel, by decide +kernel⟩

end Creator
end Pyzim
