import Verif.Props.Amending

/-!
# Changing the url of items of an archive that is filled
-/

namespace Pyzim
namespace Creator

variable {D K : Type} {S : Setup D K} {md5 : Bytes → Bytes} {r : Nat} {c c1 c2 : Creator D} {done : List (List Sourced)}
  {recent : List Sourced} {rs : List Zim.Redirect} {mts : List String} {u w : String}

/-- **C93, partial.** After the url of an item that was added before the last flush (once, with a title of its own, and no
redirect leads to it) is set to one that nothing else has, and the entry and the archive are flushed, everybody who opens the
file finds this item at the new url, with the same title, mimetype and content as before, and as an article if it was one;
nothing is found at the old url, and everything else is as it was. The archive may have been filled, changed and reopened in
any way before. -/
theorem C93_renamed_partial (hr : 2 ≤ r) (hS : S.Good md5 (some r)) (h : EditHist S mts c done recent rs)
    (hmts : mts.length < 65534) {v : StrArg} {n : String} (hv : v.text = some n) (hrn : Renamable u w n done recent rs)
    (hok : setUrl S u v c = (.ok (), c1)) (hf : flush S c1 = (.ok (), c2))
    (kind : ClusterKind) (calls follow : Nat) (titles : Zim → PyRes PointerList) :
    c2.arch.isDirty = false ∧
    ∃ a, openArchive { S with kind := kind, calls := calls, follow := follow } titles false c2.arch.zim.file = .ok a ∧
      ShowsItems S.X kind calls a.zim ((current (done ++ [recent])).map fun p =>
        if p.1.fullUrl = u then ({ p.1 with url := n, titleRaw := some p.1.title }, p.2) else p) rs ∧
      a.zim.entryByFullUrl u = .error .entryNotFound := by
  have hw : ∀ l ∈ done ++ [recent], ∀ p ∈ l, p.1.fullUrl ≠ w := by
    intro l hl p hp
    rcases List.mem_append.1 hl with hl | hl
    · exact hrn.unused l hl p hp
    · rw [List.mem_singleton] at hl
      subst hl
      exact (hrn.flushed p hp).2
  have hname : ∀ l ∈ done ++ [recent], ∀ p ∈ l, p.1.fullUrl = u → p.1.ns ++ n = w := by
    intro l hl p hp hpu
    rcases List.mem_append.1 hl with hl | hl
    · exact hrn.named.2 l hl p hp hpu
    · rw [List.mem_singleton] at hl
      subst hl
      exact absurd hpu (hrn.flushed p hp).1
  have hone : ((done ++ [recent]).flatten.map fun p : Sourced => p.1.fullUrl).count u ≤ 1 := by
    rw [List.flatten_append, List.map_append, List.count_append,
      List.count_eq_zero_of_not_mem (l := [recent].flatten.map fun p : Sourced => p.1.fullUrl)]
    · exact hrn.once
    · intro hm
      obtain ⟨p, hp, hpu⟩ := List.mem_map.1 hm
      exact (hrn.flushed p (by simpa using hp)).1 hpu
  obtain ⟨hd, a, ha, hs⟩ := C86_after_flush_partial hr hS (.rename h hrn (Entry.both_spec v n hv) hok) hmts hf kind calls follow titles
  rw [amendIn_append fun p hp => (hrn.flushed p hp).1, current_renamed hname hw hone] at hs
  refine ⟨hd, a, ha, hs, hs.missing u hrn.other.1 (fun p hp e => ?_) fun x hx => (hrn.redirects x hx).1.1⟩
  obtain ⟨q, hq, rfl⟩ := List.mem_map.1 hp
  obtain ⟨l, hl, hql⟩ := mem_current hq
  rw [amended_renamed (hname l hl q hql)] at e
  split at e
  · rename_i hqu
    exact hw l hl q hql (hqu.trans e.symm)
  · rename_i hqu
    exact hqu e

/-- **C93.** Nothing changes if there is no entry with the url, … -/
theorem C93_missing (hr : 2 ≤ r) (hS : S.Good md5 (some r)) (h : EditHist S mts c done recent rs) (hmts : mts.length < 65534)
    (hu : u ≠ URL_ARTICLES) (hi : ∀ p ∈ current done ++ recent, p.1.fullUrl ≠ u) (hx : ∀ x ∈ rs, x.1 ≠ u) (v : StrArg) :
    setUrl S u v c = (.error .entryNotFound, c) := by
  have := (h.missing hr hS (mimes_length hmts) List.mem_cons_self mimes_mem hu hi hx).1
  unfold setUrl onArch Archive.onZim
  simp only [PyM.of_apply, PyM.get_bind, this]
  rfl

/-- **C93.** … or if the url contains a zero byte: this is refused. -/
theorem C93_refused {e : Entry} (he : c.arch.zim.entryByFullUrl u = .ok e) {v : StrArg} {n : String} (hv : v.text = some n)
    (hn : (0 : UInt8) ∈ encode n) : setUrl S u v c = (.error .valueError, c) := by
  unfold setUrl onArch Archive.onZim
  simp only [PyM.of_apply, PyM.get_bind, he, PyM.lift_ok_bind]
  have : e.setUrl v = (.error .valueError, e) := by
    unfold Entry.setUrl
    rw [Entry.both_spec v n hv]
    simp only
    rw [if_pos hn]
  rw [this]
  rfl

/-! ### Examples -/

open Strategy (item)
open Zim (toyHash)

/-- The url of `Cb`, whose title was set to `A`, is set while `Cc` waits, … -/
def demoRe1 : Creator (Bytes ⊕ Toy.Esc) := stepZ (setUrl setupZ "Cb" (.str "z")) demoAm2
/-- and the archive is flushed. -/
def demoRe2 : Creator (Bytes ⊕ Toy.Esc) := stepZ (flush setupZ) demoRe1

/-- The url of the page `Ca`, to which the redirect `Cy` leads, is set (which fails), … -/
def demoRe3 : Creator (Bytes ⊕ Toy.Esc) := stepZ (setUrl setupZ "Ca" (.str "aa")) demoRl3
/-- and the archive is flushed. -/
def demoRe4 : Creator (Bytes ⊕ Toy.Esc) := stepZ (flush setupZ) demoRe3

/-- The url of the page `Ca` is set to that of `Cb`, … -/
def demoRe5 : Creator (Bytes ⊕ Toy.Esc) := stepZ (setUrl setupZ "Ca" (.str "b")) demoZ4
/-- and the archive is flushed. -/
def demoRe6 : Creator (Bytes ⊕ Toy.Esc) := stepZ (flush setupZ) demoRe5

/-- the full urls of all entries of a file, in order -/
def urlsOf (file : Bytes) : PyRes (List String) := do
  let a ← openArchive { setupZ with kind := .remembering, calls := 0, follow := 0 } (fun _ => .error .hang) false file
  let es ← a.zim.iterEntries
  pure (es.map Entry.fullUrl)

/-- where a redirect of a file leads to -/
def targetIn (u : String) (file : Bytes) : PyRes String := do
  let a ← openArchive { setupZ with kind := .remembering, calls := 0, follow := 0 } (fun _ => .error .hang) false file
  let e ← a.zim.entryByFullUrl u
  match e.kind with
  | .redirect i => return (← a.zim.entryByIndex i).fullUrl
  | .content _ _ => .error .typeError

theorem demoRe_runs : (setUrl setupZ "Cb" (.str "z") demoAm2).1 = .ok () ∧ (flush setupZ demoRe1).1 = .ok () ∧
    articlesOf demoRe2.arch.zim.file = .ok ["Cz", "Ca", "Cc"] ∧
    (setUrl setupZ "Ca" (.str "b") demoZ4).1 = .ok () ∧ (flush setupZ demoRe5).1 = .ok () ∧
    urlsOf demoRe6.arch.zim.file = .ok ["Cb", "Cb", "Cc", URL_ARTICLES] := by decide +kernel

theorem demoRf_runs : (setUrl setupZ "Ca" (.str "aa") demoRl3).1 = .error .valueError ∧ (flush setupZ demoRe3).1 = .ok () ∧
    foundIn "Ca" demoRl3.arch.zim.file = .ok () ∧ targetIn "Cy" demoRl3.arch.zim.file = .ok "Ca" ∧
    foundIn "Ca" demoRe4.arch.zim.file = .error .entryNotFound ∧ foundIn "Caa" demoRe4.arch.zim.file = .error .entryNotFound ∧
    targetIn "Cy" demoRe4.arch.zim.file = .ok "Cb" := by decide +kernel

/-- the page `Cb` with another title and another url -/
def renamedPage : Sourced := ({ (item "b" "text/html" [4, 5]).1 with url := "z", titleRaw := some "A" }, [4, 5])

theorem demoRe_hist : EditHist setupZ ["text/html", "text/plain"] demoAm2 [[plainPage, titledPage]] [item "c" "text/html" [6]] [] :=
  .retitle demoAm_hist ⟨by decide +kernel, by decide +kernel, by simp⟩ (by simp) (v := some (.bytes (encode "A")))
    (Entry.both_spec _ "A" (by decide +kernel)) demoAm2_eq

theorem demoRe_renamable : Renamable "Cb" "Cz" "z" [[plainPage, titledPage]] [item "c" "text/html" [6]] [] :=
  ⟨by decide +kernel, by decide +kernel, by decide +kernel, by decide +kernel, by decide +kernel, by decide +kernel, by simp⟩

theorem demoRe1_eq : setUrl setupZ "Cb" (.str "z") demoAm2 = (.ok (), demoRe1) := stepZ_eq demoRe_runs.1
theorem demoRe2_eq : flush setupZ demoRe1 = (.ok (), demoRe2) := stepZ_eq demoRe_runs.2.1

example (kind : ClusterKind) : demoRe2.arch.isDirty = false ∧
    ∃ a, openArchive { setupZ with kind := kind, calls := 0, follow := 0 }
      (fun _ => .error .hang) false demoRe2.arch.zim.file = .ok a ∧
    ShowsItems Toy.codecs kind 0 a.zim [plainPage, renamedPage, item "c" "text/html" [6]] [] ∧
    a.zim.entryByFullUrl "Cb" = .error .entryNotFound :=
  C93_renamed_partial (by omega) setupZ_good demoRe_hist (by decide) (v := .str "z") (n := "z") rfl demoRe_renamable demoRe1_eq
    demoRe2_eq kind 0 0 (fun _ => .error .hang)

/-- **C93, finding.** It is false if a redirect leads to the item: setting its url may be refused with an error, and then,
after a flush, the item is found neither at the old nor at the new url, and the redirect leads to another item. -/
theorem C93_target_lost : ∃ (c c1 c2 : Creator (Bytes ⊕ Toy.Esc)) (done : List (List Sourced)) (rs : List Zim.Redirect),
    EditHist setupZ ["text/html"] c done [] rs ∧ (∃ p ∈ current done, p.1.fullUrl = "Ca") ∧
    foundIn "Ca" c.arch.zim.file = .ok () ∧ targetIn "Cy" c.arch.zim.file = .ok "Ca" ∧
    setUrl setupZ "Ca" (.str "aa") c = (.error .valueError, c1) ∧ flush setupZ c1 = (.ok (), c2) ∧
    foundIn "Ca" c2.arch.zim.file = .error .entryNotFound ∧ foundIn "Caa" c2.arch.zim.file = .error .entryNotFound ∧
    targetIn "Cy" c2.arch.zim.file = .ok "Cb" := by
  obtain ⟨h1, h2, h3, h4, h5⟩ := demoRf_runs
  exact ⟨demoRl3, demoRe3, demoRe4, _, _, demoRl_hist, ⟨item "a" "text/html" [1, 2, 3], .head _, by decide +kernel⟩, h3, h4,
    Prod.ext h1 rfl, stepZ_eq h2, h5⟩

/-- **C93, finding.** The url of an item may be set to that of another one: this is not refused, and both have the same url
then. -/
theorem C93_taken : ∃ (c c1 c2 : Creator (Bytes ⊕ Toy.Esc)) (done : List (List Sourced)) (recent : List Sourced),
    EditHist setupZ ["text/html"] c done recent [] ∧ setUrl setupZ "Ca" (.str "b") c = (.ok (), c1) ∧
    flush setupZ c1 = (.ok (), c2) ∧ urlsOf c2.arch.zim.file = .ok ["Cb", "Cb", "Cc", URL_ARTICLES] :=
  ⟨demoZ4, demoRe5, demoRe6, _, _, demoZ_hist.edit demoZ_sound, stepZ_eq demoRe_runs.2.2.2.1, stepZ_eq demoRe_runs.2.2.2.2.1,
    demoRe_runs.2.2.2.2.2⟩

end Creator
end Pyzim
