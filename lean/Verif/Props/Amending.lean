import Verif.Props.Removing

/-!
# Changing the mimetype or the title of items of an archive that is filled
-/

namespace Pyzim
namespace Creator

variable {D K : Type} {S : Setup D K} {md5 : Bytes → Bytes} {r : Nat} {c c1 c2 : Creator D} {done : List (List Sourced)}
  {recent : List Sourced} {rs : List Zim.Redirect} {mts : List String} {u : String}

/-- **C92.** After the mimetype of an item that was added before the last flush is set (to a string, or its bytes), and the
entry and the archive are flushed, everybody who opens the file finds this item with the new mimetype, and with the same
title and content as before, and everything else as it was. The archive may have been filled, changed and reopened in any
way before. -/
theorem C92_retyped (hr : 2 ≤ r) (hS : S.Good md5 (some r)) (h : EditHist S mts c done recent rs) (hmts : mts.length < 65534)
    (hu : u ≠ URL_ARTICLES) (hrec : ∀ p ∈ recent, p.1.fullUrl ≠ u) (hrs : ∀ x ∈ rs, x.1 ≠ u) {v : StrArg} {m : String}
    (hv : v.text = some m) (hm : m ∈ mts) (hok : setMimetype S u v c = (.ok (), c1)) (hf : flush S c1 = (.ok (), c2))
    (kind : ClusterKind) (calls follow : Nat) (titles : Zim → PyRes PointerList) :
    c2.arch.isDirty = false ∧
    ∃ a, openArchive { S with kind := kind, calls := calls, follow := follow } titles false c2.arch.zim.file = .ok a ∧
      ShowsItems S.X kind calls a.zim ((current (done ++ [recent])).map fun p =>
        if p.1.fullUrl = u then ({ p.1 with mimetype := m }, p.2) else p) rs := by
  have := C86_after_flush_partial hr hS (.retype h ⟨hu, hrec, hrs⟩ (Entry.both_spec v m hv) hm hok) hmts hf kind calls follow titles
  rw [amendIn_append hrec, current_amendIn (sameUrl_retyped m)] at this
  exact this

/-- **C92, partial.** After the title of an item that was added before the last flush, and that no redirect leads to, is set
(to a string, or its bytes, or to `None`), and the entry and the archive are flushed, everybody who opens the file finds this
item with the new title (which is its url, if the title is empty), and with the same mimetype and content as before, and
everything else as it was; the articles are in the order of the new titles. -/
theorem C92_retitled_partial (hr : 2 ≤ r) (hS : S.Good md5 (some r)) (h : EditHist S mts c done recent rs)
    (hmts : mts.length < 65534) (hu : u ≠ URL_ARTICLES) (hrec : ∀ p ∈ recent, p.1.fullUrl ≠ u)
    (hrs : ∀ x ∈ rs, x.1 ≠ u ∧ x.2.1 ≠ u) {v : Option StrArg} {t : String}
    (hv : (v.getD (.str "")).text = some t) (hok : setTitle S u v c = (.ok (), c1)) (hf : flush S c1 = (.ok (), c2))
    (kind : ClusterKind) (calls follow : Nat) (titles : Zim → PyRes PointerList) :
    c2.arch.isDirty = false ∧
    ∃ a, openArchive { S with kind := kind, calls := calls, follow := follow } titles false c2.arch.zim.file = .ok a ∧
      ShowsItems S.X kind calls a.zim ((current (done ++ [recent])).map fun p =>
        if p.1.fullUrl = u then ({ p.1 with titleRaw := some t }, p.2) else p) rs := by
  have := C86_after_flush_partial hr hS (.retitle h ⟨hu, hrec, fun x hx => (hrs x hx).1⟩ (fun x hx => (hrs x hx).2)
    (Entry.both_spec _ t hv) hok) hmts hf kind calls follow titles
  rw [amendIn_append hrec, current_amendIn (sameUrl_retitled t)] at this
  exact this

/-- **C92.** Nothing changes if there is no entry with the url, … -/
theorem C92_missing (hr : 2 ≤ r) (hS : S.Good md5 (some r)) (h : EditHist S mts c done recent rs) (hmts : mts.length < 65534)
    (hu : u ≠ URL_ARTICLES) (hi : ∀ p ∈ current done ++ recent, p.1.fullUrl ≠ u) (hx : ∀ x ∈ rs, x.1 ≠ u) (v : StrArg)
    (w : Option StrArg) :
    setMimetype S u v c = (.error .entryNotFound, c) ∧ setTitle S u w c = (.error .entryNotFound, c) := by
  have := (h.missing hr hS (mimes_length hmts) List.mem_cons_self mimes_mem hu hi hx).1
  unfold setMimetype setTitle onArch Archive.onZim
  simp only [PyM.of_apply, PyM.get_bind, this]
  exact ⟨rfl, rfl⟩

/-- **C92.** … or if the mimetype is empty, or if the mimetype or the title contains a zero byte: this is refused. -/
theorem C92_refused {e : Entry} (he : c.arch.zim.entryByFullUrl u = .ok e) {v : StrArg} {s : String} (hv : v.text = some s) :
    (s = "" ∨ (0 : UInt8) ∈ encode s → setMimetype S u v c = (.error .valueError, c)) ∧
    ((0 : UInt8) ∈ encode s → setTitle S u (some v) c = (.error .valueError, c)) := by
  have hb := Entry.both_spec v s hv
  refine ⟨fun hs => ?_, fun hs => ?_⟩
  · unfold setMimetype onArch Archive.onZim
    simp only [PyM.of_apply, PyM.get_bind, he, PyM.lift_ok_bind]
    have : Zim.setMimetype v e c.arch.zim = (.error .valueError, c.arch.zim) := by
      unfold Zim.setMimetype
      rw [hb]
      simp only
      rcases hs with rfl | hs
      · rfl
      · split
        · rfl
        · rfl
    rw [PyM.bind_err this]
  · unfold setTitle onArch Archive.onZim
    simp only [PyM.of_apply, PyM.get_bind, he, PyM.lift_ok_bind]
    have : e.setTitle (some v) = (.error .valueError, e) := by
      unfold Entry.setTitle
      rw [show (some v).getD (.str "") = v from rfl, hb]
      simp only
      rw [if_pos hs]
    rw [this]
    rfl

/-! ### Examples -/

open Strategy (item)
open Zim (toyHash)

/-- The mimetype of the page `Ca` is set while `Cc` waits, … -/
def demoAm1 : Creator (Bytes ⊕ Toy.Esc) := stepZ (setMimetype setupZ "Ca" (.str "text/plain")) demoZ4
/-- then the title of `Cb`, … -/
def demoAm2 : Creator (Bytes ⊕ Toy.Esc) := stepZ (setTitle setupZ "Cb" (some (.bytes (encode "A")))) demoAm1
/-- and the archive is flushed. -/
def demoAm3 : Creator (Bytes ⊕ Toy.Esc) := stepZ (flush setupZ) demoAm2

/-- The title of the page `Ca`, to which the redirect `Cy` leads, is set (which fails), … -/
def demoAm4 : Creator (Bytes ⊕ Toy.Esc) := stepZ (setTitle setupZ "Ca" (some (.str "Longer"))) demoRl3
/-- and the archive is flushed. -/
def demoAm5 : Creator (Bytes ⊕ Toy.Esc) := stepZ (flush setupZ) demoAm4

/-- The mimetype of the redirect `Cz` is set, … -/
def demoAm6 : Creator (Bytes ⊕ Toy.Esc) := stepZ (setMimetype setupZ "Cz" (.str "text/html")) demoRl3
/-- and the archive is flushed. -/
def demoAm7 : Creator (Bytes ⊕ Toy.Esc) := stepZ (flush setupZ) demoAm6

/-- what is found in a file -/
def foundIn (u : String) (file : Bytes) : PyRes Unit := do
  let a ← openArchive { setupZ with kind := .remembering, calls := 0, follow := 0 } (fun _ => .error .hang) false file
  let _ ← a.zim.entryByFullUrl u
  pure ()

/-- All of this succeeds. -/
theorem demoAm_runs : (setMimetype setupZ "Ca" (.str "text/plain") demoZ4).1 = .ok () ∧
    (setTitle setupZ "Cb" (some (.bytes (encode "A"))) demoAm1).1 = .ok () ∧ (flush setupZ demoAm2).1 = .ok () ∧
    articlesOf demoAm3.arch.zim.file = .ok ["Cb", "Ca", "Cc"] := by decide +kernel

theorem demoAn_runs : foundIn "Ca" demoRl3.arch.zim.file = .ok () ∧
    (setTitle setupZ "Ca" (some (.str "Longer")) demoRl3).1 = .error .valueError ∧ (flush setupZ demoAm4).1 = .ok () ∧
    foundIn "Ca" demoAm5.arch.zim.file = .error .entryNotFound ∧
    foundIn "Cz" demoRl3.arch.zim.file = .ok () ∧ (setMimetype setupZ "Cz" (.str "text/html") demoRl3).1 = .ok () ∧
    (flush setupZ demoAm6).1 = .ok () ∧ foundIn "Cz" demoAm7.arch.zim.file = .error .entryNotFound := by decide +kernel

theorem demoAm1_eq : setMimetype setupZ "Ca" (.str "text/plain") demoZ4 = (.ok (), demoAm1) := stepZ_eq demoAm_runs.1
theorem demoAm2_eq : setTitle setupZ "Cb" (some (.bytes (encode "A"))) demoAm1 = (.ok (), demoAm2) := stepZ_eq demoAm_runs.2.1
theorem demoAm3_eq : flush setupZ demoAm2 = (.ok (), demoAm3) := stepZ_eq demoAm_runs.2.2.1

theorem demoAm_sound : Sound ["text/html", "text/plain"] [] ([[item "a" "text/html" [1, 2, 3], item "b" "text/html" [4, 5]]] ++
    [[item "c" "text/html" [6]]]) :=
  ⟨apart_nil _, fun l h => (demoZ_batches l h).urls, fun l h p hp => by
    have := (demoZ_batches l h).mimetypes p hp
    rw [List.mem_singleton] at this
    rw [this]
    exact .head _, fun l h => (demoZ_batches l h).other, fun l h => (demoZ_batches l h).size⟩

/-- the page `Ca` with another mimetype -/
def plainPage : Sourced := ({ (item "a" "text/html" [1, 2, 3]).1 with mimetype := "text/plain" }, [1, 2, 3])
/-- the page `Cb` with another title -/
def titledPage : Sourced := ({ (item "b" "text/html" [4, 5]).1 with titleRaw := some "A" }, [4, 5])

theorem demoAm_hist : EditHist setupZ ["text/html", "text/plain"] demoAm1
    [[plainPage, item "b" "text/html" [4, 5]]] [item "c" "text/html" [6]] [] :=
  .retype (demoZ_hist.edit demoAm_sound) ⟨by decide +kernel, by decide +kernel, by simp⟩ rfl (.tail _ (.head _)) demoAm1_eq

example (kind : ClusterKind) : demoAm3.arch.isDirty = false ∧
    ∃ a, openArchive { setupZ with kind := kind, calls := 0, follow := 0 }
      (fun _ => .error .hang) false demoAm3.arch.zim.file = .ok a ∧
    ShowsItems Toy.codecs kind 0 a.zim [plainPage, titledPage, item "c" "text/html" [6]] [] :=
  C92_retitled_partial (by omega) setupZ_good demoAm_hist (by decide) (by decide +kernel) (by decide +kernel) (by simp)
    (v := some (.bytes (encode "A"))) (t := "A") (by decide +kernel) demoAm2_eq demoAm3_eq kind 0 0 (fun _ => .error .hang)

/-- **C92, finding.** It is false if a redirect leads to the item: setting its title may be refused with an error, and then,
after a flush, the item is not found any more. -/
theorem C92_target_lost : ∃ (c c1 c2 : Creator (Bytes ⊕ Toy.Esc)) (done : List (List Sourced)) (rs : List Zim.Redirect),
    EditHist setupZ ["text/html"] c done [] rs ∧ (∃ p ∈ current done, p.1.fullUrl = "Ca") ∧
    foundIn "Ca" c.arch.zim.file = .ok () ∧ setTitle setupZ "Ca" (some (.str "Longer")) c = (.error .valueError, c1) ∧
    flush setupZ c1 = (.ok (), c2) ∧ foundIn "Ca" c2.arch.zim.file = .error .entryNotFound := by
  obtain ⟨h1, h2, h3, h4, -⟩ := demoAn_runs
  exact ⟨demoRl3, demoAm4, demoAm5, _, _, demoRl_hist, ⟨item "a" "text/html" [1, 2, 3], .head _, by decide +kernel⟩, h1,
    Prod.ext h2 rfl, stepZ_eq h3, h4⟩

/-- **C92, finding.** The mimetype of a redirect can be set, too; it is not found any more then. -/
theorem C92_redirect_lost : ∃ (c c1 c2 : Creator (Bytes ⊕ Toy.Esc)) (done : List (List Sourced)) (rs : List Zim.Redirect),
    EditHist setupZ ["text/html"] c done [] rs ∧ (∃ x ∈ rs, x.1 = "Cz") ∧ foundIn "Cz" c.arch.zim.file = .ok () ∧
    setMimetype setupZ "Cz" (.str "text/html") c = (.ok (), c1) ∧ flush setupZ c1 = (.ok (), c2) ∧
    foundIn "Cz" c2.arch.zim.file = .error .entryNotFound := by
  obtain ⟨-, -, -, -, h1, h2, h3, h4⟩ := demoAn_runs
  exact ⟨demoRl3, demoAm6, demoAm7, _, _, demoRl_hist, ⟨_, .tail _ (.head _), rfl⟩, h1, stepZ_eq h2, stepZ_eq h3, h4⟩

end Creator
end Pyzim
