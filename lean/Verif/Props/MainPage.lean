import Verif.Lemmas.MainPage
import Verif.Props.OperationBuffer

/-!
# Setting the main page (C32)

The specification is in `Verif/Spec/OperationBuffer.lean`.
-/

namespace Pyzim
namespace Zim

variable {z : Zim} {S : String → Prop} {L : Nat}

theorem redirectLoop_nil (d n : Nat) (hb : z.bufferedRedirects = []) : redirectLoop d (n + 1) z = (.ok (), z) := by
  have hw : z.withBuffer [] = z := by rw [← hb]; rfl
  rw [redirectLoop_succ, hb, hw]
  have : addBuffered d [] z = (.ok (), z) := rfl
  rw [PyM.bind_ok this, PyM.get_bind]
  simp only [hb, ne_eq, not_true, if_false]
  rfl

theorem applyRedirects_nil (d n : Nat) (hb : z.bufferedRedirects = []) :
    applyRedirects d (n + 1) z = (.ok (), z) := by
  unfold applyRedirects
  rw [PyM.bind_ok (redirectLoop_nil d n hb), PyM.get_bind]
  simp [PyM.require, hb]

/-- no buffered setting -/
def noMain (z : Zim) : Zim := { z with bufferedMainpage := none }

theorem Roomy.noMain (h : Roomy z S L) : Roomy z.noMain S L := by
  obtain ⟨rows, other, h, hrest⟩ := h
  exact ⟨rows, other, ⟨h.store, h.sorted, h.urls, h.urlsMutable, h.isOpen, h.isMutable, h.noTitles, h.headerMutable⟩,
    hrest⟩

theorem applySetMainpageUrl_none (blob : Entry → PyM Zim Unit) (d : Nat) (hb : z.bufferedMainpage = none) :
    applySetMainpageUrl blob d z = (.ok (), z) := by
  unfold applySetMainpageUrl
  rw [PyM.get_bind]
  simp only [hb]
  rfl

theorem applySetMainpageUrl_some (blob : Entry → PyM Zim Unit) (d : Nat) {url : Option String}
    (hb : z.bufferedMainpage = some url) {z' : Zim} (hs : setMainpageUrl blob d url z.noMain = (.ok (), z'))
    (hb' : z'.bufferedMainpage = none ∨ z'.bufferedMainpage = some none) :
    applySetMainpageUrl blob d z = (.ok (), z') := by
  unfold applySetMainpageUrl
  rw [PyM.get_bind]
  simp only [hb]
  rw [PyM.modify_bind]
  have hs' := hs
  unfold Zim.noMain at hs'
  rw [PyM.bind_ok hs', PyM.get_bind]
  simp [PyM.require, hb']

/-- C32: at the end of the writing a buffered setting of the main page takes effect, if the page exists or is reached by
the buffered redirects, whatever was the main page before. -/
theorem C32_buffered_setting (h : Roomy z S L) (hu : MainUnused z)
    (hv : ∀ r ∈ z.bufferedRedirects, Redirect.Valid r) (hnd : (z.bufferedRedirects.map (·.1)).Nodup)
    (hnew : ∀ r ∈ z.bufferedRedirects, ¬ Has z r.1)
    (hres : ∀ r ∈ z.bufferedRedirects, Resolvable z z.bufferedRedirects r.2.1)
    (htgt : ∀ r ∈ z.bufferedRedirects, r.2.1 ≠ "WmainPage") {url : Option String} (hb : z.bufferedMainpage = some url)
    (hpage : ∀ u, url = some u → Resolvable z z.bufferedRedirects ("C" ++ u))
    (hroom : z.urls.len + z.bufferedRedirects.length + 1 < L) (blob : Entry → PyM Zim Unit) (d passes : Nat)
    (hp : z.bufferedRedirects.length + 1 ≤ passes) :
    ∃ z', finalizeOperations blob (d + 2) passes z = (.ok (), z') ∧ ShowsMain z' url := by
  obtain ⟨z1, S1, hl, hr1, hpass, hstuck⟩ := h.redirectLoop d passes z S ⟨hv, hnd, hnew, by omega⟩ hp
  obtain ⟨z1', res, h1, -, g1, g2, -, g3, -, -, g4, -⟩ := C31_redirects h hv hnd hnew (by omega) d passes hp
  have g4 := g4 hres
  subst g4
  have hz1 : z1' = z1 := by
    unfold applyRedirects at h1
    rw [PyM.bind_ok hl, PyM.get_bind] at h1
    unfold PyM.require at h1
    by_cases h0 : z1.bufferedRedirects.length = 0
    · have : z1 = z1' := by simpa [h0] using h1
      exact this.symm
    · simp [h0] at h1
  subst hz1
  have hu1 : MainUnused z1'.noMain := by
    refine ⟨fun hW => ?_, fun s hs => ?_⟩
    · by_cases hold : Has z "WmainPage"
      · obtain ⟨t, ht⟩ := hu.redirect hold
        exact ⟨t, hpass.ext.leads _ _ ht⟩
      · obtain ⟨r, hr, hn, hru⟩ := ((hpass.has _).1 hW).resolve_left hold
        exact ⟨r.2.1, hru ▸ hpass.leads r hr hn⟩
    · rcases g3 _ _ hs with hh | ⟨title, hh⟩
      · exact hu.target s hh
      · exact htgt _ hh rfl
  have hb1 : z1'.bufferedMainpage = some url := by rw [hpass.ext.mainpage, hb]
  have hlen := hpass.len
  unfold finalizeOperations
  rw [PyM.bind_ok h1]
  cases url with
  | none =>
    obtain ⟨z2, S2, h2, -, -, hs, hb2⟩ := hr1.noMain.setMain_none hu1 blob d
    exact ⟨z2, applySetMainpageUrl_some blob _ hb1 h2 (Or.inr hb2), hs⟩
  | some u =>
    have hC : Has z1'.noMain ("C" ++ u) := (g1 _).2 (hpage u rfl)
    obtain ⟨z2, S2, h2, -, -, hs, hb2⟩ := hr1.noMain.setMain_some hu1 hC (by show z1'.urls.len + 1 < L; omega) blob d
    exact ⟨z2, applySetMainpageUrl_some blob _ hb1 h2 (Or.inl hb2), hs⟩

/-- C32, for consecutive calls: if the pages given exist, and `None` is given only by the last call or not at all, then
the calls succeed, and at the end of the writing the main page is the one given by the last call. Entries other than
"WmainPage" stay as they are.

Missing: `None` before another page (that is not true, see `C32_none_false`), and pages that do not exist at the time of
the call (see `C32_deferred_partial`; not true in general, see `C32_missing_fails`). -/
theorem C32_partial (h : Roomy z S L) (hu : MainUnused z) (urls : List String) (last : Option String)
    (hroom : z.urls.len + urls.length + 2 < L) (hbr : z.bufferedRedirects = []) (hbm : z.bufferedMainpage = none)
    (hpages : ∀ u ∈ urls, Has z ("C" ++ u)) (hlast : ∀ u, last = some u → Has z ("C" ++ u))
    (blob : Entry → PyM Zim Unit) (d passes : Nat) :
    ∃ z', (setMainpageUrls blob (d + 2) (urls.map some ++ [last]) >>= fun _ =>
        finalizeOperations blob (d + 2) (passes + 1)) z = (.ok (), z') ∧
      ShowsMain z' last ∧ (∀ u, u ≠ "WmainPage" → (Has z' u ↔ Has z u)) ∧
      ∀ s t, s ≠ "WmainPage" → (Leads z' s t ↔ Leads z s t) := by
  induction urls generalizing z S with
  | nil =>
    rw [List.map_nil, List.nil_append]
    unfold setMainpageUrls setMainpageUrls
    rw [PyM.bind_assoc']
    cases last with
    | none =>
      obtain ⟨z1, S1, h1, hr1, hm1, hs1, hb1⟩ := h.setMain_none hu blob d
      have hx1 : z1.bufferedRedirects = [] := by rw [hm1.redirects, hbr]
      have hr1' := hr1.noMain
      have hu1 : MainUnused z1.noMain := ⟨hm1.unused.redirect, hm1.unused.target⟩
      obtain ⟨z2, S2, h2, hr2, hm2, hs2, hb2⟩ := hr1'.setMain_none hu1 blob d
      refine ⟨z2, ?_, hs2, fun u hn => (hm2.has u hn).trans (hm1.has u hn),
        fun s t hn => (hm2.leads s t hn).trans (hm1.leads s t hn)⟩
      rw [PyM.bind_ok h1, PyM.pure_bind']
      unfold finalizeOperations
      rw [PyM.bind_ok (applyRedirects_nil _ _ hx1)]
      exact applySetMainpageUrl_some blob _ hb1 h2 (Or.inr hb2)
    | some u =>
      obtain ⟨z1, S1, h1, hr1, hm1, hs1, hb1⟩ := h.setMain_some hu (hlast u rfl) (by simp at hroom; omega) blob d
      have hx1 : z1.bufferedRedirects = [] := by rw [hm1.redirects, hbr]
      refine ⟨z1, ?_, hs1, hm1.has, hm1.leads⟩
      rw [PyM.bind_ok h1, PyM.pure_bind']
      unfold finalizeOperations
      rw [PyM.bind_ok (applyRedirects_nil _ _ hx1)]
      exact applySetMainpageUrl_none blob _ (by rw [hb1, hbm])
  | cons u urls ih =>
    rw [List.length_cons] at hroom
    obtain ⟨z1, S1, h1, hr1, hm1, hs1, hb1⟩ := h.setMain_some hu (hpages u (by simp)) (by omega) blob d
    have hl := hm1.len
    obtain ⟨z', h2, hs, hh, hld⟩ := ih hr1 hm1.unused (by omega) (by rw [hm1.redirects, hbr]) (by rw [hb1, hbm])
      (fun w hw => (hm1.has _ (page_ne_main w)).2 (hpages w (by simp [hw])))
      (fun w hw => (hm1.has _ (page_ne_main w)).2 (hlast w hw))
    refine ⟨z', ?_, hs, fun w hn => (hh w hn).trans (hm1.has w hn), fun s t hn => (hld s t hn).trans (hm1.leads s t hn)⟩
    rw [List.map_cons, List.cons_append]
    show (setMainpageUrls blob (d + 2) (some u :: (urls.map some ++ [last])) >>= _) z = _
    rw [setMainpageUrls, PyM.bind_assoc', PyM.bind_ok h1]
    exact h2

/-- an entry that can be added: no redirect, well-formed and fitting into the format -/
structure Plain (e : Entry) : Prop where
  proper : e.Proper
  mutable : e.mutable = true
  old : e.oldFullUrl = some e.fullUrl
  kind : ∀ i, e.kind ≠ .redirect i
  fits : ∃ b, e.toBytes = .ok b

theorem Roomy.addSteps (blob : Entry → PyM Zim Unit) (d : Nat) (es : List Entry) : ∀ (z : Zim) (S : String → Prop),
    Roomy z S L → (∀ e ∈ es, Plain e) → (es.map Entry.fullUrl).Nodup → (∀ e ∈ es, ¬ Has z e.fullUrl) →
    z.urls.len + es.length < L →
    ∃ z' S', runSteps blob (d + 2) (es.map .add) z = (.ok (), z') ∧ Roomy z' S' L ∧
      z'.urls.len = z.urls.len + es.length ∧ z'.bufferedRedirects = z.bufferedRedirects ∧
      z'.bufferedMainpage = z.bufferedMainpage ∧ (∀ u, Has z' u ↔ Has z u ∨ u ∈ es.map Entry.fullUrl) ∧
      ∀ s t, Leads z' s t ↔ Leads z s t := by
  induction es with
  | nil => exact fun z S h _ _ _ _ => ⟨z, S, rfl, h, rfl, rfl, rfl, by simp, fun _ _ => Iff.rfl⟩
  | cons e es ih =>
    intro z S h hpl hnd hnew hroom
    rw [List.map_cons, List.nodup_cons] at hnd
    rw [List.length_cons] at hroom
    have he := hpl e (by simp)
    obtain ⟨e', z1, S1, h1, hr1, hl1, hb1, hx1, hh1, hd1⟩ := h.addPlain he.proper he.mutable he.old he.kind he.fits
      (by omega) (hnew e (by simp)) d
    obtain ⟨z2, S2, h2, hr2, hl2, hb2, hm2, hh2, hd2⟩ := ih z1 S1 hr1 (fun e' h' => hpl e' (by simp [h'])) hnd.2
      (fun e' h' hh => by
        rcases (hh1 _).1 hh with hh | hh
        · exact hnew e' (by simp [h']) hh
        · exact hnd.1 (hh ▸ List.mem_map_of_mem h')) (by omega)
    refine ⟨z2, S2, ?_, hr2, by rw [hl2, hl1, List.length_cons]; omega, by rw [hb2, hb1], by rw [hm2, hx1.mainpage], ?_, ?_⟩
    · rw [List.map_cons, runSteps, PyM.bind_ok h1]
      exact h2
    · intro u
      rw [hh2, hh1, List.map_cons, List.mem_cons]
      tauto
    · exact fun s t => (hd2 s t).trans ⟨hd1 s t, hx1.leads s t⟩

/-- C32, for a page that is added after it was set as the main page: the setting takes effect at the end of the writing.

Missing: redirects added in between, and further settings. -/
theorem C32_deferred_partial (h : Roomy z S L) (hu : MainUnused z) {u : String} (hmiss : ¬ Has z ("C" ++ u))
    (hbr : z.bufferedRedirects = []) (es : List Entry) (hpl : ∀ e ∈ es, Plain e) (hnd : (es.map Entry.fullUrl).Nodup)
    (hnew : ∀ e ∈ es, ¬ Has z e.fullUrl) (hW : "WmainPage" ∉ es.map Entry.fullUrl)
    (hpage : "C" ++ u ∈ es.map Entry.fullUrl) (hroom : z.urls.len + es.length + 2 < L) (blob : Entry → PyM Zim Unit)
    (d passes : Nat) :
    ∃ z', (runSteps blob (d + 2) (.setMain (some u) :: es.map .add) >>= fun _ =>
        finalizeOperations blob (d + 2) (passes + 2)) z = (.ok (), z') ∧ ShowsMain z' (some u) := by
  obtain ⟨z1, S1, h1, hr1, hh1, hl1, hg1, hu1, hn1, hb1, hm1⟩ := h.setMain_missing hu hmiss blob d
  rw [hbr, List.nil_append] at hb1
  have hneW : ∀ e ∈ es, e.fullUrl ≠ URL_MAINPAGE_REDIRECT := fun e he hh => hW (List.mem_map.2 ⟨e, he, hh⟩)
  obtain ⟨z2, S2, h2, hr2, hl2, hb2, hm2, hh2, hd2⟩ := hr1.addSteps blob d es z1 S1 hpl hnd
    (fun e he hh => hnew e he ((hh1 _ (hneW e he)).1 hh)) (by omega)
  have hgone : ¬ Has z2 URL_MAINPAGE_REDIRECT := by
    intro hh
    rcases (hh2 _).1 hh with hh | hh
    · exact hg1 hh
    · exact hW hh
  have hu2 : MainUnused z2 := ⟨fun hh => absurd hh hgone, fun s hs => hu1.target s ((hd2 _ _).1 hs)⟩
  have hC : Has z2 ("C" ++ u) := (hh2 _).2 (Or.inr hpage)
  have hB : z2.bufferedRedirects = [(URL_MAINPAGE_REDIRECT, "C" ++ u, none)] := by rw [hb2, hb1]
  obtain ⟨z3, h3, hs3⟩ := C32_buffered_setting hr2 hu2 (by rw [hB]; simpa using main_valid u) (by rw [hB]; simp)
    (by rw [hB]; simpa using hgone) (by rw [hB]; simpa using Resolvable.entry hC)
    (by rw [hB]; intro r hr; rw [List.mem_singleton] at hr; subst hr; exact page_ne_main u) (url := some u) (by rw [hm2, hm1])
    (fun w hw => by injection hw with hw; subst hw; exact .entry hC) (by rw [hB]; simp; omega) blob d (passes + 2)
    (by rw [hB]; simp)
  refine ⟨z3, ?_, hs3⟩
  rw [runSteps, PyM.bind_assoc', PyM.bind_ok h1, PyM.bind_ok h2]
  exact h3

/-- The statement for any sequence of settings and additions: if all calls and the end of the writing succeed, and the
entries added are well-formed, then the main page is the one given by the last setting. -/
def C32Full : Prop := ∀ (z z1 z2 : Zim) (S : String → Prop) (L : Nat) (blob : Entry → PyM Zim Unit) (d passes : Nat)
  (steps : List MainStep) (last : Option String), Roomy z S L → MainUnused z → (∀ e, .add e ∈ steps → Plain e) →
  z.bufferedRedirects = [] → z.bufferedMainpage = none →
  lastMain steps = some last → runSteps blob d steps z = (.ok (), z1) →
  finalizeOperations blob d passes z1 = (.ok (), z2) → ShowsMain z2 last

theorem sample_unused : MainUnused sample := by
  refine ⟨fun h => absurd h (by unfold Has; decide +kernel), fun s hs => ?_⟩
  obtain ⟨rows, other, h⟩ := sample_ready
  obtain ⟨_, _, _, _, q, _, hq, hqu⟩ := h.leads_iff.1 hs
  exact absurd ((h.has_iff _).2 ⟨q, List.mem_of_getElem? hq, hqu⟩) (by unfold Has; decide +kernel)

/-- no main page is given and then "a" -/
def noneThenA : PyRes Unit × Zim := runSteps (fun _ => pure ()) 9 [.setMain none, .setMain (some "a")] sample

/-- That is not true: after a setting to `None` any other setting is lost. -/
theorem C32_none_false : ¬ C32Full := by
  intro hall
  obtain ⟨S, hS, -⟩ := sample_roomy
  have h1 : noneThenA.1 = .ok () := by decide +kernel
  have h2 : (finalizeOperations (fun _ => pure ()) 9 9 noneThenA.2).1 = .ok () := by decide +kernel
  have := hall sample _ _ S 80 (fun _ => pure ()) 9 9 [.setMain none, .setMain (some "a")] (some "a") hS sample_unused
    (fun e he => by simp at he) (by decide +kernel) (by decide +kernel) rfl (run_eq h1) (run_eq h2)
  have h3 := this.1
  have h4 : (finalizeOperations (fun _ => pure ()) 9 9 noneThenA.2).2.mainpageEntry = .error .entryNotFound := by
    decide +kernel
  unfold MainPage at h3
  obtain ⟨e, he, -⟩ := h3
  have h5 : (.error .entryNotFound : PyRes Entry) = .ok e := h4.symm.trans he
  cases h5

/-- If a page that does not exist is given and then an existing one, then the end of the writing fails, because of the
page that is no longer the main page. -/
theorem C32_missing_fails :
    (runSteps (fun _ => pure ()) 9 [.setMain (some "x"), .setMain (some "a")] sample).1 = .ok () ∧
    (finalizeOperations (fun _ => pure ()) 9 9
      (runSteps (fun _ => pure ()) 9 [.setMain (some "x"), .setMain (some "a")] sample).2).1 =
      .error .unresolvedRedirect := by
  decide +kernel

/-- If that page is added in between, then it becomes the main page, and not the one given last. -/
theorem C32_missing_wins :
    (runSteps (fun _ => pure ()) 9 [.setMain (some "x"), .setMain (some "a"), .add (art "x" "z")] sample).1 = .ok () ∧
    (finalizeOperations (fun _ => pure ()) 9 9
      (runSteps (fun _ => pure ()) 9 [.setMain (some "x"), .setMain (some "a"), .add (art "x" "z")] sample).2).1 =
      .ok () ∧
    (finalizeOperations (fun _ => pure ()) 9 9
      (runSteps (fun _ => pure ()) 9 [.setMain (some "x"), .setMain (some "a"), .add (art "x" "z")] sample).2).2.leadsTo
      "WmainPage" = some "Cx" := by
  decide +kernel

/-- The hypotheses are met: three settings in the sample archive. -/
example : ∃ z', (setMainpageUrls (fun _ => pure ()) 9 (["a", "r"].map some ++ [some "b"]) >>= fun _ =>
    finalizeOperations (fun _ => pure ()) 9 9) sample = (.ok (), z') ∧ ShowsMain z' (some "b") := by
  obtain ⟨S, hS, -⟩ := sample_roomy
  have hb : Has sample ("C" ++ "b") := by unfold Has; decide +kernel
  refine (C32_partial hS sample_unused ["a", "r"] (some "b") (by decide +kernel) (by decide +kernel)
    (by decide +kernel) (by unfold Has; decide +kernel)
    (fun u hu => Option.some.inj hu ▸ hb) (fun _ => pure ()) 7 8).imp fun _ h => ⟨h.1, h.2.1⟩

/-- The hypotheses are met: a main page that is added afterwards. -/
example : ∃ z', (runSteps (fun _ => pure ()) 9 (.setMain (some "x") :: [art "0" "y", art "x" "z"].map .add) >>= fun _ =>
    finalizeOperations (fun _ => pure ()) 9 9) sample = (.ok (), z') ∧ ShowsMain z' (some "x") := by
  obtain ⟨S, hS, -⟩ := sample_roomy
  refine C32_deferred_partial hS sample_unused (by unfold Has; decide +kernel) (by decide +kernel)
    [art "0" "y", art "x" "z"] ?_ (by decide +kernel) (by unfold Has; decide +kernel) (by decide +kernel)
    (by decide +kernel) (by decide +kernel) _ 7 7
  intro e he
  have hok : ∀ e : Entry, e.toBytes.toOption.isSome = true → ∃ b, e.toBytes = .ok b := by
    intro e he
    cases hx : e.toBytes with
    | error x => rw [hx] at he; cases he
    | ok b => exact ⟨b, rfl⟩
  simp only [List.mem_cons, List.not_mem_nil, or_false] at he
  rcases he with rfl | rfl
  · exact ⟨art_proper (by decide +kernel) (by decide +kernel), rfl, rfl, (fun i hi => by cases hi),
      hok _ (by decide +kernel)⟩
  · exact ⟨art_proper (by decide +kernel) (by decide +kernel), rfl, rfl, (fun i hi => by cases hi),
      hok _ (by decide +kernel)⟩

end Zim
end Pyzim
