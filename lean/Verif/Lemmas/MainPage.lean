import Verif.Lemmas.OperationBuffer

namespace Pyzim
namespace Zim

variable {z : Zim} {rows : List Row} {other : Nat → Prop} {S : String → Prop} {L : Nat}

theorem Art.before_main (h : Rep z rows other) (hA : Art z.articles rows S) (w : String) (hw : S w) :
    encode w < encode URL_MAINPAGE_REDIRECT := by
  obtain ⟨r, hr, rfl⟩ := hA.dom w hw
  have hn := hA.inC r hr hw
  unfold Entry.fullUrl
  rw [hn, encode_append]
  have h1 : encode "C" = [67] := by decide +kernel
  have h2 : encode URL_MAINPAGE_REDIRECT = 87 :: encode "mainPage" := by decide +kernel
  rw [h1, h2]
  exact List.Lex.rel (by decide)

theorem Rep.removeEntry_redirect (h : Rep z rows other) {r : Row} (hr : r ∈ rows) (hred : r.2.isRedirect = true)
    (bd blob blob' : Entry → PyM Zim Unit) (d : Nat) :
    Zim.removeEntry bd (d + 1) blob r.2.fullUrl z = Zim.removeEntry bd (d + 1) blob' r.2.fullUrl z := by
  obtain ⟨k, hk⟩ := List.getElem?_of_mem hr
  obtain ⟨o, e⟩ := r
  rw [h.removeEntry_eq hk, h.removeEntry_eq hk]
  simp only [hred, if_true]

/-- what removing the old main page does -/
structure MainRemoved (z z' : Zim) : Prop where
  gone : ¬ Has z' URL_MAINPAGE_REDIRECT
  has : ∀ u, u ≠ URL_MAINPAGE_REDIRECT → (Has z' u ↔ Has z u)
  leads : ∀ s t, s ≠ URL_MAINPAGE_REDIRECT → (Leads z' s t ↔ Leads z s t)
  len : z'.urls.len ≤ z.urls.len
  redirects : z'.bufferedRedirects = z.bufferedRedirects
  mainpage : z'.bufferedMainpage = z.bufferedMainpage

theorem Roomy.removeMain (h : Roomy z S L) (hu : MainUnused z) (blob : Entry → PyM Zim Unit) (d : Nat) :
    ∃ z' S', removeMainpageRedirect blob (d + 2) z = (.ok (), z') ∧ Roomy z' S' L ∧ MainRemoved z z' := by
  have hroomy := h
  obtain ⟨rows, other, h, hA, hother, hlen, hL, hrange⟩ := h
  by_cases hex : HasUrl rows URL_MAINPAGE_REDIRECT
  · obtain ⟨r, hr, hru⟩ := hex
    have he := h.entryByFullUrl hr
    have hred : r.2.isRedirect = true := by
      obtain ⟨t, ht⟩ := hu.redirect ((h.has_iff _).2 ⟨r, hr, hru⟩)
      obtain ⟨r', hr', hru', j, q, hk, -⟩ := h.leads_iff.1 ht
      have := (distinct_of_sorted h.sorted).row_eq hr' hr (by rw [hru', hru]; rfl)
      subst this
      exact (h.store.clean r' hr).isRedirect.2 ⟨j, hk⟩
    have hno : ∀ s, ¬ Leads z s r.2.fullUrl := by rw [hru]; exact hu.target
    obtain ⟨z', hz', hr'⟩ := hroomy.removeEntry he (Or.inr (by rw [hru]; exact Art.before_main h hA)) hno blob blob
      (Or.inl hred) d
    have hz2 := hz'
    rw [h.removeEntry_redirect hr hred blob blob (fun _ => pure ())] at hz2
    obtain ⟨-, z1, other1, rows', h1, ha1, hm1, hz1, hrep, hfr, hrem, -, hl', -⟩ := h.removeEntry_ok
      (blob := fun _ => pure ()) (fun e z1 _ hb => by injection hb with _ hb; subst hb; exact ⟨other, h, rfl, rfl⟩) hz2
    have hz1' : z1 = z := by
      rcases hz1 with ⟨hz1, -⟩ | ⟨e, hz1⟩
      · exact hz1
      · injection hz1 with _ hz1; exact hz1.symm
    subst hz1'
    have hreach : ∀ w, Reaches z1 r.2.fullUrl w ↔ w = r.2.fullUrl := by
      intro w
      constructor
      · intro hw
        cases hw with
        | refl => rfl
        | step hl hw =>
          exfalso
          revert hl
          rename_i t
          have : ∀ t, Reaches z1 r.2.fullUrl t → ∀ s, ¬ Leads z1 s t := by
            intro t ht
            induction ht with
            | refl => exact hno
            | step hl _ ih => exact absurd hl (ih _)
          exact this t hw w
      · rintro rfl; exact .refl
    have hhas : ∀ w, HasUrl rows' w ↔ HasUrl rows w ∧ w ≠ r.2.fullUrl := fun w => by
      rw [hrem.hasUrl_iff h w, hreach]
    refine ⟨z', _, ?_, hr', ?_, ?_, ?_, ?_, hfr.redirects, hfr.mainpage⟩
    · unfold removeMainpageRedirect
      rw [hru] at hz'
      rw [hz']
    · rw [hrep.has_iff, ← hru, hhas]; simp
    · intro u hne
      rw [hrep.has_iff, h.has_iff, hhas, hru]
      exact ⟨fun h => h.1, fun h => ⟨h, hne⟩⟩
    · intro s t hs
      have hfwd : ∀ t, LeadsR rows s t → LeadsR rows' s t := by
        intro t hl
        have hcut := hrem.cut (Reaches z1 r.2.fullUrl) .refl (reaches_closed h _)
        obtain ⟨q, hq, hqu, _⟩ := id hl
        have hs' : HasUrl rows' s := (hhas s).2 ⟨⟨q, hq, hqu⟩, by rw [hru]; exact hs⟩
        exact hcut.leads s t hs' (hrem.chain s t hs' hl) hl
      rw [hrep.leads_iff, h.leads_iff]
      refine ⟨fun hl => ?_, hfwd t⟩
      obtain ⟨q', hq', hqu', i', _, hk', -⟩ := id hl
      have hcut := hrem.cut (Reaches z1 r.2.fullUrl) .refl (reaches_closed h _)
      obtain ⟨q, hq, -, hb⟩ := hcut.sub q' hq'
      exact LeadsR.back (distinct_of_sorted hrep.sorted) hrange hq (by rw [Entry.blank_fullUrl hb, hqu'])
        ((Entry.blank_redirect hb).2 ⟨i', hk'⟩) hfwd hl
    · rw [hrep.len, h.len]; exact hl'
  · refine ⟨z, S, ?_, hroomy, ?_, fun _ _ => Iff.rfl, fun _ _ _ => Iff.rfl, Nat.le_refl _, rfl, rfl⟩
    · unfold removeMainpageRedirect
      rw [h.removeEntry_missing fun r hr he => hex ⟨r, hr, he⟩]
    · rw [h.has_iff]; exact hex

/-- the archive with another header -/
def setHeader (z : Zim) (h : Header) : Zim := { z with header := h }

theorem Rep.setHeader (h : Rep z rows other) {hd : Header} (hm : hd.mutable = true) : Rep (z.setHeader hd) rows other :=
  ⟨h.store, h.sorted, h.urls, h.urlsMutable, h.isOpen, h.isMutable, h.noTitles, hm⟩

theorem onHeader_setHeader {α : Type} (f : Header → PyRes α × Header) (z : Zim) :
    onHeader f z = ((f z.header).1, z.setHeader (f z.header).2) := rfl

theorem setMainPage_some {h : Header} (hm : h.mutable = true) {i : Nat} (hi : i < 0xffffffff) :
    (h.setMainPage (some (i : Int))).1 = .ok () ∧ (h.setMainPage (some (i : Int))).2.mutable = true ∧
      (h.setMainPage (some (i : Int))).2.mainPage = some i := by
  unfold Header.setMainPage
  simp only [hm, Bool.not_true, Bool.false_eq_true, if_false, Int.toNat_natCast]
  rw [if_neg (by omega)]
  split
  · refine ⟨rfl, rfl, ?_⟩
    unfold Header.mainPage
    simp only
    rw [if_neg (by omega)]
  · rename_i hh
    have hh : i = h.mainPageRaw := by simpa using hh
    refine ⟨rfl, hm, ?_⟩
    unfold Header.mainPage
    rw [← hh, if_neg (by omega)]

theorem setMainPage_none {h : Header} (hm : h.mutable = true) :
    (h.setMainPage none).1 = .ok () ∧ (h.setMainPage none).2.mutable = true ∧ (h.setMainPage none).2.mainPage = none := by
  unfold Header.setMainPage
  simp only [hm, Bool.not_true, Bool.false_eq_true, if_false]
  split
  · exact ⟨rfl, rfl, by simp [Header.mainPage]⟩
  · rename_i hh
    have hh : 0xffffffff = h.mainPageRaw := by simpa using hh
    exact ⟨rfl, hm, by unfold Header.mainPage; rw [if_pos hh.symm]⟩

theorem Roomy.setHeader (h : Roomy z S L) {hd : Header} (hm : hd.mutable = true) : Roomy (z.setHeader hd) S L := by
  obtain ⟨rows, other, h, hrest⟩ := h
  exact ⟨rows, other, h.setHeader hm, hrest⟩

theorem Roomy.headerMutable (h : Roomy z S L) : z.header.mutable = true := by
  obtain ⟨rows, other, h, hrest⟩ := h
  exact h.headerMutable

/-- what stays the same when the main page is set -/
structure MainSet (z z' : Zim) : Prop where
  has : ∀ u, u ≠ URL_MAINPAGE_REDIRECT → (Has z' u ↔ Has z u)
  leads : ∀ s t, s ≠ URL_MAINPAGE_REDIRECT → (Leads z' s t ↔ Leads z s t)
  unused : MainUnused z'
  len : z'.urls.len ≤ z.urls.len + 1
  redirects : z'.bufferedRedirects = z.bufferedRedirects

theorem setMainpageUrl_none (blob : Entry → PyM Zim Unit) (d : Nat) (hop : z.closed = false) (hmu : z.mutable = true) :
    setMainpageUrl blob d none z = (removeMainpageRedirect blob d >>= fun _ =>
      onHeader (fun h => h.setMainPage none) >>= fun _ => bufferSetMainpageUrl none) z := by
  unfold setMainpageUrl
  simp only [PyM.get_bind, hop, hmu, Bool.not_false, PyM.require_true_bind]

theorem setMainpageUrl_some (blob : Entry → PyM Zim Unit) (d : Nat) (u : String) (hop : z.closed = false)
    (hmu : z.mutable = true) :
    setMainpageUrl blob d (some u) z = (removeMainpageRedirect blob d >>= fun _ =>
      addFullUrlRedirect d URL_MAINPAGE_REDIRECT ("C" ++ u) none >>= fun _ => PyM.get >>= fun z =>
      match z.urlIndex URL_MAINPAGE_REDIRECT with
      | .error .keyError => bufferSetMainpageUrl (some u)
      | .error x => PyM.raise x
      | .ok i => onHeader (fun h => h.setMainPage (some (i : Int)))) z := by
  unfold setMainpageUrl
  simp only [PyM.get_bind, hop, hmu, Bool.not_false, PyM.require_true_bind]
  rfl

theorem MainRemoved.unused {z' : Zim} (hr : Ready z') (h : MainRemoved z z') : MainUnused z' := by
  obtain ⟨rows, other, hr⟩ := hr
  have hg := h.gone
  rw [hr.has_iff] at hg
  refine ⟨fun he => absurd he h.gone, fun s hs => ?_⟩
  · obtain ⟨_, _, _, _, q, _, hq, hqu⟩ := hr.leads_iff.1 hs
    exact hg ⟨q, List.mem_of_getElem? hq, hqu⟩

theorem Roomy.setMain_none (h : Roomy z S L) (hu : MainUnused z) (blob : Entry → PyM Zim Unit) (d : Nat) :
    ∃ z' S', setMainpageUrl blob (d + 2) none z = (.ok (), z') ∧ Roomy z' S' L ∧ MainSet z z' ∧ ShowsMain z' none ∧
      z'.bufferedMainpage = some none := by
  have hrep := h
  obtain ⟨rows, other, hrep, -⟩ := hrep
  obtain ⟨z1, S1, h1, hr1, hm1⟩ := h.removeMain hu blob d
  obtain ⟨g1, g2, g3⟩ := setMainPage_none hr1.headerMutable
  refine ⟨{ z1.setHeader (z1.header.setMainPage none).2 with bufferedMainpage := some none }, S1, ?_, ?_, ?_, ?_, rfl⟩
  · rw [setMainpageUrl_none _ _ hrep.isOpen hrep.isMutable, PyM.bind_ok h1]
    have : onHeader (fun h => h.setMainPage none) z1 = (.ok (), z1.setHeader (z1.header.setMainPage none).2) := by
      rw [onHeader_setHeader, g1]
    rw [PyM.bind_ok this]
    rfl
  · obtain ⟨rows1, other1, hrep1, hrest⟩ := hr1
    have := hrep1.setHeader g2
    exact ⟨rows1, other1, ⟨this.store, this.sorted, this.urls, this.urlsMutable, this.isOpen, this.isMutable,
      this.noTitles, this.headerMutable⟩, hrest⟩
  · have hun := hm1.unused hr1.ready
    refine ⟨hm1.has, hm1.leads, ⟨hun.redirect, hun.target⟩, ?_, hm1.redirects⟩
    have := hm1.len
    show z1.urls.len ≤ _
    omega
  · show Zim.mainpageEntry _ = _
    unfold Zim.mainpageEntry
    show (match (z1.header.setMainPage none).2.mainPage with | none => _ | some i => _) = _
    rw [g3]

theorem page_ne_main (u : String) : "C" ++ u ≠ URL_MAINPAGE_REDIRECT := by
  intro he
  have := congrArg (fun s => s.toList.head?) he
  rw [String.toList_append] at this
  have h2 : some 'C' = URL_MAINPAGE_REDIRECT.toList.head? := this
  exact absurd h2 (by decide +kernel)

theorem main_valid (u : String) : Redirect.Valid (URL_MAINPAGE_REDIRECT, "C" ++ u, none) := by
  refine ⟨⟨'W', "mainPage", show URL_MAINPAGE_REDIRECT = _ by decide +kernel, by decide, by decide +kernel⟩, ?_, by simp,
    fun he => page_ne_main u he.symm⟩
  intro he
  have := congrArg (fun s => s.toList.length) he
  simp at this

theorem Roomy.setMain_some (h : Roomy z S L) (hu : MainUnused z) {u : String} (ht : Has z ("C" ++ u))
    (hroom : z.urls.len + 1 < L) (blob : Entry → PyM Zim Unit) (d : Nat) :
    ∃ z' S', setMainpageUrl blob (d + 2) (some u) z = (.ok (), z') ∧ Roomy z' S' L ∧ MainSet z z' ∧
      ShowsMain z' (some u) ∧ z'.bufferedMainpage = z.bufferedMainpage := by
  have hrep := h
  obtain ⟨rows, other, hrep, -⟩ := hrep
  obtain ⟨z1, S1, h1, hr1, hm1⟩ := h.removeMain hu blob d
  have hCW := page_ne_main u
  have hl1 := hm1.len
  obtain ⟨z2, S2, h2, hr2, hl2, hb2, hx2, hld2, hhas2, hback2⟩ := hr1.addRedirect (main_valid u) (by omega) hm1.gone
    ((hm1.has _ hCW).2 ht) d
  have hrep2 := hr2
  obtain ⟨rows2, other2, hrep2, -, -, hlen2, hL2, -⟩ := hrep2
  obtain ⟨r, hr, hru⟩ := (hrep2.has_iff _).1 ((hhas2 URL_MAINPAGE_REDIRECT).2 (Or.inr rfl))
  obtain ⟨i, hi⟩ := List.getElem?_of_mem hr
  have hil := (List.getElem?_eq_some_iff.1 hi).1
  obtain ⟨g1, g2, g3⟩ := setMainPage_some hr2.headerMutable (i := i) (by omega)
  have hui := hrep2.urlIndex hi
  rw [hru] at hui
  have hrep3 := hrep2.setHeader g2
  refine ⟨z2.setHeader (z2.header.setMainPage (some (i : Int))).2, S2, ?_, hr2.setHeader g2, ?_, ⟨?_, hld2⟩, ?_⟩
  · rw [setMainpageUrl_some _ _ _ hrep.isOpen hrep.isMutable, PyM.bind_ok h1, PyM.bind_ok h2, PyM.get_bind, hui]
    simp only
    rw [onHeader_setHeader, g1]
  · refine ⟨?_, ?_, ⟨?_, ?_⟩, ?_, ?_⟩
    · intro w hw
      refine (hhas2 w).trans ?_
      rw [← hm1.has w hw]
      exact ⟨fun hh => hh.resolve_right hw, Or.inl⟩
    · intro s t hs
      rw [← hm1.leads s t hs]
      exact ⟨hback2 s t hs, hx2.leads s t⟩
    · exact fun _ => ⟨_, hld2⟩
    · intro s hs
      by_cases hsW : s = URL_MAINPAGE_REDIRECT
      · subst hsW
        have := LeadsR.unique (distinct_of_sorted hrep2.sorted) (hrep2.leads_iff.1 hs) (hrep2.leads_iff.1 hld2)
        exact hCW this.symm
      · have := hback2 s _ hsW hs
        exact (hm1.unused hr1.ready).target s this
    · show z2.urls.len ≤ _
      omega
    · show z2.bufferedRedirects = _
      rw [hb2, hm1.redirects]
  · refine hrep3.mainPage_iff.2 ⟨i, r, g3, hi, hru⟩
  · show z2.bufferedMainpage = _
    rw [hx2.mainpage, hm1.mainpage]

/-- Setting a main page that does not exist yet removes the old one and buffers the setting. -/
theorem Roomy.setMain_missing (h : Roomy z S L) (hu : MainUnused z) {u : String} (ht : ¬ Has z ("C" ++ u))
    (blob : Entry → PyM Zim Unit) (d : Nat) :
    ∃ z' S', setMainpageUrl blob (d + 2) (some u) z = (.ok (), z') ∧ Roomy z' S' L ∧
      (∀ w, w ≠ URL_MAINPAGE_REDIRECT → (Has z' w ↔ Has z w)) ∧
      (∀ s t, s ≠ URL_MAINPAGE_REDIRECT → (Leads z' s t ↔ Leads z s t)) ∧ ¬ Has z' URL_MAINPAGE_REDIRECT ∧
      MainUnused z' ∧ z'.urls.len ≤ z.urls.len ∧
      z'.bufferedRedirects = z.bufferedRedirects ++ [(URL_MAINPAGE_REDIRECT, "C" ++ u, none)] ∧
      z'.bufferedMainpage = some (some u) := by
  have hrep := h
  obtain ⟨rows, other, hrep, -⟩ := hrep
  obtain ⟨z1, S1, h1, hr1, hm1⟩ := h.removeMain hu blob d
  have hu1 := hm1.unused hr1.ready
  have hrep1 := hr1
  obtain ⟨rows1, other1, hrep1, hrest1⟩ := hrep1
  have hmiss : ∀ w, ¬ Has z1 w → ∀ r ∈ rows1, r.2.fullUrl ≠ w := fun w hw r hr he =>
    hw ((hrep1.has_iff _).2 ⟨r, hr, he⟩)
  have hC : ¬ Has z1 ("C" ++ u) := fun hh => ht ((hm1.has _ (page_ne_main u)).1 hh)
  have h2 := hrep1.addRedirect_missing (main_valid u) (fun hh => hC ((hrep1.has_iff _).2 hh)) (d + 2)
  have hrep2 := hrep1.withBuffer (z1.bufferedRedirects ++ [(URL_MAINPAGE_REDIRECT, "C" ++ u, none)])
  have hr2 : Roomy (z1.withBuffer (z1.bufferedRedirects ++ [(URL_MAINPAGE_REDIRECT, "C" ++ u, none)])) S1 L :=
    ⟨rows1, other1, hrep2, hrest1⟩
  refine ⟨{ z1.withBuffer (z1.bufferedRedirects ++ [(URL_MAINPAGE_REDIRECT, "C" ++ u, none)]) with
    bufferedMainpage := some (some u) }, S1, ?_, ?_, hm1.has, hm1.leads, hm1.gone, ⟨hu1.redirect, hu1.target⟩, hm1.len,
    ?_, rfl⟩
  · rw [setMainpageUrl_some _ _ _ hrep.isOpen hrep.isMutable, PyM.bind_ok h1, PyM.bind_ok h2, PyM.get_bind,
      hrep2.urlIndex_missing (hmiss _ hm1.gone)]
    rfl
  · exact ⟨rows1, other1, ⟨hrep1.store, hrep1.sorted, hrep1.urls, hrep1.urlsMutable, hrep1.isOpen, hrep1.isMutable,
      hrep1.noTitles, hrep1.headerMutable⟩, hrest1⟩
  · show z1.bufferedRedirects ++ _ = _
    rw [hm1.redirects]

/-- Adding a new entry that is no redirect succeeds and keeps everything else. -/
theorem Roomy.addPlain (h : Roomy z S L) {e : Entry} (hp : e.Proper) (hm : e.mutable = true)
    (hold : e.oldFullUrl = some e.fullUrl) (hkind : ∀ i, e.kind ≠ .redirect i) (hb : ∃ b, e.toBytes = .ok b)
    (hroom : z.urls.len + 1 < L) (hnew : ¬ Has z e.fullUrl) (d : Nat) :
    ∃ e' z' S', writeEntry (d + 2) e true true z = (.ok e', z') ∧ Roomy z' S' L ∧
      z'.urls.len = z.urls.len + 1 ∧ z'.bufferedRedirects = z.bufferedRedirects ∧ Extends z z' ∧
      (∀ u, Has z' u ↔ Has z u ∨ u = e.fullUrl) ∧ ∀ s t, Leads z' s t → Leads z s t := by
  have hroomy := h
  obtain ⟨rows, other, h, hA, hother, hlen, hL, hrange⟩ := h
  rw [h.has_iff] at hnew
  have hhe : z.hasEntry e.fullUrl = .ok false := h.hasEntry_false hnew
  obtain ⟨e', z', hw, hr'⟩ := C63_add_succeeds hroomy hp hm hold hhe hb (fun j hj => absurd hj (hkind j)) d true true
  obtain ⟨old, rows', f, hold', hwr, hrep, hfr, -⟩ := h.writeEntry_ok hp (fun _ => hold) hw
  have ho : old = e.fullUrl := by rw [hold] at hold'; injection hold' with hold'; exact hold'.symm
  have hd := distinct_of_sorted h.sorted
  have hhas : ∀ u, Has z' u ↔ Has z u ∨ u = e.fullUrl := fun u => by
    rw [h.has_iff, hrep.has_iff]
    exact hwr.hasUrl h.store.clean hd (by rw [ho]) u
  refine ⟨e', z', _, hw, hr' hroom, ?_, hfr.redirects, ⟨fun u hu => (hhas u).2 (Or.inl hu), ?_, hfr.mainpage⟩, hhas, ?_⟩
  · rw [hrep.len, h.len]
    cases hwr with
    | new n off hno hnu hn hi hr => exact inserted_length hn.le
    | same k o e0 hk hoo hu hsz hi => exact absurd ⟨_, List.mem_of_getElem? hk, hu.symm⟩ hnew
    | moved k o e0 n off us hk hoo hch hn hus hi hr1 hr2 hr3 =>
      exact absurd ⟨_, List.mem_of_getElem? hk, by rw [← ho, hoo]⟩ hnew
  · intro s t hl
    exact C34_add_partial ⟨rows, other, h⟩ hp hhe hold hw hl
  · intro s t hl
    rw [hrep.leads_iff] at hl
    refine h.leads_iff.2 ?_
    obtain ⟨r', hr', hru', i', q', hk', -⟩ := id hl
    have hne : s ≠ e.fullUrl := by
      intro he
      obtain ⟨q1, hq1, hqu1, hqb⟩ := (hwr.written h.store.clean hd).found
      have := (distinct_of_sorted hrep.sorted).row_eq hq1 hr' (by rw [hqu1, hru', he])
      subst this
      obtain ⟨i2, hi2⟩ := (Entry.blank_redirect hqb).1 ⟨i', hk'⟩
      exact hkind i2 hi2
    obtain ⟨r0, hr0, -, hb0⟩ := (hwr.written h.store.clean hd).others r' hr' (by rw [hru']; exact hne)
    refine LeadsR.back (distinct_of_sorted hrep.sorted) hrange hr0 (by rw [Entry.blank_fullUrl hb0, hru'])
      ((Entry.blank_redirect hb0).2 ⟨i', hk'⟩) (fun t hlt => ?_) hl
    exact hrep.leads_iff.1 (C34_add_partial ⟨rows, other, h⟩ hp hhe hold hw (h.leads_iff.2 hlt))

end Zim
end Pyzim
