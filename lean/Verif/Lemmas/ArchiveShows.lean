import Verif.Spec.ArchiveMap
import Verif.Lemmas.ArchiveWrote

namespace Pyzim

theorem Entry.view_of_blank {e e' : Entry} (h : e.blank = e'.blank) : e.view = e'.view := by
  have h1 : ∀ e : Entry, e.blank.view = e.view := by
    intro e
    unfold Entry.blank
    cases hk : e.kind with
    | content c b => rfl
    | redirect i => simp only [Entry.view, Entry.withIndex, hk]; rfl
  rw [← h1 e, h, h1]

theorem Entry.view_fresh (e : Entry) : e.fresh.view = e.view := rfl

theorem Entry.view_fullUrl (e : Entry) : e.view.ns ++ e.view.url = e.fullUrl := rfl

namespace Zim

variable {z : Zim} {rows : List Row} {other : Nat → Prop} {S : String → Prop} {m : Catalogue}

/-- the catalogue lists the rows -/
def Lists (m : Catalogue) (rows : List Row) : Prop := ∀ u v, m u = some v ↔ ∃ r ∈ rows, r.2.fullUrl = u ∧ r.2.view = v

theorem Lists.isSome (h : Lists m rows) (u : String) : (m u).isSome = true ↔ HasUrl rows u := by
  rw [Option.isSome_iff_exists]
  constructor
  · rintro ⟨v, hv⟩
    obtain ⟨r, hr, hu, -⟩ := (h u v).1 hv
    exact ⟨r, hr, hu⟩
  · rintro ⟨r, hr, hu⟩
    exact ⟨_, (h u _).2 ⟨r, hr, hu, rfl⟩⟩

theorem Lists.none (h : Lists m rows) (u : String) : m u = none ↔ ¬ HasUrl rows u := by
  rw [← h.isSome u]
  cases m u <;> simp

theorem exists_lists (hd : DistinctUrls rows) : ∃ m, Lists m rows := by
  classical
  refine ⟨fun u => if h : ∃ r ∈ rows, r.2.fullUrl = u then some h.choose.2.view else Option.none, fun u v => ?_⟩
  by_cases h : ∃ r ∈ rows, r.2.fullUrl = u
  · simp only [dif_pos h]
    have hc := h.choose_spec
    constructor
    · intro hv
      injection hv with hv
      exact ⟨_, hc.1, hc.2, hv⟩
    · rintro ⟨r, hr, hu, hv⟩
      rw [hd.row_eq hc.1 hr (by rw [hc.2, hu]), hv]
  · simp only [dif_neg h]
    constructor
    · intro hv; cases hv
    · rintro ⟨r, hr, hu, -⟩; exact absurd ⟨r, hr, hu⟩ h

theorem Rep.hasEntry (h : Rep z rows other) (u : String) : ∃ b, z.hasEntry u = .ok b ∧ (b = true ↔ HasUrl rows u) := by
  unfold Zim.hasEntry PointerList.has
  by_cases hu : HasUrl rows u
  · obtain ⟨r, hr, hru⟩ := hu
    obtain ⟨i, hi⟩ := List.getElem?_of_mem hr
    have := h.urlsGet hi
    rw [hru] at this
    rw [this]
    exact ⟨true, rfl, fun _ => ⟨r, hr, hru⟩, fun _ => rfl⟩
  · rw [h.urlsGet_missing fun r hr he => hu ⟨r, hr, he⟩]
    exact ⟨false, rfl, fun hh => (by cases hh), fun hh => absurd hh hu⟩

theorem Rep.shows_iff (h : Rep z rows other) : Shows z m ↔ Lists m rows := by
  constructor
  · intro hs u v
    obtain ⟨es, h1, h2, h3, h4⟩ := hs.iter
    rw [h.iterEntries] at h1
    injection h1 with h1
    rw [h3, ← h1]
    simp only [List.mem_map]
    constructor
    · rintro ⟨e, ⟨r, hr, rfl⟩, hu, hv⟩; exact ⟨r, hr, hu, hv⟩
    · rintro ⟨r, hr, hu, hv⟩; exact ⟨_, ⟨r, hr, rfl⟩, hu, hv⟩
  · intro hl
    refine ⟨?_, ?_, ?_, ?_⟩
    · intro u v hv
      obtain ⟨r, hr, rfl, hvv⟩ := (hl u v).1 hv
      exact ⟨r.2, h.entryByFullUrl hr, rfl, hvv⟩
    · intro u hu
      have := (hl.none u).1 hu
      exact h.entryByFullUrl_missing fun r hr he => this ⟨r, hr, he⟩
    · intro u
      obtain ⟨b, hb, hbu⟩ := h.hasEntry u
      rw [hb]
      congr 1
      rw [Bool.eq_iff_iff, hbu, hl.isSome]
    · refine ⟨rows.map (·.2), h.iterEntries, List.pairwise_map.2 h.sorted, fun u v => ?_, by rw [h.len]; simp⟩
      rw [hl]
      simp only [List.mem_map]
      constructor
      · rintro ⟨r, hr, hu, hv⟩; exact ⟨_, ⟨r, hr, rfl⟩, hu, hv⟩
      · rintro ⟨e, ⟨r, hr, rfl⟩, hu, hv⟩; exact ⟨r, hr, hu, hv⟩

theorem Rep.leads_iff (h : Rep z rows other) {s t : String} : Leads z s t ↔ LeadsR rows s t := by
  constructor
  · rintro ⟨e, i, e', he, rfl, hk, hi, rfl⟩
    by_cases hu : HasUrl rows e.fullUrl
    · obtain ⟨r, hr, hru⟩ := hu
      rw [← hru, h.entryByFullUrl hr] at he
      injection he with he
      subst he
      by_cases hil : i < rows.length
      · have hq := List.getElem?_eq_getElem hil
        rw [h.entryByIndex hq] at hi
        injection hi with hi
        exact ⟨r, hr, rfl, i, _, hk, hq, by rw [hi]⟩
      · rw [h.entryByIndex_out (by omega)] at hi
        cases hi
    · rw [h.entryByFullUrl_missing fun r hr he => hu ⟨r, hr, he⟩] at he
      cases he
  · rintro ⟨r, hr, rfl, i, q, hk, hq, rfl⟩
    exact ⟨r.2, i, q.2, h.entryByFullUrl hr, rfl, hk, h.entryByIndex hq, rfl⟩

theorem Rep.mainPage_iff (h : Rep z rows other) {w : String} : MainPage z w ↔ MainIs z.header rows w := by
  unfold MainPage MainIs Zim.mainpageEntry
  cases hm : z.header.mainPage with
  | none => simp
  | some m =>
    simp only
    by_cases hml : m < rows.length
    · have hq := List.getElem?_eq_getElem hml
      rw [h.getByIndex hq]
      simp only [h.entryAt (List.mem_of_getElem? hq)]
      constructor
      · rintro ⟨e, he, rfl⟩
        injection he with he
        exact ⟨m, _, rfl, hq, by rw [he]⟩
      · rintro ⟨m', r, hm', hr, rfl⟩
        injection hm' with hm'
        subst hm'
        rw [hq] at hr
        injection hr with hr
        exact ⟨_, rfl, by rw [hr]⟩
    · rw [h.getByIndex_out (by omega)]
      constructor
      · rintro ⟨e, he, -⟩; cases he
      · rintro ⟨m', r, hm', hr, -⟩
        injection hm' with hm'
        subst hm'
        rw [List.getElem?_eq_none (by omega)] at hr
        cases hr

/-- the entries from which `u` is reached are closed under "leads to" -/
theorem reaches_closed (h : Rep z rows other) (u : String) : ClosedR (Reaches z u) rows :=
  fun _ _ hl ht => .step (h.leads_iff.2 hl) ht

theorem Removal.gone_of_reaches (h : Rep z rows other) {u : String} {rows' : List Row} (hr : Removal u rows rows')
    {w : String} (hw : Reaches z u w) : ¬ HasUrl rows' w := by
  induction hw with
  | refl => exact hr.gone
  | step hl _ ih => exact fun hh => ih (hr.chain _ _ hh (h.leads_iff.1 hl))

theorem Removal.hasUrl_iff (h : Rep z rows other) {u : String} {rows' : List Row} (hr : Removal u rows rows') (w : String) :
    HasUrl rows' w ↔ HasUrl rows w ∧ ¬ Reaches z u w := by
  have hc := hr.cut (Reaches z u) .refl (reaches_closed h u)
  constructor
  · exact fun hh => ⟨hc.mono hh, fun hw => hr.gone_of_reaches h hw hh⟩
  · rintro ⟨⟨r, hr', rfl⟩, hw⟩
    exact hc.keep r hr' hw

theorem Lists.write {e : Entry} {old : String} {rows' : List Row} (hl : Lists m rows)
    (hd' : DistinctUrls rows') (hw : Written e old rows rows') : Lists (m.write e (some old)) rows' := by
  intro u v
  unfold Catalogue.write
  by_cases hu : u = e.fullUrl
  · rw [if_pos hu]
    obtain ⟨r, hr, hru, hrb⟩ := hw.found
    constructor
    · intro hv
      injection hv with hv
      exact ⟨r, hr, by rw [hru, hu], by rw [Entry.view_of_blank hrb, ← hv]; rfl⟩
    · rintro ⟨s, hs, hsu, rfl⟩
      rw [hd'.row_eq hs hr (by rw [hsu, hru, hu]), Entry.view_of_blank hrb]; rfl
  · rw [if_neg hu]
    by_cases ho : u = old
    · rw [if_pos (by rw [ho])]
      constructor
      · intro hv; cases hv
      · rintro ⟨s, hs, hsu, -⟩
        obtain ⟨r, hr, hro, hb⟩ := hw.others s hs (by rw [hsu]; exact hu)
        exact absurd (by rw [Entry.blank_fullUrl hb, hsu, ho]) hro
    · rw [if_neg (by intro hh; injection hh with hh; exact ho hh), hl]
      constructor
      · rintro ⟨r, hr, rfl, rfl⟩
        obtain ⟨s, hs, hb⟩ := hw.keep r hr ho hu
        exact ⟨s, hs, Entry.blank_fullUrl hb, Entry.view_of_blank hb⟩
      · rintro ⟨s, hs, hsu, rfl⟩
        obtain ⟨r, hr, -, hb⟩ := hw.others s hs (by rw [hsu]; exact hu)
        exact ⟨r, hr, by rw [Entry.blank_fullUrl hb, hsu], Entry.view_of_blank hb⟩

theorem Lists.without {u : String} {rows' : List Row} (h : Rep z rows other) (hl : Lists m rows)
    (hr : Removal u rows rows') : Lists (m.without (Reaches z u)) rows' := by
  have hc := hr.cut (Reaches z u) .refl (reaches_closed h u)
  intro w v
  unfold Catalogue.without
  by_cases hw : Reaches z u w
  · rw [if_pos hw]
    constructor
    · intro hv; cases hv
    · rintro ⟨s, hs, hsu, -⟩
      exact absurd ⟨s, hs, hsu⟩ (hr.gone_of_reaches h hw)
  · rw [if_neg hw, hl]
    constructor
    · rintro ⟨r, hr', rfl, rfl⟩
      obtain ⟨s, hs, hsu⟩ := hc.keep r hr' hw
      obtain ⟨r0, hr0, -, hb⟩ := hc.sub s hs
      have := (distinct_of_sorted h.sorted).row_eq hr0 hr' (by rw [Entry.blank_fullUrl hb, hsu])
      subst this
      exact ⟨s, hs, hsu, (Entry.view_of_blank hb).symm⟩
    · rintro ⟨s, hs, rfl, rfl⟩
      obtain ⟨r0, hr0, -, hb⟩ := hc.sub s hs
      exact ⟨r0, hr0, Entry.blank_fullUrl hb, Entry.view_of_blank hb⟩

/-- `Accepts` in terms of the rows -/
theorem Rep.accepts (h : Rep z rows other) {e : Entry} (ha : Accepts z e) :
    HasUrl rows e.fullUrl → e.oldFullUrl = some e.fullUrl := by
  intro hh
  refine ha.url ?_
  obtain ⟨b, hb, hbu⟩ := h.hasEntry e.fullUrl
  rw [hb, hbu.2 hh]

end Zim
end Pyzim
