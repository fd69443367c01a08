import Verif.Lemmas.ArchiveRemove

namespace Pyzim

/-- the entry without the index of the target of a redirect -/
def Entry.blank (e : Entry) : Entry :=
  match e.kind with
  | .redirect _ => e.withIndex 0
  | .content _ _ => e

theorem Entry.blank_withIndex {e : Entry} {i : Nat} (j : Nat) (h : e.kind = .redirect i) :
    (e.withIndex j).blank = e.blank := by
  unfold Entry.blank
  rw [h]
  rfl

theorem Entry.blank_fullUrl {e e' : Entry} (h : e.blank = e'.blank) : e.fullUrl = e'.fullUrl := by
  have h1 : ∀ e : Entry, e.blank.fullUrl = e.fullUrl := by
    intro e; unfold Entry.blank; split <;> rfl
  rw [← h1 e, h, h1]

theorem Entry.blank_redirect {e e' : Entry} (h : e.blank = e'.blank) :
    (∃ i, e.kind = .redirect i) ↔ ∃ i, e'.kind = .redirect i := by
  have h1 : ∀ e : Entry, (∃ i, e.blank.kind = .redirect i) ↔ ∃ i, e.kind = .redirect i := by
    intro e
    unfold Entry.blank
    cases hk : e.kind with
    | content c b => simp [hk]
    | redirect i => simp [Entry.withIndex]
  rw [← h1 e, h, h1]

namespace Zim

variable {z : Zim} {rows : List Row} {other : Nat → Prop} {S : String → Prop}

/-- there is an entry with full url `u` -/
def HasUrl (rows : List Row) (u : String) : Prop := ∃ r ∈ rows, r.2.fullUrl = u

/-- the entry `s` is a redirect leading to the entry `t` -/
def LeadsR (rows : List Row) (s t : String) : Prop :=
  ∃ r ∈ rows, r.2.fullUrl = s ∧ ∃ i q, r.2.kind = .redirect i ∧ rows[i]? = some q ∧ q.2.fullUrl = t

/-- if a redirect leads to an entry in `D` then it is in `D` -/
def ClosedR (D : String → Prop) (rows : List Row) : Prop := ∀ s t, LeadsR rows s t → D t → D s

theorem sh_blank (start : Nat) (diff : Int) (skip : List String) (e : Entry) :
    (sh start diff skip e).blank = e.blank := by
  unfold sh
  split
  · rename_i i hi
    split
    · exact Entry.blank_withIndex _ hi
    · rfl
  · rfl

/-- Entries in `D` may be missing in `rows'`; the others are the same, except for the positions stored in redirects,
and redirects lead where they led. -/
structure Cut (D : String → Prop) (rows rows' : List Row) : Prop where
  sub : ∀ r' ∈ rows', ∃ r ∈ rows, r.1 = r'.1 ∧ r.2.blank = r'.2.blank
  keep : ∀ r ∈ rows, ¬ D r.2.fullUrl → HasUrl rows' r.2.fullUrl
  leads : ∀ s t, HasUrl rows' s → HasUrl rows' t → LeadsR rows s t → LeadsR rows' s t
  closed : ClosedR D rows → ClosedR D rows'

theorem Cut.refl (D : String → Prop) (rows : List Row) : Cut D rows rows :=
  ⟨fun r hr => ⟨r, hr, rfl, rfl⟩, fun r hr _ => ⟨r, hr, rfl⟩, fun _ _ _ _ h => h, fun h => h⟩

theorem Cut.mono {D : String → Prop} {rows rows' : List Row} (h : Cut D rows rows') {u : String} (hu : HasUrl rows' u) :
    HasUrl rows u := by
  obtain ⟨r', hr', rfl⟩ := hu
  obtain ⟨r, hr, -, hb⟩ := h.sub r' hr'
  exact ⟨r, hr, Entry.blank_fullUrl hb⟩

theorem Cut.trans {D : String → Prop} {rows rows' rows'' : List Row} (h1 : Cut D rows rows') (h2 : Cut D rows' rows'') :
    Cut D rows rows'' where
  sub r'' hr'' := by
    obtain ⟨r', hr', ho', hb'⟩ := h2.sub r'' hr''
    obtain ⟨r, hr, ho, hb⟩ := h1.sub r' hr'
    exact ⟨r, hr, ho.trans ho', hb.trans hb'⟩
  keep r hr hD := by
    obtain ⟨r', hr', hu⟩ := h1.keep r hr hD
    rw [← hu]
    exact h2.keep r' hr' (by rw [hu]; exact hD)
  leads s t hs ht hl := h2.leads s t hs ht (h1.leads s t (h2.mono hs) (h2.mono ht) hl)
  closed hc := h2.closed (h1.closed hc)

theorem DistinctUrls.row_eq {rows : List Row} (hd : DistinctUrls rows) {r s : Row} (hr : r ∈ rows) (hs : s ∈ rows)
    (hu : r.2.fullUrl = s.2.fullUrl) : r = s := by
  obtain ⟨i, hi⟩ := List.getElem?_of_mem hr
  obtain ⟨j, hj⟩ := List.getElem?_of_mem hs
  have := hd i j r s hi hj hu
  subst this
  rw [hi] at hj
  injection hj

/-- where an entry is after removing the `k`-th -/
theorem erased_getElem? {rows : List Row} {k i : Nat} (hik : i ≠ k) :
    (erased rows k)[if i < k then i else i - 1]? = (rows[i]?).map (shRow k (-1) []) := by
  unfold erased
  rw [List.getElem?_map]
  congr 1
  split
  · rename_i h; rw [List.getElem?_eraseIdx_of_lt h]
  · rename_i h; rw [List.getElem?_eraseIdx_of_ge (by omega)]; congr 1; omega

/-- one removal is a cut -/
theorem cut_erased (hd : DistinctUrls rows) {k : Nat} {row : Row} (hk : rows[k]? = some row) {D : String → Prop}
    (hD : D row.2.fullUrl)
    (hrange : ∀ s v, s ∈ rows.eraseIdx k → Shifts k (-1) [] s v → 0 ≤ v ∧ v < rows.length - 1) :
    Cut D rows (erased rows k) := by
  have hk' := (List.getElem?_eq_some_iff.1 hk).1
  have hnot := not_mem_erased hd hk
  have hkeep : ∀ r ∈ rows, r.2.fullUrl ≠ row.2.fullUrl → ∃ r' ∈ erased rows k, r' = shRow k (-1) [] r := by
    intro r hr hne
    obtain ⟨i, hi⟩ := List.getElem?_of_mem hr
    have hik : i ≠ k := by
      intro he; subst he; rw [hk] at hi; cases hi; exact hne rfl
    have := erased_getElem? (rows := rows) hik
    rw [hi] at this
    exact ⟨_, List.mem_of_getElem? this, rfl⟩
  have hleads : ∀ s t, s ≠ row.2.fullUrl → t ≠ row.2.fullUrl → LeadsR rows s t → LeadsR (erased rows k) s t := by
    rintro s t hs ht ⟨r, hr, rfl, i, q, hi, hq, rfl⟩
    obtain ⟨r', hr', rfl⟩ := hkeep r hr hs
    have hik : i ≠ k := by
      intro he; subst he; rw [hk] at hq; cases hq; exact ht rfl
    have hq' := erased_getElem? (rows := rows) hik
    rw [hq] at hq'
    refine ⟨_, hr', shRow_fullUrl _ _ _ _, _, _, ?_, hq', shRow_fullUrl _ _ _ _⟩
    unfold shRow sh
    rw [hi]
    simp only [List.not_mem_nil, not_false_eq_true, true_and]
    by_cases hlt : i < k
    · rw [if_pos hlt, if_neg (by omega)]; exact hi
    · rw [if_neg hlt, if_pos (by omega)]
      show EntryKind.redirect _ = _
      congr 1; omega
  refine ⟨?_, ?_, ?_, ?_⟩
  · intro r' hr'
    unfold erased at hr'
    obtain ⟨r, hr, rfl⟩ := List.mem_map.1 hr'
    exact ⟨r, List.mem_of_mem_eraseIdx hr, rfl, (sh_blank _ _ _ _).symm⟩
  · intro r hr hnD
    obtain ⟨r', hr', rfl⟩ := hkeep r hr (fun he => hnD (by rw [he]; exact hD))
    exact ⟨_, hr', shRow_fullUrl _ _ _ _⟩
  · rintro s t ⟨s', hs', rfl⟩ ⟨t', ht', rfl⟩ hl
    exact hleads _ _ (hnot s' hs') (hnot t' ht') hl
  · rintro hc s t hl hDt
    by_cases hDs : D s
    · exact hDs
    · exfalso
      obtain ⟨r', hr', hs', i', q', hi', hq', ht'⟩ := hl
      have hr1 := hr'
      unfold erased at hr1
      obtain ⟨r, hr, rfl⟩ := List.mem_map.1 hr1
      have hrr := List.mem_of_mem_eraseIdx hr
      rw [shRow_fullUrl] at hs'
      obtain ⟨i, hi⟩ := (Entry.blank_redirect (sh_blank k (-1) [] r.2)).1 ⟨i', hi'⟩
      -- the index was in range
      have hir : i < rows.length := by
        by_cases hlt : i < k
        · omega
        · have := (hrange r ((i : Int) + -1) hr ⟨i, hi, by simp, by omega, rfl⟩).2
          omega
      have hq := List.getElem?_eq_getElem hir
      have hl0 : LeadsR rows s (rows[i]).2.fullUrl := ⟨r, hrr, hs', i, _, hi, hq, rfl⟩
      have hnDq : ¬ D (rows[i]).2.fullUrl := fun hh => hDs (hc _ _ hl0 hh)
      have hl1 := hleads _ _ (fun he => hDs (by rw [he]; exact hD)) (fun he => hnDq (by rw [he]; exact hD)) hl0
      obtain ⟨r2, hr2, hs2, i2, q2, hi2, hq2, ht2⟩ := hl1
      have hdE : r2 = shRow k (-1) [] r := by
        unfold erased at hr2
        obtain ⟨r3, hr3, rfl⟩ := List.mem_map.1 hr2
        rw [shRow_fullUrl] at hs2
        rw [hd.row_eq (List.mem_of_mem_eraseIdx hr3) hrr (by rw [hs2, hs'])]
      subst hdE
      rw [hi'] at hi2
      injection hi2 with hi2
      subst hi2
      rw [hq'] at hq2
      injection hq2 with hq2
      subst hq2
      rw [ht'] at ht2
      subst ht2
      exact hnDq hDt

/-! ## The main page -/

/-- the main page is the entry with full url `w` -/
def MainIs (h : Header) (rows : List Row) (w : String) : Prop :=
  ∃ m r, h.mainPage = some m ∧ rows[m]? = some r ∧ r.2.fullUrl = w

/-- the main page stays the same or is unset if the entry is removed -/
structure MainCut (h h' : Header) (rows rows' : List Row) : Prop where
  kept : ∀ w, MainIs h rows w → HasUrl rows' w → MainIs h' rows' w
  gone : ∀ w, MainIs h rows w → ¬ HasUrl rows' w → h'.mainPage = none
  none : h.mainPage = none → h'.mainPage = none

theorem MainCut.refl (h : Header) (rows : List Row) : MainCut h h rows rows :=
  ⟨fun _ hm _ => hm, fun _ ⟨_, r, _, hr, hw⟩ hn => absurd ⟨r, List.mem_of_getElem? hr, hw⟩ hn, fun h => h⟩

theorem MainCut.trans {h h' h'' : Header} {rows rows' rows'' : List Row} (h1 : MainCut h h' rows rows')
    (h2 : MainCut h' h'' rows' rows'') (hs : ∀ w, HasUrl rows'' w → HasUrl rows' w) : MainCut h h'' rows rows'' where
  kept w hm hw := h2.kept w (h1.kept w hm (hs w hw)) hw
  gone w hm hw := by
    by_cases h' : HasUrl rows' w
    · exact h2.gone w (h1.kept w hm h') hw
    · exact h2.none (h1.gone w hm h')
  none hm := h2.none (h1.none hm)

theorem mainCut_erased (hd : DistinctUrls rows) {k : Nat} {row : Row} (hk : rows[k]? = some row) (h : Header)
    (hlen : rows.length < 2 ^ 32) : MainCut h (rmHeader k h) rows (erased rows k) := by
  have hnot := not_mem_erased hd hk
  have hmain : ∀ m, h.mainPage = some m → m ≠ k → m < rows.length →
      (rmHeader k h).mainPage = some (if m < k then m else m - 1) := by
    intro m hm hmk hml
    unfold rmHeader
    rw [if_neg (by rw [hm]; intro hh; injection hh with hh; exact hmk hh)]
    unfold shHeader
    rw [hm]
    simp only
    by_cases hlt : m < k
    · rw [if_neg (by omega), if_pos hlt]; exact hm
    · rw [if_pos (by omega), if_neg hlt]
      unfold Header.mainPage
      simp only
      rw [if_neg (by omega)]
      congr 1; omega
  refine ⟨?_, ?_, ?_⟩
  · rintro w ⟨m, r, hm, hr, rfl⟩ ⟨q, hq, hqu⟩
    have hmk : m ≠ k := by
      intro he; subst he; rw [hk] at hr; cases hr; exact hnot q hq hqu
    have h1 := erased_getElem? (rows := rows) hmk
    rw [hr] at h1
    exact ⟨_, _, hmain m hm hmk (List.getElem?_eq_some_iff.1 hr).1, h1, shRow_fullUrl _ _ _ _⟩
  · rintro w ⟨m, r, hm, hr, rfl⟩ hn
    have hmk : m = k := by
      by_cases hmk : m = k
      · exact hmk
      · have h1 := erased_getElem? (rows := rows) hmk
        rw [hr] at h1
        exact absurd ⟨_, List.mem_of_getElem? h1, shRow_fullUrl _ _ _ _⟩ hn
    unfold rmHeader
    rw [if_pos (by rw [hm, hmk])]
    unfold shHeader Header.mainPage
    simp
  · intro hm
    unfold rmHeader
    rw [if_neg (by rw [hm]; intro hh; cases hh)]
    unfold shHeader
    rw [hm]
    exact hm

/-! ## The recursion bound -/

theorem shiftRedirects_raise {rw0 rw1 : Entry → PyM Zim Entry} (h0 : ∀ e z, ∃ x s, rw0 e z = (.error x, s))
    (start : Nat) (diff : Int) (skip : List String) (is : List Nat) :
    ∀ z z', shiftRedirects rw0 start diff skip is z = (.ok (), z') →
      shiftRedirects rw1 start diff skip is z = (.ok (), z') := by
  induction is with
  | nil => exact fun z z' h => h
  | cons i is ih =>
    intro z z' h
    rw [shiftRedirects, PyM.get_bind] at h ⊢
    cases hl : z.urls.getByIndex i with
    | error x => rw [hl] at h; cases h
    | ok loc =>
      rw [hl] at h
      rw [PyM.lift_ok_bind] at h ⊢
      cases he : z.entryAt loc with
      | error x => rw [he] at h; cases h
      | ok e =>
        rw [he] at h
        rw [PyM.lift_ok_bind] at h ⊢
        split at h
        · rename_i hc
          rw [if_pos hc]
          cases hk : e.kind with
          | content c b => rw [hk] at h; cases h
          | redirect r =>
            rw [hk] at h
            simp only at h ⊢
            split at h
            · exfalso
              obtain ⟨a, s1, -, h⟩ := PyM.bind_ok_iff.1 h
              obtain ⟨a, s2, -, h⟩ := PyM.bind_ok_iff.1 h
              obtain ⟨a, s3, -, h⟩ := PyM.bind_ok_iff.1 h
              obtain ⟨a, s4, h4, h⟩ := PyM.bind_ok_iff.1 h
              obtain ⟨x, s, hx⟩ := h0 (e.setRedirectIndex (r + diff)).2 s3
              rw [hx] at h4; cases h4
            · rename_i hr; rw [if_neg hr]; exact ih _ _ h
        · rename_i hc
          rw [if_neg hc]; exact ih _ _ h

theorem updateUrlPointers_raise {rw0 rw1 : Entry → PyM Zim Entry} (h0 : ∀ e z, ∃ x s, rw0 e z = (.error x, s))
    {start : Nat} {diff : Int} {edit : Bool} {skip : List String} {z z' : Zim}
    (h : updateUrlPointers rw0 start diff edit skip z = (.ok (), z')) :
    updateUrlPointers rw1 start diff edit skip z = (.ok (), z') := by
  unfold updateUrlPointers at h ⊢
  obtain ⟨a, s1, h1, h⟩ := PyM.bind_ok_iff.1 h
  rw [PyM.bind_ok h1]
  obtain ⟨a, s2, h2, h⟩ := PyM.bind_ok_iff.1 h
  rw [PyM.bind_ok h2, PyM.get_bind]
  rw [PyM.get_bind] at h
  obtain ⟨a, s3, h3, h⟩ := PyM.bind_ok_iff.1 h
  rw [PyM.bind_ok (shiftRedirects_raise h0 _ _ _ _ _ _ h3)]
  exact h

theorem removeTail_raise {k o : Nat} {e0 : Entry} {u : String} {us : List String} {z z' : Zim}
    (h : removeTail 0 k o e0 u z = (.ok us, z')) : removeTail 1 k o e0 u z = (.ok us, z') := by
  unfold removeTail at h ⊢
  rw [PyM.get_bind] at h ⊢
  obtain ⟨a1, s1, h1, h⟩ := PyM.bind_ok_iff.1 h
  rw [PyM.bind_ok h1]
  obtain ⟨a2, s2, h2, h⟩ := PyM.bind_ok_iff.1 h
  rw [PyM.bind_ok h2]
  obtain ⟨a3, s3, h3, h⟩ := PyM.bind_ok_iff.1 h
  rw [PyM.bind_ok h3]
  obtain ⟨a4, s4, h4, h⟩ := PyM.bind_ok_iff.1 h
  rw [PyM.bind_ok h4]
  obtain ⟨a5, s5, h5, h⟩ := PyM.bind_ok_iff.1 h
  rw [PyM.bind_ok h5]
  obtain ⟨a6, s6, h6, h⟩ := PyM.bind_ok_iff.1 h
  rw [PyM.bind_ok h6]
  obtain ⟨a7, s7, h7, h⟩ := PyM.bind_ok_iff.1 h
  rw [PyM.bind_ok (updateUrlPointers_raise (fun e z => ⟨.runtimeError, z, rfl⟩) h7)]
  exact h

/-- one successful removal, at any depth -/
theorem Rep.removeTail_ok (h : Rep z rows other) {k o : Nat} {e0 : Entry} (hk : rows[k]? = some (o, e0)) (d : Nat)
    {us : List String} {z' : Zim} (hok : Zim.removeTail d k o e0 e0.fullUrl z = (.ok us, z')) :
    (∀ w, w ∈ us ↔ w ≠ e0.fullUrl ∧ ∃ r ∈ rows, r.2.fullUrl = w ∧ r.2.kind = .redirect k) ∧
    Rep z' (erased rows k) other ∧ Frame other z z' ∧ z'.header = rmHeader k z.header ∧
    (∀ s v, s ∈ rows.eraseIdx k → Shifts k (-1) [] s v → 0 ≤ v ∧ v < rows.length - 1) ∧
    ∀ S, Art z.articles rows S → (S e0.fullUrl ∨ ∀ i s, k < i → rows[i]? = some s → ¬ S s.2.fullUrl) →
      Art z'.articles (erased rows k) (fun w => S w ∧ w ≠ e0.fullUrl) := by
  have hex : ∃ d', Zim.removeTail (d' + 1) k o e0 e0.fullUrl z = (.ok us, z') := by
    cases d with
    | zero => exact ⟨0, removeTail_raise hok⟩
    | succ d => exact ⟨d, hok⟩
  obtain ⟨d', hok⟩ := hex
  obtain ⟨r, z1, h1, h2, -⟩ := h.removeTail hk d'
  rw [hok] at h1
  injection h1 with h1 h3
  subst h1 h3
  exact h2 us rfl

/-! ## Removing an entry and the redirects leading to it -/

/-- What a successful removal of `u` does to the rows. -/
structure Removal (u : String) (rows rows' : List Row) : Prop where
  cut : ∀ D : String → Prop, D u → ClosedR D rows → Cut D rows rows'
  gone : ¬ HasUrl rows' u
  /-- no redirect is left behind -/
  chain : ∀ s t, HasUrl rows' s → LeadsR rows s t → HasUrl rows' t

/-- the same for the entries of a list -/
structure Removals (us : List String) (rows rows' : List Row) : Prop where
  cut : ∀ D : String → Prop, (∀ u ∈ us, D u) → ClosedR D rows → Cut D rows rows'
  gone : ∀ u ∈ us, ¬ HasUrl rows' u
  chain : ∀ s t, HasUrl rows' s → LeadsR rows s t → HasUrl rows' t

/-- the effect on the article title list: fine if everything that is removed is an article -/
def ArtCut (u : String → Prop) (z z' : Zim) (rows rows' : List Row) : Prop :=
  ∀ (S D : String → Prop), (∀ w, u w → D w) → ClosedR D rows → (∀ r ∈ rows, D r.2.fullUrl → S r.2.fullUrl) →
    Art z.articles rows S → Art z'.articles rows' (fun w => S w ∧ HasUrl rows' w)

/-- the trivial part of the closure -/
theorem closedR_true (rows : List Row) : ClosedR (fun _ => True) rows := fun _ _ _ _ => trivial

/-- the loop over the redirects -/
theorem removeAll_ok (remove : String → PyM Zim Unit)
    (hremove : ∀ (u : String) (z : Zim) (rows : List Row) z1, Rep z rows other →
      (∀ r ∈ rows, r.2.fullUrl = u → ∃ i, r.2.kind = .redirect i) → remove u z = (.ok (), z1) →
      ∃ rows1, Rep z1 rows1 other ∧ Frame other z z1 ∧ Removal u rows rows1 ∧ ArtCut (· = u) z z1 rows rows1 ∧
        rows1.length ≤ rows.length ∧ (rows.length < 2 ^ 32 → MainCut z.header z1.header rows rows1))
    (us : List String) : ∀ (z : Zim) (rows : List Row) z1, Rep z rows other →
      (∀ u ∈ us, ∀ r ∈ rows, r.2.fullUrl = u → ∃ i, r.2.kind = .redirect i) → removeAll remove us z = (.ok (), z1) →
      ∃ rows1, Rep z1 rows1 other ∧ Frame other z z1 ∧ Removals us rows rows1 ∧ ArtCut (· ∈ us) z z1 rows rows1 ∧
        rows1.length ≤ rows.length ∧ (rows.length < 2 ^ 32 → MainCut z.header z1.header rows rows1) := by
  induction us with
  | nil =>
    intro z rows z1 h hred hok
    injection hok with _ hok
    subst hok
    refine ⟨rows, h, ⟨fun _ _ _ h => h, rfl, rfl, rfl, rfl, rfl, MainOnly.refl _, Or.inl rfl, Or.inl ⟨rfl, rfl⟩⟩, ⟨fun D _ _ => Cut.refl D rows, fun u hu => (by cases hu), ?_⟩,
      ?_, Nat.le_refl _, fun _ => MainCut.refl _ _⟩
    · rintro s t - ⟨r, hr, -, i, q, -, hq, rfl⟩
      exact ⟨q, List.mem_of_getElem? hq, rfl⟩
    · intro S D _ _ _ hA
      exact hA.congr fun w => ⟨fun hw => ⟨hw, hA.dom w hw⟩, fun hw => hw.1⟩
  | cons u us ih =>
    intro z rows z2 h hred hok
    rw [removeAll] at hok
    obtain ⟨⟨⟩, z1, h1, hok⟩ := PyM.bind_ok_iff.1 hok
    obtain ⟨rows1, hrep1, hfr1, hrm1, hart1, hlen1, hmain1⟩ := hremove u z rows z1 h (hred u (by simp)) h1
    have hc1 := hrm1.cut (fun _ => True) trivial (closedR_true _)
    have hred1 : ∀ w ∈ us, ∀ r ∈ rows1, r.2.fullUrl = w → ∃ i, r.2.kind = .redirect i := by
      intro w hw r hr hru
      obtain ⟨r0, hr0, -, hb⟩ := hc1.sub r hr
      exact (Entry.blank_redirect hb).1 (hred w (by simp [hw]) r0 hr0 (by rw [Entry.blank_fullUrl hb, hru]))
    obtain ⟨rows2, hrep2, hfr2, hrm2, hart2, hlen2, hmain2⟩ := ih z1 rows1 z2 hrep1 hred1 hok
    have hc2 := hrm2.cut (fun _ => True) (fun _ _ => trivial) (closedR_true _)
    refine ⟨rows2, hrep2, hfr1.trans hfr2, ⟨?_, ?_, ?_⟩, ?_, by omega, ?_⟩
    · intro D hD hcl
      have h3 := hrm1.cut D (hD u (by simp)) hcl
      exact h3.trans (hrm2.cut D (fun w hw => hD w (by simp [hw])) (h3.closed hcl))
    · intro w hw hh
      rcases List.mem_cons.1 hw with rfl | hw
      · exact hrm1.gone (hc2.mono hh)
      · exact hrm2.gone w hw hh
    · intro s t hs hl
      have hs1 := hc2.mono hs
      have ht1 := hrm1.chain s t hs1 hl
      exact hrm2.chain s t hs (hc1.leads s t hs1 ht1 hl)
    · intro S D hD hcl hDS hA
      have h3 := hrm1.cut D (hD u (by simp)) hcl
      have hA1 := hart1 S D (fun w hw => by subst hw; exact hD _ (by simp)) hcl hDS hA
      have hA2 := hart2 _ D (fun w hw => hD w (by simp [hw])) (h3.closed hcl) (fun r hr hDr => by
        obtain ⟨r0, hr0, -, hb⟩ := h3.sub r hr
        rw [← Entry.blank_fullUrl hb] at hDr ⊢
        exact ⟨hDS r0 hr0 hDr, r, hr, (Entry.blank_fullUrl hb).symm⟩) hA1
      exact hA2.congr fun w => ⟨fun hw => ⟨hw.1.1, hw.2⟩, fun hw => ⟨⟨hw.1, hc2.mono hw.2⟩, hw.2⟩⟩
    · intro hl
      exact (hmain1 hl).trans (hmain2 (by omega)) fun w hw => hc2.mono hw

theorem erased_fullUrl {k : Nat} {r : Row} (hr : r ∈ erased rows k) : ∃ s ∈ rows, s.2.fullUrl = r.2.fullUrl := by
  unfold erased at hr
  obtain ⟨s, hs, rfl⟩ := List.mem_map.1 hr
  exact ⟨s, List.mem_of_mem_eraseIdx hs, (shRow_fullUrl _ _ _ _).symm⟩

/-- what is left of `remove_entry_by_full_url` once the entry is found -/
theorem Rep.removeEntry_eq (h : Rep z rows other) {k o : Nat} {e0 : Entry} (hk : rows[k]? = some (o, e0))
    (bd blob : Entry → PyM Zim Unit) (d : Nat) :
    removeEntry bd (d + 1) blob e0.fullUrl z = ((if e0.isRedirect then pure () else blob e0) >>= fun _ =>
      Zim.removeTail d k o e0 e0.fullUrl >>= fun us => removeAll (removeEntry bd d bd) us) z := by
  rw [removeEntry, PyM.get_bind, h.isOpen, h.isMutable]
  simp only [Bool.not_false, PyM.require_true_bind]
  have hui := h.urlIndex hk
  have hgi := h.getByIndex hk
  have hea := h.entryAt (List.mem_of_getElem? hk)
  simp only at hui hgi hea
  rw [hui]
  simp only
  rw [PyM.lift_ok_bind, hgi, PyM.lift_ok_bind, hea, PyM.lift_ok_bind, Int.toNat_natCast]
  unfold Zim.removeTail
  simp only [PyM.bind_assoc_fn, PyM.pure_bind_fn]

theorem Rep.removeEntry_missing (h : Rep z rows other) {u : String} (hu : ∀ r ∈ rows, r.2.fullUrl ≠ u)
    (bd blob : Entry → PyM Zim Unit) (d : Nat) :
    removeEntry bd (d + 1) blob u z = (.error .entryNotFound, z) := by
  rw [removeEntry, PyM.get_bind, h.isOpen, h.isMutable]
  simp only [Bool.not_false, PyM.require_true_bind]
  rw [h.urlIndex_missing hu]
  rfl

/-- `remove_entry_by_full_url`, started after the blob was dealt with -/
theorem Rep.removeRest_ok (bd : Entry → PyM Zim Unit) (d : Nat) :
    ∀ (z : Zim) (rows : List Row) (k o : Nat) (e0 : Entry) z', Rep z rows other → rows[k]? = some (o, e0) →
      (Zim.removeTail d k o e0 e0.fullUrl >>= fun us => removeAll (removeEntry bd d bd) us) z = (.ok (), z') →
      ∃ rows', Rep z' rows' other ∧ Frame other z z' ∧ Removal e0.fullUrl rows rows' ∧
        ArtCut (· = e0.fullUrl) z z' rows rows' ∧ rows'.length ≤ rows.length ∧
        (rows.length < 2 ^ 32 → MainCut z.header z'.header rows rows') := by
  have step : ∀ d, (∀ (u : String) (z : Zim) (rows : List Row) z1, Rep z rows other →
      (∀ r ∈ rows, r.2.fullUrl = u → ∃ i, r.2.kind = .redirect i) → removeEntry bd d bd u z = (.ok (), z1) →
      ∃ rows1, Rep z1 rows1 other ∧ Frame other z z1 ∧ Removal u rows rows1 ∧ ArtCut (· = u) z z1 rows rows1 ∧
        rows1.length ≤ rows.length ∧ (rows.length < 2 ^ 32 → MainCut z.header z1.header rows rows1)) →
      ∀ (z : Zim) (rows : List Row) (k o : Nat) (e0 : Entry) z', Rep z rows other → rows[k]? = some (o, e0) →
      (Zim.removeTail d k o e0 e0.fullUrl >>= fun us => removeAll (removeEntry bd d bd) us) z = (.ok (), z') →
      ∃ rows', Rep z' rows' other ∧ Frame other z z' ∧ Removal e0.fullUrl rows rows' ∧
        ArtCut (· = e0.fullUrl) z z' rows rows' ∧ rows'.length ≤ rows.length ∧
        (rows.length < 2 ^ 32 → MainCut z.header z'.header rows rows') := by
    intro d hremove z rows k o e0 z2 h hk hok
    obtain ⟨us, z1, h1, hok⟩ := PyM.bind_ok_iff.1 hok
    have hd := distinct_of_sorted h.sorted
    have hk' := (List.getElem?_eq_some_iff.1 hk).1
    obtain ⟨hus, hrep1, hfr1, hhd1, hrange, hart1⟩ := h.removeTail_ok hk d h1
    have hnot := not_mem_erased hd hk
    have hcut1 : ∀ D : String → Prop, D e0.fullUrl → Cut D rows (erased rows k) := fun D hD =>
      cut_erased (row := (o, e0)) hd hk hD hrange
    have hc1 := hcut1 (fun _ => True) trivial
    have hlen1 : (erased rows k).length = rows.length - 1 := erased_length hk'
    have hred1 : ∀ w ∈ us, ∀ r ∈ erased rows k, r.2.fullUrl = w → ∃ i, r.2.kind = .redirect i := by
      intro w hw r hr hru
      obtain ⟨r0, hr0, -, hb⟩ := hc1.sub r hr
      obtain ⟨-, r1, hr1, hr1u, hr1k⟩ := (hus w).1 hw
      have : r0 = r1 := hd.row_eq hr0 hr1 (by rw [Entry.blank_fullUrl hb, hru, hr1u])
      subst this
      exact (Entry.blank_redirect hb).1 ⟨k, hr1k⟩
    obtain ⟨rows2, hrep2, hfr2, hrm2, hart2, hlen2, hmain2⟩ :=
      removeAll_ok (removeEntry bd d bd) hremove us z1 (erased rows k) z2 hrep1 hred1 hok
    have hc2 := hrm2.cut (fun _ => True) (fun _ _ => trivial) (closedR_true _)
    have husD : ∀ D : String → Prop, D e0.fullUrl → ClosedR D rows → ∀ w ∈ us, D w := by
      intro D hD hcl w hw
      obtain ⟨-, r, hr, hru, hrk⟩ := (hus w).1 hw
      exact hcl w e0.fullUrl ⟨r, hr, hru, k, _, hrk, hk, rfl⟩ hD
    refine ⟨rows2, hrep2, hfr1.trans hfr2, ⟨?_, ?_, ?_⟩, ?_, by omega, ?_⟩
    · intro D hD hcl
      have h3 := hcut1 D hD
      exact h3.trans (hrm2.cut D (husD D hD hcl) (h3.closed hcl))
    · intro hh
      obtain ⟨r, hr, hru⟩ := hc2.mono hh
      exact hnot r hr hru
    · intro s t hs hl
      have hs1 := hc2.mono hs
      by_cases ht : t = e0.fullUrl
      · exfalso
        obtain ⟨r, hr, hru, i, q, hi, hq, hqt⟩ := hl
        have hik : i = k := hd i k q (o, e0) hq hk (by rw [hqt, ht])
        subst hik
        by_cases hse : s = e0.fullUrl
        · obtain ⟨r1, hr1, hr1u⟩ := hs1
          exact hnot r1 hr1 (by rw [hr1u, hse])
        · exact hrm2.gone s ((hus s).2 ⟨hse, r, hr, hru, hi⟩) hs
      · have ht1 : HasUrl (erased rows k) t := by
          obtain ⟨r, hr, hru, i, q, hi, hq, hqt⟩ := id hl
          have := (hcut1 (· = e0.fullUrl) rfl).keep q (List.mem_of_getElem? hq) (by rw [hqt]; exact ht)
          rw [hqt] at this
          exact this
        exact hrm2.chain s t hs (hc1.leads s t hs1 ht1 hl)
    · intro S D hD hcl hDS hA
      have hDu := hD _ rfl
      have h3 := hcut1 D hDu
      have hA1 := hart1 S hA (Or.inl (hDS _ (List.mem_of_getElem? hk) hDu))
      have hA1' : Art z1.articles (erased rows k) (fun w => S w ∧ HasUrl (erased rows k) w) := by
        refine hA1.congr fun w => ⟨fun hw => ⟨hw.1, hA1.dom w hw⟩, fun hw => ⟨hw.1, ?_⟩⟩
        obtain ⟨r, hr, rfl⟩ := hw.2
        exact hnot r hr
      have hA2 := hart2 _ D (husD D hDu hcl) (h3.closed hcl) (fun r hr hDr => by
        obtain ⟨r0, hr0, -, hb⟩ := h3.sub r hr
        rw [← Entry.blank_fullUrl hb] at hDr ⊢
        exact ⟨hDS r0 hr0 hDr, r, hr, (Entry.blank_fullUrl hb).symm⟩) hA1'
      exact hA2.congr fun w => ⟨fun hw => ⟨hw.1.1, hw.2⟩, fun hw => ⟨⟨hw.1, hc2.mono hw.2⟩, hw.2⟩⟩
    · intro hl
      have hm1 := mainCut_erased hd hk z.header hl
      rw [← hhd1] at hm1
      exact hm1.trans (hmain2 (by omega)) fun w hw => hc2.mono hw
  induction d with
  | zero =>
    refine step 0 ?_
    intro u z rows z1 _ _ hok
    cases hok
  | succ d ih =>
    refine step (d + 1) ?_
    intro u z rows z1 h hred hok
    by_cases hu : ∃ r ∈ rows, r.2.fullUrl = u
    · obtain ⟨⟨o, e0⟩, hr, rfl⟩ := hu
      obtain ⟨k, hk⟩ := List.getElem?_of_mem hr
      rw [h.removeEntry_eq hk] at hok
      have hir : e0.isRedirect = true := (h.store.clean _ hr).isRedirect.2 (hred _ hr rfl)
      rw [if_pos hir] at hok
      exact ih z rows k o e0 z1 h hk hok
    · rw [h.removeEntry_missing (fun r hr he => hu ⟨r, hr, he⟩)] at hok
      cases hok

/-- A successful `remove_entry_by_full_url`. What is done to the blob of a content entry only has to leave the entries
alone. -/
theorem Rep.removeEntry_ok (h : Rep z rows other) {bd blob : Entry → PyM Zim Unit} {d : Nat} {u : String} {z' : Zim}
    (hblob : ∀ e z1, (∃ r ∈ rows, r.2 = e ∧ e.fullUrl = u ∧ e.isRedirect = false) → blob e z = (.ok (), z1) →
      ∃ other1, Rep z1 rows other1 ∧ z1.articles = z.articles ∧ z1.header.mainPage = z.header.mainPage)
    (hok : removeEntry bd d blob u z = (.ok (), z')) :
    HasUrl rows u ∧ ∃ z1 other1 rows', Rep z1 rows other1 ∧ z1.articles = z.articles ∧
      z1.header.mainPage = z.header.mainPage ∧ (z1 = z ∧ other1 = other ∨ ∃ e, blob e z = (.ok (), z1)) ∧
      Rep z' rows' other1 ∧ Frame other1 z1 z' ∧ Removal u rows rows' ∧
      ArtCut (· = u) z1 z' rows rows' ∧ rows'.length ≤ rows.length ∧
      (rows.length < 2 ^ 32 → MainCut z1.header z'.header rows rows') := by
  cases d with
  | zero => cases hok
  | succ d =>
    by_cases hu : ∃ r ∈ rows, r.2.fullUrl = u
    · refine ⟨hu, ?_⟩
      obtain ⟨⟨o, e0⟩, hr, rfl⟩ := hu
      obtain ⟨k, hk⟩ := List.getElem?_of_mem hr
      rw [h.removeEntry_eq hk] at hok
      obtain ⟨⟨⟩, z1, hb, hok⟩ := PyM.bind_ok_iff.1 hok
      by_cases hir : e0.isRedirect = true
      · rw [if_pos hir] at hb
        injection hb with _ hb
        subst hb
        obtain ⟨rows', h1⟩ := Rep.removeRest_ok bd d z rows k o e0 z' h hk hok
        exact ⟨z, other, rows', h, rfl, rfl, Or.inl ⟨rfl, rfl⟩, h1⟩
      · rw [if_neg hir] at hb
        obtain ⟨other1, h2, h3, h4⟩ := hblob e0 z1 ⟨_, hr, rfl, rfl, by simpa using hir⟩ hb
        obtain ⟨rows', h1⟩ := Rep.removeRest_ok bd d z1 rows k o e0 z' h2 hk hok
        exact ⟨z1, other1, rows', h2, h3, h4, Or.inr ⟨e0, hb⟩, h1⟩
    · rw [h.removeEntry_missing (fun r hr he => hu ⟨r, hr, he⟩)] at hok
      cases hok

end Zim
end Pyzim
