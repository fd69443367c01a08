import Verif.Lemmas.ArchiveCut

namespace Pyzim
namespace Zim

variable {z : Zim} {rows : List Row} {other : Nat → Prop} {S : String → Prop}

/-! ## The recursion bound -/

/-- if the first program returns, then so does the second, with the same result -/
def Le {σ α : Type} (m0 m1 : PyM σ α) : Prop := ∀ s a s', m0 s = (.ok a, s') → m1 s = (.ok a, s')

theorem Le.refl {σ α : Type} (m : PyM σ α) : Le m m := fun _ _ _ h => h

theorem Le.bind {σ α β : Type} {m0 m1 : PyM σ α} {k0 k1 : α → PyM σ β} (hm : Le m0 m1) (hk : ∀ a, Le (k0 a) (k1 a)) :
    Le (m0 >>= k0) (m1 >>= k1) := by
  intro s b s' h
  obtain ⟨a, s1, h1, h2⟩ := PyM.bind_ok_iff.1 h
  rw [PyM.bind_ok (hm _ _ _ h1)]
  exact hk a _ _ _ h2

theorem Le.ite {σ α : Type} {m0 m1 n0 n1 : PyM σ α} (c : Prop) [Decidable c] (hm : Le m0 m1) (hn : Le n0 n1) :
    Le (if c then m0 else n0) (if c then m1 else n1) := by
  split
  · exact hm
  · exact hn

theorem retarget_raise {rw0 rw1 : Entry → PyM Zim Entry} (h0 : ∀ e z, ∃ x s, rw0 e z = (.error x, s))
    {n : Nat} {us : List String} {z z' : Zim} (h : Zim.retarget rw0 n us z = (.ok (), z')) :
    Zim.retarget rw1 n us z = (.ok (), z') := by
  cases us with
  | nil => exact h
  | cons u us =>
    exfalso
    rw [Zim.retarget, PyM.get_bind] at h
    obtain ⟨e, s1, -, h⟩ := PyM.bind_ok_iff.1 h
    obtain ⟨a, s2, -, h⟩ := PyM.bind_ok_iff.1 h
    obtain ⟨a, s3, h3, h⟩ := PyM.bind_ok_iff.1 h
    obtain ⟨x, s, hx⟩ := h0 (e.setRedirectIndex n).2 s2
    rw [hx] at h3; cases h3

theorem removeUrl_raise {rw0 rw1 : Entry → PyM Zim Entry} (h0 : ∀ e z, ∃ x s, rw0 e z = (.error x, s))
    {n : Nat} {z z' : Zim} (h : Zim.removeUrl rw0 n z = (.ok (), z')) : Zim.removeUrl rw1 n z = (.ok (), z') := by
  unfold Zim.removeUrl at h ⊢
  obtain ⟨a, s1, h1, h⟩ := PyM.bind_ok_iff.1 h
  rw [PyM.bind_ok h1]
  exact updateUrlPointers_raise h0 h

theorem insertUrl_raise {rw0 rw1 : Entry → PyM Zim Entry} (h0 : ∀ e z, ∃ x s, rw0 e z = (.error x, s))
    {e : Entry} {off : Nat} {r : Nat × Entry} {z z' : Zim} (h : Zim.insertUrl rw0 e off z = (.ok r, z')) :
    Zim.insertUrl rw1 e off z = (.ok r, z') := by
  unfold Zim.insertUrl at h ⊢
  rw [PyM.get_bind] at h ⊢
  obtain ⟨a, s1, h1, h⟩ := PyM.bind_ok_iff.1 h
  rw [PyM.bind_ok h1]
  obtain ⟨⟨⟩, s2, h2, h⟩ := PyM.bind_ok_iff.1 h
  rw [PyM.bind_ok (updateUrlPointers_raise h0 h2)]
  exact h

theorem writeEntry_one {e e' : Entry} {upd att : Bool} {z z' : Zim} (h : writeEntry 1 e upd att z = (.ok e', z')) :
    writeEntry 2 e upd att z = (.ok e', z') := by
  have h0 : ∀ (a b : Bool) (e : Entry) (z : Zim), ∃ x s, writeEntry 0 e a b z = (.error x, s) :=
    fun a b e z => ⟨.runtimeError, z, rfl⟩
  have hrem : ∀ n, Le (Zim.removeUrl (fun e => writeEntry 0 e true true) n)
      (Zim.removeUrl (fun e => writeEntry 1 e true true) n) := fun n z a z' hh => removeUrl_raise (h0 true true) hh
  have hins : ∀ e n, Le (Zim.insertUrl (fun e => writeEntry 0 e true true) e n)
      (Zim.insertUrl (fun e => writeEntry 1 e true true) e n) := fun e n z a z' hh => insertUrl_raise (h0 true true) hh
  have hret : ∀ n us, Le (Zim.retarget (fun e => writeEntry 0 e false true) n us)
      (Zim.retarget (fun e => writeEntry 1 e false true) n us) := fun n us z a z' hh => retarget_raise (h0 false true) hh
  have hle : Le (writeEntry 1 e upd att) (writeEntry 2 e upd att) := by
    rw [writeEntry, show (2 : Nat) = 1 + 1 from rfl, writeEntry]
    refine Le.bind (Le.refl _) fun z => Le.bind (Le.refl _) fun _ => Le.bind (Le.refl _) fun _ =>
      Le.bind (Le.refl _) fun ia => Le.bind (Le.refl _) fun old => Le.bind (Le.refl _) fun reds =>
      Le.bind (Le.refl _) fun off => Le.bind (Le.refl _) fun _ => Le.bind (Le.refl _) fun _ => Le.bind ?_ fun _ =>
      Le.bind ?_ fun r => Le.bind (Le.refl _) fun _ => Le.bind (Le.ite _ (hret _ _) (Le.refl _)) fun _ => Le.refl _
    · cases old with
      | none => exact Le.refl _
      | some o => exact Le.ite _ (hrem _) (Le.refl _)
    · split
      · exact Le.refl _
      · exact hins _ _
  exact hle _ _ _ h

/-! ## What a successful call does to the rows -/

/-- the rows after writing `e` -/
inductive Wrote (rows : List Row) (e : Entry) (old : String) (upd : Bool) : List Row → (Header → Header) → Prop
  | new (n off : Nat) : (∀ r ∈ rows, r.2.fullUrl ≠ old) → (∀ r ∈ rows, r.2.fullUrl ≠ e.fullUrl) →
      PlaceOf rows e.fullUrl n →
      (∀ i, (insEntry n e).kind = .redirect i → i < rows.length + 1) →
      (∀ s v, s ∈ rows → Shifts n 1 [e.fullUrl] s v → v ≤ rows.length) →
      Wrote rows e old upd (inserted rows n off e) (shHeader n 1)
  | same (k o : Nat) (e0 : Entry) : rows[k]? = some (o, e0) → old = e0.fullUrl → e.fullUrl = e0.fullUrl →
      e.getDiskSize = e0.getDiskSize → (∀ i, e.kind = .redirect i → i < rows.length) →
      Wrote rows e old upd (rows.set k (o, e.fresh)) id
  | moved (k o : Nat) (e0 : Entry) (n off : Nat) (us : List String) : rows[k]? = some (o, e0) → old = e0.fullUrl →
      ((∀ r ∈ rows, r.2.fullUrl ≠ e.fullUrl) ∨ (e.fullUrl = e0.fullUrl ∧ e0.getDiskSize ≠ e.getDiskSize)) →
      PlaceOf (erased rows k) e.fullUrl n →
      us = (if upd && decide (e.fullUrl ≠ e0.fullUrl) then urlsTo rows k else []) →
      (∀ i, (insEntry n e).kind = .redirect i → i < rows.length) →
      (∀ s v, s ∈ rows.eraseIdx k → Shifts k (-1) [] s v → 0 ≤ v ∧ v < rows.length - 1) →
      (∀ s v, s ∈ erased rows k → Shifts n 1 [e.fullUrl] s v → v < rows.length) →
      (k ≠ n → ∀ u ∈ us, ∃ r ∈ inserted (erased rows k) n off e, r.2.fullUrl = u) →
      Wrote rows e old upd (retargeted (inserted (erased rows k) n off e) k n us)
        (fun h => shHeader n 1 (shHeader k (-1) h))

theorem Rep.writeEntry_ok (h : Rep z rows other) {e e' : Entry} (hp : e.Proper)
    (hu : HasUrl rows e.fullUrl → e.oldFullUrl = some e.fullUrl) {d : Nat} {upd att : Bool} {z' : Zim}
    (hok : writeEntry d e upd att z = (.ok e', z')) :
    ∃ old rows' f, e.oldFullUrl = some old ∧ Wrote rows e old upd rows' f ∧ Rep z' rows' other ∧ Frame other z z' ∧
      z'.header = f z.header ∧ e.fresh.Clean ∧ e'.fresh.blank = e.fresh.blank ∧
      ∀ S, Art z.articles rows S → Art z'.articles rows'
        (fun u => (S u ∧ u ≠ e.fullUrl ∧ u ≠ old) ∨ (u = e.fullUrl ∧ att = true ∧ asArticle e S)) := by
  have hex : ∃ d', writeEntry (d' + 2) e upd att z = (.ok e', z') := by
    rcases d with _ | _ | d
    · cases hok
    · exact ⟨0, writeEntry_one hok⟩
    · exact ⟨d, hok⟩
  obtain ⟨d', hok⟩ := hex
  have hb1 : ∀ n : Nat, (insEntry n e.afterFlushOrRead).fresh.blank = e.fresh.blank := by
    intro n
    rw [insEntry_fresh, afterFlush_fresh]
    unfold insEntry
    cases hk : e.fresh.kind with
    | content c b => rfl
    | redirect r =>
      simp only
      split
      · exact Entry.blank_withIndex _ hk
      · rfl
  cases hold : e.oldFullUrl with
  | none =>
    exfalso
    rw [writeEntry, PyM.get_bind] at hok
    obtain ⟨⟨⟩, s1, h1, hok⟩ := PyM.bind_ok_iff.1 hok
    obtain ⟨⟨⟩, s2, h2, hok⟩ := PyM.bind_ok_iff.1 hok
    obtain ⟨ia, s3, h3, hok⟩ := PyM.bind_ok_iff.1 hok
    obtain ⟨old, s4, h4, hok⟩ := PyM.bind_ok_iff.1 hok
    have h5 : z.findOld e = .error .typeError := by unfold Zim.findOld; rw [hold]
    have h6 : s1 = z ∧ s2 = s1 ∧ s3 = s2 := by
      refine ⟨?_, ?_, ?_⟩
      · injection h1 with _ h1; exact h1.symm
      · injection h2 with _ h2; exact h2.symm
      · injection h3 with _ h3; exact h3.symm
    rw [h5] at h4
    cases h4
  | some old =>
    refine ⟨old, ?_⟩
    by_cases hin : HasUrl rows old
    · obtain ⟨⟨o, e0⟩, hr, rfl⟩ := hin
      obtain ⟨k, hk⟩ := List.getElem?_of_mem hr
      by_cases hsame : e.fullUrl = e0.fullUrl ∧ e.getDiskSize = e0.getDiskSize
      · have hold' : e.oldFullUrl = some e.fullUrl := by rw [hold, hsame.1]
        obtain ⟨r, z1, h1, h2, -⟩ := h.writeEntry_inplace hk hold' hsame.1 hsame.2 hp (d' + 1) upd att
        rw [hok] at h1
        injection h1 with h1 h3
        subst h1 h3
        obtain ⟨he', hi, b, arts, hb, hz', hart⟩ := h2 e' rfl
        have hrep := h.setRow hk (hp.clean hb) (by rw [Entry.fresh_toBytes]; exact hb) hsame.2
          (by rw [Entry.fresh_fullUrl, hsame.1]) arts
        rw [← hz'] at hrep
        refine ⟨_, id, rfl, .same k o e0 hk rfl hsame.1 hsame.2 hi, hrep, ?_, ?_, hp.clean hb, ?_, ?_⟩
        · rw [hz']
          refine ⟨h.store.keeps hr (by rw [Entry.size_eq _ _ hb]; exact hsame.2), rfl, rfl, rfl, rfl, rfl, MainOnly.refl _, Or.inl rfl,
            Or.inl ⟨rfl, ?_⟩⟩
          obtain ⟨b0, hb0, hh0⟩ := h.store.stored _ hr
          have h6 := hh0.below (Entry.toBytes_ne_nil hb0)
          have h7 := Entry.size_eq _ _ hb
          have h8 := Entry.size_eq _ _ hb0
          show (wr z.file o b).length = z.file.length
          rw [wr_length _ _ (Entry.toBytes_ne_nil hb)]
          have h9 := hsame.2
          simp only at h6 h8
          omega
        · rw [hz']; rfl
        · rw [he']; rfl
        · intro S hA
          rw [hz']
          refine (hart S hA).congr fun u => ?_
          unfold mark
          rw [← hsame.1]
          simp
      · have hch : (∀ r ∈ rows, r.2.fullUrl ≠ e.fullUrl) ∨ (e.fullUrl = e0.fullUrl ∧ e0.getDiskSize ≠ e.getDiskSize) := by
          by_cases hin2 : HasUrl rows e.fullUrl
          · have h1 := hu hin2
            rw [hold] at h1
            injection h1 with h1
            exact Or.inr ⟨h1.symm, fun hh => hsame ⟨h1.symm, hh.symm⟩⟩
          · exact Or.inl fun r hr he => hin2 ⟨r, hr, he⟩
        obtain ⟨r, z1, n, off, us, hn, hus, h1, h2, -⟩ := h.writeEntry_moved hk hold hch hp d' upd att
        rw [hok] at h1
        injection h1 with h1 h3
        subst h1 h3
        obtain ⟨he', hc, hi, hr1, hr2, hr3, hfr, hhd, hrep, hart⟩ := h2 e' rfl
        refine ⟨_, _, rfl, .moved k o e0 n off us hk rfl hch hn hus hi hr1 hr2 hr3, hrep, hfr, hhd, hc, ?_, ?_⟩
        · rw [he']; exact hb1 n
        · intro S hA
          refine (hart S hA).congr fun u => ?_
          refine or_congr ⟨fun hh => ⟨hh.1, ?_, hh.2⟩, fun hh => ⟨hh.1, hh.2.2⟩⟩ Iff.rfl
          rintro rfl
          rcases hch with hch | hch
          · obtain ⟨r, hr, hru⟩ := hA.dom _ hh.1
            exact hch r hr hru
          · exact hh.2 hch.1
    · have hnu : ∀ r ∈ rows, r.2.fullUrl ≠ e.fullUrl := by
        intro r hr he
        have h1 := hu ⟨r, hr, he⟩
        rw [hold] at h1
        injection h1 with h1
        exact hin ⟨r, hr, by rw [he, h1]⟩
      have hno : ∀ r ∈ rows, r.2.fullUrl ≠ old := fun r hr he => hin ⟨r, hr, he⟩
      obtain ⟨r, z1, n, hn, h1, h2, -⟩ := h.writeEntry_new hold hno hnu hp d' upd att
      rw [hok] at h1
      injection h1 with h1 h3
      subst h1 h3
      obtain ⟨he', hc, hi, hr1, off, hfr, hhd, hrep, hart⟩ := h2 e' rfl
      refine ⟨_, _, rfl, .new n off hno hnu hn hi hr1, hrep, hfr, hhd, hc, ?_, ?_⟩
      · rw [he']; exact hb1 n
      · intro S hA
        refine (hart S hA).congr fun u => ?_
        refine or_congr ⟨fun hh => ⟨hh, ?_, ?_⟩, fun hh => hh.1⟩ Iff.rfl
        · rintro rfl
          obtain ⟨r, hr, hru⟩ := hA.dom _ hh
          exact hnu r hr hru
        · rintro rfl
          obtain ⟨r, hr, hru⟩ := hA.dom _ hh
          exact hno r hr hru

/-! ## Lookups -/

theorem inserted_getElem? {n off i : Nat} {e : Entry} :
    (inserted rows n off e)[if i < n then i else i + 1]? = (rows[i]?).map (shRow n 1 [e.fullUrl]) := by
  unfold inserted
  split
  · rename_i h; rw [List.getElem?_insertIdx_of_lt h, List.getElem?_map]
  · rename_i h
    rw [List.getElem?_insertIdx_of_gt (by omega), List.getElem?_map]
    simp

theorem inserted_self {n off : Nat} {e : Entry} (hn : n ≤ rows.length) :
    (inserted rows n off e)[n]? = some (off, (insEntry n e).fresh) := by
  unfold inserted
  rw [List.getElem?_insertIdx_self, if_pos (by simpa using hn)]

theorem mem_inserted {n off : Nat} {e : Entry} (hn : n ≤ rows.length) {r : Row} :
    r ∈ inserted rows n off e ↔ r = (off, (insEntry n e).fresh) ∨ ∃ s ∈ rows, r = shRow n 1 [e.fullUrl] s := by
  unfold inserted
  rw [List.mem_insertIdx (by simpa using hn)]
  simp only [List.mem_map]
  constructor
  · rintro (h | ⟨s, hs, rfl⟩)
    · exact Or.inl h
    · exact Or.inr ⟨s, hs, rfl⟩
  · rintro (h | ⟨s, hs, rfl⟩)
    · exact Or.inl h
    · exact Or.inr ⟨s, hs, rfl⟩

theorem insEntry_blank (n : Nat) (e : Entry) : (insEntry n e).fresh.blank = e.fresh.blank := by
  rw [insEntry_fresh]
  unfold insEntry
  cases hk : e.fresh.kind with
  | content c b => rfl
  | redirect r =>
    simp only
    split
    · exact Entry.blank_withIndex _ hk
    · rfl

theorem blank_fresh_fullUrl {e e' : Entry} (h : e.fresh.blank = e'.fresh.blank) : e.fullUrl = e'.fullUrl := by
  have := Entry.blank_fullUrl h
  rwa [Entry.fresh_fullUrl, Entry.fresh_fullUrl] at this

/-- inserting an entry keeps where redirects lead -/
theorem leads_inserted {n off : Nat} {e : Entry} (hn : n ≤ rows.length) (hnew : ∀ r ∈ rows, r.2.fullUrl ≠ e.fullUrl)
    {s t : String} (hl : LeadsR rows s t) : LeadsR (inserted rows n off e) s t := by
  obtain ⟨r, hr, rfl, i, q, hi, hq, rfl⟩ := hl
  have hq' := inserted_getElem? (rows := rows) (n := n) (off := off) (e := e) (i := i)
  rw [hq] at hq'
  refine ⟨_, (mem_inserted hn).2 (Or.inr ⟨r, hr, rfl⟩), shRow_fullUrl _ _ _ _, _, _, ?_, hq', shRow_fullUrl _ _ _ _⟩
  unfold shRow sh
  rw [hi]
  simp only [List.mem_singleton, hnew r hr, not_false_eq_true, true_and]
  by_cases hlt : i < n
  · rw [if_pos hlt, if_neg (by omega)]; exact hi
  · rw [if_neg hlt, if_pos (by omega)]
    show EntryKind.redirect _ = _
    congr 1

/-- a redirect leads to the entry whose index it was given -/
theorem leads_inserted_self {n off : Nat} {e : Entry} (hn : n ≤ rows.length) {i : Nat} {q : Row}
    (hi : e.kind = .redirect i) (hq : rows[i]? = some q) : LeadsR (inserted rows n off e) e.fullUrl q.2.fullUrl := by
  have hq' := inserted_getElem? (rows := rows) (n := n) (off := off) (e := e) (i := i)
  rw [hq] at hq'
  refine ⟨_, (mem_inserted hn).2 (Or.inl rfl), ?_, _, _, ?_, hq', shRow_fullUrl _ _ _ _⟩
  · show (insEntry n e).fullUrl = _
    rw [insEntry_fullUrl]
  · show (insEntry n e).kind = _
    unfold insEntry
    rw [hi]
    simp only
    by_cases hlt : i < n
    · rw [if_pos hlt, if_neg (by omega)]; exact hi
    · rw [if_neg hlt, if_pos (by omega)]; rfl

theorem rtRow_blank {us : List String} {n : Nat} {r : Row} (h : r.2.fullUrl ∈ us → ∃ i, r.2.kind = .redirect i) :
    (rtRow us n r).2.blank = r.2.blank := by
  unfold rtRow
  split
  · rename_i hm
    obtain ⟨i, hi⟩ := h hm
    exact Entry.blank_withIndex _ hi
  · rfl

theorem mem_urlsTo' (hc : ∀ r ∈ rows, r.2.Clean) {k : Nat} {u : String} :
    u ∈ urlsTo rows k ↔ ∃ r ∈ rows, r.2.fullUrl = u ∧ r.2.kind = .redirect k := by
  unfold urlsTo
  simp only [List.mem_map, List.mem_filter, Bool.and_eq_true, decide_eq_true_eq]
  constructor
  · rintro ⟨e, ⟨⟨r, hr, rfl⟩, -, hk⟩, rfl⟩
    exact ⟨r, hr, rfl, hk⟩
  · rintro ⟨r, hr, rfl, hk⟩
    exact ⟨r.2, ⟨⟨r, hr, rfl⟩, (hc r hr).isRedirect.2 ⟨k, hk⟩, hk⟩, rfl⟩

/-- What a reader finds after writing `e`: the entry under its url, and everything else as before. -/
structure Written (e : Entry) (old : String) (rows rows' : List Row) : Prop where
  found : ∃ r ∈ rows', r.2.fullUrl = e.fullUrl ∧ r.2.blank = e.fresh.blank
  others : ∀ r' ∈ rows', r'.2.fullUrl ≠ e.fullUrl → ∃ r ∈ rows, r.2.fullUrl ≠ old ∧ r.2.blank = r'.2.blank
  keep : ∀ r ∈ rows, r.2.fullUrl ≠ old → r.2.fullUrl ≠ e.fullUrl →
    ∃ r' ∈ rows', r'.2.blank = r.2.blank

theorem Wrote.written (hc : ∀ r ∈ rows, r.2.Clean) (hd : DistinctUrls rows) {e : Entry} {old : String} {upd : Bool}
    {rows' : List Row} {f : Header → Header}
    (h : Wrote rows e old upd rows' f) :
    Written e old rows rows' := by
  cases h with
  | new n off hno hnu hn hi hr =>
    refine ⟨⟨_, (mem_inserted hn.le).2 (Or.inl rfl), ?_, insEntry_blank n e⟩, ?_, ?_⟩
    · exact blank_fresh_fullUrl (insEntry_blank n e)
    · intro r' hr' hne
      rcases (mem_inserted hn.le).1 hr' with rfl | ⟨s, hs, rfl⟩
      · exact absurd (blank_fresh_fullUrl (insEntry_blank n e)) hne
      · exact ⟨s, hs, hno s hs, (sh_blank _ _ _ _).symm⟩
    · intro r hr _ _
      exact ⟨_, (mem_inserted hn.le).2 (Or.inr ⟨r, hr, rfl⟩), sh_blank _ _ _ _⟩
  | same k o e0 hk ho hu hs hi =>
    have hk' := (List.getElem?_eq_some_iff.1 hk).1
    refine ⟨⟨(o, e.fresh), List.mem_of_getElem? (i := k) (by rw [List.getElem?_set_self hk']), rfl, rfl⟩, ?_, ?_⟩
    · intro r' hr' hne
      rcases List.mem_or_eq_of_mem_set hr' with hr' | rfl
      · exact ⟨r', hr', fun he => hne (by rw [he, ho, hu]), rfl⟩
      · exact absurd rfl hne
    · intro r hr hne _
      obtain ⟨i, hi⟩ := List.getElem?_of_mem hr
      have hik : k ≠ i := by
        rintro rfl; rw [hk] at hi; cases hi; exact hne ho.symm
      exact ⟨r, List.mem_of_getElem? (i := i) (by rw [List.getElem?_set_ne hik]; exact hi), rfl⟩
  | moved k o e0 n off us hk ho hch hn hus hi hr1 hr2 hr3 =>
    have hk' := (List.getElem?_eq_some_iff.1 hk).1
    have hnot := not_mem_erased hd hk
    have hcut := cut_erased (row := (o, e0)) hd hk (D := (· = e0.fullUrl)) rfl hr1
    have husr : ∀ u ∈ us, e.fullUrl ≠ u ∧ ∃ r ∈ rows, r.2.fullUrl = u ∧ r.2.kind = .redirect k := by
      intro u hu
      rw [hus] at hu
      split at hu
      · rename_i hcond
        have hne : e.fullUrl ≠ e0.fullUrl := by
          have := (Bool.and_eq_true_iff.1 hcond).2
          exact of_decide_eq_true this
        obtain ⟨r, hr, hru, hrk⟩ := (mem_urlsTo' hc).1 hu
        refine ⟨?_, r, hr, hru, hrk⟩
        rintro rfl
        rcases hch with hch | hch
        · exact hch r hr hru
        · exact hne hch.1
      · cases hu
    -- redirects stay the same up to their target
    have hrt : ∀ r ∈ inserted (erased rows k) n off e, (rtRow us n r).2.blank = r.2.blank := by
      intro r hr
      refine rtRow_blank fun hm => ?_
      obtain ⟨hne, r1, hr1, hr1u, hr1k⟩ := husr _ hm
      rcases (mem_inserted hn.le).1 hr with rfl | ⟨s, hs, rfl⟩
      · exact absurd (blank_fresh_fullUrl (insEntry_blank n e)).symm hne
      · obtain ⟨r0, hr0, -, hb⟩ := hcut.sub s hs
        have : r0 = r1 := hd.row_eq hr0 hr1 (by rw [hr1u, shRow_fullUrl]; exact Entry.blank_fullUrl hb)
        subst this
        exact (Entry.blank_redirect (sh_blank n 1 [e.fullUrl] s.2)).2 ((Entry.blank_redirect hb).1 ⟨k, hr1k⟩)
    have hret : ∀ r, r ∈ inserted (erased rows k) n off e →
        ∃ r' ∈ retargeted (inserted (erased rows k) n off e) k n us, r'.2.blank = r.2.blank := by
      intro r hr
      unfold retargeted
      split
      · exact ⟨_, List.mem_map_of_mem hr, hrt r hr⟩
      · exact ⟨r, hr, rfl⟩
    have hret' : ∀ r', r' ∈ retargeted (inserted (erased rows k) n off e) k n us →
        ∃ r ∈ inserted (erased rows k) n off e, r'.2.blank = r.2.blank := by
      intro r' hr'
      unfold retargeted at hr'
      split at hr'
      · obtain ⟨r, hr, rfl⟩ := List.mem_map.1 hr'
        exact ⟨r, hr, hrt r hr⟩
      · exact ⟨r', hr', rfl⟩
    refine ⟨?_, ?_, ?_⟩
    · obtain ⟨r', hr', hb⟩ := hret _ ((mem_inserted hn.le).2 (Or.inl rfl))
      have hb2 : r'.2.blank = e.fresh.blank := hb.trans (insEntry_blank n e)
      exact ⟨r', hr', by rw [Entry.blank_fullUrl hb2]; rfl, hb2⟩
    · intro r' hr' hne
      obtain ⟨r, hr, hb⟩ := hret' r' hr'
      rcases (mem_inserted hn.le).1 hr with rfl | ⟨s, hs, rfl⟩
      · exact absurd ((Entry.blank_fullUrl hb).trans (blank_fresh_fullUrl (insEntry_blank n e))) hne
      · obtain ⟨r0, hr0, -, hb0⟩ := hcut.sub s hs
        refine ⟨r0, hr0, ?_, by rw [hb, hb0]; exact (sh_blank _ _ _ _).symm⟩
        rw [ho, Entry.blank_fullUrl hb0]
        exact hnot s hs
    · intro r hr hne _
      obtain ⟨s, hs, hsu⟩ := hcut.keep r hr (by rw [← ho]; exact hne)
      obtain ⟨r0, hr0, -, hb0⟩ := hcut.sub s hs
      have : r0 = r := hd.row_eq hr0 hr (by rw [Entry.blank_fullUrl hb0, hsu])
      subst this
      obtain ⟨r', hr', hb⟩ := hret _ ((mem_inserted hn.le).2 (Or.inr ⟨s, hs, rfl⟩))
      exact ⟨r', hr', by rw [hb, hb0]; exact sh_blank _ _ _ _⟩

end Zim
end Pyzim
