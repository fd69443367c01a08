import Verif.Lemmas.ArchiveTop

namespace Pyzim
namespace Zim
open SpaceAllocator (InBlock)

variable {z : Zim} {rows : List Row} {other : Nat → Prop} {S : String → Prop}

theorem Rep.placeOld (h : Rep z rows other) {k o : Nat} {e0 : Entry} (hk : rows[k]? = some (o, e0)) (e : Entry)
    (ai : Option Nat) :
    ∃ off sp, place (some ⟨k, o, e0.getDiskSize, ai, none⟩) e.getDiskSize z = (.ok off, { z with space := sp }) ∧
      ∀ b, e.toBytes = .ok b →
        Store (wr z.file off b) sp (rows.eraseIdx k) (fun x => other x ∨ InRow (off, e.fresh) x) ∧
        (∀ x, InRow (off, e.fresh) x → ¬ other x) ∧ KeepsBytes other z.file (wr z.file off b) := by
  obtain ⟨hk', hr⟩ := List.getElem?_eq_some_iff.1 hk
  have h1 := h.store.perm (List.getElem_cons_eraseIdx_perm hk').symm
  rw [hr] at h1
  have h2 := h1.forget
  have hap0 : ∀ x, InRow (o, e0) x → ¬ other x := fun x => h1.apart (o, e0) (by simp) x
  unfold place
  simp only
  by_cases hs : e0.getDiskSize = e.getDiskSize
  · rw [if_neg (by simpa using hs)]
    refine ⟨o, z.space, rfl, fun b hb => ?_⟩
    have hlen := Entry.size_eq _ _ hb
    have hrow : ∀ x, InRow (o, e0) x ↔ InRow (o, e.fresh) x := fun x => by
      simp only [InRow, Entry.fresh_size, hs]
    refine ⟨(h2.write o b (fun r hr' x hx hx' => ?_) (h2.below (by rw [hlen]; exact Entry.size_pos _) fun x hx hx' =>
        Or.inr (by simp only [InRow]; omega))).congr fun x => or_congr Iff.rfl (hrow x),
      fun x hx => hap0 x ((hrow x).2 hx), ?_⟩
    · refine h2.apart r hr' x hx (Or.inr ?_)
      simp only [InRow]; omega
    · intro x c hx hc
      refine wr_frame hc fun hh => hap0 x ?_ hx
      simp only [InRow]; omega
  · rw [if_pos hs]
    have h3 : Store z.file (z.space.markFree o e0.getDiskSize) (rows.eraseIdx k) other :=
      Store.free (h2.congr fun x => Iff.rfl) hap0
    obtain ⟨h4, h5⟩ := h3.alloc e.getDiskSize
    refine ⟨((z.space.markFree o e0.getDiskSize).allocate e.getDiskSize).1,
      ((z.space.markFree o e0.getDiskSize).allocate e.getDiskSize).2, rfl, fun b hb => ?_⟩
    have hlen := Entry.size_eq _ _ hb
    refine ⟨(h4.write _ b (fun r hr' x hx hx' => ?_) (h4.below (by rw [hlen]; exact Entry.size_pos _) fun x hx hx' =>
        Or.inr ⟨hx, by simp only; omega⟩)).congr fun x => Iff.rfl, fun x hx => (h5 x hx).1, ?_⟩
    · exact (h5 x ⟨hx'.1, by have := hx'.2; simp only; omega⟩).2 r hr' hx
    · intro x c hx hc
      exact wr_frame hc fun hh => (h5 x ⟨hh.1, by have := hh.2; simp only; omega⟩).1 hx

/-- the rows after removing the `k`-th -/
def erased (rows : List Row) (k : Nat) : List Row := (rows.eraseIdx k).map (shRow k (-1) [])

/-- the rows after inserting an entry as the `n`-th -/
def inserted (rows : List Row) (n off : Nat) (e : Entry) : List Row :=
  (rows.map (shRow n 1 [e.fullUrl])).insertIdx n (off, (insEntry n e).fresh)

/-- the rows after letting redirects lead to `n` -/
def retargeted (rows : List Row) (k n : Nat) (us : List String) : List Row :=
  if k ≠ n then rows.map (rtRow us n) else rows

theorem shRow_fullUrl (start : Nat) (diff : Int) (skip : List String) (r : Row) :
    (shRow start diff skip r).2.fullUrl = r.2.fullUrl := sh_fullUrl _ _ _ _

theorem mem_erased_url {rows : List Row} {k : Nat} {r : Row} (hr : r ∈ erased rows k) :
    ∃ s ∈ rows.eraseIdx k, s.2.fullUrl = r.2.fullUrl := by
  obtain ⟨s, hs, rfl⟩ := List.mem_map.1 hr
  exact ⟨s, hs, (shRow_fullUrl _ _ _ _).symm⟩

theorem erased_length {k : Nat} (hk : k < rows.length) : (erased rows k).length = rows.length - 1 := by
  unfold erased; rw [List.length_map, List.length_eraseIdx, if_pos hk]

theorem inserted_length {n off : Nat} {e : Entry} (hn : n ≤ rows.length) :
    (inserted rows n off e).length = rows.length + 1 := by
  unfold inserted; rw [List.length_insertIdx_of_le_length (by simpa using hn), List.length_map]

theorem not_mem_erased (hd : DistinctUrls rows) {k : Nat} {row : Row} (hk : rows[k]? = some row) :
    ∀ r ∈ erased rows k, r.2.fullUrl ≠ row.2.fullUrl := by
  intro r hr he
  obtain ⟨s, hs, hsu⟩ := mem_erased_url hr
  obtain ⟨i, hi⟩ := List.getElem?_of_mem hs
  rw [List.getElem?_eraseIdx] at hi
  split at hi
  · have := hd i k s row hi hk (by rw [hsu, he]); omega
  · have := hd (i + 1) k s row hi hk (by rw [hsu, he]); omega

theorem exists_place {rows : List Row} (hs : rows.Pairwise (fun r s => encode r.2.fullUrl < encode s.2.fullUrl))
    {u : String} (hu : ∀ r ∈ rows, r.2.fullUrl ≠ u) : ∃ n, PlaceOf rows u n := by
  induction rows with
  | nil => exact ⟨0, Nat.zero_le _, fun r hr => (by simp at hr), fun r hr => (by simp at hr)⟩
  | cons r rs ih =>
    obtain ⟨h1, h2⟩ := List.pairwise_cons.1 hs
    rcases Std.lt_trichotomy (encode r.2.fullUrl) (encode u) with hlt | heq | hlt
    · obtain ⟨n, hn1, hn2, hn3⟩ := ih h2 (fun s hs => hu s (by simp [hs]))
      refine ⟨n + 1, by simpa using hn1, ?_, ?_⟩
      · intro s hs
        rw [List.take_succ_cons] at hs
        rcases List.mem_cons.1 hs with rfl | hs
        · exact hlt
        · exact hn2 s hs
      · intro s hs
        rw [List.drop_succ_cons] at hs
        exact hn3 s hs
    · exact absurd (encode_injective heq) (hu r (by simp))
    · refine ⟨0, Nat.zero_le _, fun s hs => (by simp at hs), fun s hs => ?_⟩
      rw [List.drop_zero] at hs
      rcases List.mem_cons.1 hs with rfl | hs
      · exact hlt
      · exact Std.lt_trans hlt (h1 s hs)

/-- the last step of moving an entry: let the redirects lead to the new index -/
theorem Rep.retarget_if (h : Rep z rows other) (d k n : Nat) (us : List String) :
    ∃ r z', (if k ≠ n then Zim.retarget (fun e => writeEntry (d + 1) e false true) n us else pure () : PyM Zim Unit) z =
        (r, z') ∧
      (r = .ok () → ∃ file arts, z' = { z with file := file, articles := arts } ∧
        Rep z' (retargeted rows k n us) other ∧ KeepsBytes other z.file file ∧
        (∀ S, Art z.articles rows S → Art arts (retargeted rows k n us) S) ∧
        (k ≠ n → ∀ u ∈ us, ∃ r ∈ rows, r.2.fullUrl = u)) ∧
      (∀ S, Art z.articles rows S → n < rows.length → n < 2 ^ 32 →
        (∀ u ∈ us, ∃ r ∈ rows, r.2.fullUrl = u ∧ ∃ i, r.2.kind = .redirect i) → r = .ok ()) := by
  unfold retargeted
  by_cases hkn : k ≠ n
  · rw [if_pos hkn]
    obtain ⟨r, z', h1, h2, h3⟩ := Rep.retarget d n us z rows h
    refine ⟨r, z', h1, fun hr => ?_, h3⟩
    obtain ⟨file, arts, f1, f2, f3, f4, f5⟩ := h2 hr
    rw [if_pos hkn]
    exact ⟨file, arts, f1, f2, f3, f4, fun _ => f5⟩
  · rw [if_neg hkn]
    refine ⟨.ok (), z, rfl, fun _ => ?_, fun _ _ _ _ _ => rfl⟩
    rw [if_neg hkn]
    exact ⟨z.file, z.articles, rfl, h, KeepsBytes.refl _ _, fun _ hA => hA, fun hh => absurd hh hkn⟩

theorem retargeted_length (k n : Nat) (us : List String) : (retargeted rows k n us).length = rows.length := by
  unfold retargeted; split <;> simp

/-- a redirect stays a redirect -/
theorem shRow_kind {start : Nat} {diff : Int} {skip : List String} {r : Row} {i : Nat} (h : r.2.kind = .redirect i) :
    ∃ i', (shRow start diff skip r).2.kind = .redirect i' := by
  unfold shRow sh
  simp only [h]
  split
  · exact ⟨_, rfl⟩
  · exact ⟨i, h⟩

/-- `write_entry` of an entry that changes its url or size -/
theorem Rep.writeEntry_moved (h : Rep z rows other) {k o : Nat} {e0 e : Entry} (hk : rows[k]? = some (o, e0))
    (hold : e.oldFullUrl = some e0.fullUrl)
    (hch : (∀ r ∈ rows, r.2.fullUrl ≠ e.fullUrl) ∨ (e.fullUrl = e0.fullUrl ∧ e0.getDiskSize ≠ e.getDiskSize))
    (hp : e.Proper) (d : Nat) (upd att : Bool) :
    ∃ r z' n off us, PlaceOf (erased rows k) e.fullUrl n ∧
      us = (if upd && decide (e.fullUrl ≠ e0.fullUrl) then urlsTo rows k else []) ∧
      writeEntry (d + 2) e upd att z = (r, z') ∧
      (∀ e', r = .ok e' → e' = insEntry n e.afterFlushOrRead ∧ e.fresh.Clean ∧
        (∀ i, (insEntry n e).kind = .redirect i → i < rows.length) ∧
        (∀ s v, s ∈ rows.eraseIdx k → Shifts k (-1) [] s v → 0 ≤ v ∧ v < rows.length - 1) ∧
        (∀ s v, s ∈ erased rows k → Shifts n 1 [e.fullUrl] s v → v < rows.length) ∧
        (k ≠ n → ∀ u ∈ us, ∃ r ∈ inserted (erased rows k) n off e, r.2.fullUrl = u) ∧
        Frame other z z' ∧ z'.header = shHeader n 1 (shHeader k (-1) z.header) ∧
        Rep z' (retargeted (inserted (erased rows k) n off e) k n us) other ∧
        ∀ S, Art z.articles rows S → Art z'.articles (retargeted (inserted (erased rows k) n off e) k n us)
            (fun u => (S u ∧ u ≠ e0.fullUrl) ∨ (u = e.fullUrl ∧ att = true ∧ asArticle e S))) ∧
      (∀ S, Art z.articles rows S → (∃ ia, z.isArticle e = .ok ia) → e.mutable = true → (∃ b, e.toBytes = .ok b) →
        (∀ i, e.kind = .redirect i → i + 1 < 2 ^ 32) →
        (∀ s v, s ∈ rows.eraseIdx k → Shifts k (-1) [] s v → 0 ≤ v ∧ v < rows.length - 1 ∧ v ≠ s.1 ∧ v < 2 ^ 32) →
        (∀ s v, s ∈ erased rows k → Shifts n 1 [e.fullUrl] s v → v < rows.length ∧ v ≠ s.1 ∧ v < 2 ^ 32) →
        (∀ u ∈ us, u ≠ e0.fullUrl) → rows.length ≤ 2 ^ 32 →
        (∀ i, (insEntry n e).kind = .redirect i → i < rows.length) → ∃ e', r = .ok e') := by
  obtain ⟨hk', hrk⟩ := List.getElem?_eq_some_iff.1 hk
  have hdist := distinct_of_sorted h.sorted
  have hnot := not_mem_erased hdist hk
  have hnew : ∀ r ∈ erased rows k, r.2.fullUrl ≠ e.fullUrl := by
    rcases hch with hch | hch
    · intro r hr
      obtain ⟨s, hs, hsu⟩ := mem_erased_url hr
      rw [← hsu]
      exact hch s (List.mem_of_mem_eraseIdx hs)
    · rw [hch.1]; exact hnot
  have hch' : e.fullUrl ≠ e0.fullUrl ∨ e0.getDiskSize ≠ e.getDiskSize := by
    rcases hch with hch | hch
    · exact Or.inl fun he => hch _ (List.mem_of_getElem? hk) he.symm
    · exact Or.inr hch.2
  have hsortedE : (erased rows k).Pairwise (fun r s => encode r.2.fullUrl < encode s.2.fullUrl) := by
    unfold erased
    refine List.pairwise_map.2 ((h.sorted.sublist (List.eraseIdx_sublist _ _)).imp ?_)
    intro a b hab
    rw [shRow_fullUrl, shRow_fullUrl]; exact hab
  have hexn := exists_place hsortedE hnew
  cases hia : z.isArticle e with
  | error x =>
    obtain ⟨n, hn⟩ := hexn
    refine ⟨.error x, z, n, 0, _, hn, rfl, writeEntry_isArticle_err h.isOpen h.isMutable (d + 1) upd att hia,
      fun e' he => (by cases he), ?_⟩
    rintro S - ⟨ia, hia'⟩
    cases hia'
  | ok ia =>
  obtain ⟨ai, hai, -⟩ := pointerIndex_ok z.articles k
  rw [h.writeEntry_moved_eq hk hold hch' (d + 1) upd att ia ai hia hai]
  generalize hus : (if upd && decide (e.fullUrl ≠ e0.fullUrl) then urlsTo rows k else []) = us
  have husub : ∀ u ∈ us, ∃ r ∈ rows, r.2.fullUrl = u ∧ ∃ i, r.2.kind = .redirect i := by
    intro u hu
    subst hus
    split at hu
    · obtain ⟨r, hr, hru, hrk⟩ := h.mem_urlsTo.1 hu
      exact ⟨r, hr, hru, _, hrk⟩
    · cases hu
  obtain ⟨off, sp, hpl, hstore⟩ := h.placeOld hk e ai
  rw [PyM.bind_ok hpl]
  cases hb : e.toBytes with
  | error x =>
    obtain ⟨n, hn⟩ := hexn
    refine ⟨.error x, _, n, off, us, hn, rfl, PyM.bind_err (writeAt_err (z := { z with space := sp }) h.isOpen _ x),
      fun e' he => (by cases he), ?_⟩
    rintro S - - - ⟨b, hb'⟩
    cases hb'
  | ok b =>
  rw [PyM.bind_ok (writeAt_ok (z := { z with space := sp }) h.isOpen _ b)]
  obtain ⟨hst, hap, hkeep⟩ := hstore b hb
  -- titles
  obtain ⟨r1, l1, hr1, hrem⟩ := removeTitles_spec { z with space := sp, file := wr z.file off b } k o e0.getDiskSize ai hai
  have hrem' : ∀ S, Art z.articles rows S → r1 = .ok () ∧ Art l1 rows (fun u => S u ∧ u ≠ e0.fullUrl) :=
    fun S hA => hrem rows S _ hA hdist hk
  cases r1 with
  | error x =>
    obtain ⟨n, hn⟩ := hexn
    refine ⟨.error x, _, n, off, us, hn, rfl, PyM.bind_err hr1, fun e' he => (by cases he), ?_⟩
    intro S hA
    cases (hrem' S hA).1
  | ok a1 =>
  rw [PyM.bind_ok hr1]
  -- the url list
  obtain ⟨r2, z2, f1, f2, f3⟩ := Rep.removeUrl (z := { z with space := sp, file := wr z.file off b, articles := l1 })
    (row := (o, e0)) hk hst h.sorted h.urls h.urlsMutable h.isOpen h.isMutable h.noTitles h.headerMutable d
  have hlenE : (rows.eraseIdx k).length = rows.length - 1 := by rw [List.length_eraseIdx, if_pos hk']
  rw [hlenE] at f2 f3
  have hcast : ∀ v : Int, (v < ((rows.length - 1 : Nat) : Int)) ↔ v < (rows.length : Int) - 1 := by intro v; omega
  simp only [hcast] at f2 f3
  cases r2 with
  | error x =>
    obtain ⟨n, hn⟩ := hexn
    refine ⟨.error x, z2, n, off, us, hn, rfl, PyM.bind_err f1, fun e' he => (by cases he), ?_⟩
    intro S hA _ _ _ _ hs
    cases f3 _ (hrem' S hA).2 (fun hh => hh.2 rfl) hs
  | ok a2 =>
  rw [PyM.bind_ok f1]
  obtain ⟨file2, arts2, urls2, ⟨hz2, hdu2⟩, hrep2, hkeep2, hart2, hrange2⟩ := f2 rfl
  change Rep z2 (erased rows k) _ at hrep2
  have hh2 : Holds z2.file off b := by
    intro i hi
    have h5 := holds_wr z.file off b i hi
    rw [List.getElem?_eq_getElem hi] at h5 ⊢
    rw [hz2]
    refine hkeep2 _ _ (Or.inr ?_) h5
    have := Entry.size_eq _ _ hb
    constructor
    · simp only; omega
    · rw [Entry.fresh_size]; simp only; omega
  obtain ⟨r3, z3, n, hplace, g1, g2, g3⟩ := Rep.insertUrl (e := e.afterFlushOrRead) hrep2 rfl rfl
    (by rw [afterFlush_toBytes]; exact hb) (afterFlush_proper hp) hh2 hap hnew d
  have hlen1 : (erased rows k).length = rows.length - 1 := erased_length hk'
  have hz2a : z2.articles = arts2 := by rw [hz2]
  have hartS2 : ∀ S, Art z.articles rows S → Art z2.articles (erased rows k) (fun u => S u ∧ u ≠ e0.fullUrl) := by
    intro S hA
    rw [hz2a]
    exact hart2 _ (hrem' S hA).2 (fun hh => hh.2 rfl)
  have hnS : ∀ S, Art z.articles rows S → ¬ (S e.fullUrl ∧ e.fullUrl ≠ e0.fullUrl) := by
    intro S hA hS
    obtain ⟨r, hr, hru⟩ := (hartS2 S hA).dom _ hS
    exact hnew r hr hru
  cases r3 with
  | error x =>
    refine ⟨.error x, z3, n, off, us, hplace, rfl, PyM.bind_err g1, fun e' he => (by cases he), ?_⟩
    intro S hA _ hm _ hi _ hs
    obtain ⟨p, hp⟩ := g3 _ (hartS2 S hA) (hnS S hA) hm hi (fun s v hs' hsv => by
      obtain ⟨c1, c2, c3⟩ := hs s v hs' hsv
      exact ⟨by rw [hlen1]; omega, c2, c3⟩)
    cases hp
  | ok p =>
  rw [PyM.bind_ok g1]
  obtain ⟨rfl, file3, arts3, urls3, ⟨hz3, hdu3⟩, hrep3, hkeep3, hart3, hrange3⟩ := g2 p rfl
  simp only
  have hfr : (insEntry n e.afterFlushOrRead).fresh = (insEntry n e).fresh := by
    rw [insEntry_fresh, insEntry_fresh]; rfl
  rw [hfr] at hrep3 hart3
  change Rep z3 (inserted (erased rows k) n off e) other at hrep3
  change ∀ S, Art z2.articles (erased rows k) S → _ → Art arts3 (inserted (erased rows k) n off e) S at hart3
  have hle : n ≤ ((erased rows k).map (shRow n 1 [e.fullUrl])).length := by simpa using hplace.le
  have hgetn : (inserted (erased rows k) n off e)[n]? = some (off, (insEntry n e).fresh) := by
    unfold inserted
    rw [List.getElem?_insertIdx_self, if_pos hle]
  have hlen3 : (inserted (erased rows k) n off e).length = rows.length := by
    rw [inserted_length hplace.le, hlen1]; omega
  obtain ⟨r4, arts4, k1, k2⟩ := hrep3.addTitles_if att ia (insEntry n e.afterFlushOrRead) hgetn
    (by rw [← hfr]; rfl)
  have hart4 : ∀ S, Art z.articles rows S → r4 = .ok () ∧ Art arts4 (inserted (erased rows k) n off e)
      (fun u => (S u ∧ u ≠ e0.fullUrl) ∨ (u = e.fullUrl ∧ att = true ∧ asArticle e S)) := by
    intro S hA
    have hz3a : z3.articles = arts3 := by rw [hz3]
    obtain ⟨h6, h7⟩ := k2 _ (by rw [hz3a]; exact hart3 _ (hartS2 S hA) (hnS S hA))
      (by rw [Entry.fresh_fullUrl, insEntry_fullUrl]; exact hnS S hA)
      (fun hi => by
        show (insEntry n e).ns = "C"
        rw [insEntry_ns]
        exact ns_of_isArticle h hA hp hia hi)
    refine ⟨h6, h7.congr fun u => ?_⟩
    rw [Entry.fresh_fullUrl, insEntry_fullUrl, h.isArticle hA hia]
  cases r4 with
  | error x =>
    refine ⟨.error x, _, n, off, us, hplace, rfl, PyM.bind_err k1, fun e' he => (by cases he), ?_⟩
    intro S hA
    cases (hart4 S hA).1
  | ok a4 =>
  rw [PyM.bind_ok k1]
  have hrep4 := hrep3.withArticles arts4
  -- redirects
  obtain ⟨r5, z5, m1, m2, m3⟩ := hrep4.retarget_if d k n us
  cases r5 with
  | error x =>
    refine ⟨.error x, z5, n, off, us, hplace, rfl, PyM.bind_err m1, fun e' he => (by cases he), ?_⟩
    intro S hA _ _ _ _ _ _ hself hbig _
    have hn : n < rows.length := by have := hplace.le; omega
    refine absurd (m3 _ (hart4 S hA).2 (by rw [hlen3]; exact hn) (by omega) fun u hu => ?_) (by intro hh; cases hh)
    obtain ⟨r, hr, hru, i, hi⟩ := husub u hu
    have hrE : r ∈ rows.eraseIdx k := by
      obtain ⟨j, hj⟩ := List.getElem?_of_mem hr
      have hjk : j ≠ k := by
        intro he; subst he; rw [hk] at hj; cases hj; exact hself u hu hru.symm
      rw [List.mem_eraseIdx_iff_getElem?]
      exact ⟨j, hjk, hj⟩
    obtain ⟨i1, hi1⟩ := shRow_kind (start := k) (diff := -1) (skip := []) hi
    obtain ⟨i2, hi2⟩ := shRow_kind (start := n) (diff := 1) (skip := [e.fullUrl]) hi1
    refine ⟨_, ?_, ?_, i2, hi2⟩
    · unfold inserted
      exact (List.mem_insertIdx hle).2 (Or.inr (List.mem_map_of_mem (List.mem_map_of_mem hrE)))
    · rw [shRow_fullUrl, shRow_fullUrl, hru]
  | ok a5 =>
  rw [PyM.bind_ok m1]
  obtain ⟨file5, arts5, hz5, hrep5, hkeep5, hart5, hus5⟩ := m2 rfl
  obtain ⟨r6, hr6, h6⟩ := logRedirect_spec z5 (insEntry n e.afterFlushOrRead)
  have h6 := h6 _ other hrep5 (insEntry_proper (afterFlush_proper hp)).kind
  have hkk : (insEntry n e.afterFlushOrRead).kind = (insEntry n e).kind := by
    have := congrArg Entry.kind hfr; exact this
  rw [hkk, retargeted_length, hlen3] at h6
  cases r6 with
  | error x =>
    refine ⟨.error x, _, n, off, us, hplace, rfl, PyM.bind_err hr6, fun e' he => (by cases he), ?_⟩
    intro S hA _ _ _ _ _ _ _ _ hi
    cases h6.2 hi
  | ok a6 =>
    refine ⟨.ok (insEntry n e.afterFlushOrRead), z5, n, off, us, hplace, rfl, by rw [PyM.bind_ok hr6]; rfl, ?_,
      fun _ _ _ _ _ _ _ _ _ _ _ => ⟨_, rfl⟩⟩
    intro e' he
    injection he with he
    refine ⟨he.symm, hp.clean hb, h6.1 rfl, hrange2, ?_, hus5, ?_, ?_, hrep5, ?_⟩
    · intro s v hs hsv
      have := hrange3 s v hs hsv
      rw [hlen1] at this; omega
    · refine ⟨?_, ?_, ?_, ?_, ?_, ?_, ?_, Or.inr ?_, Or.inr ?_⟩
      · rw [hz5]
        refine hkeep.trans (KeepsBytes.trans (g := file2) ?_ (KeepsBytes.trans (f := file2) ?_ hkeep5))
        · exact fun x c hx hc => hkeep2 x c (Or.inl hx) hc
        · simp only [hz3]
          rw [hz2] at hkeep3
          exact hkeep3
      all_goals simp only [hz5, hz3, hz2]
      · exact (shHeader_mainOnly _ _ _).trans (shHeader_mainOnly _ _ _)
      · exact hdu3
      · exact hdu3
    · simp only [hz5, hz3, hz2]
    · intro S hA
      rw [hz5]
      exact hart5 _ (hart4 S hA).2

end Zim
end Pyzim
