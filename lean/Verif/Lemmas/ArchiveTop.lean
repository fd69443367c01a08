import Verif.Lemmas.ArchiveUrl

namespace Pyzim
namespace Zim
open SpaceAllocator (InBlock)

variable {z : Zim} {rows : List Row} {other : Nat → Prop} {S : String → Prop}

/-! ### redirects leading to a renamed entry -/

/-- the row as `retarget` leaves it -/
def rtRow (us : List String) (n : Nat) (r : Row) : Row :=
  if r.2.fullUrl ∈ us then (r.1, r.2.withIndex n) else r

theorem rtRow_fullUrl (us : List String) (n : Nat) (r : Row) : (rtRow us n r).2.fullUrl = r.2.fullUrl := by
  unfold rtRow; split <;> rfl

theorem rtRow_nil (n : Nat) (r : Row) : rtRow [] n r = r := by simp [rtRow]

theorem rtRow_comp (u : String) (us : List String) (n : Nat) (r : Row) :
    rtRow us n (rtRow [u] n r) = rtRow (u :: us) n r := by
  unfold rtRow
  by_cases h1 : r.2.fullUrl = u
  · rw [if_pos (show r.2.fullUrl ∈ [u] by simp [h1]), if_pos (show r.2.fullUrl ∈ u :: us by simp [h1])]
    split <;> rfl
  · rw [if_neg (show r.2.fullUrl ∉ [u] by simp [h1])]
    by_cases h2 : r.2.fullUrl ∈ us
    · rw [if_pos h2, if_pos (by simp [h2])]
    · rw [if_neg h2, if_neg (by simp [h1, h2])]

theorem map_rtRow_single (hd : DistinctUrls rows) {j n : Nat} {row : Row} (hj : rows[j]? = some row) :
    rows.map (rtRow [row.2.fullUrl] n) = rows.set j (row.1, row.2.withIndex n) := by
  refine List.ext_getElem? fun i => ?_
  rw [List.getElem?_map, List.getElem?_set]
  by_cases hi : j = i
  · subst hi
    rw [hj, if_pos rfl, if_pos (List.getElem?_eq_some_iff.1 hj).1]
    simp [rtRow]
  · rw [if_neg hi]
    cases hr : rows[i]? with
    | none => rfl
    | some r =>
      simp only [Option.map_some]
      unfold rtRow
      rw [if_neg]
      intro hm
      exact hi (hd j i row r hj hr (by simpa using (List.mem_singleton.1 hm).symm))

theorem Rep.retarget (d n : Nat) (us : List String) :
    ∀ (z : Zim) (rows : List Row), Rep z rows other →
    ∃ r z', Zim.retarget (fun e => writeEntry (d + 1) e false true) n us z = (r, z') ∧
      (r = .ok () → ∃ file arts, z' = { z with file := file, articles := arts } ∧
        Rep z' (rows.map (rtRow us n)) other ∧ KeepsBytes other z.file file ∧
        (∀ S, Art z.articles rows S → Art arts (rows.map (rtRow us n)) S) ∧
        (∀ u ∈ us, ∃ r ∈ rows, r.2.fullUrl = u)) ∧
      (∀ S, Art z.articles rows S → n < rows.length → n < 2 ^ 32 →
        (∀ u ∈ us, ∃ r ∈ rows, r.2.fullUrl = u ∧ ∃ i, r.2.kind = .redirect i) → r = .ok ()) := by
  induction us with
  | nil =>
    intro z rows h
    have : rows.map (rtRow [] n) = rows := by
      conv => rhs; rw [← List.map_id rows]
      exact List.map_congr_left fun r _ => rtRow_nil n r
    rw [this]
    exact ⟨.ok (), z, rfl, fun _ => ⟨z.file, z.articles, rfl, h, KeepsBytes.refl _ _, fun _ hA => hA,
      fun u hu => (by cases hu)⟩, fun _ _ _ _ _ => rfl⟩
  | cons u us ih =>
    intro z rows h
    rw [Zim.retarget, PyM.get_bind]
    by_cases hu : ∃ r ∈ rows, r.2.fullUrl = u
    · obtain ⟨⟨o, e⟩, hr, rfl⟩ := hu
      have hc : e.Clean := h.store.clean _ hr
      rw [h.entryByFullUrl hr, PyM.lift_ok_bind]
      obtain ⟨j, hj⟩ := List.getElem?_of_mem hr
      cases hk : e.kind with
      | content c m =>
        have : e.setRedirectIndex n = (.error .attributeError, e) := by
          unfold Entry.setRedirectIndex; rw [hk]
        rw [this, PyM.lift_err_bind]
        refine ⟨_, _, rfl, fun hh => (by cases hh), fun S _ _ _ hc' => ?_⟩
        obtain ⟨⟨o', e'⟩, hr', hu', i, hi⟩ := hc' e.fullUrl (by simp)
        obtain ⟨j', hj'⟩ := List.getElem?_of_mem hr'
        have := h.url_inj hj' hj hu'
        subst this
        rw [hj] at hj'; cases hj'
        simp only at hi
        rw [hk] at hi; cases hi
      | redirect i =>
        obtain ⟨e1, he1, hf1, hold1, hu1, hs1, hp1, hk1, hfo1, hns1⟩ := hc.setRedirect hk (v := n) (by omega)
        rw [he1, PyM.lift_ok_bind]
        obtain ⟨r, z', h1, h2, h3⟩ := h.writeEntry_inplace hj hold1 hu1 hs1 hp1 d false true
        rw [Int.toNat_natCast] at hf1 hk1
        cases r with
        | error x =>
          refine ⟨.error x, z', PyM.bind_err h1, fun hh => (by cases hh), fun S hA hn hn' _ => ?_⟩
          have hcl : e1.fresh.Clean := by
            rw [hf1]
            refine ⟨⟨hc.storable.ns, hc.storable.url, hc.storable.title, hc.storable.mimetype, ?_⟩, ?_,
              ⟨fun _ => hc.kind.1 ⟨i, hk⟩, fun _ => ⟨_, rfl⟩⟩⟩
            · unfold Entry.withIndex; simp only; omega
            · rw [← hf1]; rfl
          obtain ⟨e', he'⟩ := h3 S hA (Entry.Proper.toBytes hcl) (fun i' hi' => by
            rw [hk1] at hi'; injection hi' with hi'; omega)
          cases he'
        | ok e' =>
          rw [PyM.bind_ok h1]
          obtain ⟨-, -, b, arts, hb, hz', hA'⟩ := h2 e' rfl
          have hmap : rows.map (rtRow [e.fullUrl] n) = rows.set j (o, e1.fresh) := by
            have := map_rtRow_single (n := n) (distinct_of_sorted h.sorted) hj
            rw [hf1]; exact this
          have hrep : Rep z' (rows.map (rtRow [e.fullUrl] n)) other := by
            rw [hz', hmap]
            exact h.setRow hj (hp1.clean hb) (by rw [Entry.fresh_toBytes]; exact hb) hs1 hu1 arts
          have hkeep : KeepsBytes other z.file (wr z.file o b) :=
            h.store.keeps hr (by rw [Entry.size_eq _ _ hb, hs1])
          have hart : ∀ S, Art z.articles rows S → Art z'.articles (rows.map (rtRow [e.fullUrl] n)) S := by
            intro S hA
            rw [hz', hmap]
            refine (hA' S hA).congr (mark_self hold1 hfo1 fun hS => ?_)
            rw [hns1]
            exact hA.inC _ hr (by rw [← hu1]; exact hS)
          have hcomp : (rows.map (rtRow [e.fullUrl] n)).map (rtRow us n) = rows.map (rtRow (e.fullUrl :: us) n) := by
            rw [List.map_map]
            exact List.map_congr_left fun r _ => rtRow_comp _ _ _ _
          obtain ⟨r2, z2, g1, g2, g3⟩ := ih z' _ hrep
          rw [hcomp] at g2
          refine ⟨r2, z2, g1, fun hr2 => ?_, fun S hA hn hn' hc' => ?_⟩
          · obtain ⟨file, arts2, f1, f2, f3, f4, f5⟩ := g2 hr2
            refine ⟨file, arts2, by rw [f1, hz'], f2, ?_, fun S hA => f4 S (hart S hA), ?_⟩
            · rw [hz'] at f3; exact hkeep.trans f3
            · intro u' hu'
              rcases List.mem_cons.1 hu' with rfl | hu'
              · exact ⟨_, hr, rfl⟩
              · obtain ⟨r', hr', hru⟩ := f5 u' hu'
                obtain ⟨r'', hr'', rfl⟩ := List.mem_map.1 hr'
                exact ⟨r'', hr'', by rw [← hru, rtRow_fullUrl]⟩
          · refine g3 S (hart S hA) (by simpa using hn) hn' fun u' hu' => ?_
            obtain ⟨r', hr', hru, i', hi'⟩ := hc' u' (by simp [hu'])
            refine ⟨rtRow [e.fullUrl] n r', List.mem_map_of_mem hr', by rw [rtRow_fullUrl]; exact hru, ?_⟩
            unfold rtRow
            split
            · exact ⟨n, rfl⟩
            · exact ⟨i', hi'⟩
    · have hu' : ∀ r ∈ rows, r.2.fullUrl ≠ u := fun r hr he => hu ⟨r, hr, he⟩
      rw [h.entryByFullUrl_missing hu', PyM.lift_err_bind]
      refine ⟨_, _, rfl, fun hh => (by cases hh), fun S _ _ _ hc' => ?_⟩
      obtain ⟨r, hr, hru, -⟩ := hc' u (by simp)
      exact absurd hru (hu' r hr)

/-- urls of the redirects leading to index `k` -/
def urlsTo (rows : List Row) (k : Nat) : List String :=
  ((rows.map (·.2)).filter (fun e => e.isRedirect && decide (e.kind = .redirect k))).map Entry.fullUrl

theorem Rep.redirectsTo (h : Rep z rows other) (k : Nat) : z.redirectsTo k = .ok (urlsTo rows k) := by
  unfold Zim.redirectsTo
  rw [h.iterEntries]
  rfl

theorem Rep.mem_urlsTo (h : Rep z rows other) {k : Nat} {u : String} :
    u ∈ urlsTo rows k ↔ ∃ r ∈ rows, r.2.fullUrl = u ∧ r.2.kind = .redirect k := by
  unfold urlsTo
  simp only [List.mem_map, List.mem_filter, Bool.and_eq_true, decide_eq_true_eq]
  constructor
  · rintro ⟨e, ⟨⟨r, hr, rfl⟩, -, hk⟩, rfl⟩
    exact ⟨r, hr, rfl, hk⟩
  · rintro ⟨r, hr, rfl, hk⟩
    exact ⟨r.2, ⟨⟨r, hr, rfl⟩, (h.store.clean r hr).isRedirect.2 ⟨k, hk⟩, hk⟩, rfl⟩

/-! ### equations -/

theorem Rep.writeEntry_new_eq (h : Rep z rows other) {e : Entry} {u0 : String} (hold : e.oldFullUrl = some u0)
    (hu0 : ∀ r ∈ rows, r.2.fullUrl ≠ u0) (d : Nat) (upd att ia : Bool) (hia : z.isArticle e = .ok ia) :
    writeEntry (d + 1) e upd att z = (do
      let off ← allocate e.getDiskSize
      writeAt off e.toBytes
      let r ← Zim.insertUrl (fun e => writeEntry d e true true) e.afterFlushOrRead off
      (if att then addTitles r.2 ia r.1 else pure ())
      logRedirect r.2
      pure r.2 : PyM Zim Entry) z := by
  have hfo := h.findOld_missing hold hu0
  simp only [writeEntry]
  rw [PyM.get_bind, h.isOpen, h.isMutable]
  simp only [Bool.not_false, PyM.require_true_bind, hia, hfo, PyM.lift_ok_bind, Option.isNone_none, Bool.or_true,
    place, PyM.pure_bind_fn, Option.map_none, Zim.retarget, ite_self]

theorem writeEntry_isArticle_err {e : Entry} (hopen : z.closed = false) (hmut : z.mutable = true) (d : Nat)
    (upd att : Bool) {x : PyErr} (hia : z.isArticle e = .error x) : writeEntry (d + 1) e upd att z = (.error x, z) := by
  simp only [writeEntry]
  rw [PyM.get_bind, hopen, hmut]
  simp only [Bool.not_false, PyM.require_true_bind, hia, PyM.lift_err_bind]

theorem Rep.writeEntry_moved_eq (h : Rep z rows other) {k o : Nat} {e0 e : Entry} (hk : rows[k]? = some (o, e0))
    (hold : e.oldFullUrl = some e0.fullUrl)
    (hch : e.fullUrl ≠ e0.fullUrl ∨ e0.getDiskSize ≠ e.getDiskSize)
    (d : Nat) (upd att ia : Bool) (ai : Option Nat) (hia : z.isArticle e = .ok ia)
    (hai : pointerIndex z.articles k = .ok ai) :
    writeEntry (d + 1) e upd att z = (do
      let off ← place (some ⟨k, o, e0.getDiskSize, ai, none⟩) e.getDiskSize
      writeAt off e.toBytes
      removeTitles ⟨k, o, e0.getDiskSize, ai, none⟩
      Zim.removeUrl (fun e => writeEntry d e true true) k
      let r ← Zim.insertUrl (fun e => writeEntry d e true true) e.afterFlushOrRead off
      (if att then addTitles r.2 ia r.1 else pure ())
      (if k ≠ r.1 then
        Zim.retarget (fun e => writeEntry d e false true) r.1
          (if upd && decide (e.fullUrl ≠ e0.fullUrl) then urlsTo rows k else [])
      else pure ())
      logRedirect r.2
      pure r.2 : PyM Zim Entry) z := by
  have hfo := h.findOld hk hold hai
  have hred : ∀ c : Bool, (if c = true then z.redirectsTo k else Except.ok []) = .ok (if c = true then urlsTo rows k else []) := by
    intro c; rw [h.redirectsTo]; split <;> rfl
  have hne : (decide (some e0.fullUrl ≠ some e.fullUrl)) = decide (e.fullUrl ≠ e0.fullUrl) := by
    refine decide_eq_decide.2 ?_
    constructor
    · exact fun h h' => h (by rw [h'])
    · exact fun h h' => h (by injection h' with h'; exact h'.symm)
  have hcond : (decide (e.fullUrl ≠ e0.fullUrl) || decide (e0.getDiskSize ≠ e.getDiskSize)) = true := by
    rw [Bool.or_eq_true]
    rcases hch with h | h
    · exact Or.inl (decide_eq_true h)
    · exact Or.inr (decide_eq_true h)
  simp only [writeEntry]
  rw [PyM.get_bind, h.isOpen, h.isMutable]
  simp only [Bool.not_false, PyM.require_true_bind, hia, hfo, PyM.lift_ok_bind, Option.isNone_some, Bool.or_false, hold,
    hne, hred, hcond, if_true, Option.map_some]
  have hs : ∀ n : Nat, (some k ≠ some n) = (k ≠ n) := by
    intro n; simp
  simp only [hs]

/-! ### the stages after inserting the url -/

theorem MainOnly.refl (h : Header) : MainOnly h h := Or.inl rfl

theorem MainOnly.trans {a b c : Header} (h1 : MainOnly a b) (h2 : MainOnly b c) : MainOnly a c := by
  rcases h1 with rfl | ⟨m, rfl⟩
  · exact h2
  · rcases h2 with rfl | ⟨n, rfl⟩
    · exact Or.inr ⟨m, rfl⟩
    · exact Or.inr ⟨n, rfl⟩

theorem shHeader_mainOnly (start : Nat) (diff : Int) (h : Header) : MainOnly h (shHeader start diff h) := by
  unfold shHeader
  split
  · exact Or.inl rfl
  · split
    · exact Or.inr ⟨_, rfl⟩
    · exact Or.inl rfl

theorem Frame.trans {z1 z2 z3 : Zim} (h1 : Frame other z1 z2) (h2 : Frame other z2 z3) : Frame other z1 z3 :=
  ⟨h1.bytes.trans h2.bytes, h2.mimetypes.trans h1.mimetypes, h2.clusters.trans h1.clusters,
    h2.clusterNum.trans h1.clusterNum, h2.redirects.trans h1.redirects, h2.mainpage.trans h1.mainpage,
    h1.header.trans h2.header, by
      rcases h2.urls with e | e
      · rw [e]; exact h1.urls
      · exact Or.inr e, by
      rcases h2.space with e | e
      · rcases h1.space with e' | e'
        · exact Or.inl ⟨e.1.trans e'.1, e.2.trans e'.2⟩
        · rcases h2.urls with u | u
          · rw [u]; exact Or.inr e'
          · exact Or.inr u
      · exact Or.inr e⟩

theorem Rep.withArticles (h : Rep z rows other) (l : PointerList) : Rep { z with articles := l } rows other :=
  ⟨h.store, h.sorted, h.urls, h.urlsMutable, h.isOpen, h.isMutable, h.noTitles, h.headerMutable⟩

/-- inserting the titles -/
theorem Rep.addTitles_if (h : Rep z rows other) (att ia : Bool) (e : Entry) {n : Nat} {row : Row}
    (hn : rows[n]? = some row) (ht : row.2.title = e.title) :
    ∃ r arts, (if att then addTitles e ia n else pure () : PyM Zim Unit) z = (r, { z with articles := arts }) ∧
      ∀ S, Art z.articles rows S → ¬ S row.2.fullUrl → (ia = true → row.2.ns = "C") →
        r = .ok () ∧ Art arts rows (fun u => S u ∨ (u = row.2.fullUrl ∧ att = true ∧ ia = true)) := by
  cases att with
  | false => exact ⟨.ok (), z.articles, rfl, fun S hA _ _ => ⟨rfl, hA.congr fun u => by simp⟩⟩
  | true =>
    obtain ⟨r, arts, h1, h2⟩ := addTitles_spec z h.noTitles e ia n
    refine ⟨r, arts, h1, fun S hA hS hC => ?_⟩
    obtain ⟨h3, h4⟩ := h2 rows other S row h hA hn ht hC hS
    exact ⟨h3, h4.congr fun u => by simp⟩

theorem ns_of_isArticle (h : Rep z rows other) (hA : Art z.articles rows S) {e : Entry} (hp : e.Proper) {ia : Bool}
    (hia : z.isArticle e = .ok ia) (hi : ia = true) : e.ns = "C" := by
  have := (h.isArticle hA hia).1 hi
  unfold asArticle at this
  cases hf : e.forceIsArticle with
  | some b => rw [hf] at this; simp only at this; subst this; exact hp.article hf
  | none => rw [hf] at this; exact this.1

theorem insEntry_proper {n : Nat} {e : Entry} (hp : e.Proper) : (insEntry n e).Proper := by
  unfold insEntry
  cases hk : e.kind with
  | content c b => exact hp
  | redirect i =>
    simp only
    split
    · exact ⟨hp.url, hp.title, ⟨fun _ => hp.kind.1 ⟨i, hk⟩, fun _ => ⟨_, rfl⟩⟩, hp.article⟩
    · exact hp

theorem afterFlush_proper {e : Entry} (hp : e.Proper) : e.afterFlushOrRead.Proper :=
  ⟨hp.url, hp.title, hp.kind, hp.article⟩

theorem insEntry_title (n : Nat) (e : Entry) : (insEntry n e).title = e.title := by
  rcases insEntry_cases n e with h | ⟨r, h⟩ <;> rw [h] <;> rfl

theorem insEntry_ns (n : Nat) (e : Entry) : (insEntry n e).ns = e.ns := by
  rcases insEntry_cases n e with h | ⟨r, h⟩ <;> rw [h] <;> rfl

/-- the entry after it is placed at the offset -/
theorem Rep.placeNew (h : Rep z rows other) (e : Entry) {b : Bytes} (hb : e.toBytes = .ok b) :
    Rep { z with space := (z.space.allocate e.getDiskSize).2
                 file := wr z.file (z.space.allocate e.getDiskSize).1 b }
      rows (fun x => other x ∨ InRow ((z.space.allocate e.getDiskSize).1, e.fresh) x) ∧
    (∀ x, InRow ((z.space.allocate e.getDiskSize).1, e.fresh) x → ¬ other x) ∧
    KeepsBytes other z.file (wr z.file (z.space.allocate e.getDiskSize).1 b) := by
  obtain ⟨h1, h2⟩ := h.store.alloc e.getDiskSize
  have hlen := Entry.size_eq _ _ hb
  refine ⟨⟨?_, h.sorted, h.urls, h.urlsMutable, h.isOpen, h.isMutable, h.noTitles, h.headerMutable⟩, ?_, ?_⟩
  · refine (h1.write _ b (fun r hr x hx hx' => ?_) (h1.below (by rw [hlen]; exact Entry.size_pos _) fun x hx hx' =>
      Or.inr ⟨hx, by simp only; omega⟩)).congr fun x => Iff.rfl
    exact (h2 x ⟨hx'.1, by have := hx'.2; simp only; omega⟩).2 r hr hx
  · intro x hx
    exact (h2 x hx).1
  · intro x c hx hc
    exact wr_frame hc fun hh => (h2 x ⟨hh.1, by have := hh.2; simp only; omega⟩).1 hx

/-- `write_entry` of a new entry -/
theorem Rep.writeEntry_new (h : Rep z rows other) {e : Entry} {u0 : String} (hold : e.oldFullUrl = some u0)
    (hu0 : ∀ r ∈ rows, r.2.fullUrl ≠ u0) (hnew : ∀ r ∈ rows, r.2.fullUrl ≠ e.fullUrl) (hp : e.Proper) (d : Nat)
    (upd att : Bool) :
    ∃ r z' n, PlaceOf rows e.fullUrl n ∧ writeEntry (d + 2) e upd att z = (r, z') ∧
      (∀ e', r = .ok e' → e' = insEntry n e.afterFlushOrRead ∧ e.fresh.Clean ∧
        (∀ i, (insEntry n e).kind = .redirect i → i < rows.length + 1) ∧
        (∀ s v, s ∈ rows → Shifts n 1 [e.fullUrl] s v → v ≤ rows.length) ∧
        ∃ off, Frame other z z' ∧ z'.header = shHeader n 1 z.header ∧
          Rep z' ((rows.map (shRow n 1 [e.fullUrl])).insertIdx n (off, (insEntry n e).fresh)) other ∧
          ∀ S, Art z.articles rows S → Art z'.articles
            ((rows.map (shRow n 1 [e.fullUrl])).insertIdx n (off, (insEntry n e).fresh))
            (fun u => S u ∨ (u = e.fullUrl ∧ att = true ∧ asArticle e S))) ∧
      (∀ S, Art z.articles rows S → (∃ ia, z.isArticle e = .ok ia) → e.mutable = true → (∃ b, e.toBytes = .ok b) →
        (∀ i, e.kind = .redirect i → i + 1 < 2 ^ 32) →
        (∀ s v, s ∈ rows → Shifts n 1 [e.fullUrl] s v → v ≤ rows.length ∧ v ≠ s.1 ∧ v < 2 ^ 32) →
        (∀ i, (insEntry n e).kind = .redirect i → i < rows.length + 1) → ∃ e', r = .ok e') := by
  -- the place does not depend on the outcome
  have hexn : ∃ n, PlaceOf rows e.fullUrl n := by
    obtain ⟨n, -, hn2, hn3, hn4⟩ := h.search (encode e.fullUrl)
    refine ⟨n, hn2, hn3, fun r hr => ?_⟩
    rcases Std.lt_trichotomy (encode e.fullUrl) (encode r.2.fullUrl) with h1 | h1 | h1
    · exact h1
    · exact absurd (encode_injective h1).symm (hnew r (List.mem_of_mem_drop hr))
    · exact absurd h1 (hn4 r hr)
  cases hia : z.isArticle e with
  | error x =>
    obtain ⟨n, hn⟩ := hexn
    refine ⟨.error x, z, n, hn, writeEntry_isArticle_err h.isOpen h.isMutable (d + 1) upd att hia,
      fun e' he => (by cases he), ?_⟩
    rintro S - ⟨ia, hia'⟩
    cases hia'
  | ok ia =>
  rw [h.writeEntry_new_eq hold hu0 (d + 1) upd att ia hia]
  have halloc : allocate e.getDiskSize z =
      (.ok (z.space.allocate e.getDiskSize).1, { z with space := (z.space.allocate e.getDiskSize).2 }) := rfl
  rw [PyM.bind_ok halloc]
  cases hb : e.toBytes with
  | error x =>
    obtain ⟨n, hn⟩ := hexn
    refine ⟨.error x, _, n, hn, PyM.bind_err (writeAt_err
      (z := { z with space := (z.space.allocate e.getDiskSize).2 }) h.isOpen _ x), fun e' he => (by cases he), ?_⟩
    rintro S - - - ⟨b, hb'⟩
    cases hb'
  | ok b =>
  rw [PyM.bind_ok (writeAt_ok (z := { z with space := (z.space.allocate e.getDiskSize).2 }) h.isOpen _ b)]
  obtain ⟨hrep, hap, hkeep⟩ := h.placeNew e hb
  generalize (z.space.allocate e.getDiskSize).1 = off at hrep hap hkeep ⊢
  generalize hsp : (z.space.allocate e.getDiskSize).2 = sp at hrep ⊢
  obtain ⟨r, z', n, hplace, g1, g2, g3⟩ := Rep.insertUrl (e := e.afterFlushOrRead) hrep rfl rfl
    (by rw [afterFlush_toBytes]; exact hb) (afterFlush_proper hp) (holds_wr _ _ _) hap hnew d
  have hnS : ∀ S, Art z.articles rows S → ¬ S e.fullUrl := by
    intro S hA hS
    obtain ⟨r, hr, hru⟩ := hA.dom _ hS
    exact hnew r hr hru
  cases r with
  | error x =>
    refine ⟨.error x, z', n, hplace, PyM.bind_err g1, fun e' he => (by cases he), ?_⟩
    intro S hA _ hm _ hi hs _
    obtain ⟨p, hp⟩ := g3 S hA (hnS S hA) hm hi hs
    cases hp
  | ok p =>
  rw [PyM.bind_ok g1]
  obtain ⟨rfl, file, arts, urls, ⟨hz', hdu⟩, hrep', hkeep', hart, hrange⟩ := g2 p rfl
  simp only
  have hfr : (insEntry n e.afterFlushOrRead).fresh = (insEntry n e).fresh := by
    rw [insEntry_fresh, insEntry_fresh]; rfl
  rw [hfr] at hrep' hart
  rw [show e.afterFlushOrRead.fullUrl = e.fullUrl from rfl] at hrep' hart
  have hle : n ≤ (rows.map (shRow n 1 [e.fullUrl])).length := by simpa using hplace.le
  have hgetn : ((rows.map (shRow n 1 [e.fullUrl])).insertIdx n (off, (insEntry n e).fresh))[n]? =
      some (off, (insEntry n e).fresh) := by
    rw [List.getElem?_insertIdx_self, if_pos hle]
  obtain ⟨r2, arts2, g4, g5⟩ := hrep'.addTitles_if att ia (insEntry n e.afterFlushOrRead) hgetn
    (by rw [← hfr]; rfl)
  have hart2 : ∀ S, Art z.articles rows S → r2 = .ok () ∧ Art arts2
      ((rows.map (shRow n 1 [e.fullUrl])).insertIdx n (off, (insEntry n e).fresh))
      (fun u => S u ∨ (u = e.fullUrl ∧ att = true ∧ asArticle e S)) := by
    intro S hA
    have hz'a : z'.articles = arts := by rw [hz']
    obtain ⟨h6, h7⟩ := g5 S (by rw [hz'a]; exact hart S hA (hnS S hA))
      (by rw [Entry.fresh_fullUrl, insEntry_fullUrl]; exact hnS S hA)
      (fun hi => by
        show (insEntry n e).ns = "C"
        rw [insEntry_ns]
        exact ns_of_isArticle h hA hp hia hi)
    refine ⟨h6, h7.congr fun u => ?_⟩
    rw [Entry.fresh_fullUrl, insEntry_fullUrl, h.isArticle hA hia]
  cases r2 with
  | error x =>
    refine ⟨.error x, _, n, hplace, PyM.bind_err g4, fun e' he => (by cases he), ?_⟩
    intro S hA
    cases (hart2 S hA).1
  | ok a2 =>
  rw [PyM.bind_ok g4]
  have hrep2 := hrep'.withArticles arts2
  obtain ⟨r3, hr3, h3⟩ := logRedirect_spec { z' with articles := arts2 } (insEntry n e.afterFlushOrRead)
  have h3 := h3 _ other hrep2 (insEntry_proper (afterFlush_proper hp)).kind
  have hkk : (insEntry n e.afterFlushOrRead).kind = (insEntry n e).kind := by
    have := congrArg Entry.kind hfr; exact this
  rw [hkk, List.length_insertIdx_of_le_length hle, List.length_map] at h3
  cases r3 with
  | error x =>
    refine ⟨.error x, _, n, hplace, PyM.bind_err hr3, fun e' he => (by cases he), ?_⟩
    intro S hA _ _ _ _ _ hi
    cases h3.2 hi
  | ok a3 =>
    refine ⟨.ok (insEntry n e.afterFlushOrRead), _, n, hplace, by rw [PyM.bind_ok hr3]; rfl, ?_,
      fun _ _ _ _ _ _ _ _ => ⟨_, rfl⟩⟩
    intro e' he
    injection he with he
    refine ⟨he.symm, hp.clean hb, h3.1 rfl, hrange, off, ?_, ?_, hrep2, fun S hA => (hart2 S hA).2⟩
    · refine ⟨?_, ?_, ?_, ?_, ?_, ?_, ?_, Or.inr ?_, Or.inr ?_⟩ <;> simp only [hz']
      · exact hkeep.trans hkeep'
      · exact shHeader_mainOnly _ _ _
      · exact hdu
      · exact hdu
    · rw [hz']

end Zim
end Pyzim
