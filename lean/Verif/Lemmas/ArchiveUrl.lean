import Mathlib.Data.List.InsertIdx
import Verif.Lemmas.ArchiveShift

namespace Pyzim
namespace Zim

variable {z : Zim} {rows : List Row} {other : Nat → Prop} {S : String → Prop}

/-- the header as `_update_url_pointers` leaves it -/
def shHeader (start : Nat) (diff : Int) (h : Header) : Header :=
  match h.mainPage with
  | none => h
  | some m => if m > start then { h with mainPageRaw := (m + diff).toNat, dirty := true } else h

theorem shHeader_mutable (start : Nat) (diff : Int) (h : Header) : (shHeader start diff h).mutable = h.mutable := by
  unfold shHeader; split
  · rfl
  · split <;> rfl

theorem shiftMainPage_spec (z : Zim) (hm : z.header.mutable = true) (start : Nat) (diff : Int)
    (hd : diff = 1 ∨ diff = -1) :
    shiftMainPage start diff z = (.ok (), { z with header := shHeader start diff z.header }) := by
  unfold shiftMainPage shHeader
  rw [PyM.get_bind]
  cases hmp : z.header.mainPage with
  | none => rfl
  | some m =>
    simp only
    by_cases h : m > start
    · rw [if_pos h, if_pos h]
      have hraw : z.header.mainPageRaw = m := by
        unfold Header.mainPage at hmp
        split at hmp
        · cases hmp
        · injection hmp
      unfold onHeader Header.setMainPage
      simp only
      rw [if_neg (by omega), if_neg (by simp [hm]), if_pos (by omega)]
    · rw [if_neg h, if_neg h]; rfl

/-- `_update_url_pointers` -/
theorem Rep.updateUrlPointers (h : Rep z rows other) (d start : Nat) (diff : Int) (hd : diff = 1 ∨ diff = -1)
    (edit : Bool) (skip : List String) :
    ∃ r z', updateUrlPointers (fun e => writeEntry (d + 1) e true true) start diff edit skip z = (r, z') ∧
      (r = .ok () → ∃ file arts,
        z' = { z with file := file, articles := arts, header := shHeader start diff z.header } ∧
        Rep z' (rows.map (shRow start diff skip)) other ∧ KeepsBytes other z.file file ∧
        (∀ S, Art (if edit then (z.articles.massUpdate diff (some start) none).2 else z.articles) rows S →
          Art arts (rows.map (shRow start diff skip)) S) ∧
        (∀ row v, row ∈ rows → Shifts start diff skip row v → 0 ≤ v ∧ v < rows.length)) ∧
      (∀ S, Art (if edit then (z.articles.massUpdate diff (some start) none).2 else z.articles) rows S →
        (∀ row v, row ∈ rows → Shifts start diff skip row v →
          0 ≤ v ∧ v < rows.length ∧ v ≠ row.1 ∧ v < 2 ^ 32) → r = .ok ()) := by
  unfold Zim.updateUrlPointers
  have h1 : (onTitles (fun l => l.massUpdate diff (some ↑start) none)) z = (.ok (), z) := by
    unfold onTitles; rw [h.noTitles]
  rw [PyM.bind_ok h1]
  generalize hl : (if edit then (z.articles.massUpdate diff (some start) none).2 else z.articles) = l
  have h2 : (if edit then onArticles (fun l => l.massUpdate diff (some ↑start) none) else pure () : PyM Zim Unit) z =
      (.ok (), { z with articles := l }) := by
    subst hl
    cases edit with
    | false => rfl
    | true => simp only [if_true, onArticles, massUpdate_ok]
  rw [PyM.bind_ok h2, PyM.get_bind]
  have hrep : Rep { z with articles := l } rows other :=
    ⟨h.store, h.sorted, h.urls, h.urlsMutable, h.isOpen, h.isMutable, h.noTitles, h.headerMutable⟩
  rw [hrep.len, List.range_eq_range']
  obtain ⟨r, z', g1, g2, g3⟩ := Rep.shiftRedirects_from d start diff skip rows.length 0 _ rows hrep (by omega)
  cases r with
  | error x =>
    refine ⟨.error x, z', PyM.bind_err g1, fun hh => (by cases hh), fun S hA hc => ?_⟩
    exact g3 S hA fun i row v _ hi => hc row v (List.mem_of_getElem? hi)
  | ok u =>
    rw [PyM.bind_ok g1]
    obtain ⟨file, arts, hz', hrep', hkeep, hart, hrange⟩ := g2 rfl
    rw [shFrom_zero] at hrep' hart
    refine ⟨_, _, shiftMainPage_spec z' hrep'.headerMutable start diff hd, fun _ => ⟨file, arts, ?_, ?_, hkeep, hart, ?_⟩,
      fun _ _ _ => rfl⟩
    · rw [hz']
    · exact ⟨hrep'.store, hrep'.sorted, hrep'.urls, hrep'.urlsMutable, hrep'.isOpen, hrep'.isMutable, hrep'.noTitles,
        by rw [shHeader_mutable]; exact hrep'.headerMutable⟩
    · intro row v hrow hs
      obtain ⟨i, hi⟩ := List.getElem?_of_mem hrow
      exact hrange i row v (Nat.zero_le _) hi hs

/-- Stage 3 of `write_entry`, the removal from the url list; the space of the entry is already taken away. -/
theorem Rep.removeUrl {k : Nat} {row : Row} (hk : rows[k]? = some row) (hst : Store z.file z.space (rows.eraseIdx k) other)
    (hsorted : rows.Pairwise (fun r s => encode r.2.fullUrl < encode s.2.fullUrl))
    (hurls : z.urls.pointers = rows.map (fun r => (r.1 : Int))) (hum : z.urls.mutable = true) (hopen : z.closed = false)
    (hmut : z.mutable = true) (hnt : z.titles = none) (hhm : z.header.mutable = true) (d : Nat) :
    ∃ r z', removeUrl (fun e => writeEntry (d + 1) e true true) k z = (r, z') ∧
      (r = .ok () → ∃ file arts urls,
        (z' = { z with file := file, articles := arts, urls := urls, header := shHeader k (-1) z.header } ∧
          urls.dirty = true) ∧
        Rep z' ((rows.eraseIdx k).map (shRow k (-1) [])) other ∧ KeepsBytes other z.file file ∧
        (∀ S, Art z.articles rows S → ¬ S row.2.fullUrl → Art arts ((rows.eraseIdx k).map (shRow k (-1) [])) S) ∧
        (∀ s v, s ∈ rows.eraseIdx k → Shifts k (-1) [] s v → 0 ≤ v ∧ v < (rows.eraseIdx k).length)) ∧
      (∀ S, Art z.articles rows S → ¬ S row.2.fullUrl →
        (∀ s v, s ∈ rows.eraseIdx k → Shifts k (-1) [] s v →
          0 ≤ v ∧ v < (rows.eraseIdx k).length ∧ v ≠ s.1 ∧ v < 2 ^ 32) → r = .ok ()) := by
  have hk' := (List.getElem?_eq_some_iff.1 hk).1
  have hrem : z.urls.removeByIndex k = (.ok (), { z.urls with pointers := z.urls.pointers.eraseIdx k, dirty := true }) := by
    unfold PointerList.removeByIndex
    rw [if_neg (by omega), if_neg (by simp [hum]), if_pos (by rw [hurls]; simp; omega)]
    simp
  have h1 : (onUrls (fun l => l.removeByIndex k)) z =
      (.ok (), { z with urls := { z.urls with pointers := z.urls.pointers.eraseIdx k, dirty := true } }) := by
    simp only [onUrls, hrem]
  unfold Zim.removeUrl
  rw [PyM.bind_ok h1]
  have hrep : Rep { z with urls := { z.urls with pointers := z.urls.pointers.eraseIdx k, dirty := true } }
      (rows.eraseIdx k) other := by
    refine ⟨hst, hsorted.sublist (List.eraseIdx_sublist _ _), ?_, hum, hopen, hmut, hnt, hhm⟩
    simp only [hurls]
    rw [List.eraseIdx_map]
  obtain ⟨r, z', g1, g2, g3⟩ := hrep.updateUrlPointers d k (-1) (Or.inr rfl) true []
  simp only [if_true] at g2 g3
  refine ⟨r, z', g1, ?_, ?_⟩
  · intro hr
    obtain ⟨file, arts, h2, h3, h4, h5, h6⟩ := g2 hr
    exact ⟨file, arts, _, ⟨h2, rfl⟩, h3, h4, fun S hA hS => h5 S (hA.erase hk hS), h6⟩
  · intro S hA hS hc
    exact g3 S (hA.erase hk hS) hc

/-- the entry as inserting it at index `n` leaves it -/
def insEntry (n : Nat) (e : Entry) : Entry :=
  match e.kind with
  | .redirect r => if n ≤ r then e.withIndex (r + 1) else e
  | .content _ _ => e

theorem insEntry_cases (n : Nat) (e : Entry) : insEntry n e = e ∨ ∃ r, insEntry n e = e.withIndex r := by
  unfold insEntry; split
  · split
    · exact Or.inr ⟨_, rfl⟩
    · exact Or.inl rfl
  · exact Or.inl rfl

theorem insEntry_fullUrl (n : Nat) (e : Entry) : (insEntry n e).fullUrl = e.fullUrl := by
  rcases insEntry_cases n e with h | ⟨r, h⟩ <;> rw [h] <;> rfl

theorem insEntry_fresh (n : Nat) (e : Entry) : (insEntry n e).fresh = insEntry n e.fresh := by
  unfold insEntry
  cases hk : e.kind with
  | content c b => simp [Entry.fresh, hk]
  | redirect r =>
    simp only [Entry.fresh, hk]
    split
    · rfl
    · simp only [hk]

/-- `n` is the place of url `u` among the rows -/
structure PlaceOf (rows : List Row) (u : String) (n : Nat) : Prop where
  le : n ≤ rows.length
  before : ∀ r ∈ rows.take n, encode r.2.fullUrl < encode u
  after : ∀ r ∈ rows.drop n, encode u < encode r.2.fullUrl

theorem PlaceOf.map {u : String} {n : Nat} (h : PlaceOf rows u n) (f : Row → Row)
    (hf : ∀ r, (f r).2.fullUrl = r.2.fullUrl) : PlaceOf (rows.map f) u n where
  le := by simpa using h.le
  before r hr := by
    rw [← List.map_take] at hr
    obtain ⟨s, hs, rfl⟩ := List.mem_map.1 hr
    rw [hf]; exact h.before s hs
  after r hr := by
    rw [← List.map_drop] at hr
    obtain ⟨s, hs, rfl⟩ := List.mem_map.1 hr
    rw [hf]; exact h.after s hs

theorem PlaceOf.sorted {n : Nat} {row : Row} (h : PlaceOf rows row.2.fullUrl n)
    (hs : rows.Pairwise (fun r s => encode r.2.fullUrl < encode s.2.fullUrl)) :
    (rows.insertIdx n row).Pairwise (fun r s => encode r.2.fullUrl < encode s.2.fullUrl) := by
  rw [PointerList.insert_at rows n h.le]
  rw [← List.take_append_drop n rows] at hs
  obtain ⟨p1, p2, p3⟩ := List.pairwise_append.1 hs
  refine List.pairwise_append.2 ⟨p1, List.pairwise_cons.2 ⟨h.after, p2⟩, ?_⟩
  intro r hr s hs
  rcases List.mem_cons.1 hs with rfl | hs
  · exact h.before r hr
  · exact p3 r hr s hs

theorem afterFlush_toBytes (e : Entry) : e.afterFlushOrRead.toBytes = e.toBytes := rfl
theorem afterFlush_fresh (e : Entry) : e.afterFlushOrRead.fresh = e.fresh := rfl
theorem afterFlush_afterFlush (e : Entry) : e.afterFlushOrRead.afterFlushOrRead = e.afterFlushOrRead := rfl

theorem insEntry_size (n : Nat) (e : Entry) : (insEntry n e).getDiskSize = e.getDiskSize := by
  unfold insEntry
  cases hk : e.kind with
  | content c b => rfl
  | redirect r =>
    simp only
    split
    · unfold Entry.withIndex Entry.getDiskSize; simp only [hk]; rfl
    · rfl

/-- Stage 3 of `write_entry`, the insertion into the url list; the bytes of the entry are already written. -/
theorem Rep.insertUrl {off : Nat} {e : Entry} (h : Rep z rows (fun x => other x ∨ InRow (off, e.fresh) x))
    (ho : e.oldFullUrl = some e.fullUrl) (hdirty : e.dirty = false) {b : Bytes} (hb : e.toBytes = .ok b)
    (hp : e.Proper) (hh : Holds z.file off b) (ha : ∀ x, InRow (off, e.fresh) x → ¬ other x)
    (hnew : ∀ r ∈ rows, r.2.fullUrl ≠ e.fullUrl) (d : Nat) :
    ∃ r z' n, PlaceOf rows e.fullUrl n ∧ insertUrl (fun e => writeEntry (d + 1) e true true) e off z = (r, z') ∧
      (∀ p, r = .ok p → p = (n, insEntry n e) ∧ ∃ file arts urls,
        (z' = { z with file := file, articles := arts, urls := urls, header := shHeader n 1 z.header } ∧
          urls.dirty = true) ∧
        Rep z' ((rows.map (shRow n 1 [e.fullUrl])).insertIdx n (off, (insEntry n e).fresh)) other ∧
        KeepsBytes other z.file file ∧
        (∀ S, Art z.articles rows S → ¬ S e.fullUrl →
          Art arts ((rows.map (shRow n 1 [e.fullUrl])).insertIdx n (off, (insEntry n e).fresh)) S) ∧
        (∀ s v, s ∈ rows → Shifts n 1 [e.fullUrl] s v → v ≤ rows.length)) ∧
      (∀ S, Art z.articles rows S → ¬ S e.fullUrl → e.mutable = true →
        (∀ i, e.kind = .redirect i → i + 1 < 2 ^ 32) →
        (∀ s v, s ∈ rows → Shifts n 1 [e.fullUrl] s v → v ≤ rows.length ∧ v ≠ s.1 ∧ v < 2 ^ 32) → ∃ p, r = .ok p) := by
  have hc : e.fresh.Clean := hp.clean hb
  -- the place in the list
  obtain ⟨n, hn1, hn2, hn3, hn4⟩ := h.search (encode e.fullUrl)
  have hplace : PlaceOf rows e.fullUrl n := by
    refine ⟨hn2, hn3, fun r hr => ?_⟩
    rcases Std.lt_trichotomy (encode e.fullUrl) (encode r.2.fullUrl) with h1 | h1 | h1
    · exact h1
    · exact absurd (encode_injective h1).symm (hnew r (List.mem_of_mem_drop hr))
    · exact absurd h1 (hn4 r hr)
  have hadd : z.urls.add z.urlKey (encode e.fullUrl) off =
      (.ok n, { z.urls with pointers := z.urls.pointers.insertIdx n off, dirty := true }) := by
    unfold PointerList.add
    rw [if_neg (by omega), if_neg (by simp [h.urlsMutable]), hn1]
  have h1 : (onUrls (fun l => l.add z.urlKey (encode e.fullUrl) off)) z =
      (.ok n, { z with urls := { z.urls with pointers := z.urls.pointers.insertIdx n off, dirty := true } }) := by
    simp only [onUrls, hadd]
  unfold Zim.insertUrl
  rw [PyM.get_bind, PyM.bind_ok h1]
  have hrep : Rep { z with urls := { z.urls with pointers := z.urls.pointers.insertIdx n off, dirty := true } }
      (rows.insertIdx n (off, e.fresh)) other := by
    refine ⟨?_, PlaceOf.sorted (row := (off, e.fresh)) hplace h.sorted, ?_, h.urlsMutable, h.isOpen, h.isMutable,
      h.noTitles, h.headerMutable⟩
    · exact (h.store.adopt hc ⟨b, hb, hh⟩ ha).perm (List.perm_insertIdx _ _ hn2).symm
    · simp only [h.urls]
      rw [List.map_insertIdx]
  have hlen : (rows.insertIdx n (off, e.fresh)).length = rows.length + 1 := List.length_insertIdx_of_le_length hn2 _
  have hself : ∀ v, ¬ Shifts n 1 [e.fullUrl] (off, e.fresh) v := by
    rintro v ⟨r, -, hs, -⟩
    exact hs (by simp [Entry.fresh_fullUrl])
  have hmap : (rows.insertIdx n (off, e.fresh)).map (shRow n 1 [e.fullUrl]) =
      (rows.map (shRow n 1 [e.fullUrl])).insertIdx n (off, e.fresh) := by
    rw [List.map_insertIdx]
    congr 1
    unfold shRow; rw [sh_of_not_shifts hself]
  obtain ⟨r, z', g1, g2, g3⟩ := hrep.updateUrlPointers d n 1 (Or.inl rfl) true [e.fullUrl]
  simp only [if_true, hmap, hlen] at g2 g3
  have g3' : ∀ S, Art z.articles rows S → ¬ S e.fullUrl →
      (∀ s v, s ∈ rows → Shifts n 1 [e.fullUrl] s v → v ≤ rows.length ∧ v ≠ s.1 ∧ v < 2 ^ 32) → r = .ok () := by
    intro S hA hS hcond
    refine g3 S (hA.insert (r := (off, e.fresh)) hn2 hS) fun row v hrow hsv => ?_
    rcases List.eq_or_mem_of_mem_insertIdx hrow with rfl | hrow
    · exact absurd hsv (hself v)
    · obtain ⟨c1, c2, c3⟩ := hcond row v hrow hsv
      obtain ⟨r', -, -, -, rfl⟩ := hsv
      exact ⟨by omega, by omega, c2, c3⟩
  cases r with
  | error x =>
    refine ⟨.error x, z', n, hplace, PyM.bind_err g1, fun p hpp => (by cases hpp), fun S hA hS _ _ hcond => ?_⟩
    cases g3' S hA hS hcond
  | ok u =>
    rw [PyM.bind_ok g1]
    obtain ⟨file, arts, hz', hrep', hkeep, hart, hrange⟩ := g2 rfl
    have hart' : ∀ S, Art z.articles rows S → ¬ S e.fullUrl →
        Art arts ((rows.map (shRow n 1 [e.fullUrl])).insertIdx n (off, e.fresh)) S :=
      fun S hA hS => hart S (hA.insert (r := (off, e.fresh)) hn2 hS)
    have hrange' : ∀ s v, s ∈ rows → Shifts n 1 [e.fullUrl] s v → v ≤ rows.length := by
      intro s v hs hsv
      have := (hrange s v ((List.mem_insertIdx hn2).2 (Or.inr hs)) hsv).2
      omega
    -- the entry needs no further change
    have hdone : insEntry n e = e → ∃ file arts urls,
        (z' = { z with file := file, articles := arts, urls := urls, header := shHeader n 1 z.header } ∧
          urls.dirty = true) ∧
        Rep z' ((rows.map (shRow n 1 [e.fullUrl])).insertIdx n (off, (insEntry n e).fresh)) other ∧
        KeepsBytes other z.file file ∧
        (∀ S, Art z.articles rows S → ¬ S e.fullUrl →
          Art arts ((rows.map (shRow n 1 [e.fullUrl])).insertIdx n (off, (insEntry n e).fresh)) S) ∧
        (∀ s v, s ∈ rows → Shifts n 1 [e.fullUrl] s v → v ≤ rows.length) := by
      intro hie
      rw [hie]
      exact ⟨file, arts, _, ⟨hz', rfl⟩, hrep', hkeep, hart', hrange'⟩
    cases hk : e.kind with
    | content c m =>
      have hr : e.isRedirect = false := by
        cases hr : e.isRedirect with
        | false => rfl
        | true =>
          have : e.mimetypeId = 0xffff := by unfold Entry.isRedirect at hr; exact decide_eq_true_iff.1 hr
          obtain ⟨r, hr⟩ := hp.kind.2 this
          rw [hk] at hr; cases hr
      rw [hr]
      have hie : insEntry n e = e := by unfold insEntry; rw [hk]
      refine ⟨_, _, n, hplace, rfl, fun p hpp => ?_, fun _ _ _ _ _ _ => ⟨_, rfl⟩⟩
      injection hpp with hpp
      exact ⟨by rw [hie]; exact hpp.symm, hdone hie⟩
    | redirect i =>
      have hr : e.isRedirect = true := by
        have := hp.kind.1 ⟨i, hk⟩
        unfold Entry.isRedirect; exact decide_eq_true_iff.2 this
      rw [hr]
      simp only
      by_cases hni : n ≤ i
      · rw [if_pos hni]
        have hie : insEntry n e = e.withIndex (i + 1) := by unfold insEntry; rw [hk]; simp only; rw [if_pos hni]
        cases hmut : e.mutable with
        | false =>
          have hset : e.setRedirectIndex (i + 1) = (.error .nonMutable, e) := by
            unfold Entry.setRedirectIndex; rw [hk]; simp only
            rw [if_neg (by omega), if_pos (by simp [hmut])]
          rw [hset, PyM.lift_err_bind]
          exact ⟨_, _, n, hplace, rfl, fun p hpp => (by cases hpp), fun S _ _ hm => (by cases hm)⟩
        | true =>
          have hset : e.setRedirectIndex (i + 1) = (.ok (), { e with kind := .redirect (i + 1), dirty := true }) := by
            unfold Entry.setRedirectIndex; rw [hk]; simp only
            rw [if_neg (by omega), if_neg (by simp [hmut]), if_pos (by omega)]
            rfl
          rw [hset, PyM.lift_ok_bind]
          have hflush : Entry.afterFlushOrRead { e with kind := .redirect (i + 1), dirty := true } = insEntry n e := by
            rw [hie]
            unfold Entry.afterFlushOrRead Entry.withIndex
            have ho' : some (e.ns ++ e.url) = e.oldFullUrl := ho.symm
            simp only [ho']
            rw [← hdirty]
          have htb : Entry.toBytes { e with kind := .redirect (i + 1), dirty := true } = (insEntry n e).fresh.toBytes := by
            rw [← hflush, Entry.fresh_toBytes, afterFlush_toBytes]
          cases hb1 : Entry.toBytes { e with kind := .redirect (i + 1), dirty := true } with
          | error x =>
            refine ⟨.error x, z', n, hplace, ?_, fun p hpp => (by cases hpp), fun S _ _ _ hi _ => ?_⟩
            · simp only
              rw [PyM.bind_err (writeAt_err hrep'.isOpen off x)]
            · obtain ⟨b', hb'⟩ : ∃ b, Entry.toBytes { e with kind := .redirect (i + 1), dirty := true } = .ok b := by
                refine (Entry.toBytes_ok_iff _).2 ⟨Entry.packHead_ok _ ⟨hc.storable.ns, hp.url, hp.title,
                  hc.storable.mimetype, ?_⟩, ?_⟩
                · exact hi i rfl
                · obtain ⟨t, ht, -⟩ := hp.title; exact ⟨t, ht⟩
              rw [hb1] at hb'; cases hb'
          | ok b1 =>
            have hp1 : (insEntry n e).Proper := by
              rw [hie]
              exact ⟨hp.url, hp.title, ⟨fun _ => hp.kind.1 ⟨i, hk⟩, fun _ => ⟨_, rfl⟩⟩, hp.article⟩
            have htb1 : (insEntry n e).toBytes = .ok b1 := by rw [← Entry.fresh_toBytes, ← htb, hb1]
            have hc1 : (insEntry n e).fresh.Clean := hp1.clean htb1
            have hgetn : ((rows.map (shRow n 1 [e.fullUrl])).insertIdx n (off, e.fresh))[n]? = some (off, e.fresh) := by
              rw [List.getElem?_insertIdx_self, if_pos (by simpa using hn2)]
            have hset : ((rows.map (shRow n 1 [e.fullUrl])).insertIdx n (off, e.fresh)).set n
                (off, (insEntry n e).fresh) =
                (rows.map (shRow n 1 [e.fullUrl])).insertIdx n (off, (insEntry n e).fresh) := by
              refine List.ext_getElem? fun m => ?_
              rw [List.getElem?_set, List.getElem?_insertIdx, List.getElem?_insertIdx]
              have hlt : n < ((rows.map (shRow n 1 [e.fullUrl])).insertIdx n (off, e.fresh)).length := by
                rw [List.length_insertIdx_of_le_length (by simpa using hn2)]; simp; omega
              by_cases hm : n = m
              · subst hm
                rw [if_pos rfl, if_pos hlt, if_neg (by omega), if_pos rfl, if_pos (by simpa using hn2)]
              · rw [if_neg hm]
                by_cases hm' : m < n
                · rw [if_pos hm', if_pos hm']
                · rw [if_neg hm', if_neg hm', if_neg (by omega), if_neg (by omega)]
            refine ⟨.ok (n, insEntry n e), { z' with file := wr z'.file off b1 }, n, hplace, ?_, fun p hpp => ?_,
              fun _ _ _ _ _ _ => ⟨_, rfl⟩⟩
            · simp only
              rw [PyM.bind_ok (writeAt_ok hrep'.isOpen off b1)]
              have : decide (i + 1 ≠ n) = true := by simp; omega
              rw [this, PyM.require_true_bind, hflush]
              rfl
            · injection hpp with hpp
              refine ⟨hpp.symm, wr file off b1, arts, _, ⟨by rw [hz'], rfl⟩, ?_, ?_, ?_, hrange'⟩
              · have := hrep'.setRow hgetn hc1 (by rw [Entry.fresh_toBytes]; exact htb1)
                  (by rw [Entry.fresh_size, Entry.fresh_size, insEntry_size])
                  (by rw [Entry.fresh_fullUrl, Entry.fresh_fullUrl, insEntry_fullUrl]) z'.articles
                rw [hset] at this
                exact this
              · refine hkeep.trans ?_
                have h5 := hrep'.store.keeps (List.mem_of_getElem? hgetn) (b := b1)
                  (by rw [Entry.size_eq _ _ htb1, insEntry_size]; rfl)
                rw [hz'] at h5
                exact h5
              · intro S hA hS
                have := (hart' S hA hS).set hgetn (row' := (off, (insEntry n e).fresh)) (by exact hS)
                  (by rw [Entry.fresh_fullUrl, Entry.fresh_fullUrl, insEntry_fullUrl])
                rw [hset] at this
                exact this
      · rw [if_neg hni]
        have hie : insEntry n e = e := by unfold insEntry; rw [hk]; simp only; rw [if_neg hni]
        have : decide (i ≠ n) = true := by simp; omega
        rw [this, PyM.require_true_bind]
        refine ⟨_, _, n, hplace, rfl, fun p hpp => ?_, fun _ _ _ _ _ _ => ⟨_, rfl⟩⟩
        injection hpp with hpp
        exact ⟨by rw [hie]; exact hpp.symm, hdone hie⟩

end Zim
end Pyzim
