import Mathlib.Data.List.Perm.Basic
import Verif.Lemmas.ArchiveArt

namespace Pyzim

theorem Entry.Proper.clean {e : Entry} (hp : e.Proper) {b : Bytes} (hb : e.toBytes = .ok b) : e.fresh.Clean := by
  obtain ⟨⟨hd, hh⟩, -⟩ := (Entry.toBytes_ok_iff e).1 ⟨b, hb⟩
  obtain ⟨h1, h2, h3⟩ := Entry.packHead_fits e hd hh
  exact ⟨⟨h1, hp.url, hp.title, h2, h3⟩, rfl, hp.kind⟩

theorem Entry.Proper.toBytes {e : Entry} (hc : e.fresh.Clean) : ∃ b, e.toBytes = .ok b := hc.toBytes

namespace Zim

variable {z : Zim} {rows : List Row} {other : Nat → Prop} {S : String → Prop}

/-- rewriting a row in place -/
theorem Rep.setRow (h : Rep z rows other) {j o : Nat} {e0 e : Entry} (hj : rows[j]? = some (o, e0)) (hc : e.Clean)
    {b : Bytes} (hb : e.toBytes = .ok b) (hs : e.getDiskSize = e0.getDiskSize) (hu : e.fullUrl = e0.fullUrl)
    (arts : PointerList) :
    Rep { z with file := wr z.file o b, articles := arts } (rows.set j (o, e)) other := by
  obtain ⟨hj', hr⟩ := List.getElem?_eq_some_iff.1 hj
  refine ⟨?_, ?_, ?_, h.urlsMutable, h.isOpen, h.isMutable, h.noTitles, h.headerMutable⟩
  · have h1 := h.store.perm (List.getElem_cons_eraseIdx_perm hj').symm
    rw [hr] at h1
    exact (h1.rewrite hc hb hs).perm (List.set_perm_cons_eraseIdx hj' _).symm
  · refine List.pairwise_iff_getElem.2 fun i k hi hk hik => ?_
    have key : ∀ (n : Nat) (hn : n < (rows.set j (o, e)).length),
        ((rows.set j (o, e))[n]).2.fullUrl = (rows[n]'(by simpa using hn)).2.fullUrl := by
      intro n hn
      rw [List.getElem_set]
      split
      · subst j; rw [hr]; exact hu
      · rfl
    rw [key i hi, key k hk]
    exact List.pairwise_iff_getElem.1 h.sorted i k _ _ hik
  · simp only [h.urls]
    refine List.ext_getElem? fun n => ?_
    rw [List.getElem?_map, List.getElem?_map, List.getElem?_set]
    split
    · rename_i he; subst he; rw [hj]; rfl
    · rfl

theorem pointerIndex_ok (l : PointerList) (p : Int) : ∃ r, pointerIndex l p = .ok r ∧
    (∀ a, r = some a → l.pointers[a]? = some p) ∧ (r = none → p ∉ l.pointers) := by
  unfold pointerIndex
  rcases getByPointer_spec l p with ⟨a, h1, h2⟩ | ⟨h1, h2⟩
  · rw [h1]; exact ⟨some a, rfl, fun a' h => by cases h; exact h2, fun h => by cases h⟩
  · rw [h1]; exact ⟨none, rfl, fun a' h => (by cases h), fun _ => h2⟩

theorem Rep.findOld (h : Rep z rows other) {j o : Nat} {e0 e : Entry} (hj : rows[j]? = some (o, e0))
    (hold : e.oldFullUrl = some e0.fullUrl) {ai : Option Nat} (hai : pointerIndex z.articles j = .ok ai) :
    z.findOld e = .ok (some ⟨j, o, e0.getDiskSize, ai, none⟩) := by
  unfold Zim.findOld
  have h1 := h.urlIndex hj
  simp only at h1
  have h2 := h.getByIndex hj
  have h3 := h.entryAt (List.mem_of_getElem? hj)
  simp only at h2 h3
  simp only [hold, h1, h2, h3, h.noTitles, hai, bind, Except.bind, pure, Except.pure]

theorem Rep.findOld_missing (h : Rep z rows other) {e : Entry} {u : String} (hold : e.oldFullUrl = some u)
    (hu : ∀ r ∈ rows, r.2.fullUrl ≠ u) : z.findOld e = .ok none := by
  unfold Zim.findOld
  simp only [hold, h.urlIndex_missing hu]

/-- will `write_entry` treat the entry as an article, if the articles are `S`? -/
def asArticle (e : Entry) (S : String → Prop) : Prop :=
  match e.forceIsArticle with
  | some b => b = true
  | none => e.ns = "C" ∧ ∃ u, e.oldFullUrl = some u ∧ S u

/-- what `isArticle` returns, if it returns -/
theorem Rep.isArticle (h : Rep z rows other) (hA : Art z.articles rows S) {e : Entry} {ia : Bool}
    (hia : z.isArticle e = .ok ia) : ia = true ↔ asArticle e S := by
  unfold Zim.isArticle at hia
  unfold asArticle
  cases hf : e.forceIsArticle with
  | some b => rw [hf] at hia; simp only at hia ⊢; injection hia with hia; rw [hia]
  | none =>
    rw [hf] at hia
    simp only at hia ⊢
    by_cases hns : e.ns = "C"
    · rw [if_neg (by simp [hns])] at hia
      cases ho : e.oldFullUrl with
      | none => rw [ho] at hia; simp at hia
      | some u =>
        rw [ho] at hia
        simp only at hia
        unfold entryIsArticle at hia
        by_cases hc : u.toList.head? = some 'C'
        · rw [if_neg (by simp [hc]), if_neg (by simp [h.isOpen])] at hia
          rcases h.urlIndex_cases u with ⟨i, r, hi, rfl, hui⟩ | ⟨hu, hui⟩
          · rw [hui] at hia
            simp only at hia
            rcases hA.lookup hi with ⟨hS, a, ha, -⟩ | ⟨hS, ha⟩
            · rw [ha] at hia; injection hia with hia; subst hia
              simp [hns, hS]
            · rw [ha] at hia; injection hia with hia; subst hia
              simp [hS]
          · rw [hui] at hia
            simp only at hia
            injection hia with hia; subst hia
            constructor
            · intro h; cases h
            · rintro ⟨-, u', hu', hS⟩
              cases hu'
              obtain ⟨r, hr, hru⟩ := hA.dom u hS
              exact absurd hru (hu r hr)
        · rw [if_pos (by simpa using hc)] at hia
          simp at hia
    · rw [if_pos hns] at hia
      injection hia with hia; subst hia
      simp [hns]

/-- `isArticle` returns for an entry which is not renamed -/
theorem Rep.isArticle_ok (h : Rep z rows other) {e : Entry} (hold : e.oldFullUrl = some e.fullUrl) :
    ∃ ia, z.isArticle e = .ok ia := by
  unfold Zim.isArticle
  cases hf : e.forceIsArticle with
  | some b => exact ⟨b, rfl⟩
  | none =>
    simp only
    by_cases hns : e.ns = "C"
    · rw [if_neg (by simp [hns]), hold]
      simp only
      unfold entryIsArticle
      have hc : e.fullUrl.toList.head? = some 'C' := by
        unfold Entry.fullUrl; rw [hns, String.toList_append]; rfl
      rw [if_neg (by simp [hc]), if_neg (by simp [h.isOpen])]
      rcases h.urlIndex_cases e.fullUrl with ⟨i, r, hi, hru, hui⟩ | ⟨hu, hui⟩
      · rw [hui]
        simp only
        rcases getByPointer_spec z.articles i with ⟨a, h1, h2⟩ | ⟨h1, h2⟩ <;> rw [h1] <;> exact ⟨_, rfl⟩
      · rw [hui]; exact ⟨_, rfl⟩
    · rw [if_pos hns]; exact ⟨_, rfl⟩

/-- what is left of `write_entry` for an entry that stays where it is -/
theorem Rep.writeEntry_inplace_eq (h : Rep z rows other) {j o : Nat} {e0 e : Entry} (hj : rows[j]? = some (o, e0))
    (hold : e.oldFullUrl = some e.fullUrl) (hu : e.fullUrl = e0.fullUrl) (hs : e.getDiskSize = e0.getDiskSize)
    (d : Nat) (upd att ia : Bool) (ai : Option Nat) (hia : z.isArticle e = .ok ia)
    (hai : pointerIndex z.articles j = .ok ai) :
    writeEntry (d + 1) e upd att z = (do
      writeAt o e.toBytes
      removeTitles ⟨j, o, e0.getDiskSize, ai, none⟩
      (if att then addTitles e.afterFlushOrRead ia j else pure ())
      logRedirect e.afterFlushOrRead
      pure e.afterFlushOrRead : PyM Zim Entry) z := by
  have hfo := h.findOld hj (by rw [hold, hu]) hai
  simp only [writeEntry]
  rw [PyM.get_bind, h.isOpen, h.isMutable]
  simp only [Bool.not_false, PyM.require_true_bind, hia, hfo, PyM.lift_ok_bind, hold, hs, ne_eq, not_true_eq_false,
    decide_false, Option.isNone_some, Bool.or_false, Bool.and_false, Bool.false_eq_true, if_false, place,
    PyM.pure_bind_fn, Int.toNat_natCast, Option.map_some]

/-- the articles after writing an entry -/
def mark (S : String → Prop) (e : Entry) (att : Bool) : String → Prop := fun u =>
  (S u ∧ u ≠ e.fullUrl) ∨ (u = e.fullUrl ∧ att = true ∧ asArticle e S)

theorem removeTitles_spec (z : Zim) (j : Nat) (o : Int) (size : Nat) (ai : Option Nat)
    (hai : pointerIndex z.articles j = .ok ai) :
    ∃ r l', removeTitles ⟨j, o, size, ai, none⟩ z = (r, { z with articles := l' }) ∧
      ∀ (rows : List Row) (S : String → Prop) (row : Row), Art z.articles rows S → DistinctUrls rows →
        rows[j]? = some row → r = .ok () ∧ Art l' rows (fun u => S u ∧ u ≠ row.2.fullUrl) := by
  obtain ⟨ai', hai', h1, h2⟩ := pointerIndex_ok z.articles j
  rw [hai] at hai'; injection hai' with hai'; subst hai'
  unfold removeTitles
  simp only [PyM.pure_bind_fn]
  cases ai with
  | none =>
    refine ⟨.ok (), z.articles, rfl, fun rows S row hA hd hj => ⟨rfl, hA.congr fun u => ?_⟩⟩
    constructor
    · intro hu
      refine ⟨hu, fun he => ?_⟩
      subst he
      exact h2 rfl ((hA.mem j).2 ⟨row, hj, hu⟩)
    · exact fun hu => hu.1
  | some a =>
    refine ⟨(z.articles.removeByIndex a).1, (z.articles.removeByIndex a).2, rfl, fun rows S row hA hd hj => ?_⟩
    obtain ⟨l', hl', hA'⟩ := hA.removeIdx hd hj (h1 a rfl)
    rw [hl']
    exact ⟨rfl, hA'⟩

theorem addTitles_spec (z : Zim) (hz : z.titles = none) (e : Entry) (ia : Bool) (j : Nat) :
    ∃ r l', addTitles e ia j z = (r, { z with articles := l' }) ∧
      ∀ (rows : List Row) (other : Nat → Prop) (S : String → Prop) (row : Row), Rep z rows other →
        Art z.articles rows S → rows[j]? = some row → row.2.title = e.title → (ia = true → row.2.ns = "C") →
        ¬ S row.2.fullUrl → r = .ok () ∧ Art l' rows (fun u => S u ∨ (u = row.2.fullUrl ∧ ia = true)) := by
  unfold addTitles
  rw [PyM.get_bind]
  have ht : (onTitles (fun l => l.add z.nsTitleKey (encode (e.ns ++ e.title)) ↑j)) z = (.ok (), z) := by
    unfold onTitles; rw [hz]
  rw [PyM.bind_ok ht]
  cases ia with
  | false =>
    refine ⟨.ok (), z.articles, rfl, fun rows other S row hR hA hj ht hC hS => ⟨rfl, hA.congr fun u => by simp⟩⟩
  | true =>
    simp only [if_true]
    cases hadd : z.articles.add z.titleKey (encode e.title) j with
    | mk r l' =>
      have ho : (onArticles (fun l => l.add z.titleKey (encode e.title) ↑j)) z = (r, { z with articles := l' }) := by
        simp only [onArticles, hadd]
      cases r with
      | error x =>
        refine ⟨.error x, l', PyM.bind_err ho, fun rows other S row hR hA hj ht hC hS => ?_⟩
        obtain ⟨n, l'', hl, -⟩ := hA.add (distinct_of_sorted hR.sorted) hj hS (hC trivial) z.titleKey
          (fun j s hs => hR.titleKey hs)
        rw [ht, hadd] at hl; cases hl
      | ok n =>
        refine ⟨.ok (), l', by rw [PyM.bind_ok ho]; rfl, fun rows other S row hR hA hj ht hC hS => ⟨rfl, ?_⟩⟩
        obtain ⟨n, l'', hl, hA'⟩ := hA.add (distinct_of_sorted hR.sorted) hj hS (hC trivial) z.titleKey
          (fun j s hs => hR.titleKey hs)
        rw [ht, hadd] at hl; cases hl
        exact hA'.congr fun u => by simp

theorem logRedirect_spec (z : Zim) (e : Entry) : ∃ r, logRedirect e z = (r, z) ∧
    ∀ (rows : List Row) (other : Nat → Prop), Rep z rows other → ((∃ r, e.kind = .redirect r) ↔ e.mimetypeId = 0xffff) →
      (r = .ok () ↔ ∀ i, e.kind = .redirect i → i < rows.length) := by
  unfold logRedirect
  rw [PyM.get_bind]
  cases hk : e.kind with
  | content c n =>
    by_cases hr : e.isRedirect = true
    · rw [if_pos hr]
      refine ⟨_, rfl, fun rows other hR hki => ?_⟩
      have : e.mimetypeId = 0xffff := by unfold Entry.isRedirect at hr; exact decide_eq_true_iff.1 hr
      obtain ⟨r, hr⟩ := hki.2 this
      cases hr
    · rw [if_neg hr]
      exact ⟨_, rfl, fun rows other hR hki => ⟨fun _ i hi => (by cases hi), fun _ => rfl⟩⟩
  | redirect i =>
    by_cases hr : e.isRedirect = true
    · rw [if_pos hr]
      simp only
      cases hi : z.entryByIndex i with
      | error x =>
        refine ⟨.error x, by rw [PyM.lift_err_bind], fun rows other hR hki => ⟨fun h => (by cases h), fun h => ?_⟩⟩
        have := hR.entryByIndex (List.getElem?_eq_getElem (h i rfl))
        rw [hi] at this; cases this
      | ok e' =>
        refine ⟨.ok (), by rw [PyM.lift_ok_bind]; rfl, fun rows other hR hki => ⟨fun h i' hi' => ?_, fun _ => rfl⟩⟩
        cases hi'
        rcases Nat.lt_or_ge i rows.length with hlt | hge
        · exact hlt
        · rw [hR.entryByIndex_out hge] at hi; cases hi
    · rw [if_neg hr]
      refine ⟨_, rfl, fun rows other hR hki => ?_⟩
      have : e.mimetypeId = 0xffff := hki.1 ⟨i, rfl⟩
      exact absurd (by unfold Entry.isRedirect; exact decide_eq_true_iff.2 this) hr

/-- a row not in the article list may change -/
theorem Art.set {l : PointerList} (h : Art l rows S) {j : Nat} {row row' : Row} (hj : rows[j]? = some row)
    (hn : ¬ S row.2.fullUrl) (hu : row'.2.fullUrl = row.2.fullUrl) : Art l (rows.set j row') S := by
  have hj' := (List.getElem?_eq_some_iff.1 hj).1
  refine h.renumber id l (by simp) rfl (fun i r hi hS => ⟨i, rfl, ?_⟩) (fun i r hi hS => ⟨i, ?_, rfl⟩)
    (fun i j _ _ h => Int.ofNat_inj.1 h)
  · rw [List.getElem?_set_ne]
    · exact hi
    · intro he; subst he; rw [hj] at hi; cases hi; exact hn hS
  · rw [List.getElem?_set] at hi
    split at hi
    · rename_i he; subst he; cases hi
      rw [hu] at hS; exact absurd hS hn
    · exact hi

theorem writeAt_ok {z : Zim} (hz : z.closed = false) (o : Nat) (b : Bytes) :
    writeAt o (.ok b) z = (.ok (), { z with file := wr z.file o b }) := by
  unfold writeAt; rw [hz]; rfl

theorem writeAt_err {z : Zim} (hz : z.closed = false) (o : Nat) (x : PyErr) :
    writeAt o (.error x) z = (.error x, z) := by
  unfold writeAt; rw [hz]; rfl

/-- `write_entry` of an entry that keeps its url and size -/
theorem Rep.writeEntry_inplace (h : Rep z rows other) {j o : Nat} {e0 e : Entry} (hj : rows[j]? = some (o, e0))
    (hold : e.oldFullUrl = some e.fullUrl) (hu : e.fullUrl = e0.fullUrl) (hs : e.getDiskSize = e0.getDiskSize)
    (hp : e.Proper) (d : Nat) (upd att : Bool) :
    ∃ r z', writeEntry (d + 1) e upd att z = (r, z') ∧
      (∀ e', r = .ok e' → e' = e.afterFlushOrRead ∧ (∀ i, e.kind = .redirect i → i < rows.length) ∧
        ∃ b arts, e.toBytes = .ok b ∧ z' = { z with file := wr z.file o b, articles := arts } ∧
          ∀ S, Art z.articles rows S → Art arts (rows.set j (o, e.fresh)) (mark S e att)) ∧
      (∀ S, Art z.articles rows S → (∃ b, e.toBytes = .ok b) → (∀ i, e.kind = .redirect i → i < rows.length) →
        ∃ e', r = .ok e') := by
  obtain ⟨ia, hia⟩ := h.isArticle_ok hold
  obtain ⟨ai, hai, -⟩ := pointerIndex_ok z.articles j
  have hj' := (List.getElem?_eq_some_iff.1 hj).1
  rw [h.writeEntry_inplace_eq hj hold hu hs d upd att ia ai hia hai]
  cases hb : e.toBytes with
  | error x =>
    refine ⟨.error x, z, PyM.bind_err (writeAt_err h.isOpen o x), fun e' he => (by cases he), ?_⟩
    rintro S - ⟨b, hb'⟩ -
    cases hb'
  | ok b =>
    rw [PyM.bind_ok (writeAt_ok h.isOpen o b)]
    have hc := hp.clean hb
    have hset : (rows.set j (o, e.fresh))[j]? = some (o, e.fresh) := by
      rw [List.getElem?_set, if_pos rfl, if_pos hj']
    obtain ⟨r1, l1, hr1, hrem⟩ := removeTitles_spec { z with file := wr z.file o b } j o e0.getDiskSize ai hai
    have hrep1 : Rep { z with file := wr z.file o b, articles := l1 } (rows.set j (o, e.fresh)) other :=
      h.setRow hj hc (by rw [Entry.fresh_toBytes]; exact hb) hs (by rw [Entry.fresh_fullUrl, hu]) l1
    have hrem' : ∀ S, Art z.articles rows S → r1 = .ok () ∧
        Art l1 (rows.set j (o, e.fresh)) (fun u => S u ∧ u ≠ e.fullUrl) := by
      intro S hA
      obtain ⟨h1, h2⟩ := hrem rows S _ hA (distinct_of_sorted h.sorted) hj
      refine ⟨h1, ?_⟩
      have := h2.set hj (row' := (o, e.fresh)) (fun hh => hh.2 rfl) (by rw [Entry.fresh_fullUrl, hu])
      rw [hu]; exact this
    cases r1 with
    | error x =>
      refine ⟨.error x, _, PyM.bind_err hr1, fun e' he => (by cases he), ?_⟩
      intro S hA _ _
      cases (hrem' S hA).1
    | ok a1 =>
      rw [PyM.bind_ok hr1]
      -- the new titles
      have hadd : ∃ r2 l2, (if att then addTitles e.afterFlushOrRead ia j else pure () : PyM Zim Unit)
            { z with file := wr z.file o b, articles := l1 } =
          (r2, { z with file := wr z.file o b, articles := l2 }) ∧
          ∀ S, Art z.articles rows S → r2 = .ok () ∧ Art l2 (rows.set j (o, e.fresh)) (mark S e att) := by
        cases att with
        | false =>
          refine ⟨.ok (), l1, rfl, fun S hA => ⟨rfl, ?_⟩⟩
          exact (hrem' S hA).2.congr fun u => by simp [mark]
        | true =>
          obtain ⟨r2, l2, hr2, h2⟩ := addTitles_spec { z with file := wr z.file o b, articles := l1 } h.noTitles
            e.afterFlushOrRead ia j
          refine ⟨r2, l2, hr2, fun S hA => ?_⟩
          have hiff := h.isArticle hA hia
          have hCC : ia = true → e.fresh.ns = "C" := by
            intro hi
            have := hiff.1 hi
            unfold asArticle at this
            cases hf : e.forceIsArticle with
            | some b => rw [hf] at this; simp only at this; subst this; exact hp.article hf
            | none => rw [hf] at this; exact this.1
          obtain ⟨h3, h4⟩ := h2 _ other _ _ hrep1 (hrem' S hA).2 hset rfl hCC (fun hh => hh.2 rfl)
          refine ⟨h3, h4.congr fun u => ?_⟩
          show _ ∨ (u = e.fullUrl ∧ ia = true) ↔ _
          rw [hiff]; simp [mark]
      obtain ⟨r2, l2, hr2, hA2⟩ := hadd
      have hrep2 : Rep { z with file := wr z.file o b, articles := l2 } (rows.set j (o, e.fresh)) other :=
        h.setRow hj hc (by rw [Entry.fresh_toBytes]; exact hb) hs (by rw [Entry.fresh_fullUrl, hu]) l2
      cases r2 with
      | error x =>
        refine ⟨.error x, _, PyM.bind_err hr2, fun e' he => (by cases he), ?_⟩
        intro S hA _ _
        cases (hA2 S hA).1
      | ok a2 =>
        rw [PyM.bind_ok hr2]
        obtain ⟨r3, hr3, h3⟩ := logRedirect_spec { z with file := wr z.file o b, articles := l2 } e.afterFlushOrRead
        have h3 := h3 _ other hrep2 hp.kind
        simp only [List.length_set] at h3
        cases r3 with
        | error x =>
          refine ⟨.error x, _, PyM.bind_err hr3, fun e' he => (by cases he), ?_⟩
          intro S hA _ hi
          cases h3.2 hi
        | ok a3 =>
          refine ⟨.ok e.afterFlushOrRead, _, by rw [PyM.bind_ok hr3]; rfl, ?_, fun _ _ _ _ => ⟨_, rfl⟩⟩
          intro e' he
          injection he with he
          exact ⟨he.symm, h3.1 rfl, b, l2, rfl, rfl, fun S hA => (hA2 S hA).2⟩

end Zim
end Pyzim
