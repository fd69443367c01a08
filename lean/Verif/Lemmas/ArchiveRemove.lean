import Verif.Lemmas.ArchiveMove

namespace Pyzim
namespace Zim
open SpaceAllocator (InBlock)

variable {z : Zim} {rows : List Row} {other : Nat → Prop} {S : String → Prop}

/-! ## One removal, without the redirects leading to the entry -/

/-- the header after removing the `k`-th entry -/
def rmHeader (k : Nat) (h : Header) : Header :=
  shHeader k (-1) (if h.mainPage = some k then { h with mainPageRaw := 0xffffffff, dirty := true } else h)

/-- the last part of `remove_entry_by_full_url`, up to the loop over the redirects -/
def removeTail (d k o : Nat) (e0 : Entry) (u : String) : PyM Zim (List String) := do
  let z ← PyM.get
  let redirects ← PyM.lift (z.redirectsToRemove k)
  let isArticle ← PyM.lift (if e0.ns = "C" then z.entryIsArticle u else .ok false)
  (if isArticle then removeArticle k else pure ())
  removeTitle k
  onUrls (fun l => l.removeByIndex k)
  clearMainPage k
  updateUrlPointers (fun e => writeEntry d e true true) k (-1) isArticle []
  markFree o e0.getDiskSize
  pure redirects

theorem Art.drop (h : Art z.articles rows S) {k : Nat} {r : Row} (hk : rows[k]? = some r) (hn : ¬ S r.2.fullUrl)
    (hlast : ∀ i s, k < i → rows[i]? = some s → ¬ S s.2.fullUrl) : Art z.articles (rows.eraseIdx k) S := by
  refine h.renumber id z.articles (by simp) rfl ?_ ?_ (fun i j _ _ hij => Int.ofNat.inj hij)
  · intro i s hi hS
    refine ⟨i, rfl, ?_⟩
    have hik : i ≠ k := by
      intro he; subst he; rw [hk] at hi; cases hi; exact hn hS
    have : i < k := by
      rcases Nat.lt_trichotomy i k with h1 | h1 | h1
      · exact h1
      · exact absurd h1 hik
      · exact absurd hS (hlast i s h1 hi)
    rw [List.getElem?_eraseIdx_of_lt this]; exact hi
  · intro j s hj hS
    by_cases hjk : j < k
    · rw [List.getElem?_eraseIdx_of_lt hjk] at hj
      exact ⟨j, hj, rfl⟩
    · rw [List.getElem?_eraseIdx_of_ge (by omega)] at hj
      exact absurd hS (hlast (j + 1) s (by omega) hj)

theorem Rep.redirectsToRemove (h : Rep z rows other) {k : Nat} {row : Row} (hk : rows[k]? = some row) :
    ∃ us, z.redirectsToRemove k = .ok us ∧
      ∀ w, w ∈ us ↔ w ≠ row.2.fullUrl ∧ ∃ r ∈ rows, r.2.fullUrl = w ∧ r.2.kind = .redirect k := by
  unfold Zim.redirectsToRemove
  rw [h.iterEntries]
  simp only [bind, Except.bind]
  have hmem : ∀ e, e ∈ (rows.map (·.2)).filter (fun e => e.isRedirect && decide (e.kind = .redirect k)) ↔
      ∃ r ∈ rows, r.2 = e ∧ r.2.kind = .redirect k := by
    intro e
    simp only [List.mem_filter, List.mem_map, Bool.and_eq_true, decide_eq_true_eq]
    constructor
    · rintro ⟨⟨r, hr, rfl⟩, -, hk⟩; exact ⟨r, hr, rfl, hk⟩
    · rintro ⟨r, hr, rfl, hk⟩; exact ⟨⟨r, hr, rfl⟩, (h.store.clean r hr).isRedirect.2 ⟨k, hk⟩, hk⟩
  generalize (rows.map (·.2)).filter (fun e => e.isRedirect && decide (e.kind = .redirect k)) = es at hmem
  by_cases hes : es = []
  · subst hes
    rw [if_pos rfl]
    refine ⟨_, rfl, fun w => ?_⟩
    constructor
    · intro hw; simp at hw
    · rintro ⟨-, r, hr, -, hk'⟩
      have := (hmem r.2).2 ⟨r, hr, rfl, hk'⟩
      simp at this
  · rw [if_neg hes, h.entryByIndex hk]
    refine ⟨_, rfl, fun w => ?_⟩
    simp only [List.mem_map, List.mem_filter, decide_eq_true_eq, hmem]
    constructor
    · rintro ⟨e, ⟨⟨r, hr, rfl, hk'⟩, hne⟩, rfl⟩
      exact ⟨fun he => hne he.symm, r, hr, rfl, hk'⟩
    · rintro ⟨hne, r, hr, rfl, hk'⟩
      exact ⟨r.2, ⟨⟨r, hr, rfl, hk'⟩, fun he => hne he.symm⟩, rfl⟩

/-- whether the entry to remove is an article -/
theorem Rep.articleFlag (h : Rep z rows other) {k : Nat} {row : Row} (hk : rows[k]? = some row) :
    ∃ ia, (if row.2.ns = "C" then z.entryIsArticle row.2.fullUrl else .ok false) = .ok ia ∧
      (ia = true → ∃ a, z.articles.getByPointer k = .ok a ∧ z.articles.pointers[a]? = some (k : Int)) ∧
      ∀ S, Art z.articles rows S → (ia = true ↔ S row.2.fullUrl) := by
  by_cases hns : row.2.ns = "C"
  · rw [if_pos hns]
    unfold Zim.entryIsArticle
    have hc : row.2.fullUrl.toList.head? = some 'C' := by
      unfold Entry.fullUrl; rw [hns, String.toList_append]; rfl
    rw [if_neg (by simp [hc]), if_neg (by simp [h.isOpen]), h.urlIndex hk]
    simp only
    rcases getByPointer_spec z.articles k with ⟨a, h1, h2⟩ | ⟨h1, h2⟩
    · rw [h1]
      refine ⟨true, rfl, fun _ => ⟨a, rfl, h2⟩, fun S hA => ⟨fun _ => ?_, fun _ => rfl⟩⟩
      rcases hA.lookup hk with ⟨h3, -⟩ | ⟨-, h3⟩
      · exact h3
      · rw [h1] at h3; cases h3
    · rw [h1]
      refine ⟨false, rfl, fun hh => (by cases hh), fun S hA => ⟨fun hh => (by cases hh), fun hS => ?_⟩⟩
      rcases hA.lookup hk with ⟨h3, a, h4, -⟩ | ⟨h3, -⟩
      · rw [h1] at h4; cases h4
      · exact absurd hS h3
  · rw [if_neg hns]
    refine ⟨false, rfl, fun hh => (by cases hh), fun S hA => ⟨fun hh => (by cases hh), fun hS => ?_⟩⟩
    exact absurd (hA.inC row (List.mem_of_getElem? hk) hS) hns

/-- the header with the main page unset if it is the `k`-th entry -/
def clHeader (k : Nat) (h : Header) : Header :=
  if h.mainPage = some k then { h with mainPageRaw := 0xffffffff, dirty := true } else h

theorem clearMainPage_spec (z : Zim) (hm : z.header.mutable = true) (k : Nat) :
    clearMainPage k z = (.ok (), { z with header := clHeader k z.header }) := by
  unfold clearMainPage clHeader
  rw [PyM.get_bind]
  split
  · rename_i hk
    have hne : 0xffffffff ≠ z.header.mainPageRaw := by
      intro he
      unfold Header.mainPage at hk
      rw [if_pos he.symm] at hk
      cases hk
    simp only [onHeader, Header.setMainPage]
    rw [if_neg (by simp [hm]), if_pos hne]
  · rfl

theorem rmHeader_mutable (k : Nat) (h : Header) : (rmHeader k h).mutable = h.mutable := by
  unfold rmHeader; rw [shHeader_mutable]; split <;> rfl

/-- one removal -/
theorem Rep.removeTail (h : Rep z rows other) {k o : Nat} {e0 : Entry} (hk : rows[k]? = some (o, e0)) (d : Nat) :
    ∃ r z', removeTail (d + 1) k o e0 e0.fullUrl z = (r, z') ∧
      (∀ us, r = .ok us →
        (∀ w, w ∈ us ↔ w ≠ e0.fullUrl ∧ ∃ r ∈ rows, r.2.fullUrl = w ∧ r.2.kind = .redirect k) ∧
        Rep z' (erased rows k) other ∧ Frame other z z' ∧ z'.header = rmHeader k z.header ∧
        (∀ s v, s ∈ rows.eraseIdx k → Shifts k (-1) [] s v → 0 ≤ v ∧ v < rows.length - 1) ∧
        ∀ S, Art z.articles rows S → (S e0.fullUrl ∨ ∀ i s, k < i → rows[i]? = some s → ¬ S s.2.fullUrl) →
          Art z'.articles (erased rows k) (fun w => S w ∧ w ≠ e0.fullUrl)) ∧
      (∀ S, Art z.articles rows S → (S e0.fullUrl ∨ ∀ i s, k < i → rows[i]? = some s → ¬ S s.2.fullUrl) →
        (∀ s v, s ∈ rows.eraseIdx k → Shifts k (-1) [] s v → 0 ≤ v ∧ v < rows.length - 1 ∧ v ≠ s.1 ∧ v < 2 ^ 32) →
        ∃ us, r = .ok us) := by
  obtain ⟨hk', hrk⟩ := List.getElem?_eq_some_iff.1 hk
  have hdist := distinct_of_sorted h.sorted
  obtain ⟨us, hus, hus'⟩ := h.redirectsToRemove hk
  obtain ⟨ia, hia, hia1, hia2⟩ := h.articleFlag hk
  unfold Zim.removeTail
  rw [PyM.get_bind, hus, PyM.lift_ok_bind, hia, PyM.lift_ok_bind]
  -- the article title list
  have hart : ∃ r1 l1, (if ia = true then removeArticle k else pure () : PyM Zim Unit) z = (r1, { z with articles := l1 }) ∧
      (∀ S, Art z.articles rows S → r1 = .ok () ∧ Art l1 rows (fun w => S w ∧ w ≠ e0.fullUrl)) := by
    cases ia with
    | false =>
      refine ⟨.ok (), z.articles, rfl, fun S hA => ⟨rfl, hA.congr fun w => ⟨fun hw => ⟨hw, ?_⟩, fun hw => hw.1⟩⟩⟩
      rintro rfl
      exact absurd ((hia2 S hA).2 hw) (by simp)
    | true =>
      obtain ⟨a, ha, hap⟩ := hia1 rfl
      simp only [if_true]
      unfold removeArticle
      rw [PyM.get_bind, ha, PyM.lift_ok_bind]
      refine ⟨(z.articles.removeByIndex a).1, (z.articles.removeByIndex a).2, rfl, fun S hA => ?_⟩
      obtain ⟨l', h1, h2⟩ := hA.removeIdx hdist hk hap
      rw [h1]
      exact ⟨rfl, h2⟩
  obtain ⟨r1, l1, hr1, hl1⟩ := hart
  cases r1 with
  | error x =>
    refine ⟨.error x, _, PyM.bind_err hr1, fun us he => (by cases he), ?_⟩
    intro S hA
    cases (hl1 S hA).1
  | ok a1 =>
  rw [PyM.bind_ok hr1]
  have ht : removeTitle k { z with articles := l1 } = (.ok (), { z with articles := l1 }) := by
    unfold removeTitle; rw [h.noTitles]
  rw [PyM.bind_ok ht]
  -- the url list
  have hrem : ∃ ul, z.urls.removeByIndex k = (.ok (), ul) ∧ ul.pointers = z.urls.pointers.eraseIdx k ∧
      ul.mutable = true ∧ ul.dirty = true := by
    refine ⟨{ z.urls with pointers := z.urls.pointers.eraseIdx k, dirty := true }, ?_, rfl, h.urlsMutable, rfl⟩
    unfold PointerList.removeByIndex
    rw [if_neg (by omega), if_neg (by simp [h.urlsMutable]), if_pos (by rw [h.urls]; simp; omega)]
    simp
  obtain ⟨ul, hrem, hul, hulm, huld⟩ := hrem
  have h1 : (onUrls (fun l => l.removeByIndex k)) { z with articles := l1 } =
      (.ok (), { z with articles := l1, urls := ul }) := by
    simp only [onUrls, hrem]
  rw [PyM.bind_ok h1, PyM.bind_ok (clearMainPage_spec { z with articles := l1, urls := ul } h.headerMutable k)]
  -- the space counts as used by others for the time being
  have hst1 := h.store.perm (List.getElem_cons_eraseIdx_perm hk').symm
  rw [hrk] at hst1
  have hst2 := hst1.forget
  have hap0 : ∀ x, InRow (o, e0) x → ¬ other x := fun x => hst1.apart (o, e0) (by simp) x
  generalize hz1 : ({ z with articles := l1, urls := ul, header := clHeader k z.header } : Zim) = z1
  have hrep : Rep z1 (rows.eraseIdx k) (fun x => other x ∨ InRow (o, e0) x) := by
    subst hz1
    refine ⟨hst2, h.sorted.sublist (List.eraseIdx_sublist _ _), ?_, hulm, h.isOpen, h.isMutable, h.noTitles, ?_⟩
    · simp only [hul, h.urls]
      rw [List.eraseIdx_map]
    · simp only [clHeader]; split <;> exact h.headerMutable
  obtain ⟨r2, z2, g1, g2, g3⟩ := hrep.updateUrlPointers d k (-1) (Or.inr rfl) ia []
  have hlenE : (rows.eraseIdx k).length = rows.length - 1 := by rw [List.length_eraseIdx, if_pos hk']
  rw [hlenE] at g2 g3
  have hcast : ∀ v : Int, (v < ((rows.length - 1 : Nat) : Int)) ↔ v < (rows.length : Int) - 1 := by intro v; omega
  simp only [hcast] at g2 g3
  have hart1 : ∀ S, Art z.articles rows S → (S e0.fullUrl ∨ ∀ i s, k < i → rows[i]? = some s → ¬ S s.2.fullUrl) →
      Art (if ia then (z1.articles.massUpdate (-1) (some k) none).2 else z1.articles) (rows.eraseIdx k)
        (fun w => S w ∧ w ≠ e0.fullUrl) := by
    intro S hA hor
    have hz1a : z1.articles = l1 := by subst hz1; rfl
    have h2 := (hl1 S hA).2
    cases hiac : ia with
    | true =>
      simp only [if_true]
      rw [hz1a]
      exact h2.erase hk (fun hh => hh.2 rfl)
    | false =>
      have hnS : ¬ S e0.fullUrl := fun hS => by
        have := (hia2 S hA).2 hS; rw [hiac] at this; cases this
      simp only [Bool.false_eq_true, if_false]
      rw [← hz1a] at h2
      refine h2.drop hk (fun hh => hh.2 rfl) ?_
      rcases hor with hor | hor
      · exact absurd hor hnS
      · exact fun i s hi hs hh => hor i s hi hs hh.1
  cases r2 with
  | error x =>
    refine ⟨.error x, z2, PyM.bind_err g1, fun us he => (by cases he), ?_⟩
    intro S hA hor hs
    cases g3 _ (hart1 S hA hor) hs
  | ok a2 =>
  rw [PyM.bind_ok g1]
  obtain ⟨file, arts, hz2, hrep2, hkeep, hart2, hrange⟩ := g2 rfl
  refine ⟨.ok us, { z2 with space := z2.space.markFree o e0.getDiskSize }, rfl, ?_, fun _ _ _ _ => ⟨us, rfl⟩⟩
  intro us' he
  injection he with he
  subst he
  refine ⟨hus', ?_, ?_, ?_, hrange, fun S hA hor => ?_⟩
  · refine ⟨?_, hrep2.sorted, hrep2.urls, hrep2.urlsMutable, hrep2.isOpen, hrep2.isMutable, hrep2.noTitles,
      hrep2.headerMutable⟩
    refine Store.free (start := o) (length := e0.getDiskSize) (hrep2.store.congr fun x => Iff.rfl) hap0
  · subst hz2
    subst hz1
    refine ⟨fun x b hx hb => hkeep x b (Or.inl hx) hb, rfl, rfl, rfl, rfl, rfl, ?_, Or.inr huld, Or.inr huld⟩
    refine MainOnly.trans (b := clHeader k z.header) ?_ (shHeader_mainOnly _ _ _)
    unfold clHeader
    split
    · exact Or.inr ⟨_, rfl⟩
    · exact Or.inl rfl
  · subst hz2
    subst hz1
    rfl
  · have := hart2 _ (hart1 S hA hor)
    rw [hz2]; exact this

end Zim
end Pyzim
