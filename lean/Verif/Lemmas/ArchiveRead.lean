import Verif.Lemmas.ArchiveStore
import Verif.Lemmas.PointerList
import Verif.Lemmas.PyM
import Verif.Props.Search

namespace Pyzim
namespace Zim

variable {z : Zim} {rows : List Row} {other : Nat → Prop}

theorem Rep.entryAt (h : Rep z rows other) {r : Row} (hr : r ∈ rows) : z.entryAt r.1 = .ok r.2 := by
  obtain ⟨f', hf⟩ := h.store.read hr
  unfold Zim.entryAt
  rw [if_neg (by omega), Int.toNat_natCast, hf]

theorem Rep.urlKey (h : Rep z rows other) {r : Row} (hr : r ∈ rows) : z.urlKey r.1 = .ok (encode r.2.fullUrl) := by
  unfold Zim.urlKey; rw [h.entryAt hr]

theorem Rep.len (h : Rep z rows other) : z.urls.len = rows.length := by
  unfold PointerList.len; rw [h.urls, List.length_map]

theorem Rep.getByIndex (h : Rep z rows other) {i : Nat} {r : Row} (hi : rows[i]? = some r) :
    z.urls.getByIndex i = .ok (r.1 : Int) := by
  unfold PointerList.getByIndex
  rw [pyIndex_nat, h.urls, List.getElem?_map, hi]; rfl

theorem Rep.getByIndex_out (h : Rep z rows other) {i : Nat} (hi : rows.length ≤ i) :
    z.urls.getByIndex i = .error .indexError := by
  unfold PointerList.getByIndex
  rw [pyIndex_nat, h.urls, List.getElem?_map, List.getElem?_eq_none hi]; rfl

theorem Rep.keyAt (h : Rep z rows other) {i : Nat} {r : Row} (hi : rows[i]? = some r) :
    z.urls.keyAt z.urlKey i = .ok (encode r.2.fullUrl) := by
  unfold PointerList.keyAt
  rw [h.getByIndex hi]
  exact h.urlKey (List.mem_of_getElem? hi)

/-- the index at which a key is or belongs -/
theorem Rep.search (h : Rep z rows other) (k : Bytes) :
    ∃ n, binarysearch z.urls.len (z.urls.keyAt z.urlKey) k = .ok n ∧ n ≤ rows.length ∧
      (∀ r ∈ rows.take n, encode r.2.fullUrl < k) ∧ (∀ r ∈ rows.drop n, ¬ encode r.2.fullUrl < k) := by
  obtain ⟨n, h1, h2, h3, h4⟩ := binarysearch_spec (z.urls.keyAt z.urlKey)
    (fun i => match rows[i]? with | some r => encode r.2.fullUrl | none => []) k z.urls.len
    (fun i hi => by
      rw [h.len] at hi
      rw [h.keyAt (List.getElem?_eq_getElem hi), List.getElem?_eq_getElem hi])
    (fun i j hij hj => by
      rw [h.len] at hj
      simp only [List.getElem?_eq_getElem hj, List.getElem?_eq_getElem (Nat.lt_trans hij hj)]
      exact Std.le_of_lt (List.pairwise_iff_getElem.1 h.sorted i j (by omega) hj hij))
  rw [h.len] at h2 h4
  refine ⟨n, h1, h2, ?_, ?_⟩
  · intro r hr
    obtain ⟨i, hi, rfl⟩ := List.getElem_of_mem hr
    have hi' : i < n ∧ i < rows.length := by simp at hi; omega
    have := h3 i hi'.1
    rw [List.getElem_take]
    simpa only [List.getElem?_eq_getElem hi'.2] using this
  · intro r hr
    obtain ⟨i, hi, rfl⟩ := List.getElem_of_mem hr
    have hi' : n + i < rows.length := by simp at hi; omega
    have := h4 (n + i) (by omega) hi'
    rw [List.getElem_drop]
    simpa only [List.getElem?_eq_getElem hi'] using this

theorem lt_irrefl' (a : Bytes) : ¬ a < a := Std.lt_irrefl

theorem Rep.url_inj (h : Rep z rows other) {i j : Nat} {r s : Row} (hi : rows[i]? = some r) (hj : rows[j]? = some s)
    (he : r.2.fullUrl = s.2.fullUrl) : i = j := by
  obtain ⟨hi', hr⟩ := List.getElem?_eq_some_iff.1 hi
  obtain ⟨hj', hs⟩ := List.getElem?_eq_some_iff.1 hj
  rcases Nat.lt_trichotomy i j with hlt | heq | hlt
  · have := List.pairwise_iff_getElem.1 h.sorted i j hi' hj' hlt
    rw [hr, hs, he] at this
    exact absurd this (lt_irrefl' _)
  · exact heq
  · have := List.pairwise_iff_getElem.1 h.sorted j i hj' hi' hlt
    rw [hr, hs, he] at this
    exact absurd this (lt_irrefl' _)

theorem Rep.search_found (h : Rep z rows other) {i : Nat} {r : Row} (hi : rows[i]? = some r) :
    binarysearch z.urls.len (z.urls.keyAt z.urlKey) (encode r.2.fullUrl) = .ok i := by
  obtain ⟨n, h1, h2, h3, h4⟩ := h.search (encode r.2.fullUrl)
  obtain ⟨hi', hr⟩ := List.getElem?_eq_some_iff.1 hi
  rw [h1]
  congr 1
  rcases Nat.lt_trichotomy n i with hlt | heq | hlt
  · have hn : n < rows.length := by omega
    have := h4 rows[n] (by rw [List.mem_drop_iff_getElem]; exact ⟨0, by omega, by simp⟩)
    have h5 := List.pairwise_iff_getElem.1 h.sorted n i hn hi' hlt
    rw [hr] at h5
    exact absurd h5 this
  · exact heq
  · have := h3 r (by rw [List.mem_take_iff_getElem]; exact ⟨i, by omega, hr⟩)
    exact absurd this (lt_irrefl' _)

theorem Rep.urlIndex (h : Rep z rows other) {i : Nat} {r : Row} (hi : rows[i]? = some r) :
    z.urlIndex r.2.fullUrl = .ok i := by
  unfold Zim.urlIndex PointerList.getIndex
  have hne : i ≠ z.urls.len := by
    rw [h.len]; have := (List.getElem?_eq_some_iff.1 hi).1; omega
  simp only [h.search_found hi, bind, Except.bind, if_pos hne, h.keyAt hi, if_true]
  rfl

theorem Rep.urlIndex_missing (h : Rep z rows other) {u : String} (hu : ∀ r ∈ rows, r.2.fullUrl ≠ u) :
    z.urlIndex u = .error .keyError := by
  unfold Zim.urlIndex PointerList.getIndex
  obtain ⟨n, h1, h2, h3, h4⟩ := h.search (encode u)
  simp only [h1, bind, Except.bind]
  by_cases hn : n = z.urls.len
  · rw [if_neg (by simpa using hn)]
  · have hn' : n < rows.length := by rw [h.len] at hn; omega
    rw [if_pos hn]
    have hg := List.getElem?_eq_getElem hn'
    simp only [h.keyAt hg]
    rw [if_neg]
    intro he
    exact hu rows[n] (List.getElem_mem hn') (encode_injective he)

theorem Rep.urlIndex_cases (h : Rep z rows other) (u : String) :
    (∃ i r, rows[i]? = some r ∧ r.2.fullUrl = u ∧ z.urlIndex u = .ok i) ∨
    ((∀ r ∈ rows, r.2.fullUrl ≠ u) ∧ z.urlIndex u = .error .keyError) := by
  by_cases hu : ∃ r ∈ rows, r.2.fullUrl = u
  · obtain ⟨r, hr, rfl⟩ := hu
    obtain ⟨i, hi⟩ := List.getElem?_of_mem hr
    exact Or.inl ⟨i, r, hi, rfl, h.urlIndex hi⟩
  · have : ∀ r ∈ rows, r.2.fullUrl ≠ u := fun r hr he => hu ⟨r, hr, he⟩
    exact Or.inr ⟨this, h.urlIndex_missing this⟩

theorem Rep.urlsGet (h : Rep z rows other) {i : Nat} {r : Row} (hi : rows[i]? = some r) :
    z.urls.get z.urlKey (encode r.2.fullUrl) = .ok (r.1 : Int) := by
  have := h.urlIndex hi
  unfold Zim.urlIndex at this
  unfold PointerList.get
  rw [this]
  exact h.getByIndex hi

theorem Rep.urlsGet_missing (h : Rep z rows other) {u : String} (hu : ∀ r ∈ rows, r.2.fullUrl ≠ u) :
    z.urls.get z.urlKey (encode u) = .error .keyError := by
  have := h.urlIndex_missing hu
  unfold Zim.urlIndex at this
  unfold PointerList.get
  rw [this]; rfl

theorem Rep.entryByFullUrl (h : Rep z rows other) {r : Row} (hr : r ∈ rows) :
    z.entryByFullUrl r.2.fullUrl = .ok r.2 := by
  obtain ⟨i, hi⟩ := List.getElem?_of_mem hr
  unfold Zim.entryByFullUrl
  rw [h.urlsGet hi]
  exact h.entryAt hr

theorem Rep.entryByFullUrl_missing (h : Rep z rows other) {u : String} (hu : ∀ r ∈ rows, r.2.fullUrl ≠ u) :
    z.entryByFullUrl u = .error .entryNotFound := by
  unfold Zim.entryByFullUrl
  rw [h.urlsGet_missing hu]

theorem Rep.entryByIndex (h : Rep z rows other) {i : Nat} {r : Row} (hi : rows[i]? = some r) :
    z.entryByIndex i = .ok r.2 := by
  unfold Zim.entryByIndex
  rw [if_neg (by omega), h.getByIndex hi]
  exact h.entryAt (List.mem_of_getElem? hi)

theorem Rep.entryByIndex_out (h : Rep z rows other) {i : Nat} (hi : rows.length ≤ i) :
    z.entryByIndex i = .error .entryNotFound := by
  unfold Zim.entryByIndex
  rw [if_neg (by omega), h.getByIndex_out hi]

theorem Rep.titleKey (h : Rep z rows other) {i : Nat} {r : Row} (hi : rows[i]? = some r) :
    z.titleKey i = .ok (encode r.2.title) := by
  unfold Zim.titleKey; rw [h.entryByIndex hi]

theorem range'_mapM_eq {α β : Type} (l : List α) (f : Int → PyRes β) (g : α → β) (s n : Nat)
    (hsn : s + n ≤ l.length)
    (hf : ∀ (i : Nat) (a : α), l[i]? = some a → f i = .ok (g a)) :
    (List.range' s n).mapM (fun i : Nat => f i) = .ok (((l.drop s).take n).map g) := by
  induction n generalizing s with
  | zero => simp [pure, Except.pure]
  | succ n ih =>
    have hs : s < l.length := by omega
    rw [List.range'_succ, List.mapM_cons]
    simp only [hf s _ (List.getElem?_eq_getElem hs), bind, Except.bind, ih (s + 1) (by omega),
      pure, Except.pure]
    rw [show l.drop s = l[s] :: l.drop (s + 1) from (List.drop_eq_getElem_cons hs), List.take_succ_cons, List.map_cons]

theorem Rep.iterPointers (h : Rep z rows other) {s e : Nat} (hse : s ≤ e) (he : e ≤ rows.length) :
    z.urls.iterPointers (some s) (some e) =
      .ok (((rows.drop s).take (e - s)).map (fun r => (r.1 : Int))) := by
  unfold PointerList.iterPointers
  simp only [Option.getD_some]
  rw [if_neg (by rw [h.len]; omega), if_neg (by omega)]
  exact range'_mapM_eq rows (fun i => z.urls.getByIndex i) _ s (e - s) (by omega) (fun i a hi => h.getByIndex hi)

theorem Rep.mapM_entryAt (h : Rep z rows other) {l : List Row} (hl : ∀ r ∈ l, r ∈ rows) :
    (l.map (fun r => (r.1 : Int))).mapM z.entryAt = .ok (l.map (·.2)) := by
  induction l with
  | nil => rfl
  | cons r l ih =>
    rw [List.map_cons, List.mapM_cons, h.entryAt (hl r (by simp)), ih (fun s hs => hl s (by simp [hs]))]
    rfl

theorem Rep.iterEntries_range (h : Rep z rows other) {s e : Nat} (hse : s ≤ e) (he : e ≤ rows.length) :
    z.iterEntries (some s) (some e) = .ok (((rows.drop s).take (e - s)).map (·.2)) := by
  unfold Zim.iterEntries
  rw [h.iterPointers hse he]
  exact h.mapM_entryAt fun r hr => List.mem_of_mem_drop (List.mem_of_mem_take hr)

theorem iterPointers_default (l : PointerList) (s e : Option Nat) :
    l.iterPointers s e = l.iterPointers (some (s.getD 0)) (some (e.getD l.len)) := rfl

theorem Rep.iterEntries (h : Rep z rows other) : z.iterEntries = .ok (rows.map (·.2)) := by
  have := h.iterEntries_range (s := 0) (e := rows.length) (Nat.zero_le _) (Nat.le_refl _)
  unfold Zim.iterEntries at this ⊢
  rw [iterPointers_default, h.len]
  simpa using this

end Zim
end Pyzim
