import Mathlib.Data.List.Nodup
import Verif.Lemmas.ArchiveRead

namespace Pyzim

theorem getByPointerLoop_spec (p : Int) (l : List Int) (n : Nat) :
    (∃ a, PointerList.getByPointerLoop p l n = .ok (n + a) ∧ l[a]? = some p) ∨
    (PointerList.getByPointerLoop p l n = .error .keyError ∧ p ∉ l) := by
  induction l generalizing n with
  | nil => exact Or.inr ⟨rfl, by simp⟩
  | cons q l ih =>
    unfold PointerList.getByPointerLoop
    by_cases hq : q = p
    · exact Or.inl ⟨0, by rw [if_pos hq]; rfl, by simp [hq]⟩
    · rw [if_neg hq]
      rcases ih (n + 1) with ⟨a, h1, h2⟩ | ⟨h1, h2⟩
      · exact Or.inl ⟨a + 1, by rw [h1]; congr 1; omega, by simpa using h2⟩
      · exact Or.inr ⟨h1, by simp [h2]; exact fun h => hq h.symm⟩

theorem getByPointer_spec (l : PointerList) (p : Int) :
    (∃ a, l.getByPointer p = .ok a ∧ l.pointers[a]? = some p) ∨
    (l.getByPointer p = .error .keyError ∧ p ∉ l.pointers) := by
  rcases getByPointerLoop_spec p l.pointers 0 with ⟨a, h1, h2⟩ | h
  · exact Or.inl ⟨a, by unfold PointerList.getByPointer; rw [h1]; simp, h2⟩
  · exact Or.inr h

namespace Zim

/-- different rows have different urls -/
def DistinctUrls (rows : List Row) : Prop :=
  ∀ (i j : Nat) (r s : Row), rows[i]? = some r → rows[j]? = some s → r.2.fullUrl = s.2.fullUrl → i = j

theorem distinct_of_sorted {rows : List Row}
    (h : rows.Pairwise (fun r s => encode r.2.fullUrl < encode s.2.fullUrl)) : DistinctUrls rows := by
  intro i j r s hi hj he
  obtain ⟨hi', hr⟩ := List.getElem?_eq_some_iff.1 hi
  obtain ⟨hj', hs⟩ := List.getElem?_eq_some_iff.1 hj
  rcases Nat.lt_trichotomy i j with hlt | heq | hlt
  · have := List.pairwise_iff_getElem.1 h i j hi' hj' hlt
    rw [hr, hs, he] at this
    exact absurd this (lt_irrefl' _)
  · exact heq
  · have := List.pairwise_iff_getElem.1 h j i hj' hi' hlt
    rw [hr, hs, he] at this
    exact absurd this (lt_irrefl' _)

theorem titleOf_eq {rows : List Row} {i : Nat} {r : Row} (h : rows[i]? = some r) :
    titleOf rows i = encode r.2.title := by unfold titleOf; rw [h]

variable {l : PointerList} {rows : List Row} {S : String → Prop}

theorem Art.mem_row (h : Art l rows S) {p : Int} (hp : p ∈ l.pointers) :
    ∃ r, rows[p.toNat]? = some r ∧ S r.2.fullUrl ∧ p = (p.toNat : Int) := by
  have h0 := h.nonneg p hp
  have hpe : p = (p.toNat : Int) := by omega
  obtain ⟨r, hr, hs⟩ := (h.mem p.toNat).1 (by rw [← hpe]; exact hp)
  exact ⟨r, hr, hs, hpe⟩

theorem Art.lookup (h : Art l rows S) {i : Nat} {r : Row} (hi : rows[i]? = some r) :
    (S r.2.fullUrl ∧ ∃ a, l.getByPointer i = .ok a ∧ l.pointers[a]? = some (i : Int)) ∨
    (¬ S r.2.fullUrl ∧ l.getByPointer i = .error .keyError) := by
  rcases getByPointer_spec l i with ⟨a, h1, h2⟩ | ⟨h1, h2⟩
  · obtain ⟨r', hr', hs⟩ := (h.mem i).1 (List.mem_of_getElem? h2)
    rw [hi] at hr'; injection hr' with hr'; subst hr'
    exact Or.inl ⟨hs, a, h1, h2⟩
  · exact Or.inr ⟨fun hs => h2 ((h.mem i).2 ⟨r, hi, hs⟩), h1⟩

theorem Art.removeIdx (h : Art l rows S) (hd : DistinctUrls rows) {i a : Nat} {r : Row} (hi : rows[i]? = some r)
    (ha : l.pointers[a]? = some (i : Int)) :
    ∃ l', l.removeByIndex a = (.ok (), l') ∧ Art l' rows (fun u => S u ∧ u ≠ r.2.fullUrl) := by
  obtain ⟨ha', hai⟩ := List.getElem?_eq_some_iff.1 ha
  refine ⟨{ l with pointers := l.pointers.eraseIdx a, dirty := true }, ?_, ?_⟩
  · unfold PointerList.removeByIndex
    rw [if_neg (by omega), if_neg (by simp [h.mutable]), if_pos (by omega)]
    simp
  · have hsub := List.eraseIdx_sublist l.pointers a
    refine ⟨h.mutable, fun p hp => h.nonneg p (hsub.subset hp), hsub.nodup h.nodup, fun j => ?_, h.sorted.sublist hsub,
      fun s hs hS => h.inC s hs hS.1, fun u hu => h.dom u hu.1⟩
    simp only
    have herase : l.pointers.eraseIdx a = l.pointers.erase (i : Int) := by
      rw [← hai, List.Nodup.erase_getElem h.nodup]
    rw [herase, List.Nodup.mem_erase_iff h.nodup, h.mem]
    constructor
    · rintro ⟨hne, s, hs, hS⟩
      refine ⟨s, hs, hS, fun he => hne ?_⟩
      rw [hd j i s r hs hi he]
    · rintro ⟨s, hs, hS, hne⟩
      refine ⟨fun he => hne ?_, s, hs, hS⟩
      have : j = i := by omega
      subst this
      rw [hi] at hs; injection hs with hs; rw [hs]

theorem Art.add (h : Art l rows S) (hd : DistinctUrls rows) {i : Nat} {r : Row} (hi : rows[i]? = some r)
    (hn : ¬ S r.2.fullUrl) (hC : r.2.ns = "C") (keyf : Int → PyRes Bytes)
    (hk : ∀ (j : Nat) (s : Row), rows[j]? = some s → keyf j = .ok (encode s.2.title)) :
    ∃ n l', l.add keyf (encode r.2.title) i = (.ok n, l') ∧ Art l' rows (fun u => S u ∨ u = r.2.fullUrl) := by
  have hkey : ∀ n, n < l.len → l.keyAt keyf n = .ok (titleOf rows (l.pointers.getD n 0).toNat) := by
    intro n hn'
    unfold PointerList.len at hn'
    unfold PointerList.keyAt PointerList.getByIndex
    rw [pyIndex_lt _ _ hn']
    obtain ⟨s, hs, -, hpe⟩ := h.mem_row (List.getElem_mem hn')
    have hg : l.pointers.getD n 0 = l.pointers[n] := by simp [List.getD, List.getElem?_eq_getElem hn']
    rw [hg, titleOf_eq hs]
    show keyf l.pointers[n] = _
    rw [hpe, hk _ _ hs]
  obtain ⟨n, h1, h2, h3, h4⟩ := binarysearch_spec (l.keyAt keyf)
    (fun n => titleOf rows (l.pointers.getD n 0).toNat) (encode r.2.title) l.len hkey
    (fun a b hab hb => by
      unfold PointerList.len at hb
      have ha : a < l.pointers.length := by omega
      simp only [List.getD, List.getElem?_eq_getElem ha, List.getElem?_eq_getElem hb, Option.getD_some]
      exact List.pairwise_iff_getElem.1 h.sorted a b ha hb hab)
  refine ⟨n, { l with pointers := l.pointers.take n ++ (i : Int) :: l.pointers.drop n, dirty := true }, ?_, ?_⟩
  · unfold PointerList.add
    rw [if_neg (by omega), if_neg (by simp [h.mutable]), h1]
    simp only [PointerList.insert_at l.pointers n h2]
  · have hperm : (l.pointers.take n ++ (i : Int) :: l.pointers.drop n).Perm ((i : Int) :: l.pointers) := by
      refine List.perm_middle.trans ?_
      rw [List.take_append_drop]
    have hnotin : (i : Int) ∉ l.pointers := fun hm => by
      obtain ⟨s, hs, hS⟩ := (h.mem i).1 hm
      rw [hi] at hs; injection hs with hs; subst hs; exact hn hS
    refine ⟨h.mutable, ?_, ?_, ?_, ?_, ?_, ?_⟩
    · intro p hp
      rcases List.mem_cons.1 (hperm.mem_iff.1 hp) with rfl | hp
      · omega
      · exact h.nonneg p hp
    · exact hperm.nodup_iff.2 (List.nodup_cons.2 ⟨hnotin, h.nodup⟩)
    · intro j
      simp only
      rw [hperm.mem_iff, List.mem_cons, h.mem]
      constructor
      · rintro (he | ⟨s, hs, hS⟩)
        · have : j = i := by omega
          subst this; exact ⟨r, hi, Or.inr rfl⟩
        · exact ⟨s, hs, Or.inl hS⟩
      · rintro ⟨s, hs, hS | hS⟩
        · exact Or.inr ⟨s, hs, hS⟩
        · exact Or.inl (by rw [hd j i s r hs hi hS])
    · simp only
      have hspl := h.sorted
      rw [← List.take_append_drop n l.pointers] at hspl
      obtain ⟨p1, p2, p3⟩ := List.pairwise_append.1 hspl
      refine List.pairwise_append.2 ⟨p1, List.pairwise_cons.2 ⟨?_, p2⟩, ?_⟩
      · intro q hq
        obtain ⟨m, hm, rfl⟩ := List.getElem_of_mem hq
        have hm' : n + m < l.pointers.length := by simp at hm; omega
        have := h4 (n + m) (by omega) hm'
        simp only [List.getD, List.getElem?_eq_getElem hm', Option.getD_some] at this
        rw [Int.toNat_natCast, titleOf_eq hi, List.getElem_drop]
        exact Std.not_lt.1 this
      · intro q hq q' hq'
        rcases List.mem_cons.1 hq' with rfl | hq'
        · obtain ⟨m, hm, rfl⟩ := List.getElem_of_mem hq
          have hm' : m < n ∧ m < l.pointers.length := by simp at hm; omega
          have := h3 m hm'.1
          simp only [List.getD, List.getElem?_eq_getElem hm'.2, Option.getD_some] at this
          rw [Int.toNat_natCast, titleOf_eq hi, List.getElem_take]
          exact Std.le_of_lt this
        · exact p3 q hq q' hq'
    · rintro s hs (hS | hS)
      · exact h.inC s hs hS
      · obtain ⟨j, hj⟩ := List.getElem?_of_mem hs
        have := hd j i s r hj hi hS
        subst this
        rw [hj] at hi; injection hi with hi; rw [hi, hC]
    · rintro u (hu | rfl)
      · exact h.dom u hu
      · exact ⟨r, List.mem_of_getElem? hi, rfl⟩

/-- only urls and titles of the rows matter -/
theorem Art.reRow {rows' : List Row} (h : Art l rows S)
    (hr : ∀ i : Nat, (rows'[i]?).map (fun r => (r.2.fullUrl, r.2.title, r.2.ns)) =
      (rows[i]?).map (fun r => (r.2.fullUrl, r.2.title, r.2.ns))) : Art l rows' S := by
  have ht : ∀ i, titleOf rows' i = titleOf rows i := by
    intro i
    have := hr i
    unfold titleOf
    cases h1 : rows'[i]? <;> cases h2 : rows[i]? <;> simp_all
  refine ⟨h.mutable, h.nonneg, h.nodup, fun i => ?_, ?_, ?_, ?_⟩
  · rw [h.mem]
    have := hr i
    cases h1 : rows'[i]? <;> cases h2 : rows[i]? <;> simp_all
  · simpa only [ht] using h.sorted
  · intro s hs hS
    obtain ⟨i, hi⟩ := List.getElem?_of_mem hs
    have := hr i
    rw [hi] at this
    cases h2 : rows[i]? with
    | none => rw [h2] at this; simp at this
    | some r =>
      rw [h2] at this
      simp only [Option.map_some, Option.some.injEq, Prod.mk.injEq] at this
      rw [this.2.2]
      exact h.inC r (List.mem_of_getElem? h2) (by rw [← this.1]; exact hS)
  · intro u hu
    obtain ⟨r, hr', rfl⟩ := h.dom u hu
    obtain ⟨i, hi⟩ := List.getElem?_of_mem hr'
    have := hr i
    rw [hi] at this
    cases h2 : rows'[i]? with
    | none => rw [h2] at this; simp at this
    | some r' =>
      rw [h2] at this
      simp only [Option.map_some, Option.some.injEq, Prod.mk.injEq] at this
      exact ⟨r', List.mem_of_getElem? h2, this.1⟩

theorem Art.congr {S' : String → Prop} (h : Art l rows S) (hs : ∀ u, S u ↔ S' u) : Art l rows S' := by
  have : S = S' := funext fun u => propext (hs u)
  rw [← this]; exact h

/-- renumbering the pointers along with the rows -/
theorem Art.renumber {rows' : List Row} (h : Art l rows S) (f : Int → Int) (l' : PointerList)
    (hl' : l'.pointers = l.pointers.map f) (hm : l'.mutable = l.mutable)
    (hf : ∀ (i : Nat) (r : Row), rows[i]? = some r → S r.2.fullUrl →
      ∃ j : Nat, f i = (j : Int) ∧ rows'[j]? = some r)
    (hg : ∀ (j : Nat) (r : Row), rows'[j]? = some r → S r.2.fullUrl → ∃ i : Nat, rows[i]? = some r ∧ f i = (j : Int))
    (hinj : ∀ (i j : Nat), (i : Int) ∈ l.pointers → (j : Int) ∈ l.pointers → f i = f j → i = j) :
    Art l' rows' S := by
  have htitle : ∀ p ∈ l.pointers, titleOf rows' (f p).toNat = titleOf rows p.toNat := by
    intro p hp
    obtain ⟨r, hr, hS, hpe⟩ := h.mem_row hp
    obtain ⟨j, hj, hr'⟩ := hf _ r hr hS
    rw [← hpe] at hj
    rw [hj, Int.toNat_natCast, titleOf_eq hr', titleOf_eq hr]
  refine ⟨by rw [hm]; exact h.mutable, ?_, ?_, ?_, ?_, ?_, ?_⟩
  · rw [hl']
    intro q hq
    obtain ⟨p, hp, rfl⟩ := List.mem_map.1 hq
    obtain ⟨r, hr, hS, hpe⟩ := h.mem_row hp
    obtain ⟨j, hj, -⟩ := hf _ r hr hS
    rw [hpe, hj]; omega
  · rw [hl']
    refine (List.pairwise_map).2 (h.nodup.imp_of_mem ?_)
    intro p q hp hq hne he
    obtain ⟨-, -, -, hpe⟩ := h.mem_row hp
    obtain ⟨-, -, -, hqe⟩ := h.mem_row hq
    apply hne
    rw [hpe, hqe] at he ⊢
    rw [hpe] at hp
    rw [hqe] at hq
    rw [hinj _ _ hp hq he]
  · intro j
    rw [hl', List.mem_map]
    constructor
    · rintro ⟨p, hp, hpj⟩
      obtain ⟨r, hr, hS, hpe⟩ := h.mem_row hp
      obtain ⟨j', hj', hr'⟩ := hf _ r hr hS
      rw [← hpe, hpj] at hj'
      have : j = j' := by omega
      subst this
      exact ⟨r, hr', hS⟩
    · rintro ⟨r, hr, hS⟩
      obtain ⟨i, hi, hfi⟩ := hg j r hr hS
      exact ⟨i, (h.mem i).2 ⟨r, hi, hS⟩, hfi⟩
  · rw [hl']
    refine List.pairwise_map.2 (h.sorted.imp_of_mem ?_)
    intro p q hp hq hpq
    rw [htitle p hp, htitle q hq]; exact hpq
  · intro r hr hS
    obtain ⟨j, hj⟩ := List.getElem?_of_mem hr
    obtain ⟨i, hi, -⟩ := hg j r hj hS
    exact h.inC r (List.mem_of_getElem? hi) hS
  · intro u hu
    obtain ⟨r, hr, rfl⟩ := h.dom u hu
    obtain ⟨i, hi⟩ := List.getElem?_of_mem hr
    obtain ⟨j, -, hj⟩ := hf i r hi hu
    exact ⟨r, List.mem_of_getElem? hj, rfl⟩

theorem massUpdate_ok (l : PointerList) (diff : Int) (k : Nat) :
    l.massUpdate diff (some (k : Int)) none =
      (.ok (), { l with
        pointers := l.pointers.map (fun p => if (k : Int) ≤ p then p + diff else p)
        dirty := l.dirty || l.pointers.any (PointerList.massSelected (some (k : Int)) none) }) := by
  unfold PointerList.massUpdate
  rw [if_neg (by simp)]
  have hm : (fun p : Int => if PointerList.massSelected (some (k : Int)) none p = true then p + diff else p) =
      (fun p => if (k : Int) ≤ p then p + diff else p) := by
    funext p
    have : PointerList.massSelected (some (k : Int)) none p = true ↔ (k : Int) ≤ p := by
      simp [PointerList.massSelected]
    by_cases h : (k : Int) ≤ p
    · rw [if_pos (this.2 h), if_pos h]
    · rw [if_neg (fun h' => h (this.1 h')), if_neg h]
  simp only [hm]

theorem Art.erase (h : Art l rows S) {k : Nat} {r : Row} (hk : rows[k]? = some r) (hn : ¬ S r.2.fullUrl) :
    Art (l.massUpdate (-1) (some (k : Int)) none).2 (rows.eraseIdx k) S := by
  rw [massUpdate_ok]
  refine h.renumber (fun p => if (k : Int) ≤ p then p + -1 else p) _ rfl rfl ?_ ?_ ?_
  · intro i s hi hS
    have hik : i ≠ k := fun he => by subst he; rw [hk] at hi; injection hi with hi; subst hi; exact hn hS
    by_cases hlt : i < k
    · exact ⟨i, by rw [if_neg (by omega)], by rw [List.getElem?_eraseIdx_of_lt hlt]; exact hi⟩
    · refine ⟨i - 1, by rw [if_pos (by omega)]; omega, ?_⟩
      rw [List.getElem?_eraseIdx_of_ge (by omega), ← hi]; congr 1; omega
  · intro j s hj hS
    by_cases hlt : j < k
    · exact ⟨j, by rw [← List.getElem?_eraseIdx_of_lt hlt]; exact hj, by rw [if_neg (by omega)]⟩
    · refine ⟨j + 1, by rw [← List.getElem?_eraseIdx_of_ge (Nat.not_lt.1 hlt)]; exact hj, ?_⟩
      rw [if_pos (by omega)]; omega
  · intro i j hi hj he
    have hik : i ≠ k := fun he => by
      subst he
      obtain ⟨s, hs, hS⟩ := (h.mem i).1 hi
      rw [hk] at hs; injection hs with hs; subst hs; exact hn hS
    have hjk : j ≠ k := fun he => by
      subst he
      obtain ⟨s, hs, hS⟩ := (h.mem j).1 hj
      rw [hk] at hs; injection hs with hs; subst hs; exact hn hS
    split at he <;> split at he <;> omega

theorem Art.insert (h : Art l rows S) {k : Nat} {r : Row} (hk : k ≤ rows.length) (hn : ¬ S r.2.fullUrl) :
    Art (l.massUpdate 1 (some (k : Int)) none).2 (rows.insertIdx k r) S := by
  rw [massUpdate_ok]
  refine h.renumber (fun p => if (k : Int) ≤ p then p + 1 else p) _ rfl rfl ?_ ?_ ?_
  · intro i s hi hS
    have hil : i < rows.length := (List.getElem?_eq_some_iff.1 hi).1
    by_cases hlt : i < k
    · exact ⟨i, by rw [if_neg (by omega)], by rw [List.getElem?_insertIdx_of_lt hlt]; exact hi⟩
    · refine ⟨i + 1, by rw [if_pos (by omega)]; omega, ?_⟩
      rw [List.getElem?_insertIdx_of_gt (by omega)]; simpa using hi
  · intro j s hj hS
    by_cases hlt : j < k
    · exact ⟨j, by rw [← List.getElem?_insertIdx_of_lt hlt]; exact hj, by rw [if_neg (by omega)]⟩
    · by_cases hjk : j = k
      · subst hjk
        rw [List.getElem?_insertIdx_self, if_pos (by omega)] at hj
        injection hj with hj; subst hj; exact absurd hS hn
      · refine ⟨j - 1, by rw [← List.getElem?_insertIdx_of_gt (show k < j by omega)]; exact hj, ?_⟩
        rw [if_pos (by omega)]; omega
  · intro i j hi hj he
    split at he <;> split at he <;> omega

end Zim
end Pyzim
