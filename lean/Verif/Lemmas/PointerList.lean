import Verif.Lemmas.Base
import Verif.Spec.PointerList

/-! Helper lemmas about pointer lists. -/

namespace Pyzim

/-! ### packing -/

theorem packFields_map_ok (w : Nat) (ps : List Int) (h : ∀ p ∈ ps, FitsField w p) :
    packFields (ps.map (fun p => (w, p))) =
      .ok ((ps.map (fun p => leBytes w p.toNat)).flatten) := by
  induction ps with
  | nil => rfl
  | cons p ps ih =>
    have hp := h p (by simp)
    simp only [List.map_cons, packFields, packUInt_ok hp.1 hp.2,
      ih (fun q hq => h q (by simp [hq])), List.flatten_cons]
    rfl

theorem packFields_map_fits (w : Nat) (ps : List Int) (b : Bytes)
    (h : packFields (ps.map (fun p => (w, p))) = .ok b) : ∀ p ∈ ps, FitsField w p := by
  induction ps generalizing b with
  | nil => simp
  | cons p ps ih =>
    simp only [List.map_cons, packFields] at h
    cases hp : packUInt w p with
    | error e => rw [hp] at h; cases h
    | ok a =>
      cases hr : packFields (ps.map (fun p => (w, p))) with
      | error e => rw [hp, hr] at h; cases h
      | ok c =>
        have h1 := packUInt_eq_ok hp
        intro q hq
        rcases List.mem_cons.1 hq with rfl | hq
        · exact ⟨h1.1, h1.2.1⟩
        · exact ih c hr q hq

theorem unpackFields_flatten (w : Nat) (vs : List Nat) (h : ∀ v ∈ vs, v < 256 ^ w) :
    unpackFields (List.replicate vs.length w) ((vs.map (leBytes w)).flatten) = .ok vs := by
  induction vs with
  | nil => rfl
  | cons v vs ih =>
    simp only [List.length_cons, List.replicate_succ, List.map_cons, List.flatten_cons,
      unpackFields]
    rw [if_neg (by simp)]
    have h1 : (leBytes w v ++ (vs.map (leBytes w)).flatten).drop w = (vs.map (leBytes w)).flatten := by
      rw [List.drop_append_of_le_length (by simp)]; simp
    have h2 : (leBytes w v ++ (vs.map (leBytes w)).flatten).take w = leBytes w v := by
      rw [List.take_append_of_le_length (by simp)]; simp [List.take_of_length_le]
    rw [h1, h2, ih (fun x hx => h x (by simp [hx])), leNat_leBytes _ _ (h v (by simp))]
    rfl

theorem unpackFields_total (w n : Nat) (s : Bytes) (h : s.length = w * n) :
    ∃ vs, unpackFields (List.replicate n w) s = .ok vs ∧ vs.length = n ∧
      (∀ v ∈ vs, v < 256 ^ w) ∧ (vs.map (leBytes w)).flatten = s := by
  induction n generalizing s with
  | zero =>
    have : s = [] := List.eq_nil_of_length_eq_zero (by simpa using h)
    subst this; exact ⟨[], rfl, rfl, by simp, rfl⟩
  | succ n ih =>
    have hlen : s.length = w * n + w := by rw [h, Nat.mul_succ]
    obtain ⟨vs, h1, h2, h3, h4⟩ := ih (s.drop w) (by simp; omega)
    have htake : (s.take w).length = w := by simp; omega
    refine ⟨leNat (s.take w) :: vs, ?_, by simp [h2], ?_, ?_⟩
    · simp only [List.replicate_succ, unpackFields]
      rw [if_neg (by omega), h1]; rfl
    · intro v hv
      rcases List.mem_cons.1 hv with rfl | hv
      · have := leNat_lt (s.take w); rwa [htake] at this
      · exact h3 v hv
    · simp only [List.map_cons, List.flatten_cons, h4]
      have := leBytes_leNat (s.take w)
      rw [htake] at this
      rw [this, List.take_append_drop]

theorem flatten_leBytes_length (w : Nat) (vs : List Nat) :
    ((vs.map (leBytes w)).flatten).length = w * vs.length := by
  induction vs with
  | nil => simp
  | cons v vs ih => simp [ih, Nat.mul_add]; omega

/-! ### binary search -/

theorem binarysearchLoop_spec (keyAt : Nat → PyRes Bytes) (keys : Nat → Bytes) (el : Bytes)
    (len : Nat) (hk : ∀ i, i < len → keyAt i = .ok (keys i))
    (hs : ∀ i j, i < j → j < len → keys i ≤ keys j) (start end_ : Nat)
    (hse : start ≤ end_) (hel : end_ ≤ len)
    (hlo : ∀ i, i < start → keys i < el) (hhi : ∀ i, end_ ≤ i → i < len → ¬ keys i < el) :
    ∃ r, binarysearchLoop keyAt el start end_ = .ok r ∧ start ≤ r ∧ r ≤ end_ ∧
      (∀ i, i < r → keys i < el) ∧ (∀ i, r ≤ i → i < len → ¬ keys i < el) := by
  generalize hd : end_ - start = d
  induction d using Nat.strongRecOn generalizing start end_ with
  | _ d ih =>
    unfold binarysearchLoop
    by_cases hlt : start < end_
    · rw [dif_pos hlt]
      have hmid : (start + end_) / 2 < end_ := by omega
      have hmid' : start ≤ (start + end_) / 2 := by omega
      rw [hk _ (by omega)]
      simp only
      split
      · rename_i hkl
        obtain ⟨r, h1, h2, h3, h4, h5⟩ := ih (end_ - ((start + end_) / 2 + 1)) (by omega)
          ((start + end_) / 2 + 1) end_ (by omega) hel
          (fun i hi => by
            by_cases hi2 : i = (start + end_) / 2
            · rw [hi2]; exact hkl
            · exact Std.lt_of_le_of_lt (hs i ((start + end_) / 2) (by omega) (by omega)) hkl)
          hhi rfl
        exact ⟨r, h1, by omega, h3, h4, h5⟩
      · rename_i hkl
        obtain ⟨r, h1, h2, h3, h4, h5⟩ := ih ((start + end_) / 2 - start) (by omega)
          start ((start + end_) / 2) hmid' (by omega) hlo
          (fun i hi hil => by
            by_cases hi2 : i = (start + end_) / 2
            · rw [hi2]; exact hkl
            · intro hc
              exact hkl (Std.lt_of_le_of_lt (hs ((start + end_) / 2) i (by omega) hil) hc))
          rfl
        exact ⟨r, h1, h2, by omega, h4, h5⟩
    · rw [dif_neg hlt]
      have : start = end_ := by omega
      subst this
      exact ⟨start, rfl, Nat.le_refl _, Nat.le_refl _, hlo, hhi⟩

theorem binarysearch_spec (keyAt : Nat → PyRes Bytes) (keys : Nat → Bytes) (el : Bytes)
    (len : Nat) (hk : ∀ i, i < len → keyAt i = .ok (keys i))
    (hs : ∀ i j, i < j → j < len → keys i ≤ keys j) :
    ∃ r, binarysearch len keyAt el = .ok r ∧ r ≤ len ∧
      (∀ i, i < r → keys i < el) ∧ (∀ i, r ≤ i → i < len → ¬ keys i < el) := by
  unfold binarysearch
  split
  · refine ⟨0, rfl, by omega, by omega, by omega⟩
  · obtain ⟨r, h1, _, h3, h4, h5⟩ := binarysearchLoop_spec keyAt keys el len hk hs 0 len
      (by omega) (Nat.le_refl _) (by omega) (by omega)
    exact ⟨r, h1, h3, h4, h5⟩

theorem pyIndex_nat {α : Type} (l : List α) (i : Nat) :
    pyIndex l (i : Int) = match l[i]? with | some x => .ok x | none => .error .indexError := by
  unfold pyIndex
  have h1 : ¬ ((i : Int) < 0) := by omega
  simp only [h1, if_false, Int.toNat_natCast]
  cases l[i]? <;> rfl

theorem pyIndex_lt {α : Type} (l : List α) (i : Nat) (h : i < l.length) :
    pyIndex l (i : Int) = .ok l[i] := by
  rw [pyIndex_nat, List.getElem?_eq_getElem h]

namespace PointerList

theorem keyAt_lt (l : PointerList) (key : Int → Bytes) (i : Nat) (h : i < l.pointers.length) :
    l.keyAt (fun q => .ok (key q)) i = .ok (key l.pointers[i]) := by
  simp only [keyAt, getByIndex, pyIndex_lt _ _ h]; rfl

/-- A total accessor for the keys of a list, for use in proofs. -/
def keysOf (ps : List Int) (key : Int → Bytes) (i : Nat) : Bytes := key (ps.getD i 0)

theorem keysOf_lt (ps : List Int) (key : Int → Bytes) (i : Nat) (h : i < ps.length) :
    keysOf ps key i = key ps[i] := by
  simp [keysOf, List.getD, List.getElem?_eq_getElem h]

theorem sorted_keysOf {ps : List Int} {key : Int → Bytes} (h : SortedBy key ps) (i j : Nat)
    (hij : i < j) (hj : j < ps.length) : keysOf ps key i ≤ keysOf ps key j := by
  rw [keysOf_lt _ _ _ hj, keysOf_lt _ _ _ (by omega)]
  exact (List.pairwise_iff_getElem.1 h) i j (by omega) hj hij

theorem search_spec (l : PointerList) (key : Int → Bytes) (k : Bytes)
    (h : SortedBy key l.pointers) :
    ∃ r, binarysearch l.len (l.keyAt (fun q => .ok (key q))) k = .ok r ∧
      IsInsertionPoint key l.pointers k r := by
  obtain ⟨r, h1, h2, h3, h4⟩ := binarysearch_spec (l.keyAt (fun q => .ok (key q)))
    (keysOf l.pointers key) k l.len
    (fun i hi => by rw [keyAt_lt _ _ _ hi, keysOf_lt _ _ _ hi])
    (fun i j hij hj => sorted_keysOf h i j hij hj)
  refine ⟨r, h1, h2, fun i p hip => ?_⟩
  obtain ⟨hi, hpe⟩ := List.getElem?_eq_some_iff.1 hip
  have hk : keysOf l.pointers key i = key p := by rw [keysOf_lt _ _ _ hi, hpe]
  constructor
  · intro hir; rw [← hk]; exact h3 i hir
  · intro hlt
    rcases Nat.lt_or_ge i r with hc | hc
    · exact hc
    · rw [← hk] at hlt; exact absurd hlt (h4 i hc hi)

theorem insPt_split {key : Int → Bytes} {ps : List Int} {k : Bytes} {r : Nat}
    (h : IsInsertionPoint key ps k r) :
    (∀ p ∈ ps.take r, key p < k) ∧ (∀ p ∈ ps.drop r, ¬ key p < k) := by
  constructor
  · intro p hp
    obtain ⟨i, hi, hpe⟩ := List.getElem_of_mem hp
    have hi' : i < r ∧ i < ps.length := by simp at hi; omega
    refine (h.2 i p ?_).1 hi'.1
    rw [List.getElem_take] at hpe
    rw [List.getElem?_eq_getElem hi'.2, hpe]
  · intro p hp hlt
    obtain ⟨i, hi, hpe⟩ := List.getElem_of_mem hp
    rw [List.getElem_drop] at hpe
    have hi' : r + i < ps.length := by simp at hi; omega
    have := (h.2 (r + i) p (by rw [List.getElem?_eq_getElem hi', hpe])).2 hlt
    omega

theorem insPt_unique {key : Int → Bytes} {ps : List Int} {k : Bytes} {r r' : Nat}
    (h : IsInsertionPoint key ps k r) (h' : IsInsertionPoint key ps k r') : r = r' := by
  rcases Nat.lt_trichotomy r r' with hlt | heq | hlt
  · have hl : r < ps.length := Nat.lt_of_lt_of_le hlt h'.1
    have h1 := (h.2 r _ (List.getElem?_eq_getElem hl))
    have h2 := (h'.2 r _ (List.getElem?_eq_getElem hl))
    have := h1.2 (h2.1 hlt); omega
  · exact heq
  · have hl : r' < ps.length := Nat.lt_of_lt_of_le hlt h.1
    have h1 := (h.2 r' _ (List.getElem?_eq_getElem hl))
    have h2 := (h'.2 r' _ (List.getElem?_eq_getElem hl))
    have := h2.2 (h1.1 hlt); omega

/-- adding at the insertion point -/
theorem insert_at {α : Type} (ps : List α) (r : Nat) (hr : r ≤ ps.length) (p : α) :
    ps.insertIdx r p = ps.take r ++ p :: ps.drop r := by
  induction ps generalizing r with
  | nil => simp at hr; subst hr; simp
  | cons q qs ih =>
    cases r with
    | zero => simp
    | succ r => simp [ih r (by simpa using hr)]

theorem erase_at {α : Type} (ps : List α) (r : Nat) :
    ps.eraseIdx r = ps.take r ++ ps.drop (r + 1) := List.eraseIdx_eq_take_drop_succ ps r

theorem split_getElem {α : Type} (ps : List α) (r : Nat) (hr : r < ps.length) :
    ps = ps.take r ++ ps[r] :: ps.drop (r + 1) := by
  rw [List.getElem_cons_drop, List.take_append_drop]

/-- `add` on a sorted list, everything about it -/
theorem add_spec (l : PointerList) (key : Int → Bytes) (p : Int) (hp : 0 ≤ p)
    (hm : l.mutable = true) (h : SortedBy key l.pointers) :
    ∃ r, IsInsertionPoint key l.pointers (key p) r ∧
      l.add (fun q => .ok (key q)) (key p) p =
        (.ok r, { l with pointers := l.pointers.take r ++ p :: l.pointers.drop r, dirty := true }) ∧
      SortedBy key (l.pointers.take r ++ p :: l.pointers.drop r) := by
  obtain ⟨r, h1, h2⟩ := search_spec l key (key p) h
  refine ⟨r, h2, ?_, ?_⟩
  · unfold add
    rw [if_neg (by omega), if_neg (by simp [hm]), h1]
    simp only [insert_at _ _ h2.1]
  · obtain ⟨hlo, hhi⟩ := (insPt_split h2)
    have hsp : SortedBy key (l.pointers.take r ++ l.pointers.drop r) := by
      rw [List.take_append_drop]; exact h
    obtain ⟨ha, hb, hab⟩ := List.pairwise_append.1 hsp
    refine List.pairwise_append.2 ⟨ha, List.pairwise_cons.2 ⟨fun q hq => ?_, hb⟩, fun a ha' b hb' => ?_⟩
    · exact Std.not_lt.1 (hhi q hq)
    · rcases List.mem_cons.1 hb' with rfl | hb'
      · exact Std.le_of_lt (hlo a ha')
      · exact hab a ha' b hb'

/-- `get_index` on a sorted list -/
theorem getIndex_spec (l : PointerList) (key : Int → Bytes) (k : Bytes)
    (h : SortedBy key l.pointers) :
    (∃ r p, l.getIndex (fun q => .ok (key q)) k = .ok r ∧ l.pointers[r]? = some p ∧ key p = k ∧
        (∀ i q, i < r → l.pointers[i]? = some q → key q < k)) ∨
    (l.getIndex (fun q => .ok (key q)) k = .error .keyError ∧ ∀ p ∈ l.pointers, key p ≠ k) := by
  obtain ⟨r, h1, h2⟩ := search_spec l key k h
  unfold getIndex
  simp only [h1, bind, Except.bind]
  by_cases hr : r = l.len
  · right
    rw [if_neg (by simp [hr])]
    refine ⟨rfl, fun p hp hpk => ?_⟩
    have := (insPt_split h2).1 p (by rw [hr]; simpa [len] using hp)
    rw [hpk] at this; exact Std.lt_irrefl this
  · have hrl : r < l.pointers.length := by have := h2.1; simp only [len] at hr; omega
    rw [if_pos (by simpa using hr), keyAt_lt _ _ _ hrl]
    simp only
    by_cases hk : key l.pointers[r] = k
    · left
      rw [if_pos hk]
      exact ⟨r, l.pointers[r], rfl, List.getElem?_eq_getElem hrl, hk,
        fun i q hi hq => (h2.2 i q hq).1 hi⟩
    · right
      rw [if_neg hk]
      refine ⟨rfl, fun p hp hpk => ?_⟩
      obtain ⟨hlo, hhi⟩ := (insPt_split h2)
      rw [← List.take_append_drop r l.pointers] at hp
      rcases List.mem_append.1 hp with hp | hp
      · have := hlo p hp; rw [hpk] at this; exact Std.lt_irrefl this
      · rw [← List.getElem_cons_drop (h := hrl)] at hp
        have hnr : ¬ key l.pointers[r] < k := hhi _ (by rw [← List.getElem_cons_drop (h := hrl)]; exact List.mem_cons_self)
        rcases List.mem_cons.1 hp with rfl | hp
        · exact hk hpk
        · have hsp : SortedBy key (l.pointers.take r ++ l.pointers[r] :: l.pointers.drop (r + 1)) := by
            rw [← split_getElem]; exact h
          have := (List.pairwise_cons.1 (List.pairwise_append.1 hsp).2.1).1 p hp
          rw [hpk] at this
          exact hk (Std.le_antisymm this (Std.not_lt.1 hnr))

/-- `remove` on a sorted list -/
theorem remove_spec (l : PointerList) (key : Int → Bytes) (k : Bytes)
    (hm : l.mutable = true) (h : SortedBy key l.pointers) :
    (∃ pre p post, l.pointers = pre ++ p :: post ∧ key p = k ∧ (∀ q ∈ pre, key q < k) ∧
      l.remove (fun q => .ok (key q)) k = (.ok (), { l with pointers := pre ++ post, dirty := true })) ∨
    (l.remove (fun q => .ok (key q)) k = (.error .keyError, l) ∧ ∀ p ∈ l.pointers, key p ≠ k) := by
  obtain ⟨r, h1, h2⟩ := search_spec l key k h
  have hgi := getIndex_spec l key k h
  unfold getIndex at hgi
  simp only [h1, bind, Except.bind] at hgi
  unfold remove
  simp only [hm, h1, Bool.not_true, Bool.false_eq_true, if_false]
  by_cases hr : r = l.len
  · right
    rw [if_neg (by simpa [len] using hr)]
    rw [if_neg (by simp [hr])] at hgi
    rcases hgi with ⟨_, _, hc, _⟩ | hgi
    · cases hc
    · exact ⟨rfl, hgi.2⟩
  · have hrl : r < l.pointers.length := by have := h2.1; simp only [len] at hr; omega
    rw [if_pos (by simpa [len] using hr), keyAt_lt _ _ _ hrl]
    rw [if_pos (by simpa using hr), keyAt_lt _ _ _ hrl] at hgi
    simp only at hgi ⊢
    by_cases hk : key l.pointers[r] = k
    · left
      rw [if_pos hk]
      refine ⟨l.pointers.take r, l.pointers[r], l.pointers.drop (r + 1), split_getElem _ _ hrl, hk,
        (insPt_split h2).1, ?_⟩
      rw [erase_at]
    · right
      rw [if_neg hk] at hgi ⊢
      rcases hgi with ⟨_, _, hc, _⟩ | hgi
      · cases hc
      · exact ⟨rfl, hgi.2⟩

theorem checkSortedLoop_iff (key : Int → Bytes) (last : Option Bytes) (ps : List Int) :
    checkSortedLoop (fun q => .ok (key q)) last ps = .ok () ↔
      (∀ l ∈ last, ∀ p ∈ ps, l ≤ key p) ∧ SortedBy key ps := by
  induction ps generalizing last with
  | nil => simp [checkSortedLoop, SortedBy]
  | cons p ps ih =>
    simp only [checkSortedLoop]
    have key_iff : (∀ l ∈ (some (key p)), ∀ q ∈ ps, l ≤ key q) ∧ SortedBy key ps ↔
        SortedBy key (p :: ps) := by simp [SortedBy]
    cases last with
    | none =>
      simp only [Bool.false_eq_true, if_false]
      rw [ih, key_iff]; simp
    | some l =>
      by_cases hl : l > key p
      · simp only [hl, decide_true, if_true]
        constructor
        · intro h; cases h
        · rintro ⟨h, _⟩
          have := h l (by simp) p (by simp)
          exact absurd hl (Std.not_lt.2 this)
      · simp only [hl, decide_false, Bool.false_eq_true, if_false]
        rw [ih, key_iff]
        constructor
        · intro h
          refine ⟨fun m hm q hq => ?_, h⟩
          have hml : l = m := by simpa using hm
          subst hml
          have hlp : l ≤ key p := Std.not_lt.1 hl
          rcases List.mem_cons.1 hq with rfl | hq
          · exact hlp
          · exact Std.le_trans hlp ((List.pairwise_cons.1 h).1 q hq)
        · exact fun h => h.2

end PointerList
end Pyzim
