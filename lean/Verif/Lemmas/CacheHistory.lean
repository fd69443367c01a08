import Verif.Spec.CacheHistory
import Verif.Lemmas.TopCache

/-! # Histories of cache calls -/

namespace Pyzim
variable {C K V : Type} [DecidableEq K]

theorem history_induction {α : Type} {P : List α → Prop} (nil : P [])
    (snoc : ∀ l a, P l → P (l ++ [a])) : ∀ l, P l := by
  intro l
  rw [← l.reverse_reverse]
  induction l.reverse with
  | nil => exact nil
  | cons a t ih => rw [List.reverse_cons]; exact snoc _ _ ih

theorem run_snoc (I : CacheImpl C K V) (c : C) (ops : List (CacheOp K V)) (op : CacheOp K V) :
    I.run c (ops ++ [op]) = I.step (I.run c ops) op := by
  simp [CacheImpl.run, List.foldl_append]

theorem uses_snoc (I : CacheImpl C K V) (c : C) (ops : List (CacheOp K V)) (op : CacheOp K V) :
    I.uses c (ops ++ [op]) = I.uses c ops ++ (I.useOf (I.run c ops) op).toList := by
  induction ops generalizing c with
  | nil => simp [CacheImpl.uses, CacheImpl.run]
  | cons o ops ih =>
    rw [List.cons_append, CacheImpl.uses, CacheImpl.uses, ih, List.append_assoc]
    rfl

theorem lastPushed_snoc (k : K) (ops : List (CacheOp K V)) (op : CacheOp K V) :
    lastPushed k (ops ++ [op]) = match op with
      | .push k' v _ => if k' = k then some v else lastPushed k ops
      | _ => lastPushed k ops := by
  unfold lastPushed
  rw [List.foldl_append]
  cases op <;> rfl

theorem accesses_snoc (k : K) (ops : List (CacheOp K V)) (op : CacheOp K V) :
    accesses k (ops ++ [op]) = match op with
      | .push k' _ _ => if k' = k then accesses k ops + 1 else accesses k ops
      | .get k' => if k' = k then accesses k ops + 1 else accesses k ops
      | .clear _ => 0
      | .remove _ _ => accesses k ops := by
  unfold accesses
  rw [List.foldl_append]
  cases op <;> rfl

theorem pushedSince_snoc (k : K) (ops : List (CacheOp K V)) (op : CacheOp K V) :
    pushedSince k (ops ++ [op]) = match op with
      | .push k' v _ => if k' = k then pushedSince k ops ++ [v] else pushedSince k ops
      | .remove k' _ => if k' = k then [] else pushedSince k ops
      | .clear _ => []
      | .get _ => pushedSince k ops := by
  unfold pushedSince
  rw [List.foldl_append]
  cases op <;> rfl

theorem mostRecent_snoc (us : List K) (k : K) :
    mostRecent (us ++ [k]) = k :: (mostRecent us).filter fun j => decide (j ≠ k) := by
  simp [mostRecent, List.foldl_append]

/-- What `has` and `get` answer. -/
structure Answers (I : CacheImpl C K V) (c : C) (items : List (K × V)) : Prop where
  nodup : KeysNodup items
  has : ∀ k, I.has c k = (items.lookup k).isSome
  get : ∀ k, (I.get k c).1 = match items.lookup k with | some v => .ok v | none => .error .keyError

theorem Answers.get_ok {I : CacheImpl C K V} {c : C} {items : List (K × V)} (h : Answers I c items)
    (k : K) (v : V) : (I.get k c).1 = .ok v ↔ (k, v) ∈ items := by
  rw [h.get k, ← lookup_eq_some h.nodup]
  cases items.lookup k <;> simp

theorem Answers.has_iff {I : CacheImpl C K V} {c : C} {items : List (K × V)} (h : Answers I c items)
    (k : K) : I.has c k = true ↔ k ∈ items.map Prod.fst := by
  rw [h.has k]
  cases hl : items.lookup k with
  | none => simpa using lookup_eq_none.1 hl
  | some v =>
    have := (lookup_eq_some h.nodup).1 hl
    simp only [Option.isSome_some, true_iff]
    exact List.mem_map_of_mem (f := Prod.fst) this

theorem Answers.has_false {I : CacheImpl C K V} {c : C} {items : List (K × V)}
    (h : Answers I c items) (k : K) : I.has c k = false ↔ k ∉ items.map Prod.fst := by
  rw [← h.has_iff k]; simp

theorem nodup_subset_length {α : Type} [DecidableEq α] {l m : List α} (hl : l.Nodup)
    (h : ∀ a ∈ l, a ∈ m) : l.length ≤ m.length := by
  induction l generalizing m with
  | nil => simp
  | cons a l ih =>
    rw [List.nodup_cons] at hl
    have ha : a ∈ m := h a (by simp)
    have := ih (m := m.erase a) hl.2 fun b hb => by
      have hne : b ≠ a := fun e => hl.1 (e ▸ hb)
      exact (List.mem_erase_of_ne hne).2 (h b (by simp [hb]))
    rw [List.length_erase_of_mem ha] at this
    have := List.length_pos_of_mem ha
    simp only [List.length_cons]
    omega

theorem Answers.atMost {I : CacheImpl C K V} {c : C} {items : List (K × V)} (h : Answers I c items)
    {n : Nat} (hn : items.length ≤ n) : I.AtMost c n := by
  intro ks hks hc
  have := nodup_subset_length hks (m := items.map Prod.fst) fun k hk => (h.has_iff k).1 (hc k hk)
  rw [List.length_map] at this
  omega

theorem mem_without {k : K} {l : List (K × V)} {p : K × V} :
    p ∈ Lru.without k l ↔ p ∈ l ∧ p.1 ≠ k := by
  simp [Lru.without]

theorem mem_only {k : K} {l : List (K × V)} {p : K × V} :
    p ∈ Lru.only k l ↔ p ∈ l ∧ p.1 = k := by
  simp [Lru.only]

theorem KeysNodup.sublist {l m : List (K × V)} (h : KeysNodup m) (hs : l.Sublist m) : KeysNodup l :=
  List.Nodup.sublist (hs.map Prod.fst) h

/-- Pairs of distinct keys: the same key means the same pair. -/
theorem KeysNodup.eq {l : List (K × V)} (h : KeysNodup l) {p q : K × V} (hp : p ∈ l) (hq : q ∈ l)
    (e : p.1 = q.1) : p = q := by
  have h1 := (lookup_eq_some h (k := p.1) (v := p.2)).2 hp
  have h2 := (lookup_eq_some h (k := q.1) (v := q.2)).2 hq
  rw [e, h2] at h1
  simp only [Option.some.injEq] at h1
  exact Prod.ext e h1.symm

theorem LessRecent.snoc {i j k : K} {us : List K} (h : LessRecent i j us) (hk : i ≠ k) :
    LessRecent i j (us ++ [k]) := by
  obtain ⟨h1, pre, post, rfl, h2⟩ := h
  refine ⟨h1, pre, post ++ [k], by simp, ?_⟩
  simp [h2, hk]

theorem lessRecent_last {i k : K} (us : List K) (h : i ≠ k) : LessRecent i k (us ++ [k]) :=
  ⟨h, us, [], rfl, by simp⟩

/-- The reports of a call, given what the cache holds before and after it. -/
theorem reports_of {I : CacheImpl C K V} {left : C → List (K × V)} {c : C} {op : CacheOp K V}
    {items items' gone : List (K × V)} (h : Answers I c items) (h' : Answers I (I.step c op) items')
    (hl : left (I.step c op) = left c ++ gone) (hs : op.reporting = false → gone = [])
    (hn : KeysNodup gone)
    (hg : op.reporting = true → ∀ p, p ∈ gone ↔ (p ∈ items ∧ p.1 ∉ items'.map Prod.fst)) :
    I.Reports left c op := by
  refine ⟨gone, hl, hn, fun hr k v => ?_, hs⟩
  rw [hg hr (k, v), h.get_ok, h'.has_false]

/-- The keys of an association list without one key. -/
theorem mem_keys_without {k j : K} {l : List (K × V)} :
    j ∈ (Lru.without k l).map Prod.fst ↔ j ∈ l.map Prod.fst ∧ j ≠ k := by
  simp only [List.mem_map, mem_without]
  constructor
  · rintro ⟨p, ⟨hp, hne⟩, rfl⟩; exact ⟨⟨p, hp, rfl⟩, hne⟩
  · rintro ⟨⟨p, hp, rfl⟩, hne⟩; exact ⟨p, ⟨hp, hne⟩, rfl⟩

theorem map_without (k : K) (l : List (K × V)) :
    (Lru.without k l).map Prod.fst = (l.map Prod.fst).filter fun j => decide (j ≠ k) := by
  unfold Lru.without
  rw [List.filter_map]
  rfl

/-- The first `n` of the recent keys after a use of a key among them. -/
theorem take_use {R : List K} (hR : R.Nodup) {k : K} {n : Nat} (hk : k ∈ R.take n) :
    (k :: R.filter fun j => decide (j ≠ k)).take n =
      k :: (R.take n).filter fun j => decide (j ≠ k) := by
  obtain ⟨A, B, hA, hkA⟩ : ∃ A B, R = A ++ k :: B ∧ A.length < n := by
    obtain ⟨i, hi, e⟩ := List.mem_take_iff_getElem.1 hk
    refine ⟨R.take i, R.drop (i + 1), ?_, by rw [List.length_take]; omega⟩
    rw [← e, List.getElem_cons_drop, List.take_append_drop]
  subst hA
  simp only [List.nodup_append, List.nodup_cons] at hR
  have fA : A.filter (fun j => decide (j ≠ k)) = A := by
    rw [List.filter_eq_self]; intro a ha
    have := hR.2.2 a ha k (by simp)
    simpa using this
  have fB : ∀ m, (B.take m).filter (fun j => decide (j ≠ k)) = B.take m := by
    intro m; rw [List.filter_eq_self]; intro a ha
    have : a ≠ k := fun e => hR.2.1.1 (e ▸ List.mem_of_mem_take ha)
    simpa using this
  have fB' : B.filter (fun j => decide (j ≠ k)) = B := by
    have := fB B.length; rwa [List.take_length] at this
  obtain ⟨m, rfl⟩ : ∃ m, n = A.length + 1 + m := ⟨n - A.length - 1, by omega⟩
  have e1 : A.filter (fun j => decide (j ≠ k)) ++ (k :: B).filter (fun j => decide (j ≠ k)) = A ++ B := by
    rw [fA, List.filter_cons]; simp only [ne_eq, not_true_eq_false, decide_false, Bool.false_eq_true, if_false]
    simp only [ne_eq] at fB'; rw [fB']
  have e2 : (A ++ k :: B).take (A.length + 1 + m) = A ++ k :: B.take m := by
    rw [List.take_append, List.take_of_length_le (by omega)]
    congr 1
    rw [show A.length + 1 + m - A.length = m + 1 by omega, List.take_succ_cons]
  rw [List.filter_append, e1, e2, List.filter_append, fA, List.filter_cons]
  simp only [ne_eq, not_true_eq_false, decide_false, Bool.false_eq_true, if_false]
  have := fB m
  simp only [ne_eq] at this
  rw [this, show A.length + 1 + m = (A.length + m) + 1 by omega, List.take_succ_cons,
    List.take_append, List.take_of_length_le (by omega), show A.length + m - A.length = m by omega]

/-- ... and of a key not among them. -/
theorem take_new {R : List K} {k : K} {n : Nat} (hn : 0 < n) (hk : k ∉ R.take n) :
    (k :: R.filter fun j => decide (j ≠ k)).take n = (k :: R.take n).take n := by
  obtain ⟨m, rfl⟩ : ∃ m, n = m + 1 := ⟨n - 1, by omega⟩
  rw [List.take_succ_cons, List.take_succ_cons, List.take_take, Nat.min_eq_left (by omega)]
  congr 1
  have hk' : k ∉ R.take m := fun h => hk (List.take_subset_take_left R (Nat.le_succ m) h)
  have hf : (R.take m).filter (fun j => decide (j ≠ k)) = R.take m := by
    rw [List.filter_eq_self]; intro a ha
    have : a ≠ k := fun e => hk' (e ▸ ha)
    simpa using this
  conv => lhs; rw [← List.take_append_drop m R, List.filter_append, hf]
  by_cases hl : m ≤ R.length
  · rw [List.take_append, List.length_take, Nat.min_eq_left hl, Nat.sub_self]
    simp [List.take_take]
  · rw [List.drop_of_length_le (by omega)]
    simp [List.take_take]

theorem mostRecent_nodup (us : List K) : (mostRecent us).Nodup := by
  refine history_induction (P := fun us => (mostRecent us).Nodup) List.nodup_nil ?_ us
  intro l k ih
  rw [mostRecent_snoc, List.nodup_cons]
  exact ⟨by simp, ih.filter _⟩

end Pyzim
