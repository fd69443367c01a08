import Verif.Spec.Cache
import Verif.Lemmas.DList
import Verif.Lemmas.PyM

/-! # The caches as lists -/

namespace Pyzim
variable {K V : Type} [DecidableEq K]

/-- The dictionary maps the keys of the list to their list elements. -/
structure Indexed (f : K → Option Nat) (l : List (Nat × (K × V))) : Prop where
  mem : ∀ p ∈ l, f p.2.1 = some p.1
  of : ∀ k i, f k = some i → ∃ v, (i, (k, v)) ∈ l

/-- The keys of a list of pairs are different. -/
def KeysNodup (l : List (K × V)) : Prop := (l.map Prod.fst).Nodup

theorem Indexed.keysNodup {f : K → Option Nat} {l : List (Nat × (K × V))}
    (hi : Indexed f l) (hn : (l.map Prod.fst).Nodup) : KeysNodup (l.map Prod.snd) := by
  have key : ∀ l : List (Nat × (K × V)), (∀ p ∈ l, f p.2.1 = some p.1) → (l.map Prod.fst).Nodup →
      KeysNodup (l.map Prod.snd) := by
    intro l
    induction l with
    | nil => intros; simp [KeysNodup]
    | cons p l ih =>
      intro hm hn
      simp only [List.map_cons, List.nodup_cons] at hn
      simp only [KeysNodup, List.map_cons, List.nodup_cons]
      refine ⟨?_, ih (fun q hq => hm q (List.mem_cons_of_mem _ hq)) hn.2⟩
      intro h
      simp only [List.map_map, List.mem_map, Function.comp] at h
      obtain ⟨q, hq, e⟩ := h
      have h1 := hm p List.mem_cons_self
      have h2 := hm q (List.mem_cons_of_mem _ hq)
      rw [e, h1, Option.some.injEq] at h2
      exact hn.1 (h2 ▸ List.mem_map_of_mem hq)
  exact key l hi.mem hn

theorem lookup_eq_some {l : List (K × V)} (hn : KeysNodup l) {k : K} {v : V} :
    l.lookup k = some v ↔ (k, v) ∈ l := by
  induction l with
  | nil => simp
  | cons p l ih =>
    obtain ⟨k', v'⟩ := p
    simp only [KeysNodup, List.map_cons, List.nodup_cons] at hn
    by_cases h : k = k'
    · subst h
      simp only [List.lookup_cons, beq_self_eq_true, List.mem_cons, Prod.mk.injEq, true_and,
        Option.some.injEq]
      constructor
      · intro e; exact .inl e.symm
      · rintro (e | e)
        · exact e.symm
        · exact absurd (List.mem_map_of_mem (f := Prod.fst) e) hn.1
    · have : (k == k') = false := by simp [h]
      simp only [List.lookup_cons, this, List.mem_cons, Prod.mk.injEq, h, false_and, false_or]
      exact ih hn.2

theorem lookup_eq_none {l : List (K × V)} {k : K} :
    l.lookup k = none ↔ k ∉ l.map Prod.fst := by
  induction l with
  | nil => simp
  | cons p l ih =>
    obtain ⟨k', v'⟩ := p
    by_cases h : k = k'
    · subst h; simp [List.lookup_cons]
    · have : (k == k') = false := by simp [h]
      simp only [List.lookup_cons, this, ih, List.map_cons, List.mem_cons, h, false_or]

theorem lookup_isSome {l : List (K × V)} {k : K} :
    (l.lookup k).isSome ↔ k ∈ l.map Prod.fst := by
  have h := lookup_eq_none (l := l) (k := k)
  cases hl : l.lookup k with
  | none => simpa using h.1 hl
  | some v =>
    rw [hl] at h
    simp only [reduceCtorEq, false_iff, Decidable.not_not] at h
    simpa using h

theorem Indexed.lookup {f : K → Option Nat} {l : List (Nat × (K × V))}
    (hi : Indexed f l) (hn : (l.map Prod.fst).Nodup) (k : K) :
    (f k).isSome = ((l.map Prod.snd).lookup k).isSome := by
  rw [Bool.eq_iff_iff, lookup_isSome]
  simp only [Option.isSome_iff_exists, List.mem_map, List.map_map, Function.comp]
  constructor
  · rintro ⟨i, h⟩
    obtain ⟨v, hv⟩ := hi.of k i h
    exact ⟨_, hv, rfl⟩
  · rintro ⟨p, hp, rfl⟩
    exact ⟨_, hi.mem p hp⟩

/-- A cached key at its place in the list. -/
theorem Indexed.split {f : K → Option Nat} {l : List (Nat × (K × V))} (hi : Indexed f l) {k : K}
    {i : Nat} (h : f k = some i) : ∃ a b v, l = a ++ (i, (k, v)) :: b := by
  obtain ⟨v, hv⟩ := hi.of k i h
  obtain ⟨a, b, rfl⟩ := List.append_of_mem hv
  exact ⟨a, b, v, rfl⟩

theorem without_mid {a b : List (K × V)} {k : K} {v : V} (hn : KeysNodup (a ++ (k, v) :: b)) :
    Lru.without k (a ++ (k, v) :: b) = a ++ b := by
  simp only [KeysNodup, List.map_append, List.map_cons, List.nodup_append, List.nodup_cons] at hn
  unfold Lru.without
  rw [List.filter_append, List.filter_cons]
  simp only [ne_eq, not_true_eq_false, decide_false, Bool.false_eq_true, if_false]
  rw [List.filter_eq_self.2, List.filter_eq_self.2]
  · intro p hp
    simp only [decide_eq_true_eq]
    exact fun e => hn.2.1.1 (e ▸ List.mem_map_of_mem hp)
  · intro p hp
    simp only [decide_eq_true_eq]
    exact fun e => hn.2.2 _ (List.mem_map_of_mem hp) _ List.mem_cons_self e

theorem only_mid {a b : List (K × V)} {k : K} {v : V} (hn : KeysNodup (a ++ (k, v) :: b)) :
    Lru.only k (a ++ (k, v) :: b) = [(k, v)] := by
  simp only [KeysNodup, List.map_append, List.map_cons, List.nodup_append, List.nodup_cons] at hn
  unfold Lru.only
  rw [List.filter_append, List.filter_cons]
  simp only [decide_true, if_true]
  rw [List.filter_eq_nil_iff.2, List.filter_eq_nil_iff.2, List.nil_append]
  · intro p hp
    simp only [decide_eq_true_eq]
    exact fun e => hn.2.1.1 (e ▸ List.mem_map_of_mem hp)
  · intro p hp
    simp only [decide_eq_true_eq]
    exact fun e => hn.2.2 _ (List.mem_map_of_mem hp) _ List.mem_cons_self e

theorem without_absent {l : List (K × V)} {k : K} (h : l.lookup k = none) : Lru.without k l = l := by
  rw [lookup_eq_none] at h
  unfold Lru.without
  rw [List.filter_eq_self]
  intro p hp
  simp only [decide_eq_true_eq]
  exact fun e => h (e ▸ List.mem_map_of_mem hp)

theorem only_absent {l : List (K × V)} {k : K} (h : l.lookup k = none) : Lru.only k l = [] := by
  rw [lookup_eq_none] at h
  unfold Lru.only
  rw [List.filter_eq_nil_iff]
  intro p hp
  simp only [decide_eq_true_eq]
  exact fun e => h (e ▸ List.mem_map_of_mem hp)

theorem Indexed.nil : Indexed (fun _ => none : K → Option Nat) ([] : List (Nat × (K × V))) :=
  ⟨by simp, by simp⟩

/-- Removing an element and its key. -/
theorem Indexed.erase {f : K → Option Nat} {a b : List (Nat × (K × V))} {p : Nat × (K × V)}
    (hi : Indexed f (a ++ p :: b)) (hn : ((a ++ p :: b).map Prod.fst).Nodup) :
    Indexed (ddel f p.2.1) (a ++ b) := by
  have hnd := DList.nodup_mid hn
  constructor
  · intro q hq
    have hq' : q ∈ a ++ p :: b := by
      simp only [List.mem_append, List.mem_cons] at hq ⊢
      exact hq.elim .inl (fun h => .inr (.inr h))
    have h1 := hi.mem q hq'
    have hne : q.2.1 ≠ p.2.1 := by
      intro e
      have h2 := hi.mem p (by simp)
      rw [e, h2, Option.some.injEq] at h1
      rcases List.mem_append.1 hq with h | h
      · exact hnd.2.2.2.1 (h1 ▸ List.mem_map_of_mem h)
      · exact hnd.2.2.2.2.1 (h1 ▸ List.mem_map_of_mem h)
    simp only [ddel, if_neg hne, h1]
  · intro k i h
    unfold ddel at h
    split at h
    · cases h
    · rename_i hne
      obtain ⟨v, hv⟩ := hi.of k i h
      refine ⟨v, ?_⟩
      simp only [List.mem_append, List.mem_cons] at hv ⊢
      rcases hv with h | rfl | h
      · exact .inl h
      · exact absurd rfl hne
      · exact .inr h

/-- Adding an element for a new key, somewhere. -/
theorem Indexed.insert {f : K → Option Nat} {a b : List (Nat × (K × V))} (hi : Indexed f (a ++ b))
    {k : K} (hk : f k = none) (i : Nat) (v : V) :
    Indexed (dset f k i) (a ++ (i, (k, v)) :: b) := by
  constructor
  · intro q hq
    simp only [List.mem_append, List.mem_cons] at hq
    have : q = (i, (k, v)) ∨ q ∈ a ++ b := by
      rcases hq with h | h | h
      · exact .inr (List.mem_append_left _ h)
      · exact .inl h
      · exact .inr (List.mem_append_right _ h)
    rcases this with rfl | h
    · simp [dset]
    · have h1 := hi.mem q h
      have : q.2.1 ≠ k := fun e => by rw [e, hk] at h1; cases h1
      simp only [dset, if_neg this, h1]
  · intro k' j h
    unfold dset at h
    split at h
    · rename_i e
      cases h; subst e
      exact ⟨v, by simp⟩
    · obtain ⟨w, hw⟩ := hi.of k' j h
      refine ⟨w, ?_⟩
      simp only [List.mem_append, List.mem_cons] at hw ⊢
      exact hw.elim .inl (fun h => .inr (.inr h))

theorem dset_ddel (f : K → Option Nat) (k : K) (i : Nat) : dset (ddel f k) k i = dset f k i := by
  funext j; simp only [dset, ddel]; split <;> rfl

theorem ddel_self (f : K → Option Nat) (k : K) : ddel f k k = none := by simp [ddel]

theorem Indexed.swap {f : K → Option Nat} {l l' : List (Nat × (K × V))} (hi : Indexed f l)
    (h : ∀ p, p ∈ l' ↔ p ∈ l) : Indexed f l' :=
  ⟨fun p hp => hi.mem p ((h p).1 hp), fun k i hk => by
    obtain ⟨v, hv⟩ := hi.of k i hk
    exact ⟨v, (h _).2 hv⟩⟩

/-! ### `LastAccessCache` -/

namespace LastCache

/-- The cache represents the abstract cache `s`. -/
structure Repr (c : LastCache K V) (s : Lru K V) : Prop where
  ex : ∃ l, DList.Rep c.list l ∧ Indexed c.key2element l ∧ s.items = l.map Prod.snd
  bound : s.items.length ≤ c.maxSize
  pos : 0 < c.maxSize
  leave : c.hasLeave = true
  left : c.left = s.left

theorem Repr.keysNodup {c : LastCache K V} {s : Lru K V} (h : Repr c s) : KeysNodup s.items := by
  obtain ⟨l, hr, hi, e⟩ := h.ex
  rw [e]; exact hi.keysNodup hr.nodup

theorem Repr.has {c : LastCache K V} {s : Lru K V} (h : Repr c s) (k : K) :
    c.has k = (s.items.lookup k).isSome := by
  obtain ⟨l, hr, hi, e⟩ := h.ex
  unfold LastCache.has
  rw [e, hi.lookup hr.nodup]

theorem Repr.toList {c : LastCache K V} {s : Lru K V} (h : Repr c s) :
    c.list.toList = s.items := by
  obtain ⟨l, hr, hi, e⟩ := h.ex
  rw [e, DList.toList_spec hr]

theorem repr_new (n : Nat) (hn : 0 < n) : Repr ({ maxSize := n } : LastCache K V) ⟨[], []⟩ :=
  ⟨⟨[], DList.rep_nil, Indexed.nil, rfl⟩, by simp, hn, rfl, rfl⟩

/-- The key is not cached. -/
theorem Repr.absent {c : LastCache K V} {s : Lru K V} (h : Repr c s) {k : K}
    (hk : c.key2element k = none) : s.items.lookup k = none := by
  have := h.has k
  unfold LastCache.has at this
  rw [hk] at this
  simpa using this.symm

theorem get_spec {c : LastCache K V} {s : Lru K V} (h : Repr c s) (k : K) :
    ∃ c', LastCache.get k c = ((Lru.get k s).1, c') ∧ Repr c' (Lru.get k s).2 ∧
      c'.maxSize = c.maxSize := by
  unfold LastCache.get Lru.get
  cases hk : c.key2element k with
  | none =>
    rw [h.absent hk]
    exact ⟨c, rfl, h, rfl⟩
  | some i =>
    have hkn := h.keysNodup
    obtain ⟨l, hr, hi, e⟩ := h.ex
    obtain ⟨a, b, v, rfl⟩ := hi.split hk
    obtain ⟨d', hd, hr', hfr, hval, hn⟩ := DList.removeElement_rep hr
    have hnd := DList.nodup_mid hr.nodup
    have hlt : i < d'.fresh := by
      rw [hfr]; exact hr.lt (i, (k, v)) (by simp)
    have hni : i ∉ (a ++ b).map Prod.fst := by
      rw [List.map_append, List.mem_append]
      exact fun h => h.elim hnd.2.2.2.1 hnd.2.2.2.2.1
    have hr2 := DList.relink_prepend_rep hr' hn hlt hni
    have hv2 := (DList.valueOf_rep hr2 List.mem_cons_self).2
    have he : s.items = a.map Prod.snd ++ (k, v) :: b.map Prod.snd := by rw [e]; simp
    have hlk : s.items.lookup k = some v := by
      rw [lookup_eq_some hkn, he]; simp
    rw [he] at hkn
    simp only [hd, hv2, hlk]
    refine ⟨_, rfl, ⟨⟨_, hr2, ?_, ?_⟩, ?_, h.pos, h.leave, h.left⟩, rfl⟩
    · refine hi.swap ?_
      intro p; simp only [List.mem_append, List.mem_cons]
      constructor
      · rintro (rfl | h | h)
        · exact .inr (.inl rfl)
        · exact .inl h
        · exact .inr (.inr h)
      · rintro (h | rfl | h)
        · exact .inr (.inl h)
        · exact .inl rfl
        · exact .inr (.inr h)
    · show (k, v) :: Lru.without k s.items = _
      rw [he, without_mid hkn]; simp
    · show ((k, v) :: Lru.without k s.items).length ≤ c.maxSize
      rw [he, without_mid hkn]
      have := h.bound
      rw [he] at this
      simp only [List.length_append, List.length_cons] at this ⊢
      omega

theorem remove_spec {c : LastCache K V} {s : Lru K V} (h : Repr c s) (k : K) (lv : Bool) :
    ∃ c', LastCache.remove k lv c = (.ok (), c') ∧ Repr c' (Lru.remove k lv s).2 ∧
      c'.maxSize = c.maxSize := by
  unfold LastCache.remove Lru.remove
  cases hk : c.key2element k with
  | none =>
    refine ⟨c, rfl, ?_, rfl⟩
    rw [without_absent (h.absent hk), only_absent (h.absent hk)]
    cases lv <;> simpa using h
  | some i =>
    have hkn := h.keysNodup
    obtain ⟨l, hr, hi, e⟩ := h.ex
    obtain ⟨a, b, v, rfl⟩ := hi.split hk
    obtain ⟨d', hd, hr', hfr, hval, hn⟩ := DList.removeElement_rep hr
    have he : s.items = a.map Prod.snd ++ (k, v) :: b.map Prod.snd := by rw [e]; simp
    rw [he] at hkn
    have hb : (a.map Prod.snd ++ b.map Prod.snd).length ≤ c.maxSize := by
      have := h.bound
      rw [he] at this
      simp only [List.length_append, List.length_cons] at this ⊢
      omega
    have hi' := hi.erase hr.nodup
    simp only [hd]
    rw [he, without_mid hkn, only_mid hkn]
    cases lv with
    | false =>
      refine ⟨_, rfl, ⟨⟨_, hr', hi', ?_⟩, hb, h.pos, h.leave, ?_⟩, rfl⟩
      · simp
      · simpa using h.left
    | true =>
      simp only [hval, callLeave, h.leave, if_true]
      refine ⟨_, rfl, ⟨⟨_, hr', hi', ?_⟩, hb, h.pos, ?_, ?_⟩, rfl⟩
      · simp
      · rfl
      · simp [h.left]

/-- `addNew` when there is room. -/
theorem addNew_spec {c : LastCache K V} {l : List (Nat × (K × V))} (hr : DList.Rep c.list l)
    (hi : Indexed c.key2element l) {k : K} (hk : c.key2element k = none) (v : V) :
    ∃ i, DList.Rep (addNew k v c).list ((i, (k, v)) :: l) ∧
      Indexed (addNew k v c).key2element ((i, (k, v)) :: l) :=
  ⟨_, (DList.prepend_rep hr (k, v)).2, Indexed.insert (a := []) hi hk _ v⟩

theorem push_spec {c : LastCache K V} {s : Lru K V} (h : Repr c s) (k : K) (v : V) (al : Bool) :
    ∃ c', LastCache.push k v al c = ((Lru.push c.maxSize k v al s).1, c') ∧
      Repr c' (Lru.push c.maxSize k v al s).2 ∧ c'.maxSize = c.maxSize := by
  unfold LastCache.push Lru.push
  cases hk : c.key2element k with
  | some i =>
    have hkn := h.keysNodup
    obtain ⟨l, hr, hi, e⟩ := h.ex
    obtain ⟨a, b, w, rfl⟩ := hi.split hk
    obtain ⟨d', hd, hr', hfr, hval, hn⟩ := DList.removeElement_rep hr
    have he : s.items = a.map Prod.snd ++ (k, w) :: b.map Prod.snd := by rw [e]; simp
    have hlk : s.items.lookup k = some w := by rw [lookup_eq_some hkn, he]; simp
    rw [he] at hkn
    have hi' := hi.erase hr.nodup
    obtain ⟨j, hr2, hi2⟩ := addNew_spec (c := { c with list := d', key2element := ddel c.key2element k })
      hr' hi' (ddel_self _ _) v
    simp only [hd, hlk, Option.isSome_some, if_true]
    refine ⟨_, rfl, ⟨⟨_, hr2, hi2, ?_⟩, ?_, h.pos, h.leave, h.left⟩, rfl⟩
    · show (k, v) :: Lru.without k s.items = _
      rw [he, without_mid hkn]; simp
    · show ((k, v) :: Lru.without k s.items).length ≤ c.maxSize
      rw [he, without_mid hkn]
      have := h.bound
      rw [he] at this
      simp only [List.length_append, List.length_cons] at this ⊢
      omega
  | none =>
    have hlk := h.absent hk
    obtain ⟨l, hr, hi, e⟩ := h.ex
    have hlen : c.list.length = (s.items.length : Int) := by rw [hr.length, e]; simp
    simp only [hlk, Option.isSome_none, Bool.false_eq_true, if_false]
    cases al with
    | false =>
      simp only [Bool.false_eq_true, and_false, if_false, Bool.not_false, if_true]
      exact ⟨c, rfl, h, rfl⟩
    | true =>
      simp only [and_true, Bool.not_true, Bool.false_eq_true, if_false, if_true]
      by_cases hf : c.list.length ≥ (c.maxSize : Int)
      · rw [if_pos hf]
        have hfull : s.items.length = c.maxSize := by
          have := h.bound
          omega
        rcases List.eq_nil_or_concat l with rfl | ⟨l', q, rfl⟩
        · rw [e] at hfull
          have := h.pos
          simp at hfull; omega
        · rw [List.concat_eq_append] at *
          have ht : c.list.tail = some q.1 := by rw [hr.tail]; simp
          have hv := (DList.valueOf_rep hr (p := q) (by simp)).2
          obtain ⟨d', hd, hr', hfr⟩ := DList.removeLast_rep hr
          have hi' := Indexed.erase (b := []) hi hr.nodup
          rw [List.append_nil] at hi'
          have hk' : ddel c.key2element q.2.1 k = none := by
            unfold ddel; split
            · rfl
            · exact hk
          obtain ⟨j, hr2, hi2⟩ := addNew_spec (c := { c with list := d', key2element := ddel c.key2element q.2.1 })
            hr' hi' hk' v
          simp only [ht, Option.bind, hv, hd]
          have hli : ((addNew k v { c with list := d', key2element := ddel c.key2element q.2.1 }).hasLeave) = true :=
            h.leave
          rw [hli, if_pos rfl]
          have hl' : s.items = l'.map Prod.snd ++ [q.2] := by rw [e]; simp
          have hn1 : c.maxSize = (l'.map Prod.snd).length + 1 := by
            rw [← hfull, hl']; simp
          have htake : ((k, v) :: s.items).take c.maxSize = (k, v) :: l'.map Prod.snd := by
            rw [hn1, hl', List.take_succ_cons, List.take_left']
            rfl
          have hdrop : ((k, v) :: s.items).drop c.maxSize = [q.2] := by
            rw [hn1, hl', List.drop_succ_cons, List.drop_left']
            rfl
          refine ⟨_, rfl, ⟨⟨_, hr2, hi2, ?_⟩, ?_, h.pos, ?_, ?_⟩, rfl⟩
          · show ((k, v) :: s.items).take c.maxSize = _
            rw [htake]; simp
          · show (((k, v) :: s.items).take c.maxSize).length ≤ c.maxSize
            rw [List.length_take]; exact Nat.min_le_left _ _
          · rfl
          · show c.left ++ [q.2] = s.left ++ ((k, v) :: s.items).drop c.maxSize
            rw [hdrop, h.left]
      · rw [if_neg hf]
        have hlt : s.items.length + 1 ≤ c.maxSize := by omega
        obtain ⟨j, hr2, hi2⟩ := addNew_spec hr hi hk v
        refine ⟨_, rfl, ⟨⟨_, hr2, hi2, ?_⟩, ?_, h.pos, h.leave, ?_⟩, rfl⟩
        · show ((k, v) :: s.items).take c.maxSize = _
          rw [List.take_of_length_le (by simpa using hlt), e]; simp
        · show (((k, v) :: s.items).take c.maxSize).length ≤ c.maxSize
          rw [List.length_take]; exact Nat.min_le_left _ _
        · show c.left = s.left ++ ((k, v) :: s.items).drop c.maxSize
          rw [List.drop_of_length_le (by simpa using hlt), h.left, List.append_nil]

theorem clear_spec {c : LastCache K V} {s : Lru K V} (h : Repr c s) (lv : Bool) :
    Repr (c.clear lv) (Lru.clear lv s) ∧ (c.clear lv).maxSize = c.maxSize := by
  refine ⟨⟨⟨[], DList.rep_clear _, Indexed.nil, rfl⟩, by simp [Lru.clear], h.pos, h.leave, ?_⟩, rfl⟩
  show (if lv && c.hasLeave then c.left ++ c.list.toList else c.left) = _
  rw [h.leave, h.toList, h.left]
  cases lv <;> simp [Lru.clear]

end LastCache
end Pyzim
