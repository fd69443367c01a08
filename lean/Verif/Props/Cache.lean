import Verif.Lemmas.CacheHistory

/-!
# Caches (C40, C41, C42, C59)

A cache is observed through its methods and the log of the leave callback; see
`Verif/Spec/Cache.lean` and `Verif/Spec/CacheHistory.lean`.
-/

namespace Pyzim
variable {K V : Type} [DecidableEq K]

/-! ## `LastAccessCache` -/

namespace LastCache

theorem Repr.answers {c : LastCache K V} {s : Lru K V} (h : Repr c s) :
    Answers (lastCacheImpl K V) c s.items := by
  refine ⟨h.keysNodup, fun k => h.has k, fun k => ?_⟩
  obtain ⟨c', e, -⟩ := get_spec h k
  show (LastCache.get k c).1 = _
  rw [e]
  unfold Lru.get
  cases s.items.lookup k <;> rfl

/-- What a call does to the list of pairs. -/
inductive Change (n : Nat) (items : List (K × V)) (op : CacheOp K V) :
    Option K → List (K × V) → List (K × V) → Prop
  | get {k : K} {v : V} (h : items.lookup k = some v) (ho : op = .get k) :
      Change n items op (some k) ((k, v) :: Lru.without k items) []
  | update {k : K} {v : V} {a : Bool} (h : (items.lookup k).isSome) (ho : op = .push k v a) :
      Change n items op (some k) ((k, v) :: Lru.without k items) []
  | new {k : K} {v : V} (h : items.lookup k = none) (ho : op = .push k v true) :
      Change n items op (some k) (((k, v) :: items).take n) (((k, v) :: items).drop n)
  | refuse {k : K} {v : V} (h : items.lookup k = none) (ho : op = .push k v false) :
      Change n items op none items []
  | miss {k : K} (h : items.lookup k = none) (ho : op = .get k) : Change n items op none items []
  | remove {k : K} {l : Bool} (ho : op = .remove k l) :
      Change n items op none (Lru.without k items) (if l then Lru.only k items else [])
  | clear {l : Bool} (ho : op = .clear l) : Change n items op none [] (if l then items else [])

/-- Every call is one of these changes. -/
theorem step_change {c : LastCache K V} {s : Lru K V} (h : Repr c s) (op : CacheOp K V) :
    ∃ items' gone u, Repr ((lastCacheImpl K V).step c op) ⟨items', s.left ++ gone⟩ ∧
      ((lastCacheImpl K V).step c op).maxSize = c.maxSize ∧
      (lastCacheImpl K V).useOf c op = u ∧ Change c.maxSize s.items op u items' gone := by
  cases op with
  | get k =>
    obtain ⟨c', e, hr, hm⟩ := get_spec h k
    have hs : (lastCacheImpl K V).step c (.get k) = c' := by
      show (LastCache.get k c).2 = c'; rw [e]
    have hu : (lastCacheImpl K V).useOf c (.get k) =
        match (Lru.get k s).1 with | .ok _ => some k | .error _ => none := by
      show (match (LastCache.get k c).1 with | .ok _ => some k | .error _ => none) = _; rw [e]
    rw [hs, hu]
    unfold Lru.get at hr ⊢
    cases hl : s.items.lookup k with
    | none => rw [hl] at hr; exact ⟨_, [], _, by simpa using hr, hm, rfl, .miss hl rfl⟩
    | some v => rw [hl] at hr; exact ⟨_, [], _, by simpa using hr, hm, rfl, .get hl rfl⟩
  | push k v a =>
    obtain ⟨c', e, hr, hm⟩ := push_spec h k v a
    have hs : (lastCacheImpl K V).step c (.push k v a) = c' := by
      show (LastCache.push k v a c).2 = c'; rw [e]
    have hu : (lastCacheImpl K V).useOf c (.push k v a) =
        match (Lru.push c.maxSize k v a s).1 with | .ok true => some k | _ => none := by
      show (match (LastCache.push k v a c).1 with | .ok true => some k | _ => none) = _; rw [e]
    rw [hs, hu]
    unfold Lru.push at hr ⊢
    by_cases hl : (s.items.lookup k).isSome
    · rw [if_pos hl] at hr ⊢; exact ⟨_, [], _, by simpa using hr, hm, rfl, .update hl rfl⟩
    · rw [if_neg hl] at hr ⊢
      have hn : s.items.lookup k = none := Option.not_isSome_iff_eq_none.1 hl
      cases a with
      | true => exact ⟨_, _, _, hr, hm, rfl, .new hn rfl⟩
      | false => exact ⟨_, [], _, by simpa using hr, hm, rfl, .refuse hn rfl⟩
  | remove k l =>
    obtain ⟨c', e, hr, hm⟩ := remove_spec h k l
    have hs : (lastCacheImpl K V).step c (.remove k l) = c' := by
      show (LastCache.remove k l c).2 = c'; rw [e]
    rw [hs]
    exact ⟨_, _, _, hr, hm, rfl, .remove rfl⟩
  | clear l =>
    obtain ⟨hr, hm⟩ := clear_spec h l
    exact ⟨_, _, _, hr, hm, rfl, .clear rfl⟩

/-- What is known about the cache after a history. -/
structure After (n : Nat) (ops : List (CacheOp K V)) (s : Lru K V) : Prop where
  repr : Repr ((lastCacheImpl K V).run { maxSize := n } ops) s
  size : ((lastCacheImpl K V).run { maxSize := n } ops).maxSize = n
  vals : ∀ p ∈ s.items, lastPushed p.1 ops = some p.2
  order : (s.items.map Prod.fst).Pairwise
    fun j k => LessRecent k j ((lastCacheImpl K V).uses { maxSize := n } ops)
  recent : (∀ op ∈ ops, op.keeps = true) → s.items.map Prod.fst =
    (mostRecent ((lastCacheImpl K V).uses { maxSize := n } ops)).take n

theorem after (n : Nat) (hn : 0 < n) (ops : List (CacheOp K V)) : ∃ s, After n ops s := by
  refine history_induction (P := fun ops => ∃ s, After n ops s) ?_ ?_ ops
  · exact ⟨_, repr_new n hn, rfl, by simp, by simp, fun _ => by simp [CacheImpl.uses, mostRecent]⟩
  · rintro ops op ⟨s, h⟩
    obtain ⟨items', gone, u, hr, hm, hu, hc⟩ := step_change h.repr op
    have hkn := h.repr.keysNodup
    rw [h.size] at hc
    have hb := h.repr.bound
    rw [h.size] at hb
    refine ⟨_, by rw [run_snoc]; exact hr, by rw [run_snoc, hm, h.size], ?_, ?_, ?_⟩
    · -- values
      have hold : ∀ p ∈ s.items, (∀ k v a, op = .push k v a → p.1 ≠ k) →
          lastPushed p.1 (ops ++ [op]) = some p.2 := by
        intro p hp hne
        rw [lastPushed_snoc]
        cases op with
        | push k v a => simp only; rw [if_neg fun e => hne k v a rfl e.symm]; exact h.vals p hp
        | get k => exact h.vals p hp
        | remove k l => exact h.vals p hp
        | clear l => exact h.vals p hp
      intro p hp
      replace hp : p ∈ items' := hp
      cases hc with
      | get hv ho =>
        subst ho
        rename_i hv'
        rcases List.mem_cons.1 hp with rfl | hp
        · exact hold _ ((lookup_eq_some hkn).1 hv) (by simp)
        · exact hold _ (mem_without.1 hp).1 (by simp)
      | update hv ho =>
        subst ho
        rcases List.mem_cons.1 hp with rfl | hp
        · rw [lastPushed_snoc]; simp
        · refine hold _ (mem_without.1 hp).1 ?_
          rintro k v a ho
          cases ho
          exact (mem_without.1 hp).2
      | new hv ho =>
        subst ho
        rcases List.mem_cons.1 (List.mem_of_mem_take hp) with rfl | hp
        · rw [lastPushed_snoc]; simp
        · refine hold _ hp ?_
          rintro k v a ho
          cases ho
          exact fun e => lookup_eq_none.1 hv (e ▸ List.mem_map_of_mem hp)
      | refuse hv ho =>
        subst ho
        refine hold _ hp ?_
        rintro k v a ho
        cases ho
        exact fun e => lookup_eq_none.1 hv (e ▸ List.mem_map_of_mem hp)
      | miss hv ho => subst ho; exact hold _ hp (by simp)
      | remove ho => subst ho; exact hold _ (mem_without.1 hp).1 (by simp)
      | clear ho => simp at hp
    · -- order
      rw [uses_snoc, hu]
      have huse : ∀ k v, items' = (k, v) :: Lru.without k s.items →
          (items'.map Prod.fst).Pairwise fun i j =>
            LessRecent j i ((lastCacheImpl K V).uses { maxSize := n } ops ++ [k]) := by
        intro k v e
        rw [e, List.map_cons, List.pairwise_cons]
        refine ⟨fun j hj => lessRecent_last _ (mem_keys_without.1 hj).2, ?_⟩
        rw [map_without]
        refine List.Pairwise.imp_of_mem ?_ (h.order.filter _)
        intro i j _ hj hij
        exact hij.snoc (by simpa using (List.mem_filter.1 hj).2)
      cases hc with
      | get hv ho => exact huse _ _ rfl
      | update hv ho => exact huse _ _ rfl
      | new hv ho =>
        rename_i k v
        rw [List.map_take, List.map_cons]
        refine List.Pairwise.sublist (List.take_sublist _ _) ?_
        rw [List.pairwise_cons]
        have hne : ∀ j ∈ s.items.map Prod.fst, j ≠ k := fun j hj e => lookup_eq_none.1 hv (e ▸ hj)
        refine ⟨fun j hj => lessRecent_last _ (hne j hj), ?_⟩
        refine List.Pairwise.imp_of_mem ?_ h.order
        intro i j _ hj hij
        exact hij.snoc (hne j hj)
      | refuse hv ho => simpa using h.order
      | miss hv ho => simpa using h.order
      | remove ho =>
        rw [map_without]
        simpa using h.order.filter _
      | clear ho => simp
    · -- most recent keys
      intro hk
      have hk0 := h.recent fun o ho => hk o (by simp [ho])
      have hkop := hk op (by simp)
      rw [uses_snoc, hu]
      have huse : ∀ k v, items' = (k, v) :: Lru.without k s.items → (s.items.lookup k).isSome →
          items'.map Prod.fst =
            (mostRecent ((lastCacheImpl K V).uses { maxSize := n } ops ++ [k])).take n := by
        intro k v e hks
        rw [e, mostRecent_snoc, List.map_cons, map_without, hk0, take_use (mostRecent_nodup _)]
        rw [← hk0]
        cases hlk : s.items.lookup k with
        | none => rw [hlk] at hks; cases hks
        | some w => exact List.mem_map_of_mem (f := Prod.fst) ((lookup_eq_some hkn).1 hlk)
      cases hc with
      | get hv ho => exact huse _ _ rfl (by rw [hv]; rfl)
      | update hv ho => exact huse _ _ rfl hv
      | new hv ho =>
        rename_i k v
        show _ = (mostRecent (_ ++ [k])).take n
        rw [mostRecent_snoc, take_new hn, List.map_take, List.map_cons, hk0]
        rw [← hk0]
        exact lookup_eq_none.1 hv
      | refuse hv ho => simpa using hk0
      | miss hv ho => simpa using hk0
      | remove ho => subst ho; simp [CacheOp.keeps] at hkop
      | clear ho => subst ho; simp [CacheOp.keeps] at hkop

/-- **C40.** At most `max_size` keys are cached. -/
theorem C40_bounded (n : Nat) (hn : 0 < n) (ops : List (CacheOp K V)) :
    (lastCacheImpl K V).AtMost ((lastCacheImpl K V).run { maxSize := n } ops) n := by
  obtain ⟨s, h⟩ := after n hn ops
  have := h.repr.bound
  rw [h.size] at this
  exact h.repr.answers.atMost this

/-- **C40.** `get` returns the value last pushed for a cached key, and raises `KeyError` for any
other key. -/
theorem C40_get_last_pushed (n : Nat) (hn : 0 < n) :
    (lastCacheImpl K V).Coherent { maxSize := n } := by
  intro ops k
  obtain ⟨s, h⟩ := after n hn ops
  have ha := h.repr.answers
  constructor
  · intro hh
    rw [ha.has k] at hh
    obtain ⟨v, hv⟩ := Option.isSome_iff_exists.1 hh
    refine ⟨v, by rw [ha.get k, hv], h.vals (k, v) ((lookup_eq_some h.repr.keysNodup).1 hv)⟩
  · intro hh
    rw [ha.has k] at hh
    have : s.items.lookup k = none := by simpa using hh
    rw [ha.get k, this]

/-- **C40.** As long as nothing is removed, the cached keys are the `max_size` most recently used
ones (used: looked up successfully, or pushed and accepted). -/
theorem C40_keeps_most_recent (n : Nat) (hn : 0 < n) (ops : List (CacheOp K V))
    (hk : ∀ op ∈ ops, op.keeps = true) (k : K) :
    (lastCacheImpl K V).has ((lastCacheImpl K V).run { maxSize := n } ops) k = true ↔
      k ∈ (mostRecent ((lastCacheImpl K V).uses { maxSize := n } ops)).take n := by
  obtain ⟨s, h⟩ := after n hn ops
  rw [h.repr.answers.has_iff, h.recent hk]

/-- **C40.** A key that was not removed by the caller is dropped only when a new key is pushed into
a full cache, and it is the one used least recently. -/
theorem C40_evicts_least_recent (n : Nat) (hn : 0 < n) (ops : List (CacheOp K V))
    (op : CacheOp K V) (hop : op.keeps = true) (k : K)
    (h₁ : (lastCacheImpl K V).has ((lastCacheImpl K V).run { maxSize := n } ops) k = true)
    (h₂ : (lastCacheImpl K V).has ((lastCacheImpl K V).run { maxSize := n } (ops ++ [op])) k = false) :
    (∃ k' v, op = .push k' v true ∧
      (lastCacheImpl K V).has ((lastCacheImpl K V).run { maxSize := n } ops) k' = false) ∧
    (∃ ks : List K, ks.Nodup ∧ ks.length = n ∧ ∀ j ∈ ks,
      (lastCacheImpl K V).has ((lastCacheImpl K V).run { maxSize := n } ops) j = true) ∧
    ∀ j, (lastCacheImpl K V).has ((lastCacheImpl K V).run { maxSize := n } ops) j = true → j ≠ k →
      LessRecent k j ((lastCacheImpl K V).uses { maxSize := n } ops) := by
  obtain ⟨s, h⟩ := after n hn ops
  obtain ⟨items', gone, u, hr, hm, hu, hc⟩ := step_change h.repr op
  rw [run_snoc, hr.answers.has_false] at h₂
  rw [h.repr.answers.has_iff] at h₁
  have ha := h.repr.answers
  have hkn := h.repr.keysNodup
  rw [h.size] at hc
  have hb := h.repr.bound
  rw [h.size] at hb
  have hcons : ∀ j v, k ∉ ((j, v) :: Lru.without j s.items).map Prod.fst → False := by
    intro j v hne
    rw [List.map_cons, List.mem_cons, mem_keys_without] at hne
    by_cases e : k = j
    · exact hne (.inl e)
    · exact hne (.inr ⟨h₁, e⟩)
  cases hc with
  | get hv ho => exact (hcons _ _ h₂).elim
  | update hv ho => exact (hcons _ _ h₂).elim
  | refuse hv ho => exact absurd h₁ h₂
  | miss hv ho => exact absurd h₁ h₂
  | remove ho => subst ho; simp [CacheOp.keeps] at hop
  | clear ho => subst ho; simp [CacheOp.keeps] at hop
  | new hv ho =>
    rename_i k' v
    have hfull : s.items.length = n := by
      by_cases hlt : s.items.length < n
      · rw [List.take_of_length_le (by rw [List.length_cons]; omega)] at h₂
        exact absurd (by rw [List.map_cons]; exact List.mem_cons_of_mem _ h₁) h₂
      · omega
    rcases List.eq_nil_or_concat s.items with he | ⟨init, q, he⟩
    · rw [he] at h₁; simp at h₁
    rw [List.concat_eq_append] at he
    have htake : ((k', v) :: s.items).take n = (k', v) :: init := by
      have : n = init.length + 1 := by rw [← hfull, he]; simp
      rw [he, this, List.take_succ_cons, List.take_left]
    rw [htake] at h₂
    have hkq : k = q.1 := by
      rw [he, List.map_append, List.mem_append] at h₁
      rcases h₁ with h₁ | h₁
      · exact absurd (by rw [List.map_cons]; exact List.mem_cons_of_mem _ h₁) h₂
      · simpa using h₁
    refine ⟨⟨k', v, ho, (ha.has_false k').2 (lookup_eq_none.1 hv)⟩,
      ⟨s.items.map Prod.fst, hkn, by simpa using hfull, fun j hj => (ha.has_iff j).2 hj⟩, ?_⟩
    intro j hj hne
    rw [ha.has_iff, he, List.map_append, List.mem_append] at hj
    have hj' : j ∈ init.map Prod.fst := by
      rcases hj with hj | hj
      · exact hj
      · have e : j = q.1 := by simpa using hj
        exact absurd (e.trans hkq.symm) hne
    have ho := h.order
    rw [he, List.map_append, List.pairwise_append] at ho
    rw [hkq]
    exact ho.2.2 j hj' q.1 (by simp)

/-- **C40.** The leave callback is called once for each pair that leaves the cache in a call, with
the pair; not at all if the caller asked not to call it. -/
theorem C40_leave_callback (n : Nat) (hn : 0 < n) (ops : List (CacheOp K V)) (op : CacheOp K V) :
    (lastCacheImpl K V).Reports LastCache.left ((lastCacheImpl K V).run { maxSize := n } ops) op := by
  obtain ⟨s, h⟩ := after n hn ops
  obtain ⟨items', gone, u, hr, hm, hu, hc⟩ := step_change h.repr op
  have hkn := h.repr.keysNodup
  have hb := h.repr.bound
  have hmem : ∀ p : K × V, p ∈ s.items → p.1 ∈ s.items.map Prod.fst :=
    fun p hp => List.mem_map_of_mem (f := Prod.fst) hp
  have hcons : ∀ (j : K) (v : V) (p : K × V), p ∈ s.items →
      p.1 ∈ ((j, v) :: Lru.without j s.items).map Prod.fst := by
    intro j v p hp
    rw [List.map_cons, List.mem_cons, mem_keys_without]
    by_cases e : p.1 = j
    · exact .inl e
    · exact .inr ⟨hmem p hp, e⟩
  refine reports_of (items' := items') (gone := gone) h.repr.answers hr.answers
    (by rw [hr.left, h.repr.left]) ?_ ?_ ?_
  · intro hs
    cases hc with
    | get hv ho => rfl
    | update hv ho => rfl
    | refuse hv ho => rfl
    | miss hv ho => rfl
    | new hv ho => subst ho; simp [CacheOp.reporting] at hs
    | remove ho => subst ho; simp only [CacheOp.reporting] at hs; simp [hs]
    | clear ho => subst ho; simp only [CacheOp.reporting] at hs; simp [hs]
  · cases hc with
    | get hv ho => exact List.nodup_nil
    | update hv ho => exact List.nodup_nil
    | refuse hv ho => exact List.nodup_nil
    | miss hv ho => exact List.nodup_nil
    | new hv ho =>
      rename_i k v
      refine KeysNodup.sublist (m := (k, v) :: s.items) ?_ (List.drop_sublist _ _)
      exact List.nodup_cons.2 ⟨lookup_eq_none.1 hv, hkn⟩
    | remove ho =>
      split
      · exact hkn.sublist List.filter_sublist
      · exact List.nodup_nil
    | clear ho =>
      split
      · exact hkn
      · exact List.nodup_nil
  · intro hs p
    cases hc with
    | get hv ho =>
      simp only [List.not_mem_nil, false_iff]
      exact fun hp => hp.2 (hcons _ _ p hp.1)
    | update hv ho =>
      simp only [List.not_mem_nil, false_iff]
      exact fun hp => hp.2 (hcons _ _ p hp.1)
    | refuse hv ho =>
      simp only [List.not_mem_nil, false_iff]
      exact fun hp => hp.2 (hmem p hp.1)
    | miss hv ho =>
      simp only [List.not_mem_nil, false_iff]
      exact fun hp => hp.2 (hmem p hp.1)
    | remove ho =>
      subst ho
      simp only [CacheOp.reporting] at hs
      simp only [hs, if_true, mem_only, mem_keys_without]
      constructor
      · rintro ⟨hp, e⟩; exact ⟨hp, fun hc => hc.2 e⟩
      · rintro ⟨hp, hc⟩; exact ⟨hp, Classical.byContradiction fun e => hc ⟨hmem p hp, e⟩⟩
    | clear ho =>
      subst ho
      simp only [CacheOp.reporting] at hs
      simp [hs]
    | new hv ho =>
      rename_i k v
      have hnd : KeysNodup ((k, v) :: s.items) := List.nodup_cons.2 ⟨lookup_eq_none.1 hv, hkn⟩
      have hsplit : (((k, v) :: s.items).map Prod.fst) =
          ((((k, v) :: s.items).take
              ((lastCacheImpl K V).run { maxSize := n } ops).maxSize).map Prod.fst) ++
            ((((k, v) :: s.items).drop
              ((lastCacheImpl K V).run { maxSize := n } ops).maxSize).map Prod.fst) := by
        rw [← List.map_append, List.take_append_drop]
      have hpos := h.repr.pos
      constructor
      · intro hp
        refine ⟨?_, ?_⟩
        · have hx := List.mem_of_mem_drop hp
          rcases List.mem_cons.1 hx with rfl | hx
          · exfalso
            obtain ⟨m, hm⟩ : ∃ m, ((lastCacheImpl K V).run { maxSize := n } ops).maxSize = m + 1 :=
              ⟨_, (Nat.succ_pred_eq_of_pos hpos).symm⟩
            rw [hm, List.drop_succ_cons] at hp
            exact lookup_eq_none.1 hv (hmem _ (List.mem_of_mem_drop hp))
          · exact hx
        · intro hp'
          unfold KeysNodup at hnd
          rw [hsplit, List.nodup_append] at hnd
          exact hnd.2.2 _ hp' _ (List.mem_map_of_mem (f := Prod.fst) hp) rfl
      · rintro ⟨hp, hnot⟩
        have hx : p ∈ (k, v) :: s.items := by simp [hp]
        rw [← List.take_append_drop ((lastCacheImpl K V).run { maxSize := n } ops).maxSize
          ((k, v) :: s.items), List.mem_append] at hx
        rcases hx with hx | hx
        · exact absurd (List.mem_map_of_mem (f := Prod.fst) hx) hnot
        · exact hx

/-- **C40.** Only looking up a missing key raises. -/
theorem C40_raises (n : Nat) (hn : 0 < n) (ops : List (CacheOp K V)) (op : CacheOp K V) :
    (lastCacheImpl K V).raised ((lastCacheImpl K V).run { maxSize := n } ops) op =
      match op with
      | .get k => if (lastCacheImpl K V).has ((lastCacheImpl K V).run { maxSize := n } ops) k
          then none else some .keyError
      | _ => none := by
  obtain ⟨s, h⟩ := after n hn ops
  have ha := h.repr.answers
  cases op with
  | get k =>
    simp only [CacheImpl.raised]
    rw [ha.get k, ha.has k]
    cases s.items.lookup k <;> rfl
  | push k v a =>
    obtain ⟨c', e, -⟩ := push_spec h.repr k v a
    show (match (LastCache.push k v a _).1 with | .error e => some e | .ok _ => none) = none
    rw [e]
    unfold Lru.push
    by_cases h1 : (s.items.lookup k).isSome = true
    · rw [if_pos h1]
    · rw [if_neg h1]; cases a <;> rfl
  | remove k l =>
    obtain ⟨c', e, -⟩ := remove_spec h.repr k l
    show (match (LastCache.remove k l _).1 with | .error e => some e | .ok _ => none) = none
    rw [e]
  | clear l => rfl

/-- A history in which the cache of size two evicts the key used least recently (2, since 1 was
looked up), and reports it. -/
example :
    (lastCacheImpl Nat Nat).has ((lastCacheImpl Nat Nat).run { maxSize := 2 }
        [.push 1 10 true, .push 2 20 true, .get 1, .push 3 30 true]) 2 = false ∧
    (lastCacheImpl Nat Nat).has ((lastCacheImpl Nat Nat).run { maxSize := 2 }
        [.push 1 10 true, .push 2 20 true, .get 1, .push 3 30 true]) 1 = true ∧
    ((lastCacheImpl Nat Nat).run { maxSize := 2 }
        [.push 1 10 true, .push 2 20 true, .get 1, .push 3 30 true]).left = [(2, 20)] := by
  decide

/-- Size zero is accepted by the constructor, but the first push raises `AttributeError`. -/
theorem C40_size_zero_raises (k : K) (v : V) :
    (lastCacheImpl K V).raised { maxSize := 0 } (.push k v true) = some .attributeError := by
  rfl

end LastCache

/-! ## `TopAccessCache` -/

namespace TopCache

theorem Repr.answers {c : TopCache K V} {items : List (K × V)} {cnt : K → Nat}
    (h : Repr c items cnt) : Answers (topCacheImpl K V) c items := by
  refine ⟨h.keysNodup, fun k => h.has k, fun k => ?_⟩
  obtain ⟨c', items', e, -⟩ := get_spec h k
  show (TopCache.get k c).1 = _
  rw [e]
  cases items.lookup k <;> rfl

/-- What a call does to the cached pairs, apart from their order. -/
inductive Change (n : Nat) (cnt' : K → Nat) (items : List (K × V)) (op : CacheOp K V) :
    List (K × V) → List (K × V) → Prop
  | get {k : K} {items' : List (K × V)} (hp : items'.Perm items) (ho : op = .get k) :
      Change n cnt' items op items' []
  | push {k : K} {v : V} {a r : Bool} {items' gone : List (K × V)}
      (h : Pushed k v a n cnt' items r items' gone) (ho : op = .push k v a) :
      Change n cnt' items op items' gone
  | remove {k : K} {l : Bool} (ho : op = .remove k l) :
      Change n cnt' items op (Lru.without k items) (if l then Lru.only k items else [])
  | clear {l : Bool} (ho : op = .clear l) :
      Change n cnt' items op [] (if l then items else [])

/-- What is known about the cache after a history. -/
structure After (n : Nat) (ops : List (CacheOp K V)) (items : List (K × V)) : Prop where
  repr : Repr ((topCacheImpl K V).run { maxSize := n } ops) items fun k => accesses k ops
  size : ((topCacheImpl K V).run { maxSize := n } ops).maxSize = n
  vals : ∀ p ∈ items, lastPushed p.1 ops = some p.2

theorem step_change {n : Nat} {ops : List (CacheOp K V)} {items : List (K × V)}
    (h : After n ops items) (op : CacheOp K V) :
    ∃ items' gone,
      Repr ((topCacheImpl K V).run { maxSize := n } (ops ++ [op])) items'
        (fun k => accesses k (ops ++ [op])) ∧
      ((topCacheImpl K V).run { maxSize := n } (ops ++ [op])).maxSize = n ∧
      ((topCacheImpl K V).run { maxSize := n } (ops ++ [op])).left =
        ((topCacheImpl K V).run { maxSize := n } ops).left ++ gone ∧
      Change n (fun k => accesses k (ops ++ [op])) items op items' gone := by
  rw [run_snoc]
  cases op with
  | get k =>
    obtain ⟨c', items', e, hr, hp, hm, hl⟩ := get_spec h.repr k
    have hs : (topCacheImpl K V).step ((topCacheImpl K V).run { maxSize := n } ops) (.get k) = c' := by
      show (TopCache.get k _).2 = c'; rw [e]
    have hc : (fun j => accesses j (ops ++ [.get k])) = bump (fun j => accesses j ops) k := by
      funext j; rw [accesses_snoc]; simp only [bump, eq_comm]
    rw [hs, hc]
    exact ⟨items', [], hr, by rw [hm, h.size], by simpa using hl, .get hp rfl⟩
  | push k v a =>
    obtain ⟨c', r, items', gone, e, hr, hp, hm, hl⟩ := push_spec h.repr k v a
    have hs : (topCacheImpl K V).step ((topCacheImpl K V).run { maxSize := n } ops) (.push k v a) = c' := by
      show (TopCache.push k v a _).2 = c'; rw [e]
    have hc : (fun j => accesses j (ops ++ [.push k v a])) = bump (fun j => accesses j ops) k := by
      funext j; rw [accesses_snoc]; simp only [bump, eq_comm]
    rw [hs, hc]
    rw [h.size] at hp
    exact ⟨items', gone, hr, by rw [hm, h.size], hl, .push hp rfl⟩
  | remove k l =>
    obtain ⟨c', e, hr, hm, hl⟩ := remove_spec h.repr k l
    have hs : (topCacheImpl K V).step ((topCacheImpl K V).run { maxSize := n } ops) (.remove k l) = c' := by
      show (TopCache.remove k l _).2 = c'; rw [e]
    have hc : (fun j => accesses j (ops ++ [.remove k l])) = fun j => accesses j ops := by
      funext j; rw [accesses_snoc]
    rw [hs, hc]
    exact ⟨_, _, hr, by rw [hm, h.size], hl, .remove rfl⟩
  | clear l =>
    obtain ⟨hr, hm, hl⟩ := clear_spec h.repr l
    have hc : (fun j => accesses j (ops ++ [.clear l])) = fun _ => 0 := by
      funext j; rw [accesses_snoc]
    rw [hc]
    exact ⟨_, _, hr, hm.trans h.size, hl, .clear rfl⟩

theorem after (n : Nat) (hn : 0 < n) (ops : List (CacheOp K V)) : ∃ items, After n ops items := by
  refine history_induction (P := fun ops => ∃ items, After n ops items) ?_ ?_ ops
  · exact ⟨_, repr_new n hn, rfl, by simp⟩
  · rintro ops op ⟨items, h⟩
    obtain ⟨items', gone, hr, hm, hl, hc⟩ := step_change h op
    refine ⟨items', hr, hm, ?_⟩
    have hold : ∀ p ∈ items, (∀ k v a, op = .push k v a → p.1 ≠ k) →
        lastPushed p.1 (ops ++ [op]) = some p.2 := by
      intro p hp hne
      rw [lastPushed_snoc]
      cases op with
      | push k v a => simp only; rw [if_neg fun e => hne k v a rfl e.symm]; exact h.vals p hp
      | get k => exact h.vals p hp
      | remove k l => exact h.vals p hp
      | clear l => exact h.vals p hp
    intro p hp
    cases hc with
    | get hq ho => subst ho; exact hold _ (hq.mem_iff.1 hp) (by simp)
    | remove ho => subst ho; exact hold _ (mem_without.1 hp).1 (by simp)
    | clear ho => simp at hp
    | push hq ho =>
      subst ho
      have hnew : ∀ k (v : V) a, items.lookup k = none → p ∈ items →
          lastPushed p.1 (ops ++ [.push k v a]) = some p.2 := by
        intro k v a hk hp
        rw [lastPushed_snoc]
        simp only
        have hne : k ≠ p.1 := by
          rintro rfl
          exact lookup_eq_none.1 hk (List.mem_map_of_mem (f := Prod.fst) hp)
        rw [if_neg hne]
        exact h.vals p hp
      cases hq with
      | update hk hq =>
        rcases List.mem_cons.1 (hq.mem_iff.1 hp) with rfl | hp
        · rw [lastPushed_snoc]; simp
        · refine hold _ (mem_without.1 hp).1 ?_
          rintro k v a ho
          cases ho
          exact (mem_without.1 hp).2
      | room hk _ hq =>
        rcases List.mem_cons.1 (hq.mem_iff.1 hp) with rfl | hp
        · rw [lastPushed_snoc]; simp
        · exact hnew _ _ _ hk hp
      | replace hk _ _ hi _ hq =>
        rcases List.mem_cons.1 (hq.mem_iff.1 hp) with rfl | hp
        · rw [lastPushed_snoc]; simp
        · exact hnew _ _ _ hk (hi.mem_iff.2 (List.mem_cons_of_mem _ hp))
      | refuse hk hq => exact hnew _ _ _ hk (hq.mem_iff.1 hp)

/-- **C41.** At most `max_size` keys are cached. -/
theorem C41_bounded (n : Nat) (hn : 0 < n) (ops : List (CacheOp K V)) :
    (topCacheImpl K V).AtMost ((topCacheImpl K V).run { maxSize := n } ops) n := by
  obtain ⟨items, h⟩ := after n hn ops
  have := h.repr.bound
  rw [h.size] at this
  exact h.repr.answers.atMost this

/-- **C41.** `get` returns the value last pushed for a cached key, and raises `KeyError` for any
other key. -/
theorem C41_get_last_pushed (n : Nat) (hn : 0 < n) :
    (topCacheImpl K V).Coherent { maxSize := n } := by
  intro ops k
  obtain ⟨items, h⟩ := after n hn ops
  have ha := h.repr.answers
  constructor
  · intro hh
    rw [ha.has k] at hh
    obtain ⟨v, hv⟩ := Option.isSome_iff_exists.1 hh
    refine ⟨v, by rw [ha.get k, hv], h.vals (k, v) ((lookup_eq_some h.repr.keysNodup).1 hv)⟩
  · intro hh
    rw [ha.has k] at hh
    have : items.lookup k = none := by simpa using hh
    rw [ha.get k, this]

/-- **C41.** A key that was not removed by the caller is dropped only when a key that was accessed
more often is pushed into a full cache. -/
theorem C41_displaced_by_more_accessed (n : Nat) (hn : 0 < n) (ops : List (CacheOp K V))
    (op : CacheOp K V) (hop : op.keeps = true) (k : K)
    (h₁ : (topCacheImpl K V).has ((topCacheImpl K V).run { maxSize := n } ops) k = true)
    (h₂ : (topCacheImpl K V).has ((topCacheImpl K V).run { maxSize := n } (ops ++ [op])) k = false) :
    (∃ k' v, op = .push k' v true ∧
      (topCacheImpl K V).has ((topCacheImpl K V).run { maxSize := n } ops) k' = false ∧
      (topCacheImpl K V).has ((topCacheImpl K V).run { maxSize := n } (ops ++ [op])) k' = true ∧
      accesses k ops < accesses k' (ops ++ [op])) ∧
    (∃ ks : List K, ks.Nodup ∧ ks.length = n ∧ ∀ j ∈ ks,
      (topCacheImpl K V).has ((topCacheImpl K V).run { maxSize := n } ops) j = true) ∧
    ∀ j, (topCacheImpl K V).has ((topCacheImpl K V).run { maxSize := n } ops) j = true → j ≠ k →
      (topCacheImpl K V).has ((topCacheImpl K V).run { maxSize := n } (ops ++ [op])) j = true := by
  obtain ⟨items, h⟩ := after n hn ops
  obtain ⟨items', gone, hr, hm, hl, hc⟩ := step_change h op
  have ha := h.repr.answers
  have hkn := h.repr.keysNodup
  have ha' := hr.answers
  rw [ha'.has_false] at h₂
  rw [ha.has_iff] at h₁
  cases hc with
  | get hq ho => exact absurd ((hq.map Prod.fst).mem_iff.2 h₁) h₂
  | remove ho => subst ho; simp [CacheOp.keeps] at hop
  | clear ho => subst ho; simp [CacheOp.keeps] at hop
  | push hq ho =>
    cases hq with
    | update hk hq =>
      rename_i k' v a
      refine absurd ((hq.map Prod.fst).mem_iff.2 ?_) h₂
      rw [List.map_cons, List.mem_cons, mem_keys_without]
      by_cases e : k = k'
      · exact .inl e
      · exact .inr ⟨h₁, e⟩
    | room hk _ hq =>
      exact absurd ((hq.map Prod.fst).mem_iff.2 (List.mem_cons_of_mem _ h₁)) h₂
    | refuse hk hq => exact absurd ((hq.map Prod.fst).mem_iff.2 h₁) h₂
    | replace hk hfull hal hi hlt hq =>
      rename_i k' v a old rest
      subst hal
      have hko : k = old.1 := by
        rcases List.mem_cons.1 ((hi.map Prod.fst).mem_iff.1 h₁) with e | e
        · exact e
        · exact absurd ((hq.map Prod.fst).mem_iff.2 (List.mem_cons_of_mem _ e)) h₂
      have hkk : k ≠ k' := fun e => lookup_eq_none.1 hk (e ▸ h₁)
      refine ⟨⟨k', v, ho, (ha.has_false k').2 (lookup_eq_none.1 hk),
        (ha'.has_iff k').2 ((hq.map Prod.fst).mem_iff.2 (by simp)), ?_⟩,
        ⟨items.map Prod.fst, hkn, by simpa using hfull, fun j hj => (ha.has_iff j).2 hj⟩, ?_⟩
      · rw [← hko] at hlt
        refine Nat.lt_of_le_of_lt ?_ hlt
        subst ho
        rw [accesses_snoc]
        simp only
        rw [if_neg (Ne.symm hkk)]
        exact Nat.le_refl _
      · intro j hj hne
        rw [ha.has_iff] at hj
        rw [ha'.has_iff]
        refine (hq.map Prod.fst).mem_iff.2 ?_
        rcases List.mem_cons.1 ((hi.map Prod.fst).mem_iff.1 hj) with e | e
        · exact absurd (e.trans hko.symm) hne
        · exact List.mem_cons_of_mem _ e

/-- **C41.** The leave callback is called once for each pair that leaves the cache in a call. -/
theorem C41_leave_callback (n : Nat) (hn : 0 < n) (ops : List (CacheOp K V)) (op : CacheOp K V) :
    (topCacheImpl K V).Reports TopCache.left ((topCacheImpl K V).run { maxSize := n } ops) op := by
  obtain ⟨items, h⟩ := after n hn ops
  obtain ⟨items', gone, hr, hm, hl, hc⟩ := step_change h op
  have hkn := h.repr.keysNodup
  rw [run_snoc] at hr hl
  have hmem : ∀ p : K × V, p ∈ items → p.1 ∈ items.map Prod.fst :=
    fun p hp => List.mem_map_of_mem (f := Prod.fst) hp
  refine reports_of (items' := items') (gone := gone) h.repr.answers hr.answers hl ?_ ?_ ?_
  · intro hs
    cases hc with
    | get hq ho => rfl
    | remove ho => subst ho; simp only [CacheOp.reporting] at hs; simp [hs]
    | clear ho => subst ho; simp only [CacheOp.reporting] at hs; simp [hs]
    | push hq ho => subst ho; simp [CacheOp.reporting] at hs
  · cases hc with
    | get hq ho => exact List.nodup_nil
    | remove ho =>
      split
      · exact hkn.sublist List.filter_sublist
      · exact List.nodup_nil
    | clear ho =>
      split
      · exact hkn
      · exact List.nodup_nil
    | push hq ho => cases hq <;> simp [KeysNodup]
  · intro hs p
    cases hc with
    | get hq ho =>
      simp only [List.not_mem_nil, false_iff]
      exact fun hp => hp.2 ((hq.map Prod.fst).mem_iff.2 (hmem p hp.1))
    | remove ho =>
      subst ho
      simp only [CacheOp.reporting] at hs
      simp only [hs, if_true, mem_only, mem_keys_without]
      constructor
      · rintro ⟨hp, e⟩; exact ⟨hp, fun hc => hc.2 e⟩
      · rintro ⟨hp, hc⟩; exact ⟨hp, Classical.byContradiction fun e => hc ⟨hmem p hp, e⟩⟩
    | clear ho =>
      subst ho
      simp only [CacheOp.reporting] at hs
      simp [hs]
    | push hq ho =>
      cases hq with
      | update hk hq =>
        rename_i k v a
        simp only [List.not_mem_nil, false_iff]
        refine fun hp => hp.2 ((hq.map Prod.fst).mem_iff.2 ?_)
        rw [List.map_cons, List.mem_cons, mem_keys_without]
        by_cases e : p.1 = k
        · exact .inl e
        · exact .inr ⟨hmem p hp.1, e⟩
      | room hk _ hq =>
        simp only [List.not_mem_nil, false_iff]
        exact fun hp => hp.2 ((hq.map Prod.fst).mem_iff.2 (List.mem_cons_of_mem _ (hmem p hp.1)))
      | refuse hk hq =>
        simp only [List.not_mem_nil, false_iff]
        exact fun hp => hp.2 ((hq.map Prod.fst).mem_iff.2 (hmem p hp.1))
      | replace hk hfull hal hi hlt hq =>
        rename_i k v a old rest
        have hnd : KeysNodup (old :: rest) := (hi.map Prod.fst).nodup_iff.1 hkn
        have hold : old ∈ items := hi.mem_iff.2 (by simp)
        rw [List.mem_singleton]
        constructor
        · rintro rfl
          refine ⟨hold, fun hp => ?_⟩
          rcases List.mem_cons.1 ((hq.map Prod.fst).mem_iff.1 hp) with e | e
          · exact lookup_eq_none.1 hk (by have := hmem p hold; rwa [e] at this)
          · exact (List.nodup_cons.1 hnd).1 e
        · rintro ⟨hp, hnot⟩
          rcases List.mem_cons.1 (hi.mem_iff.1 hp) with e | e
          · exact e
          · exact absurd ((hq.map Prod.fst).mem_iff.2
              (List.mem_cons_of_mem _ (List.mem_map_of_mem (f := Prod.fst) e))) hnot

/-- **C41.** Only looking up a missing key raises. -/
theorem C41_raises (n : Nat) (hn : 0 < n) (ops : List (CacheOp K V)) (op : CacheOp K V) :
    (topCacheImpl K V).raised ((topCacheImpl K V).run { maxSize := n } ops) op =
      match op with
      | .get k => if (topCacheImpl K V).has ((topCacheImpl K V).run { maxSize := n } ops) k
          then none else some .keyError
      | _ => none := by
  obtain ⟨items, h⟩ := after n hn ops
  have ha := h.repr.answers
  cases op with
  | get k =>
    simp only [CacheImpl.raised]
    rw [ha.get k, ha.has k]
    cases items.lookup k <;> rfl
  | push k v a =>
    obtain ⟨c', r, items', gone, e, -⟩ := push_spec h.repr k v a
    show (match (TopCache.push k v a _).1 with | .error e => some e | .ok _ => none) = none
    rw [e]
  | remove k l =>
    obtain ⟨c', e, -⟩ := remove_spec h.repr k l
    show (match (TopCache.remove k l _).1 with | .error e => some e | .ok _ => none) = none
    rw [e]
  | clear l => rfl

/-- A history in which key 2 is displaced by key 3, which was pushed twice, and reported. -/
example :
    (topCacheImpl Nat Nat).has ((topCacheImpl Nat Nat).run { maxSize := 2 }
        [.push 1 10 true, .push 2 20 true, .push 3 30 true]) 2 = true ∧
    (topCacheImpl Nat Nat).has ((topCacheImpl Nat Nat).run { maxSize := 2 }
        [.push 1 10 true, .push 2 20 true, .push 3 30 true, .push 3 31 true]) 2 = false ∧
    ((topCacheImpl Nat Nat).run { maxSize := 2 }
        [.push 1 10 true, .push 2 20 true, .push 3 30 true, .push 3 31 true]).left = [(2, 20)] := by
  decide

/-- The full C59: whenever a key is displaced, no other cached key was accessed less often. -/
def EvictsLeastAccessed (n : Nat) : Prop :=
  ∀ (ops : List (CacheOp Nat Nat)) (op : CacheOp Nat Nat), op.keeps = true → ∀ k j,
    (topCacheImpl Nat Nat).has ((topCacheImpl Nat Nat).run { maxSize := n } ops) k = true →
    (topCacheImpl Nat Nat).has ((topCacheImpl Nat Nat).run { maxSize := n } (ops ++ [op])) k = false →
    (topCacheImpl Nat Nat).has ((topCacheImpl Nat Nat).run { maxSize := n } ops) j = true →
    accesses k ops ≤ accesses j ops

/-- **C59 is false.** A key that replaces the last one is put at the end of the list whatever its
count, so it is the next one to go: here key 3 with two accesses is displaced while key 1 with a
single access stays. -/
theorem C59_violated : ¬ EvictsLeastAccessed 2 := by
  intro h
  have := h [.push 1 10 true, .push 2 20 true, .push 3 30 true, .push 3 30 true,
    .push 4 40 true, .push 4 40 true] (.push 4 40 true) rfl 3 1 (by decide) (by decide) (by decide)
  revert this
  decide

/-- **C59, as far as it holds.** The displaced key was accessed less often than the key that
displaces it. Missing: that it is the least accessed one of the cached keys. -/
theorem C59_displaced_less_accessed_partial (n : Nat) (hn : 0 < n) (ops : List (CacheOp K V))
    (k' : K) (v : V) (a : Bool) (k : K)
    (h₁ : (topCacheImpl K V).has ((topCacheImpl K V).run { maxSize := n } ops) k = true)
    (h₂ : (topCacheImpl K V).has
      ((topCacheImpl K V).run { maxSize := n } (ops ++ [.push k' v a])) k = false) :
    accesses k ops < accesses k' ops + 1 := by
  obtain ⟨⟨k'', v', e, -, -, h⟩, -⟩ := C41_displaced_by_more_accessed n hn ops _ rfl k h₁ h₂
  cases e
  rw [accesses_snoc] at h
  simpa using h

end TopCache
/-! ## `HybridCache` -/

namespace HybridCache

/-- Both caches are in order and hold only pairs with `P`. -/
def Holds (n : Nat) (P : K × V → Prop) (c : HybridCache K V) : Prop :=
  ∃ s items cnt, LastCache.Repr c.last s ∧ c.last.maxSize = n ∧
    TopCache.Repr c.top items cnt ∧ c.top.maxSize = n ∧ (∀ p ∈ s.items, P p) ∧ ∀ p ∈ items, P p

theorem Holds.mono {n : Nat} {P Q : K × V → Prop} {c : HybridCache K V} (h : Holds n P c)
    (hpq : ∀ p, P p → Q p) : Holds n Q c := by
  obtain ⟨s, items, cnt, h1, h2, h3, h4, h5, h6⟩ := h
  exact ⟨s, items, cnt, h1, h2, h3, h4, fun p hp => hpq p (h5 p hp), fun p hp => hpq p (h6 p hp)⟩

theorem holds_new (n m : Nat) (hn : 0 < n) (P : K × V → Prop) :
    Holds n P (HybridCache.new n m : HybridCache K V) :=
  ⟨⟨[], []⟩, [], fun _ => 0, LastCache.repr_new n hn, rfl, TopCache.repr_new n hn, rfl, by simp, by simp⟩

theorem pushed_subset {k : K} {v : V} {a r : Bool} {n : Nat} {cnt : K → Nat}
    {items items' gone : List (K × V)} (h : TopCache.Pushed k v a n cnt items r items' gone) :
    ∀ p ∈ items', p = (k, v) ∨ p ∈ items := by
  intro p hp
  cases h with
  | update _ hq =>
    exact (List.mem_cons.1 (hq.mem_iff.1 hp)).imp id fun h => (mem_without.1 h).1
  | room _ _ hq => exact List.mem_cons.1 (hq.mem_iff.1 hp)
  | replace _ _ _ hi _ hq =>
    exact (List.mem_cons.1 (hq.mem_iff.1 hp)).imp id fun h => hi.mem_iff.2 (List.mem_cons_of_mem _ h)
  | refuse _ hq => exact .inr (hq.mem_iff.1 hp)

theorem onTop_ok {α : Type} {g : PyM (TopCache K V) α} {c : HybridCache K V} {x : PyRes α}
    {t : TopCache K V} (h : g c.top = (x, t)) : onTop g c = (x, { c with top := t }) := by
  unfold onTop; rw [h]

theorem onLast_ok {α : Type} {g : PyM (LastCache K V) α} {c : HybridCache K V} {x : PyRes α}
    {l : LastCache K V} (h : g c.last = (x, l)) : onLast g c = (x, { c with last := l }) := by
  unfold onLast; rw [h]

/-- `get` answers from the pairs it holds and keeps to them. -/
theorem get_spec {n : Nat} {P : K × V → Prop} {c : HybridCache K V} (h : Holds n P c) (k : K) :
    Holds n P (HybridCache.get k c).2 ∧
      (c.has k = true → ∃ v, (HybridCache.get k c).1 = .ok v ∧ P (k, v)) ∧
      (c.has k = false → (HybridCache.get k c).1 = .error .keyError) := by
  obtain ⟨s, items, cnt, h1, h2, h3, h4, h5, h6⟩ := h
  unfold HybridCache.get HybridCache.has
  rw [PyM.get_bind]
  by_cases ht : c.top.has k = true
  · rw [if_pos ht]
    obtain ⟨c', items', e, hr, hp, hm, -⟩ := TopCache.get_spec h3 k
    rw [h3.has] at ht
    obtain ⟨v, hv⟩ := Option.isSome_iff_exists.1 ht
    rw [hv] at e
    rw [onTop_ok e]
    refine ⟨⟨s, items', _, h1, h2, hr, hm.trans h4, h5, fun p hp' => h6 p (hp.mem_iff.1 hp')⟩, ?_, ?_⟩
    · exact fun _ => ⟨v, rfl, h6 _ ((lookup_eq_some h3.keysNodup).1 hv)⟩
    · rw [h3.has, hv]; simp
  · rw [if_neg ht]
    have htf : c.top.has k = false := by simpa using ht
    rw [htf, Bool.false_or]
    by_cases hl : c.last.has k = true
    · rw [if_pos hl]
      obtain ⟨l', e, hr, hm⟩ := LastCache.get_spec h1 k
      have hl' := hl
      rw [h1.has] at hl'
      obtain ⟨v, hv⟩ := Option.isSome_iff_exists.1 hl'
      have hPv : P (k, v) := h5 _ ((lookup_eq_some h1.keysNodup).1 hv)
      simp only [Lru.get, hv] at e hr
      rw [PyM.bind_ok (onLast_ok e)]
      obtain ⟨t', r, items', gone, e2, hr2, hp2, hm2, -⟩ := TopCache.push_spec h3 k v true
      have hitems : ∀ p ∈ items', P p := by
        intro p hp
        rcases pushed_subset hp2 p hp with rfl | hp
        · exact hPv
        · exact h6 p hp
      have hl5 : ∀ p ∈ (k, v) :: Lru.without k s.items, P p := by
        intro p hp
        rcases List.mem_cons.1 hp with rfl | hp
        · exact hPv
        · exact h5 p (mem_without.1 hp).1
      rw [PyM.bind_ok (onTop_ok (c := { c with last := l' }) e2)]
      cases r with
      | false =>
        refine ⟨⟨_, items', _, hr, hm.trans h2, hr2, hm2.trans h4, hl5, hitems⟩, ?_, ?_⟩
        · exact fun _ => ⟨v, rfl, hPv⟩
        · rw [hl]; simp
      | true =>
        obtain ⟨l2, e3, hr3, hm3⟩ := LastCache.remove_spec hr k true
        simp only [if_true]
        rw [PyM.bind_ok (onLast_ok (c := { c with last := l', top := t' }) e3)]
        refine ⟨⟨_, items', _, hr3, (hm3.trans hm).trans h2, hr2, hm2.trans h4, ?_, hitems⟩, ?_, ?_⟩
        · exact fun p hp => hl5 p (mem_without.1 hp).1
        · exact fun _ => ⟨v, rfl, hPv⟩
        · rw [hl]; simp
    · rw [if_neg hl]
      exact ⟨⟨s, items, cnt, h1, h2, h3, h4, h5, h6⟩, fun h => absurd h hl, fun _ => rfl⟩

theorem push_spec {n : Nat} {P : K × V → Prop} {c : HybridCache K V} (h : Holds n P c) (k : K)
    (v : V) (a : Bool) (hv : P (k, v)) :
    Holds n P (HybridCache.push k v a c).2 ∧ ∃ r, (HybridCache.push k v a c).1 = .ok r := by
  obtain ⟨s, items, cnt, h1, h2, h3, h4, h5, h6⟩ := h
  unfold HybridCache.push
  obtain ⟨t', r, items', gone, e2, hr2, hp2, hm2, -⟩ := TopCache.push_spec h3 k v a
  have hitems : ∀ p ∈ items', P p := by
    intro p hp
    rcases pushed_subset hp2 p hp with rfl | hp
    · exact hv
    · exact h6 p hp
  rw [PyM.bind_ok (onTop_ok e2)]
  cases r with
  | true => exact ⟨⟨s, items', _, h1, h2, hr2, hm2.trans h4, h5, hitems⟩, true, rfl⟩
  | false =>
    obtain ⟨l', e, hr, hm⟩ := LastCache.push_spec h1 k v a
    simp only [Bool.false_eq_true, if_false]
    rw [onLast_ok (c := { c with top := t' }) e]
    refine ⟨⟨_, items', _, hr, hm.trans h2, hr2, hm2.trans h4, ?_, hitems⟩, ?_⟩
    · intro p hp
      unfold Lru.push at hp
      split at hp
      · rcases List.mem_cons.1 hp with rfl | hp
        · exact hv
        · exact h5 p (mem_without.1 hp).1
      · split at hp
        · rcases List.mem_cons.1 (List.mem_of_mem_take hp) with rfl | hp
          · exact hv
          · exact h5 p hp
        · exact h5 p hp
    · unfold Lru.push
      by_cases hx : (s.items.lookup k).isSome = true
      · rw [if_pos hx]; exact ⟨_, rfl⟩
      · rw [if_neg hx]; cases a <;> exact ⟨_, rfl⟩

theorem remove_spec {n : Nat} {P : K × V → Prop} {c : HybridCache K V} (h : Holds n P c) (k : K)
    (l : Bool) : Holds n (fun p => P p ∧ p.1 ≠ k) (HybridCache.remove k l c).2 ∧
      (HybridCache.remove k l c).1 = .ok () := by
  obtain ⟨s, items, cnt, h1, h2, h3, h4, h5, h6⟩ := h
  unfold HybridCache.remove
  obtain ⟨t', e, hr, hm, -⟩ := TopCache.remove_spec h3 k l
  obtain ⟨l', e2, hr2, hm2⟩ := LastCache.remove_spec h1 k l
  rw [PyM.bind_ok (onTop_ok e), onLast_ok (c := { c with top := t' }) e2]
  refine ⟨⟨_, _, _, hr2, hm2.trans h2, hr, hm.trans h4, ?_, ?_⟩, rfl⟩
  · exact fun p hp => ⟨h5 p (mem_without.1 hp).1, (mem_without.1 hp).2⟩
  · exact fun p hp => ⟨h6 p (mem_without.1 hp).1, (mem_without.1 hp).2⟩

theorem clear_spec {n : Nat} {P : K × V → Prop} {c : HybridCache K V} (h : Holds n P c)
    (l : Bool) : Holds n (fun _ => False) (c.clear l) := by
  obtain ⟨s, items, cnt, h1, h2, h3, h4, h5, h6⟩ := h
  obtain ⟨hr, hm⟩ := LastCache.clear_spec h1 l
  obtain ⟨hr2, hm2, -⟩ := TopCache.clear_spec h3 l
  exact ⟨_, _, _, hr, hm.trans h2, hr2, hm2.trans h4, by simp [Lru.clear], by simp⟩

theorem after (n m : Nat) (hn : 0 < n) (ops : List (CacheOp K V)) :
    Holds n (fun p => p.2 ∈ pushedSince p.1 ops)
      ((hybridCacheImpl K V).run (HybridCache.new n m) ops) := by
  refine history_induction (P := fun ops => Holds n (fun p => p.2 ∈ pushedSince p.1 ops)
      ((hybridCacheImpl K V).run (HybridCache.new n m) ops)) ?_ ?_ ops
  · exact holds_new n m hn _
  · intro ops op h
    rw [run_snoc]
    cases op with
    | get k =>
      refine ((get_spec h k).1).mono fun p hp => ?_
      rw [pushedSince_snoc]; exact hp
    | push k v a =>
      refine (push_spec (P := fun p => p.2 ∈ pushedSince p.1 (ops ++ [.push k v a]))
        (h.mono fun p hp => ?_) k v a ?_).1
      · rw [pushedSince_snoc]
        show p.2 ∈ if k = p.1 then _ else _
        split
        · exact List.mem_append_left _ hp
        · exact hp
      · show v ∈ pushedSince k _
        rw [pushedSince_snoc]
        simp
    | remove k l =>
      refine ((remove_spec h k l).1).mono fun p hp => ?_
      rw [pushedSince_snoc]
      show p.2 ∈ if k = p.1 then _ else _
      rw [if_neg (Ne.symm hp.2)]
      exact hp.1
    | clear l => exact (clear_spec h l).mono fun _ hp => hp.elim

theorem Holds.atMost {n : Nat} {P : K × V → Prop} {c : HybridCache K V} (h : Holds n P c) :
    (hybridCacheImpl K V).AtMost c (2 * n) := by
  obtain ⟨s, items, cnt, h1, h2, h3, h4, h5, h6⟩ := h
  intro ks hks hc
  have := nodup_subset_length hks (m := items.map Prod.fst ++ s.items.map Prod.fst) fun k hk => by
    have := hc k hk
    simp only [hybridCacheImpl, HybridCache.has, Bool.or_eq_true] at this
    rw [List.mem_append]
    exact this.imp (h3.answers.has_iff k).1 (h1.answers.has_iff k).1
  have b1 := h1.bound
  have b2 := h3.bound
  simp only [List.length_append, List.length_map] at this
  omega

/-- **C42, as far as it holds.** `get` of a cached key returns a value that was pushed for the key
since the key was removed, or the cache cleared, last; any other key raises `KeyError`. Missing:
that it is the value pushed last (`C42_outdated_value`). -/
theorem C42_get_pushed_partial (last top : Nat) (hn : 0 < last) (ops : List (CacheOp K V)) (k : K) :
    ((hybridCacheImpl K V).has ((hybridCacheImpl K V).run (HybridCache.new last top) ops) k = true →
      ∃ v, ((hybridCacheImpl K V).get k ((hybridCacheImpl K V).run (HybridCache.new last top) ops)).1
        = .ok v ∧ v ∈ pushedSince k ops) ∧
    ((hybridCacheImpl K V).has ((hybridCacheImpl K V).run (HybridCache.new last top) ops) k = false →
      ((hybridCacheImpl K V).get k ((hybridCacheImpl K V).run (HybridCache.new last top) ops)).1
        = .error .keyError) :=
  (get_spec (after last top hn ops) k).2

/-- **C42, as far as it holds.** If every push for a key between two removals carries the same
value, `get` returns the value pushed last. -/
theorem C42_get_last_pushed_partial (last top : Nat) (hn : 0 < last) (ops : List (CacheOp K V))
    (k : K) (v : V) (hv : ∀ w ∈ pushedSince k ops, w = v)
    (h : (hybridCacheImpl K V).has ((hybridCacheImpl K V).run (HybridCache.new last top) ops) k = true) :
    ((hybridCacheImpl K V).get k ((hybridCacheImpl K V).run (HybridCache.new last top) ops)).1 = .ok v := by
  obtain ⟨w, h1, h2⟩ := (C42_get_pushed_partial last top hn ops k).1 h
  rw [h1, hv w h2]

/-- **C42, as far as it holds.** At most twice `last_cache_size` keys are cached. Missing: at most
`last_cache_size + top_cache_size` (`C42_size_exceeded`). -/
theorem C42_bounded_partial (last top : Nat) (hn : 0 < last) (ops : List (CacheOp K V)) :
    (hybridCacheImpl K V).AtMost ((hybridCacheImpl K V).run (HybridCache.new last top) ops)
      (2 * last) :=
  (after last top hn ops).atMost

/-- **C42, as far as it holds.** Only looking up a missing key raises. -/
theorem C42_raises_partial (last top : Nat) (hn : 0 < last) (ops : List (CacheOp K V))
    (op : CacheOp K V) :
    (hybridCacheImpl K V).raised ((hybridCacheImpl K V).run (HybridCache.new last top) ops) op =
      match op with
      | .get k => if (hybridCacheImpl K V).has
          ((hybridCacheImpl K V).run (HybridCache.new last top) ops) k then none else some .keyError
      | _ => none := by
  have h := after last top hn ops
  cases op with
  | get k =>
    obtain ⟨-, h1, h2⟩ := get_spec h k
    show (match (HybridCache.get k ((hybridCacheImpl K V).run (HybridCache.new last top) ops)).1 with
      | .error e => some e | .ok _ => none) =
      if HybridCache.has ((hybridCacheImpl K V).run (HybridCache.new last top) ops) k = true
        then none else some .keyError
    cases hh : HybridCache.has ((hybridCacheImpl K V).run (HybridCache.new last top) ops) k with
    | true => obtain ⟨v, e, -⟩ := h1 hh; rw [e]; rfl
    | false => rw [h2 hh]; rfl
  | push k v a =>
    obtain ⟨-, r, e⟩ := push_spec (P := fun _ => True) (h.mono fun _ _ => trivial) k v a trivial
    show (match (HybridCache.push k v a _).1 with | .error e => some e | .ok _ => none) = none
    rw [e]
  | remove k l =>
    obtain ⟨-, e⟩ := remove_spec h k l
    show (match (HybridCache.remove k l _).1 with | .error e => some e | .ok _ => none) = none
    rw [e]
  | clear l => rfl

/-- The full first half of C42. -/
def NeverOutdated (last top : Nat) : Prop :=
  ∀ (ops : List (CacheOp Nat Nat)) k v,
    ((hybridCacheImpl Nat Nat).get k ((hybridCacheImpl Nat Nat).run (HybridCache.new last top) ops)).1
      = .ok v → lastPushed k ops = some v

/-- **C42 is false: an outdated value.** Key 2 is pushed with value 20 into the last-access cache
(the top-access cache is full), pushed again with 21 into the top-access cache, and displaced from
there: `get` now returns 20. -/
theorem C42_outdated_value : ¬ NeverOutdated 2 2 := by
  intro h
  have := h [.push 1 10 true, .push 5 50 true, .push 2 20 true, .push 2 21 true, .push 5 50 true,
    .push 5 50 true] 2 20
    (by decide)
  revert this
  decide

/-- **C42 is false: the sizes.** The top-access cache is created with the size of the last-access
cache, so four keys are cached although two are allowed. -/
theorem C42_size_exceeded :
    ¬ ∀ (last top : Nat) (ops : List (CacheOp Nat Nat)), 0 < last →
      (hybridCacheImpl Nat Nat).AtMost
        ((hybridCacheImpl Nat Nat).run (HybridCache.new last top) ops) (last + top) := by
  intro h
  have := h 2 0 [.push 1 1 true, .push 2 2 true, .push 3 3 true, .push 4 4 true] (by decide)
    [1, 2, 3, 4] (by decide) (by decide)
  revert this
  decide

/-- Size zero raises on the first push, as for the last-access cache. -/
theorem C42_size_zero_raises (top : Nat) (k : K) (v : V) :
    (hybridCacheImpl K V).raised (HybridCache.new 0 top) (.push k v true) = some .attributeError := by
  have e : onTop (TopCache.push k v true) (HybridCache.new 0 top) =
      ((.error .attributeError : PyRes Bool), (onTop (TopCache.push k v true) (HybridCache.new 0 top)).2) := by
    simp [onTop, TopCache.push, TopCache.increment, TopCache.replaceTail, dset, HybridCache.new,
      bind, PyM.bind]
  show (match (HybridCache.push k v true _).1 with | .error e => some e | .ok _ => none) = _
  unfold HybridCache.push
  rw [PyM.bind_err e]

/-- The hypotheses are met: after these calls key 2 is cached by the last-access cache only. -/
example :
    (hybridCacheImpl Nat Nat).has ((hybridCacheImpl Nat Nat).run (HybridCache.new 1 5)
      [.push 1 10 true, .push 2 20 true]) 2 = true ∧
    ∀ w ∈ pushedSince 2 [.push 1 10 true, .push 2 20 true, .get (V := Nat) 1], w = 20 := by
  decide

end HybridCache
end Pyzim
