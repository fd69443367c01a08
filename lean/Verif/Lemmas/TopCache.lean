import Verif.Lemmas.Cache

/-! # The top-access cache as a list of pairs -/

namespace Pyzim
variable {K V : Type} [DecidableEq K]

theorem perm_lookup {l l' : List (K × V)} (hn : KeysNodup l) (hp : l'.Perm l) (k : K) :
    l'.lookup k = l.lookup k := by
  have hn' : KeysNodup l' := (hp.map Prod.fst).nodup_iff.2 hn
  cases h : l.lookup k with
  | none =>
    rw [lookup_eq_none] at h ⊢
    exact fun hm => h ((hp.map Prod.fst).mem_iff.1 hm)
  | some v =>
    rw [lookup_eq_some hn] at h
    rw [lookup_eq_some hn']
    exact hp.mem_iff.2 h

/-- One more access to `k`. -/
def bump (cnt : K → Nat) (k : K) : K → Nat := fun j => if j = k then cnt j + 1 else cnt j

namespace TopCache

/-- The cache holds the pairs `items` and has counted the accesses `cnt`. -/
structure Repr (c : TopCache K V) (items : List (K × V)) (cnt : K → Nat) : Prop where
  ex : ∃ l, DList.Rep c.list l ∧ Indexed c.key2le l ∧ items = l.map Prod.snd
  bound : items.length ≤ c.maxSize
  pos : 0 < c.maxSize
  leave : c.hasLeave = true
  counts : ∀ k, c.numAccesses k = if cnt k = 0 then none else some (cnt k)
  used : ∀ p ∈ items, 0 < cnt p.1

theorem Repr.keysNodup {c : TopCache K V} {items : List (K × V)} {cnt : K → Nat}
    (h : Repr c items cnt) : KeysNodup items := by
  obtain ⟨l, hr, hi, e⟩ := h.ex
  rw [e]; exact hi.keysNodup hr.nodup

theorem Repr.has {c : TopCache K V} {items : List (K × V)} {cnt : K → Nat}
    (h : Repr c items cnt) (k : K) : c.has k = (items.lookup k).isSome := by
  obtain ⟨l, hr, hi, e⟩ := h.ex
  unfold TopCache.has
  rw [e, hi.lookup hr.nodup]

theorem Repr.toList {c : TopCache K V} {items : List (K × V)} {cnt : K → Nat}
    (h : Repr c items cnt) : c.list.toList = items := by
  obtain ⟨l, hr, hi, e⟩ := h.ex
  rw [e, DList.toList_spec hr]

theorem repr_new (n : Nat) (hn : 0 < n) :
    Repr ({ maxSize := n } : TopCache K V) [] (fun _ => 0) :=
  ⟨⟨[], DList.rep_nil, Indexed.nil, rfl⟩, by simp, hn, rfl, by simp, by simp⟩

theorem bump_pos {cnt : K → Nat} {k j : K} (h : 0 < cnt j) : 0 < bump cnt k j := by
  unfold bump; split <;> omega

theorem bump_self (cnt : K → Nat) (k : K) : 0 < bump cnt k k := by
  unfold bump; rw [if_pos rfl]; omega

theorem increment_spec {c : TopCache K V} {items : List (K × V)} {cnt : K → Nat}
    (h : Repr c items cnt) (k : K) :
    ∃ c' items', increment k c = (.ok (), c') ∧ Repr c' items' (bump cnt k) ∧ items'.Perm items ∧
      c'.maxSize = c.maxSize ∧ c'.left = c.left := by
  have hn : ((c.numAccesses k).map (· + 1)).getD 1 = bump cnt k k := by
    rw [h.counts k]
    unfold bump
    rw [if_pos rfl]
    by_cases h0 : cnt k = 0 <;> simp [h0]
  have hc : ∀ j, dset c.numAccesses k (bump cnt k k) j =
      if bump cnt k j = 0 then none else some (bump cnt k j) := by
    intro j
    unfold dset
    by_cases hj : j = k
    · subst hj
      have := bump_self cnt j
      rw [if_pos rfl, if_neg (by omega)]
    · rw [if_neg hj, h.counts j]
      simp [bump, hj]
  have hu : ∀ p ∈ items, 0 < bump cnt k p.1 := fun p hp => bump_pos (h.used p hp)
  unfold increment
  simp only [hn]
  cases hk : c.key2le k with
  | none =>
    exact ⟨_, items, rfl, ⟨h.ex, h.bound, h.pos, h.leave, hc, hu⟩, .refl _, rfl, rfl⟩
  | some i =>
    obtain ⟨l, hr, hi, e⟩ := h.ex
    obtain ⟨a, b, v, rfl⟩ := hi.split hk
    have hh := DList.heap_rep hr
    have hprev : c.list.prevOf i = DList.lastId none a := by simp [DList.prevOf, hh]
    simp only [hprev]
    rcases List.eq_nil_or_concat a with rfl | ⟨a, q, rfl⟩
    · exact ⟨_, items, rfl, ⟨⟨_, hr, hi, e⟩, h.bound, h.pos, h.leave, hc, hu⟩, .refl _, rfl, rfl⟩
    · rw [List.concat_eq_append] at *
      have hq := (DList.valueOf_rep hr (p := q) (by simp)).2
      have hqm : q.2 ∈ items := by rw [e]; simp
      have hq0 := hu _ hqm
      simp only [DList.lastId_concat, hq, Option.bind, hc q.2.1]
      rw [if_neg (by omega)]
      simp only
      by_cases hlt : bump cnt k q.2.1 < bump cnt k k
      · rw [if_pos hlt]
        have hr' : DList.Rep c.list (a ++ q :: (i, (k, v)) :: b) := by simpa using hr
        obtain ⟨hr2, -⟩ := DList.swapForward_rep hr'
        have hperm : (a ++ (i, (k, v)) :: q :: b).Perm (a ++ [q] ++ (i, (k, v)) :: b) := by
          rw [List.append_assoc]
          exact (List.Perm.swap q (i, (k, v)) b).append_left a
        refine ⟨_, (a ++ (i, (k, v)) :: q :: b).map Prod.snd, rfl,
          ⟨⟨_, hr2, hi.swap fun p => hperm.mem_iff, rfl⟩, ?_, h.pos, h.leave, hc, ?_⟩, ?_, rfl, rfl⟩
        · have := h.bound
          rw [e] at this
          rw [(hperm.map Prod.snd).length_eq]
          exact this
        · intro p hp
          exact hu p (by rw [e]; exact (hperm.map Prod.snd).mem_iff.1 hp)
        · rw [e]; exact hperm.map _
      · rw [if_neg hlt]
        exact ⟨_, items, rfl, ⟨⟨_, hr, hi, e⟩, h.bound, h.pos, h.leave, hc, hu⟩, .refl _, rfl, rfl⟩

theorem get_spec {c : TopCache K V} {items : List (K × V)} {cnt : K → Nat}
    (h : Repr c items cnt) (k : K) :
    ∃ c' items', TopCache.get k c = ((match items.lookup k with
        | some v => .ok v | none => .error .keyError), c') ∧
      Repr c' items' (bump cnt k) ∧ items'.Perm items ∧ c'.maxSize = c.maxSize ∧ c'.left = c.left := by
  obtain ⟨c', items', h1, h2, h3, h4, h5⟩ := increment_spec h k
  refine ⟨c', items', ?_, h2, h3, h4, h5⟩
  unfold TopCache.get
  rw [PyM.bind_ok h1, PyM.get_bind, ← perm_lookup h.keysNodup h3]
  have hh := h2.has k
  have hkn := h2.keysNodup
  unfold TopCache.has at hh
  cases hk : c'.key2le k with
  | none =>
    rw [hk] at hh
    have : items'.lookup k = none := by simpa using hh.symm
    rw [this]; rfl
  | some i =>
    obtain ⟨l, hr, hi, e⟩ := h2.ex
    obtain ⟨a, b, v, rfl⟩ := hi.split hk
    have hv := (DList.valueOf_rep hr (p := (i, (k, v))) (by simp)).2
    have hlk : items'.lookup k = some v := by
      rw [lookup_eq_some hkn, e]; simp
    simp only [hv, hlk, PyM.pure_apply]

/-- Appending an element for a new key. -/
theorem addNew_spec {c : TopCache K V} {l : List (Nat × (K × V))} (hr : DList.Rep c.list l)
    (hi : Indexed c.key2le l) {k : K} (hk : c.key2le k = none) (v : V) :
    ∃ i, DList.Rep (addNew k v c).list (l ++ [(i, (k, v))]) ∧
      Indexed (addNew k v c).key2le (l ++ [(i, (k, v))]) := by
  refine ⟨_, (DList.append_rep hr (k, v)).2, ?_⟩
  exact Indexed.insert (a := l) (b := []) (by simpa using hi) hk _ v

/-- What `push` does, apart from the order of the pairs. -/
inductive Pushed (k : K) (v : V) (allow : Bool) (n : Nat) (cnt : K → Nat) (items : List (K × V)) :
    Bool → List (K × V) → List (K × V) → Prop
  /-- the key is known: its value is replaced -/
  | update {items' : List (K × V)} (h : (items.lookup k).isSome)
      (hp : items'.Perm ((k, v) :: Lru.without k items)) :
      Pushed k v allow n cnt items true items' []
  /-- there is room -/
  | room {items' : List (K × V)} (h : items.lookup k = none) (hl : items.length < n)
      (hp : items'.Perm ((k, v) :: items)) :
      Pushed k v allow n cnt items true items' []
  /-- the pair `old`, accessed less often, is replaced -/
  | replace {items' : List (K × V)} (h : items.lookup k = none) (hl : items.length = n)
      (ha : allow = true) {old : K × V} {rest : List (K × V)} (hi : items.Perm (old :: rest))
      (hc : cnt old.1 < cnt k) (hp : items'.Perm ((k, v) :: rest)) :
      Pushed k v allow n cnt items true items' [old]
  /-- the pair is not cached -/
  | refuse {items' : List (K × V)} (h : items.lookup k = none) (hp : items'.Perm items) :
      Pushed k v allow n cnt items false items' []

theorem push_spec {c : TopCache K V} {items : List (K × V)} {cnt : K → Nat}
    (h : Repr c items cnt) (k : K) (v : V) (al : Bool) :
    ∃ c' r items' gone, TopCache.push k v al c = (.ok r, c') ∧
      Repr c' items' (bump cnt k) ∧ Pushed k v al c.maxSize (bump cnt k) items r items' gone ∧
      c'.maxSize = c.maxSize ∧ c'.left = c.left ++ gone := by
  obtain ⟨c1, items1, h1, h2, h3, h4, h5⟩ := increment_spec h k
  have hkn := h2.keysNodup
  have hhas := h2.has k
  unfold TopCache.has at hhas
  have hb := bump_self cnt k
  have hcnt : c1.numAccesses k = some (bump cnt k k) := by
    rw [h2.counts k, if_neg (by omega)]
  have hlk := perm_lookup h.keysNodup h3 k
  unfold TopCache.push
  rw [PyM.bind_ok h1]
  obtain ⟨l, hr, hi, e⟩ := h2.ex
  -- the value update after a successful insertion
  have finish : ∀ (c2 : TopCache K V) (a b : List (Nat × (K × V))) (i : Nat) (w : V),
      replaceTail k v al c1 = (.ok true, c2) →
      DList.Rep c2.list (a ++ (i, (k, w)) :: b) → Indexed c2.key2le (a ++ (i, (k, w)) :: b) →
      DList.Rep (c2.list.upd i fun n => { n with value := (k, v) }) (a ++ (i, (k, v)) :: b) ∧
      Indexed c2.key2le (a ++ (i, (k, v)) :: b) ∧
      (replaceTail k v al >>= fun inCache => if inCache = true then do
          let c ← PyM.get
          match c.key2le k with
          | none => PyM.raise .keyError
          | some i => do
            PyM.modify fun c => { c with list := c.list.upd i fun n => { n with value := (k, v) } }
            pure inCache
        else pure inCache) c1 =
        (.ok true, { c2 with list := c2.list.upd i fun n => { n with value := (k, v) } }) := by
    intro c2 a b i w hrt hr2 hi2
    refine ⟨DList.setValue_rep hr2 (k, v), ?_, ?_⟩
    · constructor
      · intro p hp
        simp only [List.mem_append, List.mem_cons] at hp
        rcases hp with hp | rfl | hp
        · exact hi2.mem p (by simp [hp])
        · exact hi2.mem (i, (k, w)) (by simp)
        · exact hi2.mem p (by simp [hp])
      · intro k' j hj
        obtain ⟨u, hu⟩ := hi2.of k' j hj
        simp only [List.mem_append, List.mem_cons, Prod.mk.injEq] at hu ⊢
        rcases hu with hu | ⟨rfl, rfl, rfl⟩ | hu
        · exact ⟨u, .inl hu⟩
        · exact ⟨v, .inr (.inl ⟨rfl, rfl, rfl⟩)⟩
        · exact ⟨u, .inr (.inr hu)⟩
    · rw [PyM.bind_ok hrt]
      have hk2 : c2.key2le k = some i := hi2.mem (i, (k, w)) (by simp)
      simp only [if_true, PyM.get_bind, hk2, PyM.modify_bind, PyM.pure_apply]
  cases hk : c1.key2le k with
  | some i =>
    have hrt : replaceTail k v al c1 = (.ok true, c1) := by
      unfold replaceTail
      simp only [hcnt, hk, Option.isSome_some, if_true]
    obtain ⟨a, b, w, rfl⟩ := hi.split hk
    obtain ⟨f1, f2, f3⟩ := finish c1 a b i w hrt hr hi
    have he : items1 = a.map Prod.snd ++ (k, w) :: b.map Prod.snd := by rw [e]; simp
    have hlk1 : items1.lookup k = some w := by rw [lookup_eq_some hkn, he]; simp
    refine ⟨_, true, a.map Prod.snd ++ (k, v) :: b.map Prod.snd, [], f3,
      ⟨⟨_, f1, f2, by simp⟩, ?_, h2.pos, h2.leave, h2.counts, ?_⟩, ?_, h4, by simpa using h5⟩
    · have := h2.bound
      rw [he] at this
      simpa using this
    · intro p hp
      simp only [List.mem_append, List.mem_cons] at hp
      rcases hp with hp | rfl | hp
      · exact h2.used p (by rw [he]; simp [hp])
      · exact hb
      · exact h2.used p (by rw [he]; simp [hp])
    · refine .update (by rw [← hlk, hlk1]; rfl) ?_
      have hw : Lru.without k items1 = a.map Prod.snd ++ b.map Prod.snd := by
        rw [he] at hkn ⊢; exact without_mid hkn
      refine (List.perm_middle).trans (List.Perm.cons _ ?_)
      rw [← hw]
      exact h3.filter _
  | none =>
    rw [hk] at hhas
    have hnone1 : items1.lookup k = none := by simpa using hhas.symm
    have hnone : items.lookup k = none := by rw [← hlk, hnone1]
    have hlen : c1.list.length = (items.length : Int) := by
      rw [hr.length, ← h3.length_eq, e]; simp
    by_cases hroom : c1.list.length < (c1.maxSize : Int)
    · have hrt : replaceTail k v al c1 = (.ok true, addNew k v c1) := by
        unfold replaceTail
        simp only [hcnt, hk, Option.isSome_none, Bool.false_eq_true, if_false, if_pos hroom]
      obtain ⟨i, hr2, hi2⟩ := addNew_spec hr hi hk v
      obtain ⟨f1, f2, f3⟩ := finish _ l [] i v hrt hr2 hi2
      refine ⟨_, true, items1 ++ [(k, v)], [], f3,
        ⟨⟨_, f1, f2, by rw [e]; simp⟩, ?_, h2.pos, h2.leave, h2.counts, ?_⟩, ?_, h4,
        (h5.trans (List.append_nil _).symm : c1.left = _)⟩
      · show (items1 ++ [(k, v)]).length ≤ c1.maxSize
        rw [List.length_append, h3.length_eq]
        simp only [List.length_cons, List.length_nil]
        omega
      · intro p hp
        rcases List.mem_append.1 hp with hp | hp
        · exact h2.used p hp
        · simp at hp; subst hp; exact hb
      · refine .room hnone (by omega) ?_
        exact (List.perm_append_singleton _ _).trans (List.Perm.cons _ h3)
    · have hfull : items.length = c.maxSize := by
        have := h2.bound
        rw [h3.length_eq, h4] at this
        rw [h4] at hroom
        omega
      rcases List.eq_nil_or_concat l with rfl | ⟨l', q, rfl⟩
      · have := h.pos
        have h0 : items1 = [] := by rw [e]; rfl
        rw [← h3.length_eq, h0] at hfull
        simp at hfull; omega
      · rw [List.concat_eq_append] at *
        have ht : c1.list.tail = some q.1 := by rw [hr.tail]; simp
        have hv := (DList.valueOf_rep hr (p := q) (by simp)).2
        have hqm : q.2 ∈ items1 := by rw [e]; simp
        have hq0 := h2.used _ hqm
        have hqc : c1.numAccesses q.2.1 = some (bump cnt k q.2.1) := by
          rw [h2.counts, if_neg (by omega)]
        have he : items1 = l'.map Prod.snd ++ [q.2] := by rw [e]; simp
        by_cases hlt : bump cnt k q.2.1 < bump cnt k k ∧ al = true
        · obtain ⟨d', hd, hr', hfr⟩ := DList.removeLast_rep hr
          have hi' := Indexed.erase (b := []) hi hr.nodup
          rw [List.append_nil] at hi'
          have hk' : ddel c1.key2le q.2.1 k = none := by
            unfold ddel; split
            · rfl
            · exact hk
          obtain ⟨i, hr2, hi2⟩ := addNew_spec (c := { c1 with list := d', key2le := ddel c1.key2le q.2.1 })
            hr' hi' hk' v
          have hrt : replaceTail k v al c1 = (.ok true,
              { maxSize := c1.maxSize
                list := (addNew k v { c1 with list := d', key2le := ddel c1.key2le q.2.1 }).list
                key2le := (addNew k v { c1 with list := d', key2le := ddel c1.key2le q.2.1 }).key2le
                numAccesses := c1.numAccesses
                hasLeave := c1.hasLeave
                left := c1.left ++ [q.2] }) := by
            unfold replaceTail
            simp only [hcnt, hk, Option.isSome_none, Bool.false_eq_true, if_false, if_neg hroom, ht,
              Option.bind, hv, hqc, if_pos hlt, hd]
            rw [if_pos (show (addNew k v { c1 with list := d', key2le := ddel c1.key2le q.2.1 }).hasLeave = true
              from h2.leave)]
            rfl
          obtain ⟨f1, f2, f3⟩ := finish _ l' [] i v hrt hr2 hi2
          refine ⟨_, true, l'.map Prod.snd ++ [(k, v)], [q.2], f3,
            ⟨⟨_, f1, f2, by simp⟩, ?_, h2.pos, h2.leave, h2.counts, ?_⟩, ?_, h4, ?_⟩
          · show (l'.map Prod.snd ++ [(k, v)]).length ≤ c1.maxSize
            have := h2.bound
            rw [he] at this
            simpa using this
          · intro p hp
            rcases List.mem_append.1 hp with hp | hp
            · exact h2.used p (by rw [he]; simp only [List.mem_append]; exact .inl hp)
            · simp at hp; subst hp; exact hb
          · refine .replace hnone hfull hlt.2 (old := q.2) (rest := l'.map Prod.snd) ?_ hlt.1 ?_
            · refine h3.symm.trans ?_
              rw [he]
              exact List.perm_append_singleton _ _
            · exact List.perm_append_singleton _ _
          · show c1.left ++ [q.2] = _
            rw [h5]
        · have hrt : replaceTail k v al c1 = (.ok false, c1) := by
            unfold replaceTail
            simp only [hcnt, hk, Option.isSome_none, Bool.false_eq_true, if_false, if_neg hroom, ht,
              Option.bind, hv, hqc, if_neg hlt]
          rw [PyM.bind_ok hrt]
          exact ⟨c1, false, items1, [], rfl, h2, .refuse hnone h3, h4, by simpa using h5⟩

theorem remove_spec {c : TopCache K V} {items : List (K × V)} {cnt : K → Nat}
    (h : Repr c items cnt) (k : K) (lv : Bool) :
    ∃ c', TopCache.remove k lv c = (.ok (), c') ∧ Repr c' (Lru.without k items) cnt ∧
      c'.maxSize = c.maxSize ∧ c'.left = c.left ++ if lv then Lru.only k items else [] := by
  unfold TopCache.remove
  have hhas := h.has k
  unfold TopCache.has at hhas
  cases hk : c.key2le k with
  | none =>
    rw [hk] at hhas
    have hnone : items.lookup k = none := by simpa using hhas.symm
    refine ⟨c, rfl, ?_, rfl, ?_⟩
    · rw [without_absent hnone]; exact h
    · rw [only_absent hnone]; cases lv <;> simp
  | some i =>
    have hkn := h.keysNodup
    obtain ⟨l, hr, hi, e⟩ := h.ex
    obtain ⟨a, b, v, rfl⟩ := hi.split hk
    obtain ⟨d', hd, hr', hfr, hval, hn⟩ := DList.removeElement_rep hr
    have he : items = a.map Prod.snd ++ (k, v) :: b.map Prod.snd := by rw [e]; simp
    have hb : (a.map Prod.snd ++ b.map Prod.snd).length ≤ c.maxSize := by
      have := h.bound
      rw [he] at this
      simp only [List.length_append, List.length_cons] at this ⊢
      omega
    have hu : ∀ p ∈ a.map Prod.snd ++ b.map Prod.snd, 0 < cnt p.1 := by
      intro p hp
      refine h.used p ?_
      rw [he]
      simp only [List.mem_append, List.mem_cons] at hp ⊢
      exact hp.elim .inl fun h => .inr (.inr h)
    rw [he] at hkn
    have hi' := hi.erase hr.nodup
    simp only [hd]
    rw [he, without_mid hkn, only_mid hkn]
    cases lv with
    | false =>
      refine ⟨_, rfl, ⟨⟨_, hr', hi', by simp⟩, hb, h.pos, h.leave, h.counts, hu⟩, rfl, by simp⟩
    | true =>
      simp only [hval, callLeave, h.leave, if_true]
      exact ⟨_, rfl, ⟨⟨_, hr', hi', by simp⟩, hb, h.pos, rfl, h.counts, hu⟩, rfl, rfl⟩

theorem clear_spec {c : TopCache K V} {items : List (K × V)} {cnt : K → Nat}
    (h : Repr c items cnt) (lv : Bool) :
    Repr (c.clear lv) [] (fun _ => 0) ∧ (c.clear lv).maxSize = c.maxSize ∧
      (c.clear lv).left = c.left ++ if lv then items else [] := by
  refine ⟨⟨⟨[], DList.rep_clear _, Indexed.nil, rfl⟩, by simp, h.pos, h.leave, by simp [clear], by simp⟩, rfl, ?_⟩
  show (if lv && c.hasLeave then c.left ++ c.list.toList else c.left) = _
  rw [h.leave, h.toList]
  cases lv <;> simp

end TopCache
end Pyzim
