import Verif.Model.Caching
import Verif.Lemmas.ClusterPhases
import Verif.Lemmas.Cache

/-! # A writable archive with a cache of clusters -/

namespace Pyzim
namespace Caching
open Zim (Row Stored Used KeepsBytes InCluster Holding SameButClusters)

variable {K : Type}

/-- What is expected of cluster objects: `Obj o st v` says that the object is the cluster stored at `st`, and that users
see the blobs `v`; `Good b v` that the bytes `b` are a cluster with the blobs `v`. -/
structure Contract (S : CacheSetup K) (Obj : K → Stored → List Bytes → Prop) (Good : Bytes → List Bytes → Prop) : Prop where
  clean : ∀ {o st v}, Obj o st v → S.dirty o = false → Good st.2 v
  offset : ∀ {o st v}, Obj o st v → S.O.offset o = some st.1
  oldSize : ∀ {o st v}, Obj o st v → S.O.oldSize o = st.2.length
  writes : ∀ {o st v} {z : Zim} {size}, Obj o st v → Holds z.file st.1 st.2 → S.O.diskSize o z.file = .ok size →
    ∃ chunks, S.O.Writes o z.file (InCluster st) chunks ∧ chunks.flatten ≠ [] ∧ chunks.length < S.bound o z ∧
      ∀ file' off c', Holds file' off chunks.flatten → S.O.afterFlush (S.O.setOffset o off) file' = .ok c' →
        Obj c' (off, chunks.flatten) v ∧ S.dirty c' = false

variable {S : CacheSetup K} {Obj : K → Stored → List Bytes → Prop} {Good : Bytes → List Bytes → Prop} {rows : List Row}

/-- Cached cluster objects `L` of an archive with the clusters `cs`; `Ex` are the clusters that are being written. -/
structure CInv (Obj : K → Stored → List Bytes → Prop) (Good : Bytes → List Bytes → Prop) (rows : List Row)
    (s : Caching K) (cs : List Stored) (rest : Nat → Prop) (V : List (List Bytes)) (Ex : Nat → Prop) (L : List (Nat × Nat)) :
    Prop where
  base : Holding s.arch.zim rows cs rest
  len : V.length = cs.length
  item : ∀ p ∈ L, ∃ i b o v, cs[i]? = some (p.1, b) ∧ ¬ Ex i ∧ V[i]? = some v ∧ s.objs[p.2]? = some o ∧ Obj o (p.1, b) v
  refs : (L.map Prod.snd).Nodup
  keys : (L.map Prod.fst).Nodup
  settled : ∀ i st v, cs[i]? = some st → V[i]? = some v → ¬ Ex i → st.1 ∈ L.map Prod.fst ∨ Good st.2 v

/-- The dirty flag of an object. -/
def Flag (S : CacheSetup K) (s : Caching K) (r : Nat) (d : Bool) : Prop := ∃ o, s.objs[r]? = some o ∧ S.dirty o = d

/-- What has happened when the cached objects `W` were written: new offsets `Q` for them, and of the others `B'` are
still cached. -/
structure Done (S : CacheSetup K) (Obj : K → Stored → List Bytes → Prop) (Good : Bytes → List Bytes → Prop) (rows : List Row)
    (n : Nat) (s s' : Caching K) (cs : List Stored) (rest : Nat → Prop) (V : List (List Bytes)) (Ex : Nat → Prop)
    (P L B : List (Nat × Nat)) (cs' : List Stored) (Q B' W : List (Nat × Nat)) : Prop where
  pre : B' <+: B
  repr : LastCache.Repr s'.cache ⟨Q ++ P ++ B', []⟩
  size : s'.cache.maxSize = n
  inv : CInv Obj Good rows s' cs' rest V Ex (Q ++ B')
  objs : ∀ r, r ∉ W.map Prod.snd → s'.objs[r]? = s.objs[r]?
  len : s'.objs.length = s.objs.length
  kept : ∀ (i : Nat) (st : Stored), cs[i]? = some st → st.1 ∉ W.map Prod.fst → cs'[i]? = some st
  bytes : KeepsBytes rest s.arch.zim.file s'.arch.zim.file
  same : SameButClusters s.arch.zim s'.arch.zim
  num : s'.arch.zim.clusterNum = s.arch.zim.clusterNum
  arch : s'.arch = { s.arch with zim := s'.arch.zim }
  marked : s.arch.zim.clusters.dirty = true ∨ W ≠ [] → s'.arch.zim.clusters.dirty = true
  written : ∀ p ∈ W, p ∈ L ∧ Flag S s p.2 true ∧ p ∉ B'
  fresh : ∀ q ∈ Q, q.2 ∈ W.map Prod.snd ∧ Flag S s' q.2 false
  still : W = [] → s'.arch = s.arch ∧ cs' = cs

theorem CInv.perm {s : Caching K} {cs : List Stored} {rest : Nat → Prop} {V : List (List Bytes)} {Ex : Nat → Prop}
    {L L' : List (Nat × Nat)} (h : CInv Obj Good rows s cs rest V Ex L) (hp : L.Perm L') :
    CInv Obj Good rows s cs rest V Ex L' where
  base := h.base
  len := h.len
  item p hp' := h.item p (hp.mem_iff.2 hp')
  refs := (hp.map _).nodup_iff.1 h.refs
  keys := (hp.map _).nodup_iff.1 h.keys
  settled i st v h1 h2 h3 := (h.settled i st v h1 h2 h3).imp (fun h => (hp.map _).mem_iff.1 h) id

theorem getObj_ok {r : Nat} {s : Caching K} {o : K} (h : s.objs[r]? = some o) : getObj r s = (.ok o, s) := by
  unfold getObj; rw [h]

theorem getObj_inv {r : Nat} {s s' : Caching K} {o : K} (h : getObj r s = (.ok o, s')) : s.objs[r]? = some o ∧ s' = s := by
  unfold getObj at h
  cases ho : s.objs[r]? with
  | none => rw [ho] at h; exact absurd (congrArg Prod.fst h) (by simp)
  | some o' =>
    rw [ho] at h
    have h1 := congrArg Prod.fst h
    have h2 := congrArg Prod.snd h
    simp only [Except.ok.injEq] at h1
    exact ⟨by rw [h1], h2.symm⟩

/-- a key that is not cached is pushed -/
theorem push_absent {s : Caching K} {items : List (Nat × Nat)} (h : LastCache.Repr s.cache ⟨items, []⟩) {k : Nat} (r : Nat)
    (hk : k ∉ items.map Prod.fst) :
    ∃ c, c.maxSize = s.cache.maxSize ∧ LastCache.Repr c ⟨((k, r) :: items).take s.cache.maxSize, []⟩ ∧
      onCache (LastCache.push k r true) s = (.ok (true, ((k, r) :: items).drop s.cache.maxSize), { s with cache := c }) := by
  have hrep : LastCache.Repr ({ s.cache with left := [] } : LastCache Nat Nat) ⟨items, []⟩ :=
    ⟨h.ex, h.bound, h.pos, h.leave, rfl⟩
  obtain ⟨c, h1, h2, h3⟩ := LastCache.push_spec hrep k r true
  have hl : items.lookup k = none := lookup_eq_none.2 hk
  have hpush : Lru.push s.cache.maxSize k r true (⟨items, []⟩ : Lru Nat Nat) = (.ok true,
      ⟨((k, r) :: items).take s.cache.maxSize, ((k, r) :: items).drop s.cache.maxSize⟩) := by
    unfold Lru.push
    simp [hl]
  simp only [hpush] at h1 h2
  refine ⟨{ c with left := [] }, h3, ⟨h2.ex, h2.bound, h2.pos, h2.leave, rfl⟩, ?_⟩
  unfold onCache
  simp only [h1]
  rw [h2.left]

/-- forgetting an offset -/
theorem forget_ok {s : Caching K} {items : List (Nat × Nat)} (h : LastCache.Repr s.cache ⟨items, []⟩) {o new : Nat}
    (hne : new ≠ o) : ∃ c, c.maxSize = s.cache.maxSize ∧ LastCache.Repr c ⟨Lru.without o items, []⟩ ∧
      forget (some o) new s = (.ok (), { s with cache := c }) := by
  have hrep : LastCache.Repr ({ s.cache with left := [] } : LastCache Nat Nat) ⟨items, []⟩ :=
    ⟨h.ex, h.bound, h.pos, h.leave, rfl⟩
  obtain ⟨c, h1, h2, h3⟩ := LastCache.remove_spec hrep o false
  refine ⟨{ c with left := [] }, h3, ⟨h2.ex, h2.bound, h2.pos, h2.leave, rfl⟩, ?_⟩
  unfold forget
  simp only [ne_eq, hne, not_false_eq_true, if_true]
  unfold onCache
  show PyM.bind _ _ s = _
  simp only [PyM.bind, h1]
  rfl

/-- Some clusters are being written (`P`); `x` leaves the cache, which now has `P` and `B`. -/
def ChainSpec (S : CacheSetup K) (Obj : K → Stored → List Bytes → Prop) (Good : Bytes → List Bytes → Prop) (rows : List Row)
    (n depth : Nat) : Prop :=
  ∀ (s s' : Caching K) (x : Nat × Nat) (P B : List (Nat × Nat)) (cs : List Stored) (rest : Nat → Prop) (V : List (List Bytes))
    (Ex : Nat → Prop), LastCache.Repr s.cache ⟨P ++ B, []⟩ → s.cache.maxSize = n → (∀ p ∈ P, rest p.1) →
    CInv Obj Good rows s cs rest V Ex (x :: B) →
    (Flag S s x.2 true → (P ++ B).length < n ∨ ∃ p ∈ B, Flag S s p.2 false) →
    onLeave S (write S depth) x s = (.ok (), s') →
    ∃ cs' Q B' W, Done S Obj Good rows n s s' cs rest V Ex P (x :: B) B cs' Q B' W ∧
      ∀ B1 B2, B = B1 ++ B2 → (Flag S s x.2 false ∨ ∃ p ∈ B2, Flag S s p.2 false) → B1 <+: B'

/-- `write_cluster` of a cached cluster -/
theorem write_old (hC : Contract S Obj Good) {n depth : Nat} (hch : ChainSpec S Obj Good rows n depth) {s s' : Caching K}
    {off r i k : Nat} {b : Bytes} {num : Option Int} {P B items : List (Nat × Nat)} {cs : List Stored} {rest : Nat → Prop}
    {V : List (List Bytes)} {Ex : Nat → Prop} (hrepr : LastCache.Repr s.cache ⟨items, []⟩) (hitems : Lru.without off items = P ++ B)
    (hn : s.cache.maxSize = n) (hP : ∀ p ∈ P, rest p.1) (hinv : CInv Obj Good rows s cs rest V Ex ((off, r) :: B))
    (hi : cs[i]? = some (off, b)) (hd : Flag S s r true) (hroom : (P ++ B).length < n ∨ ∃ p ∈ B, Flag S s p.2 false)
    (hnum : ∀ m ∈ num, m = (i : Int)) (hw : write S (depth + 1) r num s = (.ok k, s')) :
    k = i ∧ ∃ cs' Q B' W, Done S Obj Good rows n s s' cs rest V Ex P ((off, r) :: B) B cs' Q B' W ∧
      ∀ B1 B2, B = B1 ++ B2 → ((P ++ B).length < n ∨ ∃ p ∈ B2, Flag S s p.2 false) → B1 <+: B' := by
  obtain ⟨i', b', o, v, hi', hEx, hv, ho, hobj⟩ := hinv.item (off, r) List.mem_cons_self
  have hbase := hinv.base
  have : i' = i := hbase.distinct hi' hi rfl
  subst this
  rw [hi] at hi'
  simp only [Option.some.injEq, Prod.mk.injEq, true_and] at hi'
  subst hi'
  simp only at ho
  have hmem := List.mem_of_getElem? hi
  -- the call
  unfold write at hw
  have hnum0 : decide (∀ m ∈ num, 0 ≤ m) = true := by
    rw [decide_eq_true_iff]; intro m hm; rw [hnum m hm]; omega
  have hmut : s.arch.zim.mutable = true := hbase.rep.isMutable
  have hop : s.arch.zim.closed = false := hbase.rep.isOpen
  rw [hnum0, PyM.require_true_bind, PyM.get_bind, hmut, PyM.require_true_bind, hop] at hw
  simp only [Bool.not_false, PyM.require_true_bind] at hw
  rw [PyM.bind_ok (getObj_ok ho)] at hw
  cases hsz : S.O.diskSize o s.arch.zim.file with
  | error e =>
    rw [hsz] at hw
    obtain ⟨_, _, -, hw⟩ := PyM.bind_ok_iff.1 hw
    rw [PyM.lift_err_bind] at hw
    exact absurd (congrArg Prod.fst hw) (by simp)
  | ok size =>
  obtain ⟨chunks, hwr, hne, hfuel, hafter⟩ := hC.writes (z := s.arch.zim) hobj (hbase.held _ hmem) hsz
  have hsize : size = chunks.flatten.length := by
    have := hwr.size s.arch.zim.file (KeepsBytes.refl _ _)
    rw [hsz] at this
    injection this
  subst hsize
  rw [hwr.isBound, PyM.require_true_bind, hsz, PyM.lift_ok_bind, hC.offset hobj] at hw
  have hcn : onZim (K := K) (Zim.clusterNumber (some off) (num.map Int.toNat)) s = (.ok i', s) := by
    cases num with
    | none =>
      have := hbase.indexByOffset hi
      have hh : Zim.clusterIndexByOffset s.arch.zim off = .ok i' := this
      unfold onZim Zim.clusterNumber
      simp only [Option.map_none, PyM.get_bind, PyM.lift_apply, hh]
    | some m =>
      have hm := hnum m rfl
      subst hm
      rfl
  rw [PyM.bind_ok hcn] at hw
  have hown : ∀ x, InCluster (off, b) x → Used rows cs rest x := fun x hx => Or.inr (Or.inl ⟨_, hmem, hx⟩)
  obtain ⟨new, z1, ha, hwc, hl, hdata, hnew, hkeep, hsame1, hcl1, hnum1⟩ := hbase.lay hown hwr hne hfuel
  have hnewne : new ≠ off := fun e => hnew new ⟨Nat.le_refl _, by have := List.length_pos_iff.2 hne; simp only; omega⟩
    (Or.inr (Or.inl ⟨_, hmem, by rw [e]; exact ⟨Nat.le_refl _, by have := List.length_pos_iff.2 (hbase.nonempty _ hmem); simp only at this ⊢; omega⟩⟩))
  have ha' : onZim (K := K) (Zim.allocate chunks.flatten.length) s = (.ok new, { s with arch := { s.arch with
      zim := { s.arch.zim with space := (s.arch.zim.space.allocate chunks.flatten.length).2 } } }) := by
    unfold onZim
    rw [ha]
  rw [PyM.bind_ok ha'] at hw
  have hwc' : onZim (K := K) (Zim.writeChunks S.O o (S.bound o s.arch.zim) 0 new) { s with arch := { s.arch with
      zim := { s.arch.zim with space := (s.arch.zim.space.allocate chunks.flatten.length).2 } } } =
      (.ok (), { s with arch := { s.arch with zim := z1 } }) := by
    unfold onZim
    simp only [hwc]
  rw [PyM.bind_ok hwc'] at hw
  obtain ⟨c1, hc1, hrepr1, hf⟩ := forget_ok (s := { s with arch := { s.arch with zim := z1 } }) hrepr hnewne
  rw [PyM.bind_ok hf] at hw
  simp only at hc1 hf
  rw [hitems] at hrepr1
  obtain ⟨u1, s2, hpush, hw⟩ := PyM.bind_ok_iff.1 hw
  -- the objects while the cluster is being written
  have hoff : ∀ p ∈ B, p.1 ≠ off ∧ p.2 ≠ r := by
    intro p hp
    have h1 := hinv.keys
    have h2 := hinv.refs
    simp only [List.map_cons, List.nodup_cons] at h1 h2
    exact ⟨fun e => h1.1 (e ▸ List.mem_map_of_mem hp), fun e => h2.1 (e ▸ List.mem_map_of_mem hp)⟩
  have hinv1 : ∀ c, CInv Obj Good rows { s with arch := { s.arch with zim := z1 }, cache := c } cs
      (fun x => rest x ∨ InCluster (new, chunks.flatten) x) V (fun j => Ex j ∨ j = i') B := by
    intro c
    refine ⟨hl, hinv.len, fun p hp => ?_, ?_, ?_, fun j st w hj hw' hnj => ?_⟩
    · obtain ⟨j, b', o', w, g1, g2, g3, g4, g5⟩ := hinv.item p (List.mem_cons_of_mem _ hp)
      refine ⟨j, b', o', w, g1, ?_, g3, g4, g5⟩
      rintro (h | rfl)
      · exact g2 h
      · rw [hi] at g1
        simp only [Option.some.injEq, Prod.mk.injEq] at g1
        exact (hoff p hp).1 g1.1.symm
    · exact (List.nodup_cons.1 hinv.refs).2
    · exact (List.nodup_cons.1 hinv.keys).2
    · rcases hinv.settled j st w hj hw' (fun h => hnj (Or.inl h)) with h | h
      · rw [List.map_cons, List.mem_cons] at h
        rcases h with h | h
        · exact absurd (hbase.distinct hj hi h) (fun e => hnj (Or.inr e))
        · exact Or.inl h
      · exact Or.inr h
  have hused : ∀ p ∈ P ++ B, Used rows cs rest p.1 := by
    intro p hp
    rcases List.mem_append.1 hp with hp | hp
    · exact Or.inl (hP p hp)
    · obtain ⟨j, b', o', w, g1, -⟩ := hinv.item p (List.mem_cons_of_mem _ hp)
      have hm := List.mem_of_getElem? g1
      exact Or.inr (Or.inl ⟨_, hm, Nat.le_refl _, by have := List.length_pos_iff.2 (hbase.nonempty _ hm); simp only at this ⊢; omega⟩)
  have hnk : new ∉ (P ++ B).map Prod.fst := by
    intro h
    obtain ⟨p, hp, e⟩ := List.mem_map.1 h
    refine hnew new ⟨Nat.le_refl _, by have := List.length_pos_iff.2 hne; simp only; omega⟩ ?_
    rw [← e]; exact hused p hp
  -- the call of the cache
  have hchain : ∃ cs2 Q B' W, Done S Obj Good rows n { s with arch := { s.arch with zim := z1 }, cache := c1 } s2 cs
      (fun x => rest x ∨ InCluster (new, chunks.flatten) x) V (fun j => Ex j ∨ j = i') ((new, r) :: P) B B cs2 Q B' W ∧
      ∀ B1 B2, B = B1 ++ B2 → ((P ++ B).length < n ∨ ∃ p ∈ B2, Flag S s p.2 false) → B1 <+: B' := by
    unfold push at hpush
    obtain ⟨c2, hc2, hrepr2, hp⟩ := push_absent (s := { s with arch := { s.arch with zim := z1 }, cache := c1 }) hrepr1 r hnk
    rw [PyM.bind_ok hp] at hpush
    simp only at hc2 hrepr2 hpush
    have hsz1 : c1.maxSize = n := hc1.trans hn
    rw [hsz1] at hrepr2 hpush hc2
    by_cases hlt : (P ++ B).length < n
    · have e1 : ((new, r) :: (P ++ B)).drop n = [] := List.drop_of_length_le (by rw [List.length_cons]; omega)
      have e2 : ((new, r) :: (P ++ B)).take n = (new, r) :: (P ++ B) := List.take_of_length_le (by rw [List.length_cons]; omega)
      rw [e1] at hpush
      rw [e2] at hrepr2
      have hs2 : s2 = { s with arch := { s.arch with zim := z1 }, cache := c2 } := by
        have := congrArg Prod.snd hpush
        exact this.symm
      subst hs2
      refine ⟨cs, [], B, [], ⟨List.prefix_rfl, hrepr2, hc2, hinv1 c2, fun _ _ => rfl, rfl, fun _ _ h _ => h,
        KeepsBytes.refl _ _, ⟨rfl, rfl, rfl, rfl, rfl, rfl, rfl⟩, rfl, rfl, ?_, by simp, by simp, fun _ => ⟨rfl, rfl⟩⟩, ?_⟩
      · rintro (h | h)
        · exact h
        · exact absurd rfl h
      · rintro B1 B2 rfl -
        exact List.prefix_append _ _
    · have hfull : (P ++ B).length = n := by
        have := hrepr1.bound
        simp only at this
        omega
      obtain ⟨p, hpB, hpf⟩ := hroom.resolve_left hlt
      rcases List.eq_nil_or_concat B with rfl | ⟨B0, y, rfl⟩
      · cases hpB
      rw [List.concat_eq_append] at *
      have hlen : n = (P ++ B0).length + 1 := by
        rw [← hfull]; simp only [List.length_append, List.length_cons, List.length_nil]; omega
      have e1 : ((new, r) :: (P ++ (B0 ++ [y]))).drop n = [y] := by
        rw [hlen, List.drop_succ_cons, ← List.append_assoc, List.drop_left']
        rfl
      have e2 : ((new, r) :: (P ++ (B0 ++ [y]))).take n = (new, r) :: P ++ B0 := by
        rw [hlen, List.take_succ_cons, ← List.append_assoc, List.take_left']
        · rfl
        · rfl
      rw [e1] at hpush
      rw [e2] at hrepr2
      unfold leaveAll at hpush
      obtain ⟨u, s2', hpush0, hpush'⟩ := PyM.bind_ok_iff.1 hpush
      have hs2 : s2' = s2 := congrArg Prod.snd hpush'
      subst hs2
      have hperm : (B0 ++ [y]).Perm (y :: B0) := List.perm_append_singleton _ _
      have hfl : ∀ q d, Flag S { s with arch := { s.arch with zim := z1 }, cache := c2 } q d ↔ Flag S s q d := fun _ _ => Iff.rfl
      obtain ⟨cs2, Q, B', W, hdone, hret⟩ := hch _ _ y ((new, r) :: P) B0 cs _ V _ hrepr2 hc2 (by
        intro q hq
        rcases List.mem_cons.1 hq with rfl | hq
        · exact Or.inr ⟨Nat.le_refl _, by have := List.length_pos_iff.2 hne; simp only; omega⟩
        · exact Or.inl (hP q hq)) ((hinv1 c2).perm hperm) (by
        intro hy
        right
        rcases List.mem_append.1 hpB with hm | hm
        · exact ⟨p, hm, hpf⟩
        · rw [List.mem_singleton.1 hm] at hpf
          obtain ⟨a, a1, a2⟩ := hpf
          obtain ⟨a', a1', a2'⟩ := hy
          have : s.objs[y.2]? = some a' := a1'
          rw [a1] at this
          injection this with this
          rw [← this, a2] at a2'
          cases a2') hpush0
      refine ⟨cs2, Q, B', W, ⟨hdone.pre.trans (List.prefix_append _ _), hdone.repr, hdone.size, hdone.inv, hdone.objs, hdone.len,
        hdone.kept, hdone.bytes, hdone.same, hdone.num, hdone.arch, hdone.marked, fun q hq => ?_, hdone.fresh, hdone.still⟩, ?_⟩
      · obtain ⟨g1, g2, g3⟩ := hdone.written q hq
        exact ⟨hperm.mem_iff.2 g1, g2, g3⟩
      · rintro B1 B2 hB (h | ⟨q, hq, hqf⟩)
        · exact absurd h hlt
        · rcases List.eq_nil_or_concat B2 with rfl | ⟨B2', y', rfl⟩
          · cases hq
          rw [List.concat_eq_append, ← List.append_assoc] at hB
          obtain ⟨hB0, hy⟩ := List.append_inj' hB rfl
          simp only [List.cons.injEq, and_true] at hy
          subst hy
          refine hret B1 B2' hB0 ?_
          rw [List.concat_eq_append] at hq
          rcases List.mem_append.1 hq with hm | hm
          · exact Or.inr ⟨q, hm, hqf⟩
          · rw [List.mem_singleton.1 hm] at hqf
            exact Or.inl hqf
  obtain ⟨cs2, Q, B', W, hdone, hret⟩ := hchain
  -- the pointer
  have hi2 : cs2[i']? = some (off, b) := by
    refine hdone.kept i' _ hi ?_
    intro h
    obtain ⟨p, hp, e⟩ := List.mem_map.1 h
    exact (hoff p (hdone.written p hp).1).1 e
  have hrW : r ∉ W.map Prod.snd := by
    intro h
    obtain ⟨p, hp, e⟩ := List.mem_map.1 h
    exact (hoff p (hdone.written p hp).1).2 e
  have ho2 : s2.objs[r]? = some o := (hdone.objs r hrW).trans ho
  have hbase2 := hdone.inv.base
  have hdata2 : Holds s2.arch.zim.file new chunks.flatten := hdone.bytes.holds hdata fun x h1 h2 => Or.inr ⟨h1, h2⟩
  have hset : onZim (K := K) (Zim.onClusters (fun l => l.set i' new true)) s2 = (.ok (), { s2 with arch := { s2.arch with
      zim := { s2.arch.zim with clusters := { s2.arch.zim.clusters with
        pointers := s2.arch.zim.clusters.pointers.set i' (new : Int), dirty := true } } } }) := by
    unfold onZim
    rw [Zim.onClusters_apply, Zim.set_replace hbase2.mutable (by
      have hp : s2.arch.zim.clusters.pointers = _ := hbase2.pointers
      rw [hp, List.length_map]; exact (List.getElem?_eq_some_iff.1 hi2).1)]
  rw [PyM.bind_ok hset, PyM.get_bind] at hw
  rw [PyM.bind_ok (getObj_ok (s := { s2 with arch := { s2.arch with
      zim := { s2.arch.zim with clusters := { s2.arch.zim.clusters with
        pointers := s2.arch.zim.clusters.pointers.set i' (new : Int), dirty := true } } } }) ho2)] at hw
  cases haf : S.O.afterFlush (S.O.setOffset o new) s2.arch.zim.file with
  | error e =>
    simp only [haf] at hw
    rw [PyM.lift_err_bind] at hw
    exact absurd (congrArg Prod.fst hw) (by simp)
  | ok o2 =>
  obtain ⟨hobj2, hd2⟩ := hafter _ _ _ hdata2 haf
  simp only [haf] at hw
  rw [PyM.lift_ok_bind] at hw
  rw [hC.oldSize hobj] at hw
  have hk : k = i' := by
    have := congrArg Prod.fst hw
    simp only at this
    exact (Except.ok.inj this).symm
  have hs' : s' = { s2 with objs := s2.objs.set r o2
                            arch := { s2.arch with zim := { s2.arch.zim with
                              space := s2.arch.zim.space.markFree off b.length
                              clusters := { s2.arch.zim.clusters with
                                pointers := s2.arch.zim.clusters.pointers.set i' (new : Int), dirty := true } } } } := by
    have := congrArg Prod.snd hw
    exact this.symm
  have hrlt : r < s2.objs.length := (List.getElem?_eq_some_iff.1 ho2).1
  have hrL : ∀ p ∈ Q ++ B', p.2 ≠ r := by
    intro p hp
    rcases List.mem_append.1 hp with hp | hp
    · obtain ⟨q, hq, e⟩ := List.mem_map.1 (hdone.fresh p hp).1
      rw [← e]; exact (hoff q (hdone.written q hq).1).2
    · exact (hoff p (hdone.pre.subset hp)).2
  have hnL : ∀ p ∈ Q ++ B', p.1 ≠ new := by
    intro p hp e
    obtain ⟨j, b', o', w, g1, -⟩ := hdone.inv.item p hp
    refine hbase2.notRest (List.mem_of_getElem? g1) (Or.inr ?_)
    simp only [e]
    exact ⟨Nat.le_refl _, by have := List.length_pos_iff.2 hne; simp only; omega⟩
  have hilt := (List.getElem?_eq_some_iff.1 hi2).1
  refine ⟨hk, cs2.set i' (new, chunks.flatten), Q ++ [(new, r)], B', (off, r) :: W, ⟨hdone.pre, ?_, ?_, ?_, ?_, ?_, ?_, ?_, ?_, ?_, ?_, ?_,
    ?_, ?_, fun h => by cases h⟩, hret⟩
  · rw [hs']
    have := hdone.repr
    simpa using this
  · rw [hs']; exact hdone.size
  · rw [hs']
    refine CInv.perm (L := (new, r) :: (Q ++ B')) ?_ (by
      rw [List.append_assoc]; exact List.perm_middle.symm)
    have hnr : ∀ x, InCluster (new, chunks.flatten) x → ¬ rest x := fun x hx hr => hnew x hx (Or.inl hr)
    refine ⟨?_, ?_, ?_, ?_, ?_, ?_⟩
    · exact Holding.point (new, chunks.flatten) hbase2 hdata2 hne hnr hi2
    · rw [List.length_set]; exact hdone.inv.len
    · intro p hp
      rcases List.mem_cons.1 hp with rfl | hp
      · exact ⟨i', chunks.flatten, o2, v, by rw [List.getElem?_set_self hilt], hEx, hv, by
          simp only; rw [List.getElem?_set_self hrlt], hobj2⟩
      · obtain ⟨j, b', o', w, g1, g2, g3, g4, g5⟩ := hdone.inv.item p hp
        refine ⟨j, b', o', w, ?_, fun h => g2 (Or.inl h), g3, ?_, g5⟩
        · rw [List.getElem?_set_ne (fun e => g2 (Or.inr e.symm))]; exact g1
        · simp only; rw [List.getElem?_set_ne (hrL p hp).symm]; exact g4
    · rw [List.map_cons, List.nodup_cons]
      refine ⟨fun h => ?_, hdone.inv.refs⟩
      obtain ⟨p, hp, e⟩ := List.mem_map.1 h
      exact hrL p hp e
    · rw [List.map_cons, List.nodup_cons]
      refine ⟨fun h => ?_, hdone.inv.keys⟩
      obtain ⟨p, hp, e⟩ := List.mem_map.1 h
      exact hnL p hp e
    · intro j st w hj hw' hnj
      by_cases hji : i' = j
      · subst hji
        rw [List.getElem?_set_self hilt] at hj
        injection hj with hj
        left
        rw [← hj]; simp
      · rw [List.getElem?_set_ne hji] at hj
        refine (hdone.inv.settled j st w hj hw' ?_).imp (fun h => ?_) id
        · rintro (h | h)
          · exact hnj h
          · exact hji h.symm
        · rw [List.map_cons]; exact List.mem_cons_of_mem _ h
  · intro q hq
    rw [List.map_cons, List.mem_cons, not_or] at hq
    rw [hs']
    simp only
    rw [List.getElem?_set_ne (fun e => hq.1 e.symm), hdone.objs q hq.2]
  · rw [hs']; simp only [List.length_set]; exact hdone.len
  · intro j st hj hst
    rw [List.map_cons, List.mem_cons, not_or] at hst
    rw [List.getElem?_set_ne, hdone.kept j st hj hst.2]
    rintro rfl
    rw [hi] at hj
    injection hj with hj
    rw [← hj] at hst
    exact hst.1 rfl
  · rw [hs']
    exact (hkeep.mono fun x h => Or.inl h).trans (hdone.bytes.mono fun x h => Or.inl h)
  · rw [hs']
    have a := hsame1
    have c := hdone.same
    exact ⟨c.header.trans a.header, c.mimetypes.trans a.mimetypes, c.urls.trans a.urls, c.articles.trans a.articles,
      c.titles.trans a.titles, c.redirects.trans a.redirects, c.mainpage.trans a.mainpage⟩
  · rw [hs']; exact hdone.num.trans hnum1
  · rw [hs']; simp only
    rw [hdone.arch]
  · intro _; rw [hs']
  · intro p hp
    rcases List.mem_cons.1 hp with rfl | hp
    · exact ⟨List.mem_cons_self, hd, fun h => (hoff _ (hdone.pre.subset h)).2 rfl⟩
    · obtain ⟨g1, g2, g3⟩ := hdone.written p hp
      exact ⟨List.mem_cons_of_mem _ g1, g2, g3⟩
  · intro q hq
    rcases List.mem_append.1 hq with hq' | hq'
    · obtain ⟨g1, o', g2, g3⟩ := hdone.fresh q hq'
      refine ⟨by rw [List.map_cons]; exact List.mem_cons_of_mem _ g1, o', ?_, g3⟩
      rw [hs']; simp only
      rw [List.getElem?_set_ne (hrL q (List.mem_append_left _ hq')).symm]; exact g2
    · rw [List.mem_singleton.1 hq']
      refine ⟨by simp, o2, ?_, hd2⟩
      rw [hs']; simp only
      rw [List.getElem?_set_self hrlt]

/-- an unmodified cluster leaves the cache -/
theorem CInv.drop (hC : Contract S Obj Good) {s : Caching K} {x : Nat × Nat} {B : List (Nat × Nat)} {cs : List Stored}
    {rest : Nat → Prop} {V : List (List Bytes)} {Ex : Nat → Prop} (hinv : CInv Obj Good rows s cs rest V Ex (x :: B))
    (hx : Flag S s x.2 false) : CInv Obj Good rows s cs rest V Ex B where
  base := hinv.base
  len := hinv.len
  item p hp := hinv.item p (List.mem_cons_of_mem _ hp)
  refs := (List.nodup_cons.1 hinv.refs).2
  keys := (List.nodup_cons.1 hinv.keys).2
  settled j st w hj hw hnj := by
    rcases hinv.settled j st w hj hw hnj with h | h
    · rw [List.map_cons, List.mem_cons] at h
      rcases h with h | h
      · right
        obtain ⟨i, b, o, v, g1, g2, g3, g4, g5⟩ := hinv.item x List.mem_cons_self
        obtain rfl := hinv.base.distinct hj g1 h
        rw [hj] at g1
        rw [hw] at g3
        injection g1 with g1
        injection g3 with g3
        obtain ⟨o', e1, e2⟩ := hx
        rw [g4] at e1
        injection e1 with e1
        have := hC.clean g5 (by rw [e1]; exact e2)
        rw [g1, g3]; exact this
      · exact Or.inl h
    · exact Or.inr h

/-- what happens when a cluster leaves the cache -/
theorem chain (hC : Contract S Obj Good) (n : Nat) (hauto : S.autoflush = true) : ∀ depth, ChainSpec S Obj Good rows n depth := by
  intro depth
  induction depth with
  | zero =>
    intro s s' x P B cs rest V Ex hrepr hn hP hinv hroom hw
    obtain ⟨i, b, o, v, g1, g2, g3, g4, g5⟩ := hinv.item x List.mem_cons_self
    unfold onLeave at hw
    rw [PyM.bind_ok (getObj_ok g4), hauto] at hw
    simp only [Bool.true_and] at hw
    cases hd : S.dirty o with
    | false =>
      rw [hd] at hw
      have hs : s' = s := (congrArg Prod.snd hw).symm
      subst hs
      refine ⟨cs, [], B, [], ⟨List.prefix_rfl, hrepr, hn, hinv.drop hC ⟨o, g4, hd⟩, fun _ _ => rfl, rfl, fun _ _ h _ => h,
        KeepsBytes.refl _ _, ⟨rfl, rfl, rfl, rfl, rfl, rfl, rfl⟩, rfl, rfl, ?_, by simp, by simp, fun _ => ⟨rfl, rfl⟩⟩, ?_⟩
      · rintro (h | h)
        · exact h
        · exact absurd rfl h
      · rintro B1 B2 rfl -
        exact List.prefix_append _ _
    | true =>
      rw [hd] at hw
      have hx : s.arch.zim.clusterIndexByOffset x.1 = .ok i := hinv.base.indexByOffset g1
      simp only [if_true] at hw
      rw [PyM.get_bind, hx, PyM.lift_ok_bind] at hw
      exact absurd (congrArg Prod.fst hw) (by unfold write; simp)
  | succ depth ih =>
    intro s s' x P B cs rest V Ex hrepr hn hP hinv hroom hw
    obtain ⟨i, b, o, v, g1, g2, g3, g4, g5⟩ := hinv.item x List.mem_cons_self
    unfold onLeave at hw
    rw [PyM.bind_ok (getObj_ok g4), hauto] at hw
    simp only [Bool.true_and] at hw
    cases hd : S.dirty o with
    | false =>
      rw [hd] at hw
      have hs : s' = s := (congrArg Prod.snd hw).symm
      subst hs
      refine ⟨cs, [], B, [], ⟨List.prefix_rfl, hrepr, hn, hinv.drop hC ⟨o, g4, hd⟩, fun _ _ => rfl, rfl, fun _ _ h _ => h,
        KeepsBytes.refl _ _, ⟨rfl, rfl, rfl, rfl, rfl, rfl, rfl⟩, rfl, rfl, ?_, by simp, by simp, fun _ => ⟨rfl, rfl⟩⟩, ?_⟩
      · rintro (h | h)
        · exact h
        · exact absurd rfl h
      · rintro B1 B2 rfl -
        exact List.prefix_append _ _
    | true =>
      rw [hd] at hw
      have hx : s.arch.zim.clusterIndexByOffset x.1 = .ok i := hinv.base.indexByOffset g1
      simp only [if_true] at hw
      rw [PyM.get_bind, hx, PyM.lift_ok_bind] at hw
      obtain ⟨k, s1, hw1, hw2⟩ := PyM.bind_ok_iff.1 hw
      have hs : s1 = s' := congrArg Prod.snd hw2
      subst hs
      have hflag : Flag S s x.2 true := ⟨o, g4, hd⟩
      have hwo : Lru.without x.1 (P ++ B) = P ++ B := by
        refine without_absent (lookup_eq_none.2 fun h => ?_)
        rw [List.map_append, List.mem_append] at h
        rcases h with h | h
        · obtain ⟨p, hp, e⟩ := List.mem_map.1 h
          exact hinv.base.notRest (List.mem_of_getElem? g1) (by simp only; rw [← e]; exact hP p hp)
        · exact (List.nodup_cons.1 hinv.keys).1 h
      obtain ⟨-, cs', Q, B', W, hdone, hret⟩ := write_old hC ih hrepr hwo hn hP hinv g1 hflag (hroom hflag)
        (fun m hm => by injection hm with hm; exact hm.symm) hw1
      refine ⟨cs', Q, B', W, hdone, fun B1 B2 hB h => hret B1 B2 hB ?_⟩
      rcases h with ⟨o', e1, e2⟩ | h
      · rw [g4] at e1
        injection e1 with e1
        rw [e1, e2] at hd
        cases hd
      · exact Or.inr h

end Caching
end Pyzim
