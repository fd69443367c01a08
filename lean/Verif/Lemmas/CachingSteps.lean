import Verif.Lemmas.Caching
import Verif.Lemmas.CacheHistory

/-! # The methods of a writable archive with a cache of clusters -/

namespace Pyzim
namespace Caching
open Zim (Row Stored Used KeepsBytes InCluster Holding SameButClusters Clustered)

variable {K : Type} {S : CacheSetup K} {Obj : K → Stored → List Bytes → Prop} {Good : Bytes → List Bytes → Prop} {rows : List Row}

/-- Between the methods: the clusters `T` may have modifications that are not in the file. -/
structure Top (S : CacheSetup K) (Obj : K → Stored → List Bytes → Prop) (Good : Bytes → List Bytes → Prop) (rows : List Row)
    (rest : Nat → Prop) (n : Nat) (s : Caching K) (cs : List Stored) (V : List (List Bytes)) (T : List Nat)
    (L : List (Nat × Nat)) : Prop where
  repr : LastCache.Repr s.cache ⟨L, []⟩
  size : s.cache.maxSize = n
  inv : CInv Obj Good rows s cs rest V (fun _ => False) L
  num : s.arch.zim.clusterNum = cs.length
  nodup : T.Nodup
  few : T.length ≤ n
  flag : ∀ p ∈ L, Flag S s p.2 true → ∃ i b, i ∈ T ∧ cs[i]? = some (p.1, b)

/-- What a method does to the archive. -/
structure Moved (rest : Nat → Prop) (s s' : Caching K) (cs cs' : List Stored) : Prop where
  bytes : KeepsBytes rest s.arch.zim.file s'.arch.zim.file
  same : SameButClusters s.arch.zim s'.arch.zim
  arch : s'.arch = { s.arch with zim := s'.arch.zim }
  change : (s'.arch = s.arch ∧ cs' = cs) ∨ s'.arch.zim.clusters.dirty = true

theorem Moved.refl (rest : Nat → Prop) (s : Caching K) (cs : List Stored) : Moved rest s s cs cs :=
  ⟨KeepsBytes.refl _ _, ⟨rfl, rfl, rfl, rfl, rfl, rfl, rfl⟩, rfl, Or.inl ⟨rfl, rfl⟩⟩

theorem Moved.of_arch {rest : Nat → Prop} {s s' : Caching K} {cs : List Stored} (h : s'.arch = s.arch) : Moved rest s s' cs cs := by
  refine ⟨by rw [h]; exact KeepsBytes.refl _ _, by rw [h]; exact ⟨rfl, rfl, rfl, rfl, rfl, rfl, rfl⟩, by rw [h], Or.inl ⟨h, rfl⟩⟩

theorem Moved.trans {rest : Nat → Prop} {s s1 s2 : Caching K} {cs cs1 cs2 : List Stored} (h1 : Moved rest s s1 cs cs1)
    (h2 : Moved rest s1 s2 cs1 cs2) : Moved rest s s2 cs cs2 where
  bytes := h1.bytes.trans h2.bytes
  same := ⟨h2.same.header.trans h1.same.header, h2.same.mimetypes.trans h1.same.mimetypes, h2.same.urls.trans h1.same.urls,
    h2.same.articles.trans h1.same.articles, h2.same.titles.trans h1.same.titles, h2.same.redirects.trans h1.same.redirects,
    h2.same.mainpage.trans h1.same.mainpage⟩
  arch := by rw [h2.arch, h1.arch]
  change := by
    rcases h2.change with ⟨a, b⟩ | h
    · rcases h1.change with ⟨c, d⟩ | h
      · exact Or.inl ⟨a.trans c, b.trans d⟩
      · rw [a]; exact Or.inr h
    · exact Or.inr h

theorem inj_of_nodup {α β : Type} {f : α → β} {L : List α} (h : (L.map f).Nodup) {p q : α} (hp : p ∈ L) (hq : q ∈ L)
    (e : f p = f q) : p = q := by
  induction L with
  | nil => cases hp
  | cons x L ih =>
    rw [List.map_cons, List.nodup_cons] at h
    rcases List.mem_cons.1 hp with rfl | hp'
    · rcases List.mem_cons.1 hq with rfl | hq'
      · rfl
      · exact absurd (e ▸ List.mem_map_of_mem hq') h.1
    · rcases List.mem_cons.1 hq with rfl | hq'
      · exact absurd (e ▸ List.mem_map_of_mem hp') h.1
      · exact ih h.2 hp' hq'

section
variable {n : Nat} {s s' : Caching K} {cs cs' : List Stored} {rest : Nat → Prop} {V : List (List Bytes)} {T : List Nat}
  {L B Q B' W P : List (Nat × Nat)} {Ex : Nat → Prop}

theorem Done.untouched (hd : Done S Obj Good rows n s s' cs rest V Ex P L B cs' Q B' W) (hinv : CInv Obj Good rows s cs rest V Ex L)
    (hB : ∀ p ∈ B, p ∈ L) {p : Nat × Nat} (hp : p ∈ B') : p.2 ∉ W.map Prod.snd ∧ p.1 ∉ W.map Prod.fst := by
  have hpL := hB p (hd.pre.subset hp)
  constructor
  · intro h
    obtain ⟨q, hq, e⟩ := List.mem_map.1 h
    obtain ⟨h1, -, h3⟩ := hd.written q hq
    exact h3 (inj_of_nodup hinv.refs h1 hpL e ▸ hp)
  · intro h
    obtain ⟨q, hq, e⟩ := List.mem_map.1 h
    obtain ⟨h1, -, h3⟩ := hd.written q hq
    exact h3 (inj_of_nodup hinv.keys h1 hpL e ▸ hp)

theorem Flag.unique {r : Nat} (h1 : Flag S s r true) (h2 : Flag S s r false) : False := by
  obtain ⟨o, a, b⟩ := h1
  obtain ⟨o', a', b'⟩ := h2
  rw [a] at a'
  injection a' with e
  rw [← e, b] at b'
  cases b'

theorem Flag.congr {r : Nat} {d : Bool} (h : s'.objs[r]? = s.objs[r]?) : Flag S s' r d ↔ Flag S s r d := by
  unfold Flag; rw [h]

/-- after the cached objects were written -/
theorem Done.top (hd : Done S Obj Good rows n s s' cs rest V (fun _ => False) [] L B cs' Q B' W)
    (hinv : CInv Obj Good rows s cs rest V (fun _ => False) L) (hB : ∀ p ∈ B, p ∈ L) (hnum : s.arch.zim.clusterNum = cs.length)
    (hnd : T.Nodup) (hf : T.length ≤ n)
    (hflag : ∀ p ∈ B, Flag S s p.2 true → ∃ i b, i ∈ T ∧ cs[i]? = some (p.1, b)) :
    Top S Obj Good rows rest n s' cs' V T (Q ++ B') ∧ Moved rest s s' cs cs' := by
  refine ⟨⟨?_, hd.size, hd.inv, ?_, hnd, hf, ?_⟩, hd.bytes, hd.same, hd.arch, ?_⟩
  · have := hd.repr
    rwa [List.append_nil] at this
  · rw [hd.num, hnum, ← hinv.len, hd.inv.len]
  · intro p hp hfl
    rcases List.mem_append.1 hp with hp | hp
    · exact (hfl.unique (hd.fresh p hp).2).elim
    · obtain ⟨h1, h2⟩ := hd.untouched hinv hB hp
      rw [Flag.congr (hd.objs _ h1)] at hfl
      obtain ⟨i, b, a1, a2⟩ := hflag p (hd.pre.subset hp) hfl
      exact ⟨i, b, a1, hd.kept i _ a2 h2⟩
  · by_cases hW : W = []
    · exact Or.inl (hd.still hW)
    · exact Or.inr (hd.marked (Or.inr hW))

/-- if there are few modified clusters, some cached cluster is unmodified or there is room -/
theorem Top.room (h : Top S Obj Good rows rest n s cs V T L) {i : Nat} (hi : i ∈ T ∨ T.length < n)
    (hno : ∀ b off, cs[i]? = some (off, b) → off ∉ L.map Prod.fst) (hfull : L.length = n) : ∃ p ∈ L, Flag S s p.2 false := by
  by_contra hc
  have hall : ∀ p ∈ L, Flag S s p.2 true := by
    intro p hp
    obtain ⟨_, _, o, _, _, _, _, ho, _⟩ := h.inv.item p hp
    cases hd : S.dirty o with
    | true => exact ⟨o, ho, hd⟩
    | false => exact absurd ⟨p, hp, o, ho, hd⟩ hc
  have hsub : L.map Prod.fst ⊆ (T.filter (· ≠ i)).map (fun j => (cs[j]?.map Prod.fst).getD 0) := by
    intro k hk
    obtain ⟨p, hp, rfl⟩ := List.mem_map.1 hk
    obtain ⟨j, b, a1, a2⟩ := h.flag p hp (hall p hp)
    refine List.mem_map.2 ⟨j, ?_, by rw [a2]; rfl⟩
    rw [List.mem_filter]
    refine ⟨a1, ?_⟩
    simp only [decide_eq_true_eq]
    rintro rfl
    exact hno b p.1 a2 hk
  have hlen := nodup_subset_length h.inv.keys (fun _ hx => hsub hx)
  rw [List.length_map, List.length_map] at hlen
  rcases hi with hi | hi
  · have : (T.filter (· ≠ i)).length < T.length := List.length_filter_lt_length_iff_exists.2 ⟨i, hi, by simp⟩
    have := h.few
    omega
  · have := List.length_filter_le (fun j => decide (j ≠ i)) T
    omega

/-- `get_cluster_by_index` -/
theorem get_top (hC : Contract S Obj Good) (hauto : S.autoflush = true)
    (hload : ∀ {z : Zim} {rows cs rest i st v o}, Clustered z rows cs rest → cs[i]? = some st → Good st.2 v →
      S.load z i = .ok o → Obj o st v ∧ S.dirty o = false)
    (h : Top S Obj Good rows rest n s cs V T L) {depth i r : Nat} {v : List Bytes} (hv : V[i]? = some v)
    (hok : getCluster S depth i s = (.ok r, s')) :
    ∃ cs' L', Top S Obj Good rows rest n s' cs' V T L' ∧ Moved rest s s' cs cs' ∧ ∃ st o, cs'[i]? = some st ∧
      s'.objs[r]? = some o ∧ Obj o st v ∧ ((i ∈ T ∨ T.length < n ∨ S.dirty o = true) → (st.1, r) ∈ L') ∧
      ∀ p ∈ L', p.1 = st.1 → Flag S s' p.2 true → p.2 = r := by
  obtain ⟨st, hst⟩ : ∃ st, cs[i]? = some st := by
    have := (List.getElem?_eq_some_iff.1 hv).1
    rw [h.inv.len] at this
    exact ⟨_, List.getElem?_eq_getElem this⟩
  obtain ⟨pos, b⟩ := st
  have hcl := h.inv.base.to h.num
  unfold getCluster at hok
  rw [PyM.get_bind, hcl.getByIndex hst, PyM.lift_ok_bind] at hok
  simp only [Int.toNat_natCast] at hok
  have hrep : LastCache.Repr ({ s.cache with left := [] } : LastCache Nat Nat) ⟨L, []⟩ :=
    ⟨h.repr.ex, h.repr.bound, h.repr.pos, h.repr.leave, rfl⟩
  have hhas := h.repr.has pos
  simp only at hhas
  cases hl : L.lookup pos with
  | some r0 =>
    rw [hhas, hl] at hok
    simp only [Option.isSome_some, if_true] at hok
    obtain ⟨c', h1, h2, h3⟩ := LastCache.get_spec hrep pos
    have hget : Lru.get pos (⟨L, []⟩ : Lru Nat Nat) = (.ok r0, ⟨(pos, r0) :: Lru.without pos L, []⟩) := by
      unfold Lru.get; simp [hl]
    rw [hget] at h1 h2
    have hon : onCache (K := K) (LastCache.get pos) s = (.ok (r0, []), { s with cache := { c' with left := [] } }) := by
      unfold onCache
      simp only [h1]
      rw [h2.left]
    rw [PyM.bind_ok hon] at hok
    have e1 := congrArg Prod.fst hok
    have e2 := congrArg Prod.snd hok
    simp only [PyM.pure_apply] at e1 e2
    injection e1 with e1
    subst e1
    subst e2
    have hmem : (pos, r0) ∈ L := (lookup_eq_some h.repr.keysNodup).1 hl
    obtain ⟨a, c, rfl⟩ := List.append_of_mem hmem
    have hw : Lru.without pos (a ++ (pos, r0) :: c) = a ++ c := without_mid h.repr.keysNodup
    have hperm : (a ++ (pos, r0) :: c).Perm ((pos, r0) :: (a ++ c)) := List.perm_middle
    rw [hw] at h2
    have hinv := h.inv.perm hperm
    have hitem := hinv.item (pos, r0) List.mem_cons_self
    obtain ⟨i', b', o, v', g1, -, g3, g4, g5⟩ := hitem
    obtain rfl : i' = i := h.inv.base.distinct g1 hst rfl
    rw [hst] at g1
    simp only [Option.some.injEq, Prod.mk.injEq, true_and] at g1
    subst g1
    rw [hv] at g3
    injection g3 with g3
    subst g3
    refine ⟨cs, (pos, r0) :: (a ++ c), ⟨⟨h2.ex, h2.bound, h2.pos, h2.leave, rfl⟩, h3.trans h.size,
      ⟨hinv.base, hinv.len, hinv.item, hinv.refs, hinv.keys, hinv.settled⟩, h.num, h.nodup, h.few,
      fun p hp hf => h.flag p (hperm.mem_iff.2 hp) hf⟩, Moved.of_arch rfl, (pos, b), o, hst, g4, g5,
      fun _ => List.mem_cons_self, fun p hp e _ => ?_⟩
    have := inj_of_nodup hinv.keys hp List.mem_cons_self e
    rw [this]
  | none =>
    rw [hhas, hl] at hok
    simp only [Option.isSome_none, Bool.false_eq_true, if_false] at hok
    have hk : pos ∉ L.map Prod.fst := lookup_eq_none.1 hl
    have hgood : Good b v := (h.inv.settled i _ v hst hv (fun h => h)).resolve_left hk
    cases hld : S.load s.arch.zim i with
    | error e =>
      rw [hld, PyM.lift_err_bind] at hok
      exact absurd (congrArg Prod.fst hok) (by simp)
    | ok o =>
    obtain ⟨hobj, hcln⟩ := hload hcl hst hgood hld
    rw [hld, PyM.lift_ok_bind] at hok
    rw [PyM.bind_ok (show newObj o s = (.ok s.objs.length, { s with objs := s.objs ++ [o] }) from rfl)] at hok
    obtain ⟨⟨⟩, s2, hpush, hok⟩ := PyM.bind_ok_iff.1 hok
    have e1 := congrArg Prod.fst hok
    have e2 := congrArg Prod.snd hok
    simp only [PyM.pure_apply] at e1 e2
    injection e1 with e1
    subst e1
    subst e2
    unfold push at hpush
    obtain ⟨c2, hc2, hrepr2, hp⟩ := push_absent (s := { s with objs := s.objs ++ [o] }) h.repr s.objs.length hk
    rw [PyM.bind_ok hp] at hpush
    simp only at hc2 hrepr2 hpush
    rw [h.size] at hc2 hrepr2 hpush
    have hlt : ∀ p ∈ L, p.2 < s.objs.length := by
      intro p hp
      obtain ⟨_, _, _, _, _, _, _, ho, _⟩ := h.inv.item p hp
      exact (List.getElem?_eq_some_iff.1 ho).1
    have hnew : (s.objs ++ [o])[s.objs.length]? = some o := by simp
    have hold : ∀ r, r < s.objs.length → (s.objs ++ [o])[r]? = s.objs[r]? := fun r hr => List.getElem?_append_left hr
    -- with the new object
    have hinv2 : CInv Obj Good rows { s with objs := s.objs ++ [o], cache := c2 } cs rest V (fun _ => False)
        ((pos, s.objs.length) :: L) := by
      refine ⟨h.inv.base, h.inv.len, fun p hp => ?_, ?_, ?_, fun j st w a1 a2 a3 => ?_⟩
      · rcases List.mem_cons.1 hp with rfl | hp
        · exact ⟨i, b, o, v, hst, fun h => h, hv, hnew, hobj⟩
        · obtain ⟨j, b', o', w, g1, g2, g3, g4, g5⟩ := h.inv.item p hp
          exact ⟨j, b', o', w, g1, g2, g3, (hold _ (hlt p hp)).trans g4, g5⟩
      · rw [List.map_cons, List.nodup_cons]
        refine ⟨fun hm => ?_, h.inv.refs⟩
        obtain ⟨p, hp, e⟩ := List.mem_map.1 hm
        exact absurd (hlt p hp) (by rw [e]; exact Nat.lt_irrefl _)
      · rw [List.map_cons, List.nodup_cons]
        exact ⟨hk, h.inv.keys⟩
      · exact (h.inv.settled j st w a1 a2 a3).imp (fun h => by rw [List.map_cons]; exact List.mem_cons_of_mem _ h) id
    have hflag2 : ∀ p ∈ L, ∀ d, Flag S { s with objs := s.objs ++ [o], cache := c2 } p.2 d ↔ Flag S s p.2 d :=
      fun p hp d => Flag.congr (hold _ (hlt p hp))
    have hfnew : Flag S { s with objs := s.objs ++ [o], cache := c2 } s.objs.length false := ⟨o, hnew, hcln⟩
    have hfl : ∀ p ∈ (pos, s.objs.length) :: L, Flag S { s with objs := s.objs ++ [o], cache := c2 } p.2 true →
        ∃ i b, i ∈ T ∧ cs[i]? = some (p.1, b) := by
      intro p hp hf
      rcases List.mem_cons.1 hp with rfl | hp
      · exact (hf.unique hfnew).elim
      · exact h.flag p hp ((hflag2 p hp true).1 hf)
    by_cases hroom : L.length < n
    · have d1 : ((pos, s.objs.length) :: L).drop n = [] := List.drop_of_length_le (by rw [List.length_cons]; omega)
      have d2 : ((pos, s.objs.length) :: L).take n = (pos, s.objs.length) :: L :=
        List.take_of_length_le (by rw [List.length_cons]; omega)
      rw [d1] at hpush
      rw [d2] at hrepr2
      have hs2 : s2 = { s with objs := s.objs ++ [o], cache := c2 } := (congrArg Prod.snd hpush).symm
      subst hs2
      refine ⟨cs, _, ⟨hrepr2, hc2, hinv2, h.num, h.nodup, h.few, hfl⟩, Moved.of_arch rfl, (pos, b), o, hst, hnew, hobj,
        fun _ => List.mem_cons_self, fun p hp e _ => ?_⟩
      rw [inj_of_nodup hinv2.keys hp List.mem_cons_self e]
    · have hfull : L.length = n := by
        have := h.repr.bound
        simp only [h.size] at this
        omega
      have hpos : 0 < n := by rw [← h.size]; exact h.repr.pos
      rcases List.eq_nil_or_concat L with rfl | ⟨B0, y, hB0⟩
      · simp only [List.length_nil] at hfull; omega
      rw [List.concat_eq_append] at hB0
      subst hB0
      have hlen : n = B0.length + 1 := by rw [← hfull]; simp
      have d1 : ((pos, s.objs.length) :: (B0 ++ [y])).drop n = [y] := by
        rw [hlen, List.drop_succ_cons, List.drop_left']
        rfl
      have d2 : ((pos, s.objs.length) :: (B0 ++ [y])).take n = (pos, s.objs.length) :: B0 := by
        rw [hlen, List.take_succ_cons, List.take_left']
        rfl
      rw [d1] at hpush
      rw [d2] at hrepr2
      unfold leaveAll at hpush
      obtain ⟨u, s2', hpush0, hpush'⟩ := PyM.bind_ok_iff.1 hpush
      have hs2 : s2' = s2 := congrArg Prod.snd hpush'
      subst hs2
      have hperm : ((pos, s.objs.length) :: (B0 ++ [y])).Perm (y :: (pos, s.objs.length) :: B0) := by
        rw [← List.cons_append]; exact List.perm_append_singleton _ _
      have hinv3 := hinv2.perm hperm
      obtain ⟨cs2, Q, B', W, hdone, hret⟩ := chain hC n hauto depth _ _ y [] ((pos, s.objs.length) :: B0) cs rest V _ hrepr2 hc2
        (by simp) hinv3 (fun _ => Or.inr ⟨_, List.mem_cons_self, hfnew⟩) hpush0
      obtain ⟨htop, hmv⟩ := hdone.top (T := T) hinv3 (fun p hp => List.mem_cons_of_mem _ hp) h.num h.nodup h.few
        (fun p hp => hfl p (hperm.mem_iff.2 (List.mem_cons_of_mem _ hp)))
      have hnW : (pos, s.objs.length) ∉ W := fun hm => (hdone.written _ hm).2.1.unique hfnew
      have hself : (pos, s.objs.length) ∈ y :: (pos, s.objs.length) :: B0 := by simp
      have hrW : s.objs.length ∉ W.map Prod.snd := by
        intro hm
        obtain ⟨q, hq, e⟩ := List.mem_map.1 hm
        exact hnW (inj_of_nodup hinv3.refs (hdone.written q hq).1 hself e ▸ hq)
      have hkW : pos ∉ W.map Prod.fst := by
        intro hm
        obtain ⟨q, hq, e⟩ := List.mem_map.1 hm
        exact hnW (inj_of_nodup hinv3.keys (hdone.written q hq).1 hself e ▸ hq)
      refine ⟨cs2, Q ++ B', htop, ⟨hmv.bytes, hmv.same, hmv.arch, hmv.change⟩, (pos, b), o, hdone.kept i _ hst hkW,
        (hdone.objs _ hrW).trans hnew, hobj, ?_, ?_⟩
      · intro hor
        have hor : i ∈ T ∨ T.length < n := by
          rcases hor with h | h | h
          · exact Or.inl h
          · exact Or.inr h
          · rw [hcln] at h; cases h
        obtain ⟨p, hpm, hpf⟩ := h.room hor (fun b' off e => by
          rw [hst] at e
          simp only [Option.some.injEq, Prod.mk.injEq] at e
          rw [← e.1]; exact hk) hfull
        have hpf' := (hflag2 p hpm false).2 hpf
        refine List.mem_append_right _ ((hret [(pos, s.objs.length)] B0 rfl ?_).subset (by simp))
        rcases List.mem_append.1 hpm with hm | hm
        · exact Or.inr ⟨p, hm, hpf'⟩
        · rw [List.mem_singleton.1 hm] at hpf'
          exact Or.inl hpf'
      · intro p hp e hf
        rcases List.mem_append.1 hp with hp | hp
        · exact (hf.unique (hdone.fresh p hp).2).elim
        · have := inj_of_nodup hinv3.keys (List.mem_cons_of_mem _ (hdone.pre.subset hp)) hself e
          rw [this]

/-- an object is replaced -/
theorem Top.set (h : Top S Obj Good rows rest n s cs V T L) {i r : Nat} {st : Stored} {o' : K} {v' : List Bytes}
    (hi : cs[i]? = some st) (hm : (st.1, r) ∈ L) (ho : Obj o' st v') (hT : i ∈ T ∨ T.length < n) :
    Top S Obj Good rows rest n { s with objs := s.objs.set r o' } cs (V.set i v') (if i ∈ T then T else i :: T) L := by
  obtain ⟨i', b', o, v, g1, -, g3, g4, g5⟩ := h.inv.item _ hm
  obtain rfl : i' = i := h.inv.base.distinct g1 hi rfl
  have hrlt := (List.getElem?_eq_some_iff.1 g4).1
  have hilt := (List.getElem?_eq_some_iff.1 g3).1
  simp only at hrlt
  have hb : st = (st.1, b') := by rw [hi] at g1; injection g1
  refine ⟨h.repr, h.size, ⟨h.inv.base, by rw [List.length_set]; exact h.inv.len, fun p hp => ?_, h.inv.refs, h.inv.keys, ?_⟩, h.num,
    ?_, ?_, ?_⟩
  · by_cases hpr : p.2 = r
    · have : p = (st.1, r) := inj_of_nodup h.inv.refs hp hm hpr
      subst this
      refine ⟨i', b', o', v', g1, fun h => h, by rw [List.getElem?_set_self hilt], ?_, hb ▸ ho⟩
      simp only
      rw [List.getElem?_set_self hrlt]
    · obtain ⟨j, b2, o2, w, k1, k2, k3, k4, k5⟩ := h.inv.item p hp
      refine ⟨j, b2, o2, w, k1, k2, ?_, ?_, k5⟩
      · rw [List.getElem?_set_ne]; exact k3
        rintro rfl
        rw [g1] at k1
        simp only [Option.some.injEq, Prod.mk.injEq] at k1
        exact hpr (congrArg Prod.snd (inj_of_nodup h.inv.keys hp hm k1.1.symm))
      · simp only
        rw [List.getElem?_set_ne (fun e => hpr e.symm)]; exact k4
  · intro j st' w a1 a2 a3
    by_cases hj : i' = j
    · subst hj
      rw [hi] at a1
      injection a1 with a1
      left
      rw [← a1]
      exact List.mem_map.2 ⟨_, hm, rfl⟩
    · rw [List.getElem?_set_ne hj] at a2
      exact h.inv.settled j st' w a1 a2 a3
  · split
    · exact h.nodup
    · rename_i hn; exact List.nodup_cons.2 ⟨hn, h.nodup⟩
  · split
    · exact h.few
    · rename_i hn
      have := hT.resolve_left hn
      rw [List.length_cons]; omega
  · intro p hp hf
    by_cases hpr : p.2 = r
    · have : p = (st.1, r) := inj_of_nodup h.inv.refs hp hm hpr
      subst this
      refine ⟨i', b', ?_, g1⟩
      split
      · assumption
      · exact List.mem_cons_self
    · rw [Flag.congr (s := s) (by simp only; rw [List.getElem?_set_ne (fun e => hpr e.symm)])] at hf
      obtain ⟨j, b2, k1, k2⟩ := h.flag p hp hf
      refine ⟨j, b2, ?_, k2⟩
      split
      · exact k1
      · exact List.mem_cons_of_mem _ k1

/-- `flush` of a cluster -/
theorem flush_top (hC : Contract S Obj Good) (hauto : S.autoflush = true) (h : Top S Obj Good rows rest n s cs V T L)
    {depth i r : Nat} {st : Stored} {o : K} (hi : cs[i]? = some st) (hr : s.objs[r]? = some o)
    (hm : S.dirty o = true → (st.1, r) ∈ L) (honly : ∀ p ∈ L, p.1 = st.1 → Flag S s p.2 true → p.2 = r)
    (hok : flushObj S depth r s = (.ok (), s')) :
    ∃ cs' L', Top S Obj Good rows rest n s' cs' V (T.filter (· ≠ i)) L' ∧ Moved rest s s' cs cs' := by
  have hnd : (T.filter (· ≠ i)).Nodup := h.nodup.filter _
  have hfew : (T.filter (· ≠ i)).length ≤ n := Nat.le_trans (List.length_filter_le _ _) h.few
  unfold flushObj at hok
  rw [PyM.bind_ok (getObj_ok hr)] at hok
  cases hd : S.dirty o with
  | false =>
    rw [hd] at hok
    have hs : s' = s := (congrArg Prod.snd hok).symm
    subst hs
    refine ⟨cs, L, ⟨h.repr, h.size, h.inv, h.num, hnd, hfew, fun p hp hf => ?_⟩, Moved.refl _ _ _⟩
    obtain ⟨j, b, a1, a2⟩ := h.flag p hp hf
    refine ⟨j, b, List.mem_filter.2 ⟨a1, ?_⟩, a2⟩
    simp only [decide_eq_true_eq]
    rintro rfl
    rw [hi] at a2
    injection a2 with a2
    rw [honly p hp (by rw [a2]) hf] at hf
    exact hf.unique ⟨o, hr, hd⟩
  | true =>
    rw [hd] at hok
    simp only [if_true] at hok
    obtain ⟨k, s1, hw, hok⟩ := PyM.bind_ok_iff.1 hok
    have hs : s1 = s' := congrArg Prod.snd hok
    subst hs
    have hmem := hm hd
    obtain ⟨a, c, rfl⟩ := List.append_of_mem hmem
    have hwo : Lru.without st.1 (a ++ (st.1, r) :: c) = [] ++ (a ++ c) := without_mid h.repr.keysNodup
    have hperm : (a ++ (st.1, r) :: c).Perm ((st.1, r) :: (a ++ c)) := List.perm_middle
    have hinv := h.inv.perm hperm
    have hlen : (a ++ c).length < n := by
      have := h.repr.bound
      simp only [h.size, List.length_append, List.length_cons] at this ⊢
      omega
    cases depth with
    | zero => exact absurd (congrArg Prod.fst hw) (by unfold write; simp)
    | succ depth =>
    obtain ⟨-, cs', Q, B', W, hdone, -⟩ := write_old (num := none) (b := st.2) hC (chain hC n hauto depth) h.repr hwo h.size (by simp) hinv hi
      ⟨o, hr, hd⟩ (Or.inl hlen) (by simp) hw
    refine ⟨cs', Q ++ B', hdone.top hinv (fun p hp => List.mem_cons_of_mem _ hp) h.num hnd hfew fun p hp hf => ?_⟩
    obtain ⟨j, b, a1, a2⟩ := h.flag p (hperm.mem_iff.2 (List.mem_cons_of_mem _ hp)) hf
    refine ⟨j, b, List.mem_filter.2 ⟨a1, ?_⟩, a2⟩
    simp only [decide_eq_true_eq]
    rintro rfl
    rw [hi] at a2
    injection a2 with a2
    have hk := (List.nodup_cons.1 hinv.keys).1
    exact hk (List.mem_map.2 ⟨p, hp, by rw [a2]⟩)

/-- writing a new cluster -/
theorem add_top (hC : Contract S Obj Good) (hauto : S.autoflush = true) (h : Top S Obj Good rows rest n s cs V T L)
    (hT : T.length < n) {o : K} {v : List Bytes} (hoff : S.O.offset o = none)
    (hnew : ∀ (z : Zim) size, S.O.diskSize o z.file = .ok size → ∃ chunks, S.O.Writes o z.file (fun _ => False) chunks ∧
      chunks.flatten ≠ [] ∧ chunks.length < S.bound o z ∧ ∀ file' off c', Holds file' off chunks.flatten →
        S.O.afterFlush (S.O.setOffset o off) file' = .ok c' → Obj c' (off, chunks.flatten) v ∧ S.dirty c' = false)
    {depth k : Nat} (hok : addCluster S depth o s = (.ok k, s')) :
    k = V.length ∧ ∃ cs' L', Top S Obj Good rows rest n s' cs' (V ++ [v]) T L' ∧ Moved rest s s' cs cs' := by
  have hbase := h.inv.base
  unfold addCluster at hok
  rw [PyM.bind_ok (show newObj o s = (.ok s.objs.length, { s with objs := s.objs ++ [o] }) from rfl)] at hok
  cases depth with
  | zero => exact absurd (congrArg Prod.fst hok) (by unfold write; simp)
  | succ depth =>
  have hlt : ∀ p ∈ L, p.2 < s.objs.length := by
    intro p hp
    obtain ⟨_, _, _, _, _, _, _, ho, _⟩ := h.inv.item p hp
    exact (List.getElem?_eq_some_iff.1 ho).1
  have hself : (s.objs ++ [o])[s.objs.length]? = some o := by simp
  have hold : ∀ r, r < s.objs.length → (s.objs ++ [o])[r]? = s.objs[r]? := fun r hr => List.getElem?_append_left hr
  unfold write at hok
  have hmut : s.arch.zim.mutable = true := hbase.rep.isMutable
  have hop : s.arch.zim.closed = false := hbase.rep.isOpen
  rw [show decide (∀ m ∈ (none : Option Int), 0 ≤ m) = true by simp, PyM.require_true_bind, PyM.get_bind] at hok
  simp only [hmut, PyM.require_true_bind, hop, Bool.not_false] at hok
  rw [PyM.bind_ok (getObj_ok (s := { s with objs := s.objs ++ [o] }) hself)] at hok
  cases hsz : S.O.diskSize o s.arch.zim.file with
  | error e =>
    rw [hsz] at hok
    obtain ⟨_, _, -, hok⟩ := PyM.bind_ok_iff.1 hok
    rw [PyM.lift_err_bind] at hok
    exact absurd (congrArg Prod.fst hok) (by simp)
  | ok size =>
  obtain ⟨chunks, hwr, hne, hfuel, hafter⟩ := hnew s.arch.zim size hsz
  have hsize : size = chunks.flatten.length := by
    have := hwr.size s.arch.zim.file (KeepsBytes.refl _ _)
    rw [hsz] at this
    injection this
  subst hsize
  rw [hwr.isBound, PyM.require_true_bind, hsz, PyM.lift_ok_bind, hoff] at hok
  have hcn : onZim (K := K) (Zim.clusterNumber none ((none : Option Int).map Int.toNat)) { s with objs := s.objs ++ [o] } =
      (.ok s.arch.zim.clusterNum, { s with objs := s.objs ++ [o], arch := { s.arch with
        zim := { s.arch.zim with clusterNum := s.arch.zim.clusterNum + 1 } } }) := rfl
  rw [PyM.bind_ok hcn] at hok
  have hbase1 : Holding { s.arch.zim with clusterNum := s.arch.zim.clusterNum + 1 } rows cs rest := hbase
  obtain ⟨new, z1, ha, hwc, hl, hdata, hnw, hkeep, hsame1, hcl1, hnum1⟩ := hbase1.lay (own := fun _ => False) (fun _ h => h.elim) hwr hne hfuel
  have ha' : onZim (K := K) (Zim.allocate chunks.flatten.length) { s with objs := s.objs ++ [o], arch := { s.arch with
        zim := { s.arch.zim with clusterNum := s.arch.zim.clusterNum + 1 } } } = (.ok new, { s with objs := s.objs ++ [o], arch := { s.arch with
      zim := { s.arch.zim with clusterNum := s.arch.zim.clusterNum + 1, space := (s.arch.zim.space.allocate chunks.flatten.length).2 } } }) := by
    unfold onZim
    simp only [ha]
  rw [PyM.bind_ok ha'] at hok
  have hwc' : onZim (K := K) (Zim.writeChunks S.O o (S.bound o s.arch.zim) 0 new) { s with objs := s.objs ++ [o], arch := { s.arch with
      zim := { s.arch.zim with clusterNum := s.arch.zim.clusterNum + 1, space := (s.arch.zim.space.allocate chunks.flatten.length).2 } } } =
      (.ok (), { s with objs := s.objs ++ [o], arch := { s.arch with zim := z1 } }) := by
    unfold onZim
    simp only [hwc]
  rw [PyM.bind_ok hwc'] at hok
  rw [PyM.bind_ok (show forget (K := K) none new { s with objs := s.objs ++ [o], arch := { s.arch with zim := z1 } } =
    (.ok (), { s with objs := s.objs ++ [o], arch := { s.arch with zim := z1 } }) from rfl)] at hok
  obtain ⟨u1, s2, hpush, hok⟩ := PyM.bind_ok_iff.1 hok
  have hinv1 : ∀ c, CInv Obj Good rows { s with objs := s.objs ++ [o], arch := { s.arch with zim := z1 }, cache := c } cs
      (fun x => rest x ∨ InCluster (new, chunks.flatten) x) V (fun _ => False) L := by
    intro c
    refine ⟨hl, h.inv.len, fun p hp => ?_, h.inv.refs, h.inv.keys, h.inv.settled⟩
    obtain ⟨j, b', o', w, g1, g2, g3, g4, g5⟩ := h.inv.item p hp
    exact ⟨j, b', o', w, g1, g2, g3, (hold _ (hlt p hp)).trans g4, g5⟩
  have hflag1 : ∀ c, ∀ p ∈ L, ∀ d, Flag S { s with objs := s.objs ++ [o], arch := { s.arch with zim := z1 }, cache := c } p.2 d ↔
      Flag S s p.2 d := fun c p hp d => Flag.congr (hold _ (hlt p hp))
  have hnk : new ∉ L.map Prod.fst := by
    intro hm
    obtain ⟨p, hp, e⟩ := List.mem_map.1 hm
    obtain ⟨j, b', o', w, g1, -⟩ := h.inv.item p hp
    have hm := List.mem_of_getElem? g1
    refine hnw new ⟨Nat.le_refl _, by have := List.length_pos_iff.2 hne; simp only; omega⟩ ?_
    rw [← e]
    exact Or.inr (Or.inl ⟨_, hm, Nat.le_refl _, by have := List.length_pos_iff.2 (hbase.nonempty _ hm); simp only at this ⊢; omega⟩)
  have hchain : ∃ c1 cs2 Q B' W, Done S Obj Good rows n { s with objs := s.objs ++ [o], arch := { s.arch with zim := z1 }, cache := c1 } s2 cs
      (fun x => rest x ∨ InCluster (new, chunks.flatten) x) V (fun _ => False) [(new, s.objs.length)] L L cs2 Q B' W := by
    unfold push at hpush
    obtain ⟨c2, hc2, hrepr2, hp⟩ := push_absent (s := { s with objs := s.objs ++ [o], arch := { s.arch with zim := z1 } }) h.repr s.objs.length hnk
    rw [PyM.bind_ok hp] at hpush
    simp only at hc2 hrepr2 hpush
    rw [h.size] at hrepr2 hpush hc2
    refine ⟨c2, ?_⟩
    by_cases hroom : L.length < n
    · have e1 : ((new, s.objs.length) :: L).drop n = [] := List.drop_of_length_le (by rw [List.length_cons]; omega)
      have e2 : ((new, s.objs.length) :: L).take n = (new, s.objs.length) :: L := List.take_of_length_le (by rw [List.length_cons]; omega)
      rw [e1] at hpush
      rw [e2] at hrepr2
      have hs2 : s2 = { s with objs := s.objs ++ [o], arch := { s.arch with zim := z1 }, cache := c2 } := (congrArg Prod.snd hpush).symm
      subst hs2
      refine ⟨cs, [], L, [], ⟨List.prefix_rfl, hrepr2, hc2, hinv1 c2, fun _ _ => rfl, rfl, fun _ _ h _ => h,
        KeepsBytes.refl _ _, ⟨rfl, rfl, rfl, rfl, rfl, rfl, rfl⟩, rfl, rfl, ?_, by simp, by simp, fun _ => ⟨rfl, rfl⟩⟩⟩
      rintro (h | h)
      · exact h
      · exact absurd rfl h
    · have hfull : L.length = n := by
        have := h.repr.bound
        simp only [h.size] at this
        omega
      obtain ⟨p, hpL, hpf⟩ := h.room (i := cs.length) (Or.inr hT) (fun b off e => by simp at e) hfull
      rcases List.eq_nil_or_concat L with rfl | ⟨B0, y, hB0⟩
      · cases hpL
      rw [List.concat_eq_append] at hB0
      subst hB0
      have hlen : n = B0.length + 1 := by rw [← hfull]; simp
      have e1 : ((new, s.objs.length) :: (B0 ++ [y])).drop n = [y] := by
        rw [hlen, List.drop_succ_cons, List.drop_left']
        rfl
      have e2 : ((new, s.objs.length) :: (B0 ++ [y])).take n = [(new, s.objs.length)] ++ B0 := by
        rw [hlen, List.take_succ_cons, List.take_left']
        · rfl
        · rfl
      rw [e1] at hpush
      rw [e2] at hrepr2
      unfold leaveAll at hpush
      obtain ⟨u, s2', hpush0, hpush'⟩ := PyM.bind_ok_iff.1 hpush
      have hs2 : s2' = s2 := congrArg Prod.snd hpush'
      subst hs2
      have hperm : (B0 ++ [y]).Perm (y :: B0) := List.perm_append_singleton _ _
      obtain ⟨cs2, Q, B', W, hdone, -⟩ := chain hC n hauto depth _ _ y [(new, s.objs.length)] B0 cs _ V _ hrepr2 hc2 (by
        intro q hq
        rw [List.mem_singleton.1 hq]
        exact Or.inr ⟨Nat.le_refl _, by have := List.length_pos_iff.2 hne; simp only; omega⟩) ((hinv1 c2).perm hperm) (by
        intro hy
        right
        have hpf' := (hflag1 c2 p hpL false).2 hpf
        rcases List.mem_append.1 hpL with hm | hm
        · exact ⟨p, hm, hpf'⟩
        · rw [List.mem_singleton.1 hm] at hpf'
          exact (hy.unique hpf').elim) hpush0
      refine ⟨cs2, Q, B', W, ⟨hdone.pre.trans (List.prefix_append _ _), hdone.repr, hdone.size, hdone.inv, hdone.objs, hdone.len,
        hdone.kept, hdone.bytes, hdone.same, hdone.num, hdone.arch, hdone.marked, fun q hq => ?_, hdone.fresh, hdone.still⟩⟩
      obtain ⟨g1, g2, g3⟩ := hdone.written q hq
      exact ⟨hperm.mem_iff.2 g1, g2, g3⟩
  obtain ⟨c1, cs2, Q, B', W, hdone⟩ := hchain
  have hrW : s.objs.length ∉ W.map Prod.snd := by
    intro hm
    obtain ⟨p, hp, e⟩ := List.mem_map.1 hm
    exact absurd (hlt p (hdone.written p hp).1) (by rw [e]; exact Nat.lt_irrefl _)
  have ho2 : s2.objs[s.objs.length]? = some o := (hdone.objs _ hrW).trans hself
  have hbase2 := hdone.inv.base
  have hdata2 : Holds s2.arch.zim.file new chunks.flatten := hdone.bytes.holds hdata fun x h1 h2 => Or.inr ⟨h1, h2⟩
  have hcs2 : cs2.length = cs.length := by rw [← h.inv.len, ← hdone.inv.len]
  have hptr : s2.arch.zim.clusters.pointers = cs2.map (fun c => (c.1 : Int)) := hbase2.pointers
  have hset : onZim (K := K) (Zim.onClusters (fun l => l.set s.arch.zim.clusterNum new true)) s2 = (.ok (), { s2 with arch := { s2.arch with
      zim := { s2.arch.zim with clusters := { s2.arch.zim.clusters with
        pointers := s2.arch.zim.clusters.pointers ++ [(new : Int)], dirty := true } } } }) := by
    unfold onZim
    rw [Zim.onClusters_apply, Zim.set_append hbase2.mutable (by
      rw [hptr, List.length_map, hcs2]; exact h.num)]
  rw [PyM.bind_ok hset, PyM.get_bind] at hok
  rw [PyM.bind_ok (getObj_ok (s := { s2 with arch := { s2.arch with
      zim := { s2.arch.zim with clusters := { s2.arch.zim.clusters with
        pointers := s2.arch.zim.clusters.pointers ++ [(new : Int)], dirty := true } } } }) ho2)] at hok
  cases haf : S.O.afterFlush (S.O.setOffset o new) s2.arch.zim.file with
  | error e =>
    simp only [haf] at hok
    rw [PyM.lift_err_bind] at hok
    exact absurd (congrArg Prod.fst hok) (by simp)
  | ok o2 =>
  obtain ⟨hobj2, hd2⟩ := hafter _ _ _ hdata2 haf
  simp only [haf] at hok
  rw [PyM.lift_ok_bind] at hok
  have hk : k = s.arch.zim.clusterNum := by
    have := congrArg Prod.fst hok
    exact (Except.ok.inj this).symm
  have hs' : s' = { s2 with objs := s2.objs.set s.objs.length o2
                            arch := { s2.arch with zim := { s2.arch.zim with
                              clusters := { s2.arch.zim.clusters with
                                pointers := s2.arch.zim.clusters.pointers ++ [(new : Int)], dirty := true } } } } := by
    have := congrArg Prod.snd hok
    exact this.symm
  have hrlt : s.objs.length < s2.objs.length := (List.getElem?_eq_some_iff.1 ho2).1
  have hrL : ∀ p ∈ Q ++ B', p.2 ≠ s.objs.length := by
    intro p hp e
    rcases List.mem_append.1 hp with hp | hp
    · exact hrW (e ▸ (hdone.fresh p hp).1)
    · exact absurd (hlt p (hdone.pre.subset hp)) (by rw [e]; exact Nat.lt_irrefl _)
  have hnL : ∀ p ∈ Q ++ B', p.1 ≠ new := by
    intro p hp e
    obtain ⟨j, b', o', w, g1, -⟩ := hdone.inv.item p hp
    refine hbase2.notRest (List.mem_of_getElem? g1) (Or.inr ?_)
    simp only [e]
    exact ⟨Nat.le_refl _, by have := List.length_pos_iff.2 hne; simp only; omega⟩
  have hnr : ∀ x, InCluster (new, chunks.flatten) x → ¬ rest x := fun x hx hr => hnw x hx (Or.inl hr)
  have hVl : V.length = cs2.length := hdone.inv.len
  have hperm : ((new, s.objs.length) :: (Q ++ B')).Perm (Q ++ [(new, s.objs.length)] ++ B') := by
    rw [List.append_assoc]; exact List.perm_middle.symm
  refine ⟨by rw [hk, h.num, h.inv.len], cs2 ++ [(new, chunks.flatten)], Q ++ [(new, s.objs.length)] ++ B',
    ⟨by rw [hs']; exact hdone.repr, by rw [hs']; exact hdone.size, ?_, ?_, h.nodup, h.few, ?_⟩, ?_, ?_, ?_, ?_⟩
  · rw [hs']
    refine CInv.perm (L := (new, s.objs.length) :: (Q ++ B')) ?_ hperm
    refine ⟨?_, ?_, ?_, ?_, ?_, ?_⟩
    · exact Holding.append (new, chunks.flatten) hbase2 hdata2 hne hnr
    · rw [List.length_append, List.length_append, hVl]; rfl
    · intro p hp
      rcases List.mem_cons.1 hp with rfl | hp
      · refine ⟨cs2.length, chunks.flatten, o2, v, by simp, fun h => h, by rw [← hVl]; simp, ?_, hobj2⟩
        simp only
        rw [List.getElem?_set_self hrlt]
      · obtain ⟨j, b', o', w, g1, g2, g3, g4, g5⟩ := hdone.inv.item p hp
        refine ⟨j, b', o', w, ?_, g2, ?_, ?_, g5⟩
        · rw [List.getElem?_append_left (List.getElem?_eq_some_iff.1 g1).1]; exact g1
        · rw [List.getElem?_append_left (List.getElem?_eq_some_iff.1 g3).1]; exact g3
        · simp only; rw [List.getElem?_set_ne (hrL p hp).symm]; exact g4
    · rw [List.map_cons, List.nodup_cons]
      refine ⟨fun h => ?_, hdone.inv.refs⟩
      obtain ⟨p, hp, e⟩ := List.mem_map.1 h
      exact hrL p hp e
    · rw [List.map_cons, List.nodup_cons]
      refine ⟨fun h => ?_, hdone.inv.keys⟩
      obtain ⟨p, hp, e⟩ := List.mem_map.1 h
      exact hnL p hp e
    · intro j st w hj hw' hnj
      by_cases hlt' : j < cs2.length
      · rw [List.getElem?_append_left hlt'] at hj
        rw [List.getElem?_append_left (by rw [hVl]; exact hlt')] at hw'
        refine (hdone.inv.settled j st w hj hw' hnj).imp (fun h => ?_) id
        rw [List.map_cons]; exact List.mem_cons_of_mem _ h
      · have hje : j = cs2.length := by
          have := (List.getElem?_eq_some_iff.1 hj).1
          rw [List.length_append, List.length_singleton] at this
          omega
        subst hje
        rw [List.getElem?_append_right (Nat.le_refl _)] at hj
        simp only [Nat.sub_self, List.getElem?_cons_zero, Option.some.injEq] at hj
        left
        rw [← hj]; simp
  · rw [hs', List.length_append, hcs2]
    show s2.arch.zim.clusterNum = _
    rw [hdone.num]
    show z1.clusterNum = _
    rw [hnum1]
    show s.arch.zim.clusterNum + 1 = _
    rw [h.num]; rfl
  · intro p hp hf
    rcases List.mem_cons.1 (hperm.mem_iff.2 hp) with rfl | hp'
    · refine (hf.unique ⟨o2, ?_, hd2⟩).elim
      rw [hs']; simp only
      rw [List.getElem?_set_self hrlt]
    · rw [Flag.congr (s := s2) (by rw [hs']; simp only; rw [List.getElem?_set_ne (hrL p hp').symm])] at hf
      rcases List.mem_append.1 hp' with hq | hq
      · exact (hf.unique (hdone.fresh p hq).2).elim
      · obtain ⟨u1, u2⟩ := hdone.untouched (hinv1 c1) (fun _ h => h) hq
        have hpL := hdone.pre.subset hq
        rw [Flag.congr (hdone.objs _ u1), hflag1 c1 p hpL] at hf
        obtain ⟨i, b, a1, a2⟩ := h.flag p hpL hf
        refine ⟨i, b, a1, ?_⟩
        have := hdone.kept i _ a2 u2
        rw [List.getElem?_append_left (List.getElem?_eq_some_iff.1 this).1]; exact this
  · rw [hs']
    exact (hkeep.mono fun x h => Or.inl h).trans (hdone.bytes.mono fun x h => Or.inl h)
  · rw [hs']
    have a := hsame1
    have c := hdone.same
    exact ⟨c.header.trans a.header, c.mimetypes.trans a.mimetypes, c.urls.trans a.urls, c.articles.trans a.articles,
      c.titles.trans a.titles, c.redirects.trans a.redirects, c.mainpage.trans a.mainpage⟩
  · rw [hs']; simp only
    rw [hdone.arch]
  · rw [hs']; exact Or.inr rfl

/-- the clusters that have left the cache and are still to be written -/
theorem CInv.hide {R A : List (Nat × Nat)} (h : CInv Obj Good rows s cs rest V (fun _ => False) (R ++ A)) :
    CInv Obj Good rows s cs rest V (fun i => ∃ p ∈ R, ∃ b, cs[i]? = some (p.1, b)) A where
  base := h.base
  len := h.len
  item p hp := by
    obtain ⟨j, b', o', w, g1, g2, g3, g4, g5⟩ := h.item p (List.mem_append_right _ hp)
    refine ⟨j, b', o', w, g1, ?_, g3, g4, g5⟩
    rintro ⟨q, hq, b, e⟩
    rw [g1] at e
    simp only [Option.some.injEq, Prod.mk.injEq] at e
    have := h.keys
    rw [List.map_append, List.nodup_append] at this
    exact this.2.2 _ (List.mem_map_of_mem hq) _ (List.mem_map_of_mem hp) e.1.symm
  refs := by
    have := h.refs
    rw [List.map_append, List.nodup_append] at this
    exact this.2.1
  keys := by
    have := h.keys
    rw [List.map_append, List.nodup_append] at this
    exact this.2.1
  settled i st v a1 a2 a3 := by
    rcases h.settled i st v a1 a2 (fun h => h) with hm | hm
    · rw [List.map_append, List.mem_append] at hm
      rcases hm with hm | hm
      · obtain ⟨p, hp, e⟩ := List.mem_map.1 hm
        exact absurd ⟨p, hp, st.2, by rw [a1, e]⟩ a3
      · exact Or.inl hm
    · exact Or.inr hm

/-- all clusters leave the cache -/
theorem leaveAll_top (hC : Contract S Obj Good) (hauto : S.autoflush = true) {depth : Nat} : ∀ {R : List (Nat × Nat)} {A : List (Nat × Nat)}
    {s : Caching K} {cs : List Stored}, LastCache.Repr s.cache ⟨A, []⟩ → s.cache.maxSize = n →
    CInv Obj Good rows s cs rest V (fun _ => False) (R ++ A) → s.arch.zim.clusterNum = cs.length → (R ++ A).length ≤ n →
    (∀ p ∈ A, Flag S s p.2 false) → leaveAll (onLeave S (write S depth)) R s = (.ok (), s') →
    ∃ cs' L', Top S Obj Good rows rest n s' cs' V [] L' ∧ Moved rest s s' cs cs' := by
  intro R
  induction R with
  | nil =>
    intro A s cs h1 h2 h3 h4 h5 h6 h7
    have hs : s' = s := (congrArg Prod.snd h7).symm
    subst hs
    exact ⟨cs, A, ⟨h1, h2, h3, h4, List.nodup_nil, by simp, fun p hp hf => (hf.unique (h6 p hp)).elim⟩, Moved.refl _ _ _⟩
  | cons x R ih =>
    intro A s cs h1 h2 h3 h4 h5 h6 h7
    unfold leaveAll at h7
    obtain ⟨u, s1, h8, h9⟩ := PyM.bind_ok_iff.1 h7
    have hperm : ((x :: R) ++ A).Perm (R ++ (x :: A)) := by
      rw [List.cons_append]; exact List.perm_middle.symm
    have h3' := h3.perm hperm
    have hhid := h3'.hide
    have hlen : A.length < n := by
      simp only [List.cons_append, List.length_cons, List.length_append] at h5; omega
    obtain ⟨cs', Q, B', W, hdone, -⟩ := chain hC n hauto depth s s1 x [] A cs rest V _ (by simpa using h1) h2 (by simp) hhid
      (fun _ => Or.inl (by simpa using hlen)) h8
    have hsub : ∀ p ∈ A, p ∈ x :: A := fun p hp => List.mem_cons_of_mem _ hp
    have hkeys := h3'.keys
    have hrefs := h3'.refs
    rw [List.map_append, List.nodup_append] at hkeys hrefs
    have hRW : ∀ p ∈ R, p.2 ∉ W.map Prod.snd ∧ p.1 ∉ W.map Prod.fst := by
      intro p hp
      constructor <;> intro hm <;> obtain ⟨q, hq, e⟩ := List.mem_map.1 hm
      · exact hrefs.2.2 _ (List.mem_map_of_mem hp) _ (List.mem_map_of_mem (hdone.written q hq).1) e.symm
      · exact hkeys.2.2 _ (List.mem_map_of_mem hp) _ (List.mem_map_of_mem (hdone.written q hq).1) e.symm
    have hsubrefs : ∀ r ∈ (Q ++ B').map Prod.snd, r ∈ (x :: A).map Prod.snd := by
      intro r hr
      obtain ⟨p, hp, rfl⟩ := List.mem_map.1 hr
      rcases List.mem_append.1 hp with hp | hp
      · obtain ⟨q, hq, e⟩ := List.mem_map.1 (hdone.fresh p hp).1
        rw [← e]; exact List.mem_map_of_mem (hdone.written q hq).1
      · exact List.mem_map_of_mem (hsub _ (hdone.pre.subset hp))
    have hRkept : ∀ p ∈ R, ∀ i b, cs[i]? = some (p.1, b) → cs'[i]? = some (p.1, b) :=
      fun p hp i b e => hdone.kept i _ e (hRW p hp).2
    have hinv : CInv Obj Good rows s1 cs' rest V (fun _ => False) (R ++ (Q ++ B')) := by
      refine ⟨hdone.inv.base, hdone.inv.len, fun p hp => ?_, ?_, ?_, fun i st v a1 a2 a3 => ?_⟩
      · rcases List.mem_append.1 hp with hp | hp
        · obtain ⟨j, b', o', w, g1, g2, g3, g4, g5⟩ := h3'.item p (List.mem_append_left _ hp)
          exact ⟨j, b', o', w, hRkept p hp _ _ g1, g2, g3, (hdone.objs _ (hRW p hp).1).trans g4, g5⟩
        · obtain ⟨j, b', o', w, g1, g2, g3, g4, g5⟩ := hdone.inv.item p hp
          exact ⟨j, b', o', w, g1, fun h => h, g3, g4, g5⟩
      · rw [List.map_append, List.nodup_append]
        exact ⟨hrefs.1, hdone.inv.refs, fun a ha b hb => hrefs.2.2 a ha b (hsubrefs b hb)⟩
      · rw [List.map_append, List.nodup_append]
        refine ⟨hkeys.1, hdone.inv.keys, fun a ha b hb e => ?_⟩
        obtain ⟨p, hp, rfl⟩ := List.mem_map.1 ha
        obtain ⟨q, hq, rfl⟩ := List.mem_map.1 hb
        obtain ⟨j, b', o', w, g1, -⟩ := h3'.item p (List.mem_append_left _ hp)
        obtain ⟨j2, b2, o2, w2, k1, k2, -⟩ := hdone.inv.item q hq
        have := hRkept p hp _ _ g1
        obtain rfl := hdone.inv.base.distinct this k1 e
        exact k2 ⟨p, hp, b', g1⟩
      · by_cases hex : ∃ p ∈ R, ∃ b, cs[i]? = some (p.1, b)
        · obtain ⟨p, hp, b, e⟩ := hex
          have := hRkept p hp _ _ e
          rw [a1] at this
          injection this with this
          left
          rw [this]
          exact List.mem_map.2 ⟨p, List.mem_append_left _ hp, rfl⟩
        · refine (hdone.inv.settled i st v a1 a2 hex).imp (fun h => ?_) id
          rw [List.map_append]; exact List.mem_append_right _ h
    have hle : (Q ++ B').length ≤ (x :: A).length := by
      have := nodup_subset_length hdone.inv.refs hsubrefs
      simpa using this
    obtain ⟨cs2, L', g1, g2⟩ := ih (A := Q ++ B') (by have := hdone.repr; rwa [List.append_nil] at this) hdone.size hinv
      (by rw [hdone.num, h4, ← h3.len, hdone.inv.len]) (by
        simp only [List.cons_append, List.length_cons, List.length_append] at h5 hle ⊢; omega) (fun p hp => by
        rcases List.mem_append.1 hp with hp | hp
        · exact (hdone.fresh p hp).2
        · obtain ⟨u1, -⟩ := hdone.untouched hhid hsub hp
          rw [Flag.congr (hdone.objs _ u1)]
          exact h6 p (hdone.pre.subset hp)) h9
    refine ⟨cs2, L', g1, Moved.trans ⟨hdone.bytes, hdone.same, hdone.arch, ?_⟩ g2⟩
    by_cases hW : W = []
    · exact Or.inl (hdone.still hW)
    · exact Or.inr (hdone.marked (Or.inr hW))

/-- clearing the cache -/
theorem clear_top (hC : Contract S Obj Good) (hauto : S.autoflush = true) {depth : Nat} (h : Top S Obj Good rows rest n s cs V T L)
    (hok : clear S depth s = (.ok (), s')) :
    ∃ cs' L', Top S Obj Good rows rest n s' cs' V [] L' ∧ Moved rest s s' cs cs' := by
  unfold clear at hok
  have hrep : LastCache.Repr ({ s.cache with left := [] } : LastCache Nat Nat) ⟨L, []⟩ :=
    ⟨h.repr.ex, h.repr.bound, h.repr.pos, h.repr.leave, rfl⟩
  obtain ⟨h1, h2⟩ := LastCache.clear_spec hrep true
  have hon : onCache (K := K) (fun c => (.ok (), LastCache.clear true c)) s = (.ok ((), L),
      { s with cache := { LastCache.clear true { s.cache with left := [] } with left := [] } }) := by
    unfold onCache
    simp only
    rw [h1.left]
    rfl
  rw [PyM.bind_ok hon] at hok
  simp only at hok
  have hb := h.repr.bound
  simp only [h.size] at hb
  obtain ⟨cs', L', g1, g2⟩ := leaveAll_top (n := n) (V := V) (rest := rest) (rows := rows) (A := []) (cs := cs)
    (s := { s with cache := { LastCache.clear true { s.cache with left := [] } with left := [] } }) hC hauto
    (⟨h1.ex, h1.bound, h1.pos, h1.leave, rfl⟩) (h2.trans h.size) (by
      rw [List.append_nil]
      exact ⟨h.inv.base, h.inv.len, h.inv.item, h.inv.refs, h.inv.keys, h.inv.settled⟩) h.num (by rw [List.append_nil]; exact hb)
    (by simp) hok
  exact ⟨cs', L', g1, ⟨g2.bytes, g2.same, g2.arch, g2.change⟩⟩

/-- if no cluster is modified, everything is in the file -/
theorem Top.saved (hC : Contract S Obj Good) (h : Top S Obj Good rows rest n s cs V [] L) {i : Nat} {st : Stored} {v : List Bytes}
    (hi : cs[i]? = some st) (hv : V[i]? = some v) : Good st.2 v := by
  rcases h.inv.settled i st v hi hv (fun h => h) with hm | hm
  · obtain ⟨p, hp, e⟩ := List.mem_map.1 hm
    obtain ⟨j, b', o', w, g1, g2, g3, g4, g5⟩ := h.inv.item p hp
    obtain rfl := h.inv.base.distinct g1 hi e
    rw [hi] at g1
    rw [hv] at g3
    injection g1 with g1
    injection g3 with g3
    cases hd : S.dirty o' with
    | true =>
      obtain ⟨i, b, a1, -⟩ := h.flag p hp ⟨o', g4, hd⟩
      cases a1
    | false =>
      have := hC.clean g5 hd
      rw [g1, g3]; exact this
  · exact hm

end
end Caching
end Pyzim
