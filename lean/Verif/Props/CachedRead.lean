import Verif.Spec.CachedRead
import Verif.Props.Cache
import Verif.Props.Cluster

/-! # Caching is transparent to readers (C43) -/

namespace Pyzim

namespace AnyCache
variable {K V : Type} [DecidableEq K]

/-- The cache is in order and holds only pairs with `P`. -/
def Holds (P : K × V → Prop) : AnyCache K V → Prop
  | .noOp _ => True
  | .last c => ∃ s, LastCache.Repr c s ∧ ∀ p ∈ s.items, P p
  | .top c => ∃ items cnt, TopCache.Repr c items cnt ∧ ∀ p ∈ items, P p
  | .hybrid c => ∃ n, HybridCache.Holds n P c

theorem Holds.mono {P Q : K × V → Prop} {c : AnyCache K V} (h : Holds P c)
    (hpq : ∀ p, P p → Q p) : Holds Q c := by
  cases c with
  | noOp c => trivial
  | last c => obtain ⟨s, h1, h2⟩ := h; exact ⟨s, h1, fun p hp => hpq p (h2 p hp)⟩
  | top c => obtain ⟨i, n, h1, h2⟩ := h; exact ⟨i, n, h1, fun p hp => hpq p (h2 p hp)⟩
  | hybrid c => obtain ⟨n, h⟩ := h; exact ⟨n, h.mono hpq⟩

theorem holds_new (cfg : CacheConfig) (h : cfg.sensible) (P : K × V → Prop) :
    Holds P (AnyCache.new cfg : AnyCache K V) := by
  cases cfg with
  | noOp => trivial
  | last n => exact ⟨_, LastCache.repr_new n h, by simp⟩
  | top n => exact ⟨_, _, TopCache.repr_new n h, by simp⟩
  | hybrid l t => exact ⟨l, HybridCache.holds_new l t h P⟩

theorem get_spec {P : K × V → Prop} {c : AnyCache K V} (h : Holds P c) (k : K)
    (hk : c.has k = true) :
    ∃ v c', AnyCache.get k c = (.ok v, c') ∧ P (k, v) ∧ Holds P c' := by
  cases c with
  | noOp c => simp [AnyCache.has, NoOpCache.has] at hk
  | last c =>
    obtain ⟨s, h1, h2⟩ := h
    obtain ⟨c', e, hr, -⟩ := LastCache.get_spec h1 k
    simp only [AnyCache.has, h1.has] at hk
    obtain ⟨v, hv⟩ := Option.isSome_iff_exists.1 hk
    simp only [Lru.get, hv] at e hr
    have hP := h2 _ ((lookup_eq_some h1.keysNodup).1 hv)
    refine ⟨v, .last c', by simp only [AnyCache.get, e], hP, _, hr, ?_⟩
    intro p hp
    rcases List.mem_cons.1 hp with rfl | hp
    · exact hP
    · exact h2 p (mem_without.1 hp).1
  | top c =>
    obtain ⟨items, cnt, h1, h2⟩ := h
    obtain ⟨c', items', e, hr, hp, -⟩ := TopCache.get_spec h1 k
    simp only [AnyCache.has, h1.has] at hk
    obtain ⟨v, hv⟩ := Option.isSome_iff_exists.1 hk
    simp only [hv] at e
    exact ⟨v, .top c', by simp only [AnyCache.get, e], h2 _ ((lookup_eq_some h1.keysNodup).1 hv),
      _, _, hr, fun p hp' => h2 p (hp.mem_iff.1 hp')⟩
  | hybrid c =>
    obtain ⟨n, h⟩ := h
    obtain ⟨h1, h2, -⟩ := HybridCache.get_spec h k
    obtain ⟨v, e, hP⟩ := h2 hk
    refine ⟨v, .hybrid (HybridCache.get k c).2, ?_, hP, n, h1⟩
    simp only [AnyCache.get, ← e]

theorem push_spec {P : K × V → Prop} {c : AnyCache K V} (h : Holds P c) (k : K) (v : V) (a : Bool)
    (hP : P (k, v)) : ∃ r c', AnyCache.push k v a c = (.ok r, c') ∧ Holds P c' := by
  cases c with
  | noOp c => exact ⟨_, _, rfl, trivial⟩
  | last c =>
    obtain ⟨s, h1, h2⟩ := h
    obtain ⟨c', e, hr, -⟩ := LastCache.push_spec h1 k v a
    have hmem : ∀ p ∈ (Lru.push c.maxSize k v a s).2.items, P p := by
      intro p hp
      unfold Lru.push at hp
      split at hp
      · rcases List.mem_cons.1 hp with rfl | hp
        · exact hP
        · exact h2 p (mem_without.1 hp).1
      · split at hp
        · rcases List.mem_cons.1 (List.mem_of_mem_take hp) with rfl | hp
          · exact hP
          · exact h2 p hp
        · exact h2 p hp
    obtain ⟨r, hrr⟩ : ∃ r, (Lru.push c.maxSize k v a s).1 = .ok r := by
      unfold Lru.push
      by_cases hx : (s.items.lookup k).isSome = true
      · rw [if_pos hx]; exact ⟨_, rfl⟩
      · rw [if_neg hx]; cases a <;> exact ⟨_, rfl⟩
    rw [hrr] at e
    exact ⟨r, .last c', by simp only [AnyCache.push, e], _, hr, hmem⟩
  | top c =>
    obtain ⟨items, cnt, h1, h2⟩ := h
    obtain ⟨c', r, items', gone, e, hr, hp, -⟩ := TopCache.push_spec h1 k v a
    refine ⟨r, .top c', by simp only [AnyCache.push, e], _, _, hr, fun p hp' => ?_⟩
    rcases HybridCache.pushed_subset hp p hp' with rfl | hp'
    · exact hP
    · exact h2 p hp'
  | hybrid c =>
    obtain ⟨n, h⟩ := h
    obtain ⟨h1, r, e⟩ := HybridCache.push_spec h k v a hP
    exact ⟨r, .hybrid (HybridCache.push k v a c).2, by simp only [AnyCache.push, ← e], n, h1⟩

end AnyCache

/-! ### Entries -/

/-- What is cached for an entry is what reading it gives. -/
def FromFile (file : Bytes) (p : Nat × Entry) : Prop :=
  ∃ f, Entry.fromFile { data := file, pos := 0 } (some p.1) = some (.ok p.2, f)

theorem getEntryAt_spec (file : Bytes) (base loc : Nat) (allow : Bool) {c : AnyCache Nat Entry}
    (h : c.Holds (FromFile file)) :
    (Entry.fromFile { data := file, pos := 0 } (some (base + loc)) = none →
      getEntryAt file base loc allow c = none) ∧
    (∀ x f, Entry.fromFile { data := file, pos := 0 } (some (base + loc)) = some (x, f) →
      ∃ c', getEntryAt file base loc allow c = some (x, c') ∧ c'.Holds (FromFile file)) := by
  unfold getEntryAt
  simp only
  by_cases hh : c.has (base + loc) = true
  · obtain ⟨v, c', e, ⟨f, hf⟩, hc⟩ := AnyCache.get_spec h _ hh
    rw [if_pos hh, e]
    replace hf : Entry.fromFile { data := file, pos := 0 } (some (base + loc)) = some (.ok v, f) := hf
    rw [hf]
    refine ⟨by simp, ?_⟩
    intro x f' hx
    simp only [Option.some.injEq, Prod.mk.injEq] at hx
    exact ⟨c', by rw [hx.1], hc⟩
  · rw [if_neg hh]
    cases hf : Entry.fromFile { data := file, pos := 0 } (some (base + loc)) with
    | none => exact ⟨fun _ => rfl, by simp⟩
    | some r =>
      obtain ⟨x, f⟩ := r
      refine ⟨by simp, ?_⟩
      intro x' f' hx
      simp only [Option.some.injEq, Prod.mk.injEq] at hx
      obtain ⟨rfl, rfl⟩ := hx
      cases x with
      | error e => exact ⟨c, rfl, h⟩
      | ok v =>
        obtain ⟨r, c', e, hc⟩ := AnyCache.push_spec h (base + loc) v allow ⟨f, hf⟩
        exact ⟨c', by simp only [e], hc⟩

/-- **C43.** Whatever the cache, reading entries gives what reading the file each time gives. -/
theorem C43_entries (file : Bytes) (base : Nat) (cfg : CacheConfig) (hc : cfg.sensible)
    (reqs : List (Nat × Bool)) :
    readEntries file base reqs (AnyCache.new cfg) =
      reqs.mapM fun r => (Entry.fromFile { data := file, pos := 0 } (some (base + r.1))).map Prod.fst := by
  have key : ∀ (reqs : List (Nat × Bool)) (c : AnyCache Nat Entry), c.Holds (FromFile file) →
      readEntries file base reqs c = reqs.mapM fun r =>
        (Entry.fromFile { data := file, pos := 0 } (some (base + r.1))).map Prod.fst := by
    intro reqs
    induction reqs with
    | nil => intro c _; rfl
    | cons r reqs ih =>
      intro c h
      obtain ⟨h1, h2⟩ := getEntryAt_spec file base r.1 r.2 h
      rw [List.mapM_cons]
      unfold readEntries
      cases hf : Entry.fromFile { data := file, pos := 0 } (some (base + r.1)) with
      | none => rw [h1 hf]; rfl
      | some xf =>
        obtain ⟨x, f⟩ := xf
        obtain ⟨c', e, hc'⟩ := h2 x f hf
        rw [e]
        simp only [ih c' hc', Option.map_some]
        simp only [bind, Option.bind, pure]
        cases List.mapM (m := Option) (fun r : Nat × Bool =>
          (Entry.fromFile { data := file, pos := 0 } (some (base + r.1))).map Prod.fst) reqs <;> rfl
  exact key reqs _ (AnyCache.holds_new cfg hc _)

/-- In particular the results do not depend on the cache. -/
theorem C43_entries_any_cache (file : Bytes) (base : Nat) (cfg cfg' : CacheConfig)
    (hc : cfg.sensible) (hc' : cfg'.sensible) (reqs : List (Nat × Bool)) :
    readEntries file base reqs (AnyCache.new cfg) = readEntries file base reqs (AnyCache.new cfg') := by
  rw [C43_entries file base cfg hc, C43_entries file base cfg' hc']

/-! ### Clusters -/

section Clusters
variable {D : Type} {X : Codecs D} {file : Bytes}

open Cluster

/-- A request does not depend on what was read before from the cluster object. -/
theorem exec_same {o : Nat} {blobs : List Bytes} (A : ClusterAt X file o blobs) {s t : CSt D}
    (hs : Reached X file o s) (ht : Reached X file o t) (q : ClusterReq) (hq : q.InBounds blobs) :
    (q.exec X s).1 = (q.exec X t).1 ∧ Reached X file o (q.exec X s).2 := by
  have lift : ∀ {α : Type} (g : PyM (CSt D) α) (w : α → ClusterAns),
      (g s).1 = (g t).1 → Reached X file o (g s).2 →
      ((do let a ← g; pure (w a)) s : PyRes ClusterAns × CSt D).1 = ((do let a ← g; pure (w a)) t :
        PyRes ClusterAns × CSt D).1 ∧
      Reached X file o ((do let a ← g; pure (w a)) s : PyRes ClusterAns × CSt D).2 := by
    intro α g w h1 h2
    cases hgs : g s with
    | mk x s' =>
      cases hgt : g t with
      | mk y t' =>
        rw [hgs, hgt] at h1
        simp only at h1
        subst h1
        rw [hgs] at h2
        cases x with
        | ok a => rw [PyM.bind_ok hgs, PyM.bind_ok hgt]; exact ⟨rfl, h2⟩
        | error e => rw [PyM.bind_err hgs, PyM.bind_err hgt]; exact ⟨rfl, h2⟩
  have same : ∀ {α : Type} {x y : PyRes α} {z : PyRes α}, x = z → y = z → x = y :=
    fun h1 h2 => h1.trans h2.symm
  have ss := C21_sizes A hs
  have st := C21_sizes A ht
  cases q with
  | numberOfBlobs => exact lift _ _ (same ss.1 st.1) hs.numBlobs
  | blobSize i => exact lift _ _ (same (ss.2.2.2.2 i) (st.2.2.2.2 i)) (hs.blobSize i)
  | contentSize => exact lift _ _ (same ss.2.2.1 st.2.2.1) hs.contentSize
  | offset i =>
    refine lift _ _ ?_ (hs.offset i)
    have os := C21_offsets A hs i
    have ot := C21_offsets A ht i
    by_cases hi : (i : Int) ≤ blobs.length
    · exact same (os.1 (by omega) hi) (ot.1 (by omega) hi)
    · exact same (os.2 (by omega)) (ot.2 (by omega))
  | readBlob i a b =>
    obtain ⟨blob, hb, h1, h2⟩ := hq
    obtain ⟨hi, rfl⟩ := List.getElem?_eq_some_iff.1 hb
    exact lift _ _ (same (C21_read_blob A hs i hi a b h1 h2) (C21_read_blob A ht i hi a b h1 h2))
      (hs.readBlob i a b)
  | iterReadBlob i bs a b calls =>
    obtain ⟨blob, hb, hbs, h1, h2, h3⟩ := hq
    obtain ⟨hi, rfl⟩ := List.getElem?_eq_some_iff.1 hb
    obtain ⟨cs, fin, e, -, -, hf, hc⟩ := C22_iter_read_blob A hs i hi bs hbs a b h1 h2 calls
    obtain ⟨ct, fin', e', -, -, hf', hc'⟩ := C22_iter_read_blob A ht i hi bs hbs a b h1 h2 calls
    have hr := hs.iterReadBlob i bs a b calls
    unfold ClusterReq.exec
    cases hgs : iterReadBlob X i bs a b calls s with
    | mk x s' =>
      cases hgt : iterReadBlob X i bs a b calls t with
      | mk y t' =>
        rw [hgs] at e hr
        rw [hgt] at e'
        simp only at e e'
        subst e e'
        simp only [PyM.bind_ok hgs, PyM.bind_ok hgt]
        refine ⟨?_, hr⟩
        simp only [PyM.pure_apply]
        rw [hf (hc h3), hf' (hc' h3)]

/-- The objects are in order, and the cache refers to objects of the right location. -/
structure Ready (X : Codecs D) (kind : ClusterKind) (file : Bytes) (locs : List Nat)
    (s : ClusterSt D) : Prop where
  data : s.f.data = file
  len : s.objects.length = locs.length
  reached : ∀ (i : Nat) (c : Cluster D) (o : Nat), s.objects[i]? = some c → locs[i]? = some o →
    Reached X file o { c := c, f := { data := file, pos := 0 } }
  cache : s.cache.Holds fun p => locs[p.2]? = some p.1

theorem getClusterAt_spec {kind : ClusterKind} {locs : List Nat} {s : ClusterSt D}
    (h : Ready X kind file locs s) (base loc : Nat) :
    ∃ ref s' more, getClusterAt kind base loc s = (.ok ref, s') ∧
      Ready X kind file (locs ++ more) s' ∧ (locs ++ more)[ref]? = some (base + loc) := by
  unfold getClusterAt
  simp only
  by_cases hh : s.cache.has (base + loc) = true
  · obtain ⟨ref, c', e, hP, hc⟩ := AnyCache.get_spec h.cache _ hh
    rw [if_pos hh, e]
    exact ⟨ref, _, [], rfl, by rw [List.append_nil]; exact ⟨h.data, h.len, h.reached, hc⟩,
      by rw [List.append_nil]; exact hP⟩
  · rw [if_neg hh]
    have hnew : (locs ++ [base + loc])[s.objects.length]? = some (base + loc) := by
      rw [h.len, List.getElem?_append_right (Nat.le_refl _), Nat.sub_self]; rfl
    have hold : s.cache.Holds fun p => (locs ++ [base + loc])[p.2]? = some p.1 := by
      refine h.cache.mono fun p hp => ?_
      rw [List.getElem?_append_left (List.getElem?_eq_some_iff.1 hp).1]; exact hp
    obtain ⟨r, c', e, hc⟩ := AnyCache.push_spec hold (base + loc) s.objects.length true hnew
    simp only [e]
    refine ⟨_, _, [base + loc], rfl, ⟨h.data, ?_, ?_, hc⟩, hnew⟩
    · simp [h.len]
    · intro i c o hi ho
      by_cases hlt : i < s.objects.length
      · rw [List.getElem?_append_left hlt] at hi
        rw [List.getElem?_append_left (by rw [← h.len]; exact hlt)] at ho
        exact h.reached i c o hi ho
      · rw [List.getElem?_append_right (by omega)] at hi
        rw [List.getElem?_append_right (by rw [← h.len]; omega)] at ho
        obtain ⟨h1, h2⟩ := List.getElem?_eq_some_iff.1 hi
        obtain ⟨h3, h4⟩ := List.getElem?_eq_some_iff.1 ho
        simp only [List.getElem_singleton] at h2 h4
        subst h2 h4
        exact Reached.fresh kind 0

theorem onCluster_spec {kind : ClusterKind} {locs : List Nat} {s : ClusterSt D}
    (h : Ready X kind file locs s) {ref o : Nat} (ho : locs[ref]? = some o) {blobs : List Bytes}
    (A : ClusterAt X file o blobs) (q : ClusterReq) (hq : q.InBounds blobs) :
    ∃ s', onCluster ref (q.exec X) s = ((q.exec X
        { c := { kind := kind, offset := o }, f := { data := file, pos := 0 } }).1, s') ∧
      Ready X kind file locs s' := by
  have hlt : ref < s.objects.length := by
    rw [h.len]; exact (List.getElem?_eq_some_iff.1 ho).1
  unfold onCluster
  obtain ⟨c, hc⟩ : ∃ c, s.objects[ref]? = some c := ⟨_, List.getElem?_eq_getElem hlt⟩
  rw [hc]
  have hr : Reached X file o { c := c, f := s.f } := by
    have := (h.reached ref c o hc ho).moved s.f.pos
    have e : s.f = { data := file, pos := s.f.pos } := by rw [← h.data]
    rw [e]; exact this
  obtain ⟨e1, hr'⟩ := exec_same A hr (Reached.fresh kind 0) q hq
  cases hx : q.exec X { c := c, f := s.f } with
  | mk x r =>
    rw [hx] at e1 hr'
    have hg := hr'.good A
    refine ⟨{ s with objects := s.objects.set ref r.c, f := r.f }, ?_, ?_⟩
    · rw [← e1]; simp only [hx]
    · refine ⟨hg.data, by simp [h.len], ?_, h.cache⟩
      intro i c' o' hi ho'
      by_cases he : i = ref
      · subst he
        rw [List.getElem?_set_self hlt, Option.some.injEq] at hi
        rw [ho, Option.some.injEq] at ho'
        subst hi ho'
        have := hr'.moved 0
        have e : r.f.data = file := hg.data
        rw [show ({ r with f := { r.f with pos := 0 } } : CSt D) =
          { c := r.c, f := { data := file, pos := 0 } } by rw [← e]] at this
        exact this
      · simp only at hi
        rw [List.getElem?_set_ne (Ne.symm he)] at hi
        exact h.reached i c' o' hi ho'

/-- **C43.** Whatever the cache, a program that gets clusters and reads from them gets the results
it would get if each read were done by a new cluster object: neither sharing cluster objects
through the cache nor evictions make a difference. -/
theorem C43_clusters (kind : ClusterKind) (base : Nat) (cfg : CacheConfig) (hc : cfg.sensible)
    (pos : Nat) (steps : List ClusterStep) (hs : StepsOk X file base steps []) :
    runClusterSteps X kind base steps []
        { objects := [], f := { data := file, pos := pos }, cache := AnyCache.new cfg } =
      expectedReads X kind file base steps [] := by
  have key : ∀ (steps : List ClusterStep) (opened : List Nat) (handles : List (PyRes Nat))
      (locs : List Nat) (s : ClusterSt D), Ready X kind file locs s →
      handles.length = opened.length →
      (∀ (i : Nat) (hd : PyRes Nat) (l : Nat), handles[i]? = some hd → opened[i]? = some l →
        ∃ ref, hd = .ok ref ∧ locs[ref]? = some (base + l)) →
      StepsOk X file base steps opened →
      runClusterSteps X kind base steps handles s = expectedReads X kind file base steps opened := by
    intro steps
    induction steps with
    | nil => intros; rfl
    | cons st steps ih =>
      intro opened handles locs s hr hl hh hs
      cases st with
      | «open» loc =>
        obtain ⟨ref, s', more, e, hr', href⟩ := getClusterAt_spec hr base loc
        unfold runClusterSteps expectedReads
        rw [e]
        refine ih _ _ _ _ hr' (by simp [hl]) ?_ hs
        intro i hd l hi ho
        by_cases hlt : i < handles.length
        · rw [List.getElem?_append_left hlt] at hi
          rw [List.getElem?_append_left (by omega)] at ho
          obtain ⟨r, h1, h2⟩ := hh i hd l hi ho
          exact ⟨r, h1, by rw [List.getElem?_append_left (List.getElem?_eq_some_iff.1 h2).1]; exact h2⟩
        · rw [List.getElem?_append_right (by omega)] at hi ho
          obtain ⟨h1, h2⟩ := List.getElem?_eq_some_iff.1 hi
          obtain ⟨h3, h4⟩ := List.getElem?_eq_some_iff.1 ho
          simp only [List.getElem_singleton] at h2 h4
          subst h2 h4
          exact ⟨ref, rfl, href⟩
      | read n q =>
        obtain ⟨⟨loc, blobs, ho, ⟨A⟩, hq⟩, hs⟩ := hs
        have hn : n < handles.length := by rw [hl]; exact (List.getElem?_eq_some_iff.1 ho).1
        obtain ⟨ref, e, hloc⟩ := hh n _ loc (List.getElem?_eq_getElem hn) ho
        obtain ⟨s', e2, hr'⟩ := onCluster_spec hr hloc A q hq
        unfold runClusterSteps expectedReads
        rw [List.getElem?_eq_getElem hn, e, ho]
        simp only [e2]
        congr 1
        exact ih _ _ _ _ hr' hl hh hs
  refine key steps [] [] [] _ ⟨rfl, rfl, by simp, AnyCache.holds_new cfg hc _⟩ rfl (by simp) hs

/-- A program that meets the hypotheses: it gets the same cluster three times and reads from it in
between; with the cache of size one all three are the same object. -/
def demoSteps : List ClusterStep :=
  [.open 1, .read 0 (.readBlob 1 none none), .open 1, .read 1 (.iterReadBlob 0 2 (some 1) none 9),
   .read 0 .numberOfBlobs, .open 1, .read 2 (.readBlob 0 none (some 2))]

example : StepsOk Cluster.rawCodecs Cluster.demoFile 1 demoSteps [] := by
  refine ⟨⟨1, [[1, 2, 3], [4, 5]], rfl, ⟨Cluster.demo⟩, _, rfl, by simp, by simp⟩,
    ⟨1, [[1, 2, 3], [4, 5]], rfl, ⟨Cluster.demo⟩, _, rfl, by decide, by simp, ?_, by decide⟩,
    ⟨1, [[1, 2, 3], [4, 5]], rfl, ⟨Cluster.demo⟩, trivial⟩,
    ⟨1, [[1, 2, 3], [4, 5]], rfl, ⟨Cluster.demo⟩, _, rfl, by simp, by simp⟩, trivial⟩
  intro x hx
  cases hx
  decide

example : expectedReads Cluster.rawCodecs .onDisk Cluster.demoFile 1 demoSteps [] =
    [some (.ok (.data [4, 5])), some (.ok (.data [2, 3])), some (.ok (.num 2)),
     some (.ok (.data [1, 2]))] := by
  decide +kernel

end Clusters

/-- Two entries read through a cache of size one, each of them twice. -/
example (file : Bytes) :
    readEntries file 0 [(80, true), (200, true), (80, false), (200, true)] (AnyCache.new (.last 1)) =
    readEntries file 0 [(80, true), (200, true), (80, false), (200, true)] (AnyCache.new .noOp) :=
  C43_entries_any_cache file 0 (.last 1) .noOp (Nat.one_pos) trivial _

end Pyzim
