import Verif.Spec.Clusters
import Verif.Lemmas.PyM
import Verif.Lemmas.ArchiveShift
import Verif.Lemmas.ArchiveArt

namespace Pyzim
namespace Zim
open SpaceAllocator (InBlock)

variable {K : Type} {O : ClusterOps K} {c : K} {z : Zim} {rows : List Row} {cs : List Stored} {rest : Nat → Prop}
  {chunks : List Bytes}

theorem KeepsBytes.mono {own own' : Nat → Prop} {f g : Bytes} (h1 : KeepsBytes own f g) (h : ∀ x, own' x → own x) :
    KeepsBytes own' f g := fun x b ho hb => h1 x b (h x ho) hb

theorem keepsBytes_wr {own : Nat → Prop} {file : Bytes} {off : Nat} {d : Bytes}
    (h : ∀ x, own x → ¬ (off ≤ x ∧ x < off + d.length)) : KeepsBytes own file (wr file off d) :=
  fun _ _ ho hb => wr_frame hb (h _ ho)

theorem KeepsBytes.holds {own : Nat → Prop} {f g : Bytes} (h : KeepsBytes own f g) {off : Nat} {d : Bytes}
    (hh : Holds f off d) (ho : ∀ x, off ≤ x → x < off + d.length → own x) : Holds g off d := by
  intro i hi
  have := hh i hi
  rw [List.getElem?_eq_getElem hi] at this ⊢
  exact h _ _ (ho _ (by omega) (by omega)) this

theorem Holds.append {file : Bytes} {off : Nat} {a b : Bytes} (ha : Holds file off a)
    (hb : Holds file (off + a.length) b) : Holds file off (a ++ b) := by
  intro i hi
  by_cases h : i < a.length
  · rw [List.getElem?_append_left h]; exact ha i h
  · rw [List.getElem?_append_right (by omega)]
    have := hb (i - a.length) (by rw [List.length_append] at hi; omega)
    rw [← this]
    congr 1; omega

/-- What a successful write of `d` at `pos` does to the file. -/
structure Wrote' (file file' : Bytes) (pos : Nat) (d : Bytes) : Prop where
  holds : Holds file' pos d
  frame : ∀ x b, file[x]? = some b → ¬ (pos ≤ x ∧ x < pos + d.length) → file'[x]? = some b
  longer : file.length ≤ file'.length
  shorter : file'.length ≤ max file.length (pos + d.length)

theorem Wrote'.keeps {file file' : Bytes} {pos : Nat} {d : Bytes} (h : Wrote' file file' pos d) {own : Nat → Prop}
    (ho : ∀ x, own x → ¬ (pos ≤ x ∧ x < pos + d.length)) : KeepsBytes own file file' :=
  fun x b hx hb => h.frame x b hb (ho x hx)

theorem wrote_wr (file : Bytes) (pos : Nat) (d : Bytes) : Wrote' file (wr file pos d) pos d :=
  ⟨holds_wr _ _ _, fun _ _ hb hx => wr_frame hb hx, (wr_length_le _ _ _).1, (wr_length_le _ _ _).2.2⟩

theorem Wrote'.append {f g h : Bytes} {pos : Nat} {d e : Bytes} (h1 : Wrote' f g pos d)
    (h2 : Wrote' g h (pos + d.length) e) : Wrote' f h pos (d ++ e) := by
  have hl : (d ++ e).length = d.length + e.length := List.length_append
  refine ⟨Holds.append ?_ h2.holds, fun x b hb hx => ?_, Nat.le_trans h1.longer h2.longer, ?_⟩
  · intro i hi
    have := h1.holds i hi
    rw [List.getElem?_eq_getElem hi] at this ⊢
    exact h2.frame _ _ this (by omega)
  · exact h2.frame x b (h1.frame x b hb (by omega)) (by omega)
  · have := h1.shorter
    have := h2.shorter
    omega

/-- Writing the chunks from the `i`-th on: exactly they are written. -/
theorem writeChunks_ok (O : ClusterOps K) (c : K) {own : Nat → Prop} (chunks : List Bytes) :
    ∀ (todo : List Bytes) (i pos fuel : Nat) (z : Zim), z.closed = false → todo = chunks.drop i → i ≤ chunks.length →
      (∀ file', KeepsBytes own z.file file' → ∀ i : Nat, O.chunk c i file' = .ok chunks[i]?) →
      (∀ x, own x → ¬ (pos ≤ x ∧ x < pos + todo.flatten.length)) →
      (fuel ≤ todo.length → (writeChunks O c fuel i pos z).1 = .error .hang) ∧
      (todo.length < fuel → todo ≠ [] → ∃ file', writeChunks O c fuel i pos z = (.ok (), { z with file := file' }) ∧
        Wrote' z.file file' pos todo.flatten) ∧
      (todo.length < fuel → todo = [] → writeChunks O c fuel i pos z = (.ok (), z)) := by
  intro todo
  induction todo with
  | nil =>
    intro i pos fuel z hz ht hi hc ho
    have hi' : chunks[i]? = none := by
      rw [List.getElem?_eq_none_iff]
      have := congrArg List.length ht
      simp at this
      omega
    refine ⟨fun h => ?_, fun h h' => absurd rfl h', fun h _ => ?_⟩
    · obtain rfl : fuel = 0 := by simpa using h
      rfl
    · obtain ⟨f, rfl⟩ : ∃ f, fuel = f + 1 := ⟨fuel - 1, by simp at h; omega⟩
      unfold writeChunks
      rw [PyM.get_bind, hc _ (KeepsBytes.refl _ _) i, hi', PyM.lift_ok_bind]
      rfl
  | cons d todo ih =>
    intro i pos fuel z hz ht hi hc ho
    have hlt : i < chunks.length := by
      have := congrArg List.length ht
      simp at this
      omega
    rw [List.drop_eq_getElem_cons hlt] at ht
    injection ht with hd ht
    have hi' : chunks[i]? = some d := by rw [List.getElem?_eq_getElem hlt, hd]
    have hfl : (d :: todo).flatten.length = d.length + todo.flatten.length := by simp
    cases fuel with
    | zero => exact ⟨fun _ => rfl, fun h => absurd h (Nat.not_lt_zero _), fun h => absurd h (Nat.not_lt_zero _)⟩
    | succ fuel =>
      have hstep : writeChunks O c (fuel + 1) i pos z =
          writeChunks O c fuel (i + 1) (pos + d.length) { z with file := wr z.file pos d } := by
        conv => lhs; unfold writeChunks
        rw [PyM.get_bind, hc _ (KeepsBytes.refl _ _) i, hi', PyM.lift_ok_bind]
        simp only
        rw [PyM.bind_ok (writeAt_ok hz _ _)]
      have hkeep : KeepsBytes own z.file (wr z.file pos d) :=
        keepsBytes_wr fun x hx => by have := ho x hx; omega
      obtain ⟨h1, h2, h3⟩ := ih (i + 1) (pos + d.length) fuel { z with file := wr z.file pos d } hz ht hlt
        (fun file' hk => hc file' (hkeep.trans hk)) (fun x hx => by have := ho x hx; omega)
      rw [hstep]
      refine ⟨fun h => h1 (by simpa using h), fun h _ => ?_, fun _ h => by simp at h⟩
      have h' : todo.length < fuel := by simpa using h
      by_cases htodo : todo = []
      · exact ⟨_, h3 h' htodo, by subst htodo; simpa using wrote_wr _ _ _⟩
      · obtain ⟨file', e1, e2⟩ := h2 h' htodo
        exact ⟨file', e1, by rw [List.flatten_cons]; exact (wrote_wr _ _ _).append e2⟩

theorem Store.keeping {file file' : Bytes} {space : SpaceAllocator} {other : Nat → Prop}
    (h : Store file space rows other) (hk : KeepsBytes (fun x => ∃ r ∈ rows, InRow r x) file file')
    (hl : file'.length ≤ space.fileEnd + 16) : Store file' space rows other where
  clean := h.clean
  stored r hr := by
    obtain ⟨b, hb, hh⟩ := h.stored r hr
    exact ⟨b, hb, hk.holds hh fun x h1 h2 => ⟨r, hr, (inRow_bytes hb x).2 ⟨h1, h2⟩⟩⟩
  disjoint := h.disjoint
  apart := h.apart
  length := hl
  space := h.space

theorem Rep.swap {other other' : Nat → Prop} {z' : Zim} (h : Rep z rows other)
    (hs : Store z'.file z'.space rows other') (h1 : z'.urls = z.urls) (h2 : z'.closed = z.closed)
    (h3 : z'.mutable = z.mutable) (h4 : z'.titles = z.titles) (h5 : z'.header.mutable = z.header.mutable) :
    Rep z' rows other' :=
  ⟨hs, h.sorted, by rw [h1]; exact h.urls, by rw [h1]; exact h.urlsMutable, by rw [h2]; exact h.isOpen,
    by rw [h3]; exact h.isMutable, by rw [h4]; exact h.noTitles, by rw [h5]; exact h.headerMutable⟩

/-- the bytes in use -/
def Used (rows : List Row) (cs : List Stored) (rest : Nat → Prop) (x : Nat) : Prop :=
  rest x ∨ (∃ c ∈ cs, InCluster c x) ∨ ∃ r ∈ rows, InRow r x

/-- Space is allocated for some data, and the data is written there. -/
theorem Clustered.place (h : Clustered z rows cs rest) (d : Bytes) (hd : d ≠ []) {file' : Bytes}
    (hw : Wrote' z.file file' (z.space.allocate d.length).1 d) :
    Store file' (z.space.allocate d.length).2 rows
      (fun x => (rest x ∨ ∃ c ∈ cs, InCluster c x) ∨ InCluster ((z.space.allocate d.length).1, d) x) ∧
    (∀ x, InCluster ((z.space.allocate d.length).1, d) x → ¬ Used rows cs rest x) ∧
    (∀ c ∈ cs, Holds file' c.1 c.2) ∧ KeepsBytes (Used rows cs rest) z.file file' := by
  obtain ⟨h1, h2⟩ := h.rep.store.alloc d.length
  have hnot : ∀ x, InCluster ((z.space.allocate d.length).1, d) x → ¬ Used rows cs rest x := by
    rintro x hx (hr | hc | ⟨r, hr, hx'⟩)
    · exact (h2 x hx).1 (Or.inl hr)
    · exact (h2 x hx).1 (Or.inr hc)
    · exact (h2 x hx).2 r hr hx'
  have hkeep : KeepsBytes (Used rows cs rest) z.file file' := hw.keeps fun x hu hx => hnot x hx hu
  have hlen : file'.length ≤ (z.space.allocate d.length).2.fileEnd + 16 := by
    have h3 := h1.below (List.length_pos_iff.2 hd) (fun x hx hx' => Or.inr ⟨hx, hx'⟩)
    have h4 := hw.shorter
    have h5 := h1.length
    omega
  refine ⟨h1.keeping (hkeep.mono fun x hx => Or.inr (Or.inr hx)) hlen, hnot, fun c hc => ?_, hkeep⟩
  exact hkeep.holds (h.held c hc) fun x h1 h2 => Or.inr (Or.inl ⟨c, hc, h1, h2⟩)

theorem onClusters_apply {α : Type} (f : PointerList → PyRes α × PointerList) (z : Zim) :
    onClusters f z = ((f z.clusters).1, { z with clusters := (f z.clusters).2 }) := rfl

theorem set_append {l : PointerList} (hm : l.mutable = true) {n off : Nat} (hn : n = l.pointers.length) :
    l.set n off true = (.ok (), { l with pointers := l.pointers ++ [(off : Int)], dirty := true }) := by
  unfold PointerList.set
  rw [if_neg (by omega), if_neg (by simp), hm, if_neg (by simp), if_neg (by omega), if_pos (by omega)]

theorem set_replace {l : PointerList} (hm : l.mutable = true) {n off : Nat} (hn : n < l.pointers.length) :
    l.set n off true = (.ok (), { l with pointers := l.pointers.set n off, dirty := true }) := by
  unfold PointerList.set
  rw [if_neg (by omega), if_neg (by simp), hm, if_neg (by simp), if_pos (by omega)]
  simp only
  rw [if_neg (show ¬ ((n : Int) < 0) by omega), if_neg (show ¬ ((n : Int) < 0) by omega)]
  rfl

/-- `write_cluster` of a new cluster. -/
theorem Clustered.writeCluster_new (h : Clustered z rows cs rest) {own : Nat → Prop}
    (hown : ∀ x, own x → Used rows cs rest x) (hw : O.Writes c z.file own chunks) (hne : chunks.flatten ≠ [])
    (hnew : O.offset c = none) {num : Option Int} (hnum : ∀ n ∈ num, 0 ≤ n) {fuel : Nat}
    (hfuel : chunks.length < fuel) :
    ∃ off c' z', writeCluster O fuel c num z = (.ok (cs.length, c'), z') ∧
      Clustered z' rows (cs ++ [(off, chunks.flatten)]) rest ∧ SameButClusters z z' ∧
      O.offset c' = some off ∧ O.oldSize c' = chunks.flatten.length ∧
      (∀ x, InCluster (off, chunks.flatten) x → ¬ Used rows cs rest x) ∧
      KeepsBytes (Used rows cs rest) z.file z'.file ∧
      Wrote' z.file z'.file off chunks.flatten ∧ z'.clusters.dirty = true := by
  have hcne : chunks ≠ [] := by rintro rfl; exact hne rfl
  obtain ⟨off, hoff⟩ : ∃ off, off = (z.space.allocate chunks.flatten.length).1 := ⟨_, rfl⟩
  have hal : ∀ x, own x → ¬ (off ≤ x ∧ x < off + chunks.flatten.length) := by
    intro x hx hb
    have h2 := (h.rep.store.alloc chunks.flatten.length).2 x (by rw [← hoff]; exact hb)
    rcases hown x hx with hr | hc | ⟨r, hr, hx'⟩
    · exact h2.1 (Or.inl hr)
    · exact h2.1 (Or.inr hc)
    · exact h2.2 r hr hx'
  obtain ⟨-, hwc, -⟩ := writeChunks_ok O c (own := own) chunks chunks 0 off fuel
    { z with clusterNum := z.clusterNum + 1, space := (z.space.allocate chunks.flatten.length).2 } h.rep.isOpen
    rfl (Nat.zero_le _) hw.chunk hal
  obtain ⟨file', hwc, hwr⟩ := hwc hfuel hcne
  have hwr : Wrote' z.file file' off chunks.flatten := hwr
  obtain ⟨c', hc', ho', hs'⟩ := hw.after file' off hwr.holds
  obtain ⟨p1, p2, p3, p4⟩ := h.place chunks.flatten hne (file' := file') (by rw [← hoff]; exact hwr)
  rw [← hoff] at p1 p2
  obtain ⟨z', hz'⟩ : ∃ z', z' = { z with
      clusterNum := z.clusterNum + 1, space := (z.space.allocate chunks.flatten.length).2, file := file'
      clusters := { z.clusters with pointers := z.clusters.pointers ++ [(off : Int)], dirty := true } } := ⟨_, rfl⟩
  refine ⟨off, c', z', ?_, ?_, by rw [hz']; exact ⟨rfl, rfl, rfl, rfl, rfl, rfl, rfl⟩, ho', hs', p2,
    by rw [hz']; exact p4, by rw [hz']; exact hwr, by rw [hz']⟩
  · unfold writeCluster
    rw [show decide (∀ n ∈ num, 0 ≤ n) = true by simpa using hnum, PyM.require_true_bind, PyM.get_bind,
      h.rep.isMutable, PyM.require_true_bind, h.rep.isOpen, Bool.not_false, PyM.require_true_bind, hw.isBound,
      PyM.require_true_bind, hw.size _ (KeepsBytes.refl _ _), PyM.lift_ok_bind, hnew]
    have h1 : clusterNumber none (num.map Int.toNat) z = (.ok z.clusterNum, { z with clusterNum := z.clusterNum + 1 }) := by
      unfold clusterNumber
      rw [PyM.get_bind]
      rfl
    rw [PyM.bind_ok h1]
    have h2 : allocate chunks.flatten.length { z with clusterNum := z.clusterNum + 1 } =
        (.ok off, { z with clusterNum := z.clusterNum + 1, space := (z.space.allocate chunks.flatten.length).2 }) := by
      rw [hoff]; rfl
    rw [PyM.bind_ok h2, PyM.bind_ok hwc]
    have h3 : onClusters (fun l => l.set z.clusterNum off true)
        { z with clusterNum := z.clusterNum + 1, space := (z.space.allocate chunks.flatten.length).2, file := file' } =
        (.ok (), { z with
          clusterNum := z.clusterNum + 1, space := (z.space.allocate chunks.flatten.length).2, file := file'
          clusters := { z.clusters with pointers := z.clusters.pointers ++ [(off : Int)], dirty := true } }) := by
      rw [onClusters_apply, set_append h.mutable (by rw [h.pointers, h.num]; simp)]
    rw [PyM.bind_ok h3, PyM.get_bind]
    simp only
    rw [hc', PyM.lift_ok_bind, hz', ← h.num]
    rfl
  · rw [hz']
    refine ⟨?_, ?_, h.mutable, ?_, ?_, ?_, ?_, ?_⟩
    · refine h.rep.swap (p1.congr fun x => ?_) rfl rfl rfl rfl rfl
      simp only [List.mem_append, List.mem_singleton, or_and_right, exists_or, exists_eq_left, or_assoc]
    · simp [h.pointers]
    · simp [h.num]
    · intro d hd
      rcases List.mem_append.1 hd with hd | hd
      · exact p3 d hd
      · rw [List.mem_singleton.1 hd]; exact hwr.holds
    · intro d hd
      rcases List.mem_append.1 hd with hd | hd
      · exact h.nonempty d hd
      · rw [List.mem_singleton.1 hd]; exact hne
    · rw [List.pairwise_append]
      refine ⟨h.disjoint, List.pairwise_singleton _ _, fun a ha b hb x hx hx' => ?_⟩
      rw [List.mem_singleton.1 hb] at hx'
      exact p2 x hx' (Or.inr (Or.inl ⟨a, ha, hx⟩))
    · intro d hd x hx hr
      rcases List.mem_append.1 hd with hd | hd
      · exact h.apart d hd x hx hr
      · rw [List.mem_singleton.1 hd] at hx; exact p2 x hx (Or.inl hr)

theorem Clustered.distinct (h : Clustered z rows cs rest) {i j : Nat} {a b : Stored} (hi : cs[i]? = some a)
    (hj : cs[j]? = some b) (hab : a.1 = b.1) : i = j := by
  have key : ∀ {i j : Nat} {a b : Stored}, cs[i]? = some a → cs[j]? = some b → a.1 = b.1 → ¬ i < j := by
    intro i j a b hi hj hab hlt
    obtain ⟨hi1, rfl⟩ := List.getElem?_eq_some_iff.1 hi
    obtain ⟨hj1, rfl⟩ := List.getElem?_eq_some_iff.1 hj
    have := List.pairwise_iff_getElem.1 h.disjoint i j hi1 hj1 hlt
    have h1 := List.length_pos_iff.2 (h.nonempty _ (List.getElem_mem hi1))
    have h2 := List.length_pos_iff.2 (h.nonempty _ (List.getElem_mem hj1))
    exact this (cs[i]).1 ⟨Nat.le_refl _, by omega⟩ ⟨by omega, by omega⟩
  have h1 := key hi hj hab
  have h2 := key hj hi hab.symm
  omega

theorem Clustered.getByIndex (h : Clustered z rows cs rest) {i : Nat} {a : Stored} (hi : cs[i]? = some a) :
    z.clusters.getByIndex i = .ok (a.1 : Int) := by
  unfold PointerList.getByIndex pyIndex
  simp only
  rw [if_neg (show ¬ ((i : Int) < 0) by omega), if_neg (show ¬ ((i : Int) < 0) by omega), h.pointers,
    List.getElem?_map, Int.toNat_natCast, hi]
  rfl

theorem Clustered.len (h : Clustered z rows cs rest) : z.clusters.len = cs.length := by
  unfold PointerList.len; rw [h.pointers]; simp

theorem Clustered.indexByOffset (h : Clustered z rows cs rest) {i : Nat} {a : Stored} (hi : cs[i]? = some a) :
    z.clusterIndexByOffset a.1 = .ok i := by
  have hp : z.clusters.iterPointers = .ok (cs.map fun c => (c.1 : Int)) := by
    unfold PointerList.iterPointers
    simp only [Option.getD_none]
    rw [if_neg (by omega), if_neg (by omega)]
    have := range'_mapM_eq cs (fun i => z.clusters.getByIndex i) (fun c => (c.1 : Int)) 0 cs.length (by omega)
      (fun i a hi => h.getByIndex hi)
    rw [h.len]
    simpa using this
  unfold clusterIndexByOffset
  rw [hp]
  show PointerList.getByPointerLoop a.1 _ 0 = _
  rcases getByPointerLoop_spec a.1 (cs.map fun c => (c.1 : Int)) 0 with ⟨j, h1, h2⟩ | ⟨-, h2⟩
  · rw [List.getElem?_map] at h2
    cases hj : cs[j]? with
    | none => rw [hj] at h2; cases h2
    | some b =>
      rw [hj] at h2
      simp only [Option.map_some, Option.some.injEq] at h2
      rw [h1, Nat.zero_add, h.distinct hi hj (by omega)]
  · exact absurd (List.mem_map.2 ⟨a, List.mem_of_getElem? hi, rfl⟩) h2

theorem perm_cons_eraseIdx {α : Type} : ∀ {l : List α} {i : Nat} {a : α}, l[i]? = some a → l.Perm (a :: l.eraseIdx i)
  | [], _, _, h => by simp at h
  | x :: l, 0, a, h => by simp at h; subst h; exact List.Perm.refl _
  | x :: l, i + 1, a, h => by
    have := perm_cons_eraseIdx (l := l) (i := i) (a := a) (by simpa using h)
    exact (this.cons x).trans (List.Perm.swap _ _ _)

/-- the clusters in another order -/
theorem used_perm {cs' : List Stored} (h : cs.Perm cs') (x : Nat) :
    (∃ c ∈ cs, InCluster c x) ↔ ∃ c ∈ cs', InCluster c x := by
  constructor <;> rintro ⟨c, hc, hx⟩
  · exact ⟨c, h.mem_iff.1 hc, hx⟩
  · exact ⟨c, h.mem_iff.2 hc, hx⟩

/-- `write_cluster` of a cluster that is part of the archive. -/
theorem Clustered.writeCluster_old (h : Clustered z rows cs rest) {own : Nat → Prop}
    (hown : ∀ x, own x → Used rows cs rest x) (hw : O.Writes c z.file own chunks) (hne : chunks.flatten ≠ [])
    {i : Nat} {old : Stored} (hi : cs[i]? = some old) (hoff : O.offset c = some old.1)
    (hsize : O.oldSize c = old.2.length) {num : Option Int} (hnum : ∀ n ∈ num, n = i) {fuel : Nat}
    (hfuel : chunks.length < fuel) :
    ∃ off c' z', writeCluster O fuel c num z = (.ok (i, c'), z') ∧
      Clustered z' rows (cs.set i (off, chunks.flatten)) rest ∧ SameButClusters z z' ∧
      O.offset c' = some off ∧ O.oldSize c' = chunks.flatten.length ∧
      (∀ x, InCluster (off, chunks.flatten) x → ¬ Used rows cs rest x) ∧
      KeepsBytes (Used rows cs rest) z.file z'.file ∧
      Wrote' z.file z'.file off chunks.flatten ∧ z'.clusters.dirty = true := by
  have hcne : chunks ≠ [] := by rintro rfl; exact hne rfl
  have hilt := (List.getElem?_eq_some_iff.1 hi).1
  obtain ⟨off, hoffset⟩ : ∃ off, off = (z.space.allocate chunks.flatten.length).1 := ⟨_, rfl⟩
  have hal : ∀ x, own x → ¬ (off ≤ x ∧ x < off + chunks.flatten.length) := by
    intro x hx hb
    have h2 := (h.rep.store.alloc chunks.flatten.length).2 x (by rw [← hoffset]; exact hb)
    rcases hown x hx with hr | hc | ⟨r, hr, hx'⟩
    · exact h2.1 (Or.inl hr)
    · exact h2.1 (Or.inr hc)
    · exact h2.2 r hr hx'
  obtain ⟨-, hwc, -⟩ := writeChunks_ok O c (own := own) chunks chunks 0 off fuel
    { z with space := (z.space.allocate chunks.flatten.length).2 } h.rep.isOpen
    rfl (Nat.zero_le _) hw.chunk hal
  obtain ⟨file', hwc, hwr⟩ := hwc hfuel hcne
  have hwr : Wrote' z.file file' off chunks.flatten := hwr
  obtain ⟨c', hc', ho', hs'⟩ := hw.after file' off hwr.holds
  obtain ⟨p1, p2, p3, p4⟩ := h.place chunks.flatten hne (file' := file') (by rw [← hoffset]; exact hwr)
  rw [← hoffset] at p1 p2
  obtain ⟨z', hz'⟩ : ∃ z', z' = { z with
      space := (z.space.allocate chunks.flatten.length).2.markFree old.1 old.2.length, file := file'
      clusters := { z.clusters with pointers := z.clusters.pointers.set i (off : Int), dirty := true } } := ⟨_, rfl⟩
  refine ⟨off, c', z', ?_, ?_, by rw [hz']; exact ⟨rfl, rfl, rfl, rfl, rfl, rfl, rfl⟩, ho', hs', p2,
    by rw [hz']; exact p4, by rw [hz']; exact hwr, by rw [hz']⟩
  · unfold writeCluster
    rw [show decide (∀ n ∈ num, 0 ≤ n) = true by
        rw [decide_eq_true_iff]; intro n hn; rw [hnum n hn]; omega,
      PyM.require_true_bind, PyM.get_bind,
      h.rep.isMutable, PyM.require_true_bind, h.rep.isOpen, Bool.not_false, PyM.require_true_bind, hw.isBound,
      PyM.require_true_bind, hw.size _ (KeepsBytes.refl _ _), PyM.lift_ok_bind, hoff]
    have h1 : clusterNumber (some old.1) (num.map Int.toNat) z = (.ok i, z) := by
      unfold clusterNumber
      rw [PyM.get_bind]
      cases num with
      | none =>
        simp only [Option.map_none]
        rw [h.indexByOffset hi]
        rfl
      | some n =>
        obtain rfl := hnum n rfl
        rfl
    rw [PyM.bind_ok h1]
    have h2 : allocate chunks.flatten.length z =
        (.ok off, { z with space := (z.space.allocate chunks.flatten.length).2 }) := by
      rw [hoffset]; rfl
    rw [PyM.bind_ok h2, PyM.bind_ok hwc]
    have h3 : onClusters (fun l => l.set i off true)
        { z with space := (z.space.allocate chunks.flatten.length).2, file := file' } =
        (.ok (), { z with
          space := (z.space.allocate chunks.flatten.length).2, file := file'
          clusters := { z.clusters with pointers := z.clusters.pointers.set i (off : Int), dirty := true } }) := by
      rw [onClusters_apply, set_replace h.mutable (by rw [h.pointers]; simpa using hilt)]
    rw [PyM.bind_ok h3, PyM.get_bind]
    simp only
    rw [hc', PyM.lift_ok_bind, hz', hsize]
    rfl
  · rw [hz']
    have hperm := perm_cons_eraseIdx hi
    have hperm' : (cs.set i (off, chunks.flatten)).Perm ((off, chunks.flatten) :: cs.eraseIdx i) := by
      have := perm_cons_eraseIdx (l := cs.set i (off, chunks.flatten)) (i := i) (a := (off, chunks.flatten))
        (by rw [List.getElem?_set_self hilt])
      rwa [List.eraseIdx_set_eq] at this
    have hdis : ((old :: cs.eraseIdx i)).Pairwise (fun c d => ∀ x, InCluster c x → ¬ InCluster d x) :=
      hperm.pairwise h.disjoint (fun {a b} hab x hb ha => hab x ha hb)
    rw [List.pairwise_cons] at hdis
    refine ⟨?_, ?_, h.mutable, ?_, ?_, ?_, ?_, ?_⟩
    · refine h.rep.swap (other' := fun x => rest x ∨ ∃ c ∈ cs.set i (off, chunks.flatten), InCluster c x)
        ?_ rfl rfl rfl rfl rfl
      refine Store.free (start := old.1) (length := old.2.length) (p1.congr fun x => ?_) ?_
      · rw [used_perm hperm x, used_perm hperm' x]
        simp only [List.mem_cons, or_and_right, exists_or, exists_eq_left]
        simp only [InBlock, InCluster, or_assoc]
        constructor
        · rintro (h | h | h | h)
          · exact Or.inl h
          · exact Or.inr (Or.inr (Or.inr h))
          · exact Or.inr (Or.inr (Or.inl h))
          · exact Or.inr (Or.inl h)
        · rintro (h | h | h | h)
          · exact Or.inl h
          · exact Or.inr (Or.inr (Or.inr h))
          · exact Or.inr (Or.inr (Or.inl h))
          · exact Or.inr (Or.inl h)
      · intro x hx
        rw [used_perm hperm' x]
        have hx : InCluster old x := hx
        rintro (hr | ⟨d, hd, hxd⟩)
        · exact h.apart old (List.mem_of_getElem? hi) x hx hr
        · rcases List.mem_cons.1 hd with rfl | hd
          · exact p2 x hxd (Or.inr (Or.inl ⟨old, List.mem_of_getElem? hi, hx⟩))
          · exact hdis.1 d hd x hx hxd
    · simp only [h.pointers, List.map_set]
    · simp [h.num]
    · intro d hd
      rcases List.mem_cons.1 (hperm'.mem_iff.1 hd) with rfl | hd
      · exact hwr.holds
      · exact p3 d (List.mem_of_mem_eraseIdx hd)
    · intro d hd
      rcases List.mem_cons.1 (hperm'.mem_iff.1 hd) with rfl | hd
      · exact hne
      · exact h.nonempty d (List.mem_of_mem_eraseIdx hd)
    · refine hperm'.symm.pairwise ?_ (fun {a b} hab x hb ha => hab x ha hb)
      rw [List.pairwise_cons]
      exact ⟨fun d hd x hx hxd => p2 x hx (Or.inr (Or.inl ⟨d, List.mem_of_mem_eraseIdx hd, hxd⟩)), hdis.2⟩
    · intro d hd x hx hr
      rcases List.mem_cons.1 (hperm'.mem_iff.1 hd) with rfl | hd
      · exact p2 x hx (Or.inl hr)
      · exact h.apart d (List.mem_of_mem_eraseIdx hd) x hx hr

end Zim
end Pyzim
