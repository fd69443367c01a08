import Verif.Lemmas.Work

/-!
# Writing a cluster in two steps

Between the data and the pointer of a cluster other clusters may be written.
-/

namespace Pyzim
namespace Zim
open SpaceAllocator
variable {K : Type} {O : ClusterOps K} {c : K} {chunks : List Bytes} {z : Zim} {rows : List Row} {cs : List Stored}
  {rest : Nat → Prop}

/-- An archive with these clusters, where the number of the next cluster may be in use already. -/
def Holding (z : Zim) (rows : List Row) (cs : List Stored) (rest : Nat → Prop) : Prop :=
  Clustered { z with clusterNum := cs.length } rows cs rest

theorem Holding.of (h : Clustered z rows cs rest) : Holding z rows cs rest := by
  unfold Holding
  rw [← h.num]
  exact h

theorem Holding.to (h : Holding z rows cs rest) (hn : z.clusterNum = cs.length) : Clustered z rows cs rest := by
  unfold Holding at h
  rw [← hn] at h
  exact h

/-- the data of a cluster: it is written to a new place, which then is in use -/
theorem Holding.lay (h : Holding z rows cs rest) {own : Nat → Prop} (hown : ∀ x, own x → Used rows cs rest x)
    (hw : O.Writes c z.file own chunks) (hne : chunks.flatten ≠ []) {fuel : Nat} (hfuel : chunks.length < fuel) :
    ∃ off z1, allocate chunks.flatten.length z = (.ok off, { z with space := (z.space.allocate chunks.flatten.length).2 }) ∧
      writeChunks O c fuel 0 off { z with space := (z.space.allocate chunks.flatten.length).2 } = (.ok (), z1) ∧
      Holding z1 rows cs (fun x => rest x ∨ InCluster (off, chunks.flatten) x) ∧ Holds z1.file off chunks.flatten ∧
      (∀ x, InCluster (off, chunks.flatten) x → ¬ Used rows cs rest x) ∧ KeepsBytes (Used rows cs rest) z.file z1.file ∧
      SameButClusters z z1 ∧ z1.clusters = z.clusters ∧ z1.clusterNum = z.clusterNum := by
  have hcne : chunks ≠ [] := by rintro rfl; exact hne rfl
  obtain ⟨off, hoff⟩ : ∃ off, off = (z.space.allocate chunks.flatten.length).1 := ⟨_, rfl⟩
  have hal : ∀ x, own x → ¬ (off ≤ x ∧ x < off + chunks.flatten.length) := by
    intro x hx hb
    have h2 := (h.rep.store.alloc chunks.flatten.length).2 x (by rw [hoff] at hb; exact hb)
    rcases hown x hx with hr | hc | ⟨r, hr, hx'⟩
    · exact h2.1 (Or.inl hr)
    · exact h2.1 (Or.inr hc)
    · exact h2.2 r hr hx'
  obtain ⟨-, hwc, -⟩ := writeChunks_ok O c (own := own) chunks chunks 0 off fuel
    { z with space := (z.space.allocate chunks.flatten.length).2 } h.rep.isOpen
    rfl (Nat.zero_le _) hw.chunk hal
  obtain ⟨file', hwc, hwr⟩ := hwc hfuel hcne
  have hwr : Wrote' z.file file' off chunks.flatten := hwr
  obtain ⟨p1, p2, p3, p4⟩ := Clustered.place h chunks.flatten hne (file' := file') (by
    have : Wrote' z.file file' (z.space.allocate chunks.flatten.length).1 chunks.flatten := by rw [← hoff]; exact hwr
    exact this)
  have p1 : Store file' (z.space.allocate chunks.flatten.length).2 rows
      (fun x => (rest x ∨ ∃ c ∈ cs, InCluster c x) ∨ InCluster (off, chunks.flatten) x) := by
    rw [hoff]; exact p1
  have p2 : ∀ x, InCluster (off, chunks.flatten) x → ¬ Used rows cs rest x := by rw [hoff]; exact p2
  refine ⟨off, _, by rw [hoff]; rfl, hwc, ?_, hwr.holds, p2, p4, ⟨rfl, rfl, rfl, rfl, rfl, rfl, rfl⟩, rfl, rfl⟩
  refine ⟨?_, h.pointers, h.mutable, rfl, p3, h.nonempty, h.disjoint, ?_⟩
  · refine h.rep.swap (p1.congr fun x => ?_) rfl rfl rfl rfl rfl
    constructor
    · rintro ((h | h) | h)
      · exact Or.inl (Or.inl h)
      · exact Or.inr h
      · exact Or.inl (Or.inr h)
    · rintro ((h | h) | h)
      · exact Or.inl (Or.inl h)
      · exact Or.inr h
      · exact Or.inl (Or.inr h)
  · rintro d hd x hx (hr | hr)
    · exact h.apart d hd x hx hr
    · exact p2 x hr (Or.inr (Or.inl ⟨d, hd, hx⟩))

/-- the pointer of a cluster that is part of the archive: it is set, and the old place of the cluster is free -/
theorem Holding.point (new : Stored) (h : Holding z rows cs (fun x => rest x ∨ InCluster new x)) (hd : Holds z.file new.1 new.2)
    (hne : new.2 ≠ []) (hnr : ∀ x, InCluster new x → ¬ rest x) {i : Nat} {old : Stored} (hi : cs[i]? = some old) :
    Holding { z with space := z.space.markFree old.1 old.2.length
                     clusters := { z.clusters with pointers := z.clusters.pointers.set i (new.1 : Int), dirty := true } }
      rows (cs.set i new) rest := by
  have hilt := (List.getElem?_eq_some_iff.1 hi).1
  have hperm := perm_cons_eraseIdx hi
  have hperm' : (cs.set i new).Perm (new :: cs.eraseIdx i) := by
    have := perm_cons_eraseIdx (l := cs.set i new) (i := i) (a := new) (by rw [List.getElem?_set_self hilt])
    rwa [List.eraseIdx_set_eq] at this
  have hdis : ((old :: cs.eraseIdx i)).Pairwise (fun c d => ∀ x, InCluster c x → ¬ InCluster d x) :=
    hperm.pairwise h.disjoint (fun {a b} hab x hb ha => hab x ha hb)
  rw [List.pairwise_cons] at hdis
  have hold : ∀ d ∈ cs, ∀ x, InCluster d x → ¬ InCluster new x := fun d hd x hx hn => h.apart d hd x hx (Or.inr hn)
  have hmem := List.mem_of_getElem? hi
  have herase : ∀ d, d ∈ cs.eraseIdx i → d ∈ cs := fun d hd => List.mem_of_mem_eraseIdx hd
  refine ⟨?_, ?_, h.mutable, rfl, ?_, ?_, ?_, ?_⟩
  · refine h.rep.swap (other' := fun x => rest x ∨ ∃ c ∈ cs.set i new, InCluster c x) ?_ rfl rfl rfl rfl rfl
    refine Store.free (start := old.1) (length := old.2.length) (h.rep.store.congr fun x => ?_) ?_
    · rw [used_perm hperm x, used_perm hperm' x]
      simp only [List.mem_cons, or_and_right, exists_or, exists_eq_left]
      simp only [InBlock, InCluster, or_assoc]
      constructor
      · rintro (h | h | h | h)
        · exact Or.inl h
        · exact Or.inr (Or.inl h)
        · exact Or.inr (Or.inr (Or.inr h))
        · exact Or.inr (Or.inr (Or.inl h))
      · rintro (h | h | h | h)
        · exact Or.inl h
        · exact Or.inr (Or.inl h)
        · exact Or.inr (Or.inr (Or.inr h))
        · exact Or.inr (Or.inr (Or.inl h))
    · intro x hx
      rw [used_perm hperm' x]
      have hx : InCluster old x := hx
      rintro (hr | ⟨d, hd', hxd⟩)
      · exact h.apart old hmem x hx (Or.inl hr)
      · rcases List.mem_cons.1 hd' with rfl | hd'
        · exact hold old hmem x hx hxd
        · exact hdis.1 d hd' x hx hxd
  · show z.clusters.pointers.set i (new.1 : Int) = _
    have hp : z.clusters.pointers = cs.map (fun c => (c.1 : Int)) := h.pointers
    rw [hp, List.map_set]
  · intro d hd'
    rcases List.mem_cons.1 (hperm'.mem_iff.1 hd') with rfl | hd'
    · exact hd
    · exact h.held d (herase d hd')
  · intro d hd'
    rcases List.mem_cons.1 (hperm'.mem_iff.1 hd') with rfl | hd'
    · exact hne
    · exact h.nonempty d (herase d hd')
  · refine hperm'.symm.pairwise ?_ (fun {a b} hab x hb ha => hab x ha hb)
    rw [List.pairwise_cons]
    exact ⟨fun d hd' x hx hxd => hold d (herase d hd') x hxd hx, hdis.2⟩
  · intro d hd' x hx hr
    rcases List.mem_cons.1 (hperm'.mem_iff.1 hd') with rfl | hd'
    · exact hnr x hx hr
    · exact h.apart d (herase d hd') x hx (Or.inl hr)

/-- the pointer of a new cluster -/
theorem Holding.append (new : Stored) (h : Holding z rows cs (fun x => rest x ∨ InCluster new x)) (hd : Holds z.file new.1 new.2)
    (hne : new.2 ≠ []) (hnr : ∀ x, InCluster new x → ¬ rest x) :
    Holding { z with clusters := { z.clusters with pointers := z.clusters.pointers ++ [(new.1 : Int)], dirty := true } }
      rows (cs ++ [new]) rest := by
  refine ⟨?_, ?_, h.mutable, rfl, ?_, ?_, ?_, ?_⟩
  · refine h.rep.swap (h.rep.store.congr fun x => ?_) rfl rfl rfl rfl rfl
    simp only [List.mem_append, List.mem_singleton, or_and_right, exists_or, exists_eq_left]
    constructor
    · rintro ((h | h) | h)
      · exact Or.inl h
      · exact Or.inr (Or.inr h)
      · exact Or.inr (Or.inl h)
    · rintro (h | h | h)
      · exact Or.inl (Or.inl h)
      · exact Or.inr h
      · exact Or.inl (Or.inr h)
  · show z.clusters.pointers ++ [(new.1 : Int)] = _
    have hp : z.clusters.pointers = cs.map (fun c => (c.1 : Int)) := h.pointers
    rw [hp]
    simp
  · intro d hd'
    rcases List.mem_append.1 hd' with hd' | hd'
    · exact h.held d hd'
    · rw [List.mem_singleton.1 hd']; exact hd
  · intro d hd'
    rcases List.mem_append.1 hd' with hd' | hd'
    · exact h.nonempty d hd'
    · rw [List.mem_singleton.1 hd']; exact hne
  · rw [List.pairwise_append]
    refine ⟨h.disjoint, List.pairwise_singleton _ _, fun a ha b hb x hx hx' => ?_⟩
    rw [List.mem_singleton.1 hb] at hx'
    exact h.apart a ha x hx (Or.inr hx')
  · intro d hd' x hx hr
    rcases List.mem_append.1 hd' with hd' | hd'
    · exact h.apart d hd' x hx (Or.inl hr)
    · rw [List.mem_singleton.1 hd'] at hx; exact hnr x hx hr

theorem Holding.notRest (h : Holding z rows cs rest) {st : Stored} (hm : st ∈ cs) : ¬ rest st.1 := by
  have := List.length_pos_iff.2 (h.nonempty st hm)
  exact h.apart st hm st.1 ⟨Nat.le_refl _, by omega⟩

end Zim
end Pyzim
