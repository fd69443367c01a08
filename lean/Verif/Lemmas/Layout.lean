import Verif.Spec.Layout
import Verif.Lemmas.Work
import Verif.Lemmas.Checksum
import Verif.Props.PointerList
import Verif.Props.MimeTypeList
import Verif.Props.Header

namespace Pyzim
namespace Zim
open SpaceAllocator (InBlock)

variable {z z' : Zim} {rows : List Row} {cs : List Stored} {rest rest' extra : Nat → Prop}

theorem Clustered.congr (h : Clustered z rows cs rest) (hr : ∀ x, rest x ↔ rest' x) : Clustered z rows cs rest' := by
  have : rest = rest' := funext fun x => propext (hr x)
  rw [← this]; exact h

/-- other attributes of the archive -/
structure SameContent (z z' : Zim) : Prop where
  urls : z'.urls.pointers = z.urls.pointers
  urlsMutable : z'.urls.mutable = z.urls.mutable
  clusters : z'.clusters.pointers = z.clusters.pointers
  clustersMutable : z'.clusters.mutable = z.clusters.mutable
  num : z'.clusterNum = z.clusterNum
  closed : z'.closed = z.closed
  mutable : z'.mutable = z.mutable
  titles : z'.titles = z.titles
  header : z'.header.mutable = z.header.mutable

theorem SameContent.refl (z : Zim) : SameContent z z := ⟨rfl, rfl, rfl, rfl, rfl, rfl, rfl, rfl, rfl⟩

theorem Clustered.swap (h : Clustered z rows cs rest) (hs : SameContent z z')
    (hst : Store z'.file z'.space rows (fun x => rest' x ∨ ∃ c ∈ cs, InCluster c x))
    (hc : ∀ c ∈ cs, Holds z'.file c.1 c.2) (ha : ∀ c ∈ cs, ∀ x, InCluster c x → ¬ rest' x) :
    Clustered z' rows cs rest' where
  rep := ⟨hst, h.rep.sorted, by rw [hs.urls]; exact h.rep.urls, by rw [hs.urlsMutable]; exact h.rep.urlsMutable,
    by rw [hs.closed]; exact h.rep.isOpen, by rw [hs.mutable]; exact h.rep.isMutable,
    by rw [hs.titles]; exact h.rep.noTitles, by rw [hs.header]; exact h.rep.headerMutable⟩
  pointers := by rw [hs.clusters]; exact h.pointers
  mutable := by rw [hs.clustersMutable]; exact h.mutable
  num := by rw [hs.num]; exact h.num
  held := hc
  nonempty := h.nonempty
  disjoint := h.disjoint
  apart := ha

/-- other attributes than the content change -/
theorem Clustered.same (h : Clustered z rows cs rest) (hs : SameContent z z') (hf : z'.file = z.file)
    (hsp : z'.space = z.space) : Clustered z' rows cs rest :=
  h.swap hs (by rw [hf, hsp]; exact h.rep.store) (by rw [hf]; exact h.held) h.apart

/-- writing inside the bytes that belong neither to entries nor to clusters -/
theorem Clustered.overwrite (h : Clustered z rows cs rest) (hs : SameContent z z') {pos : Nat} {d : Bytes}
    (hf : z'.file = wr z.file pos d) (hsp : z'.space = z.space) (hin : ∀ x, InBlock (pos, d.length) x → rest x) :
    Clustered z' rows cs rest := by
  by_cases hd : d = []
  · subst hd; exact h.same hs (by rw [hf]; rfl) hsp
  have hst := h.rep.store
  refine h.swap hs ?_ (fun c hc => ?_) h.apart
  · rw [hf, hsp]
    refine hst.write _ _ (fun r hr x hx hx' => ?_) (hst.below (List.length_pos_iff.2 hd) fun x h1 h2 => Or.inl (hin x ⟨h1, h2⟩))
    exact hst.apart r hr x hx (Or.inl (hin x hx'))
  · rw [hf]
    exact (h.held c hc).wr fun x h1 h2 hx => h.apart c hc x ⟨h1, h2⟩ (hin x hx)

/-- A piece of the file is given up, and data is written to a new one. -/
theorem Clustered.realloc {ps : List Block} (h : Clustered z rows cs (fun x => extra x ∨ ∃ p ∈ ps, InBlock p x))
    (hpw : ps.Pairwise (fun p q => ∀ x, InBlock p x → ¬ InBlock q x))
    (hap : ∀ p ∈ ps, ∀ x, InBlock p x → ¬ extra x) {k : Nat} {p : Block} (hk : ps[k]? = some p) (d : Bytes) {pos : Nat}
    {space : SpaceAllocator} (hal : (z.space.markFree p.1 p.2).allocate d.length = (pos, space))
    (hs : SameContent z z') (hf : z'.file = wr z.file pos d) (hsp : z'.space = space) :
    Clustered z' rows cs (fun x => extra x ∨ ∃ q ∈ ps.set k (pos, d.length), InBlock q x) ∧
    (ps.set k (pos, d.length)).Pairwise (fun p q => ∀ x, InBlock p x → ¬ InBlock q x) ∧
    (∀ p ∈ ps.set k (pos, d.length), ∀ x, InBlock p x → ¬ extra x) ∧
    Holds z'.file pos d ∧
    KeepsBytes (fun x => ∃ q ∈ ps.eraseIdx k, InBlock q x) z.file z'.file := by
  obtain ⟨hlt, -⟩ := List.getElem?_eq_some_iff.1 hk
  have hp1 : ps.Perm (p :: ps.eraseIdx k) := perm_cons_eraseIdx hk
  have hp2 : (ps.set k (pos, d.length)).Perm ((pos, d.length) :: ps.eraseIdx k) := by
    have := perm_cons_eraseIdx (l := ps.set k (pos, d.length)) (i := k) (a := (pos, d.length))
      (by rw [List.getElem?_set_self hlt])
    rwa [List.eraseIdx_set_eq] at this
  have hsym : ∀ {p q : Block}, (∀ x, InBlock p x → ¬ InBlock q x) → ∀ x, InBlock q x → ¬ InBlock p x :=
    fun h x h1 h2 => h x h2 h1
  have hpw1 := (hp1.pairwise_iff hsym).1 hpw
  rw [List.pairwise_cons] at hpw1
  have hm1 : ∀ x, (∃ q ∈ ps, InBlock q x) ↔ InBlock p x ∨ ∃ q ∈ ps.eraseIdx k, InBlock q x := by
    intro x
    constructor
    · rintro ⟨q, hq, hx⟩
      rcases List.mem_cons.1 (hp1.mem_iff.1 hq) with rfl | hq
      · exact Or.inl hx
      · exact Or.inr ⟨q, hq, hx⟩
    · rintro (hx | ⟨q, hq, hx⟩)
      · exact ⟨p, hp1.mem_iff.2 (by simp), hx⟩
      · exact ⟨q, hp1.mem_iff.2 (by simp [hq]), hx⟩
  have hm2 : ∀ x, (∃ q ∈ ps.set k (pos, d.length), InBlock q x) ↔
      InBlock (pos, d.length) x ∨ ∃ q ∈ ps.eraseIdx k, InBlock q x := by
    intro x
    constructor
    · rintro ⟨q, hq, hx⟩
      rcases List.mem_cons.1 (hp2.mem_iff.1 hq) with rfl | hq
      · exact Or.inl hx
      · exact Or.inr ⟨q, hq, hx⟩
    · rintro (hx | ⟨q, hq, hx⟩)
      · exact ⟨_, hp2.mem_iff.2 (by simp), hx⟩
      · exact ⟨q, hp2.mem_iff.2 (by simp [hq]), hx⟩
  -- what stays in use
  obtain ⟨keep, hkeep⟩ : ∃ keep : Nat → Prop, keep = fun x => (extra x ∨ ∃ q ∈ ps.eraseIdx k, InBlock q x) ∨
      ∃ c ∈ cs, InCluster c x := ⟨_, rfl⟩
  have hst : Store z.file z.space rows (fun x => keep x ∨ InBlock (p.1, p.2) x) := by
    refine h.rep.store.congr fun x => ?_
    rw [hkeep, hm1 x]
    simp only
    constructor
    · rintro ((a | a | a) | a)
      · exact Or.inl (Or.inl (Or.inl a))
      · exact Or.inr a
      · exact Or.inl (Or.inl (Or.inr a))
      · exact Or.inl (Or.inr a)
    · rintro (((a | a) | a) | a)
      · exact Or.inl (Or.inl a)
      · exact Or.inl (Or.inr (Or.inr a))
      · exact Or.inr a
      · exact Or.inl (Or.inr (Or.inl a))
  have hpk : ∀ x, InBlock (p.1, p.2) x → ¬ keep x := by
    intro x hx
    rw [hkeep]
    rintro ((a | ⟨q, hq, a⟩) | ⟨c, hc, a⟩)
    · exact hap p (hp1.mem_iff.2 (by simp)) x hx a
    · exact hpw1.1 q hq x hx a
    · exact h.apart c hc x a (Or.inr ((hm1 x).2 (Or.inl hx)))
  have hst1 := hst.free hpk
  obtain ⟨hst2, hnew⟩ := hst1.alloc d.length
  rw [hal] at hst2 hnew
  simp only at hst2 hnew
  have hst3 : Store (wr z.file pos d) space rows (fun x => keep x ∨ InBlock (pos, d.length) x) := by
    by_cases hd : d = []
    · subst hd; exact hst2
    · exact hst2.write _ _ (fun r hr x hx hx' => (hnew x hx').2 r hr hx)
        (hst2.below (List.length_pos_iff.2 hd) fun x h1 h2 => Or.inr ⟨h1, h2⟩)
  refine ⟨h.swap hs ?_ (fun c hc => ?_) (fun c hc x hx => ?_), ?_, ?_, by rw [hf]; exact holds_wr _ _ _, ?_⟩
  · rw [hf, hsp]
    refine hst3.congr fun x => ?_
    rw [hkeep, hm2 x]
    simp only
    constructor
    · rintro (((a | a) | a) | a)
      · exact Or.inl (Or.inl a)
      · exact Or.inl (Or.inr (Or.inr a))
      · exact Or.inr a
      · exact Or.inl (Or.inr (Or.inl a))
    · rintro ((a | a | a) | a)
      · exact Or.inl (Or.inl (Or.inl a))
      · exact Or.inr a
      · exact Or.inl (Or.inl (Or.inr a))
      · exact Or.inl (Or.inr a)
  · rw [hf]
    exact (h.held c hc).wr fun x h1 h2 hx => (hnew x hx).1 (by rw [hkeep]; exact Or.inr ⟨c, hc, h1, h2⟩)
  · rw [hm2 x]
    rintro (a | a | a)
    · exact h.apart c hc x hx (Or.inl a)
    · exact (hnew x a).1 (by rw [hkeep]; exact Or.inr ⟨c, hc, hx⟩)
    · exact h.apart c hc x hx (Or.inr ((hm1 x).2 (Or.inr a)))
  · refine (hp2.pairwise_iff hsym).2 (List.pairwise_cons.2 ⟨fun q hq x hx hx' => ?_, hpw1.2⟩)
    exact (hnew x hx).1 (by rw [hkeep]; exact Or.inl (Or.inr ⟨q, hq, hx'⟩))
  · intro q hq x hx he
    rcases List.mem_cons.1 (hp2.mem_iff.1 hq) with rfl | hq
    · exact (hnew x hx).1 (by rw [hkeep]; exact Or.inl (Or.inl he))
    · exact hap q (hp1.mem_iff.2 (by simp [hq])) x hx he
  · rw [hf]
    exact keepsBytes_wr fun x hq hx => (hnew x hx).1 (by rw [hkeep]; exact Or.inl (Or.inr hq))

end Zim
end Pyzim
