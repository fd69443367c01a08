import Verif.Lemmas.Clusters
import Verif.Lemmas.ArchiveShows
import Verif.Lemmas.ArchiveWrote

namespace Pyzim
namespace Zim
open SpaceAllocator (InBlock)

variable {K : Type} {O : ClusterOps K} {c : K} {z z' : Zim} {rows : List Row} {cs cs' : List Stored} {rest : Nat → Prop}
  {chunks : List Bytes}

theorem Clustered.inUse (h : Clustered z rows cs rest) (x : Nat) : InUse z x ↔ Used rows cs rest x := by
  have hi := h.rep.store.space
  have hu : ((rest x ∨ ∃ c ∈ cs, InCluster c x) ∨ ∃ r ∈ rows, InRow r x) ↔ Used rows cs rest x := or_assoc
  constructor
  · rintro ⟨h1, h2⟩
    rcases (hi.part x).1 h1 with h3 | h3
    · exact hu.1 h3
    · exact absurd h3 h2
  · intro hx
    have hx := hu.2 hx
    exact ⟨hi.used_lt hx, fun hc => hi.excl x ⟨hx, hc⟩⟩

/-- entries are written and removed -/
theorem Clustered.framed (h : Clustered z rows cs rest) {rows' : List Row}
    (hrep : Rep z' rows' (fun x => rest x ∨ ∃ c ∈ cs, InCluster c x))
    (hf : Frame (fun x => rest x ∨ ∃ c ∈ cs, InCluster c x) z z') : Clustered z' rows' cs rest where
  rep := hrep
  pointers := by rw [hf.clusters]; exact h.pointers
  mutable := by rw [hf.clusters]; exact h.mutable
  num := by rw [hf.clusterNum]; exact h.num
  held c hc := hf.bytes.holds (h.held c hc) fun x h1 h2 => Or.inr ⟨c, hc, h1, h2⟩
  nonempty := h.nonempty
  disjoint := h.disjoint
  apart := h.apart

/-- What stays the same while an archive is modified: the bytes `rest` and the positions in the header; what differs is
marked as to be written. -/
structure Kept (rest : Nat → Prop) (z z' : Zim) : Prop where
  bytes : KeepsBytes rest z.file z'.file
  header : MainOnly z.header z'.header
  mimetypes : z'.mimetypes = z.mimetypes ∨ z'.mimetypes.dirty = true
  urls : z'.urls = z.urls ∨ z'.urls.dirty = true
  clusters : z'.clusters = z.clusters ∨ z'.clusters.dirty = true
  listable : (∀ m ∈ z.mimetypes.mimetypes, m ≠ [] ∧ (0 : UInt8) ∉ m) → ∀ m ∈ z'.mimetypes.mimetypes, m ≠ [] ∧ (0 : UInt8) ∉ m
  fewer : z.mimetypes.mimetypes ≠ [] → z'.mimetypes.mimetypes ≠ []
  space : (z'.space = z.space ∧ z'.file.length = z.file.length) ∨ z'.urls.dirty = true ∨ z'.clusters.dirty = true

theorem Kept.refl (rest : Nat → Prop) (z : Zim) : Kept rest z z :=
  ⟨KeepsBytes.refl _ _, MainOnly.refl _, Or.inl rfl, Or.inl rfl, Or.inl rfl, id, id, Or.inl ⟨rfl, rfl⟩⟩

theorem changed_trans {α : Type} {dirty : α → Bool} {a b c : α} (h1 : b = a ∨ dirty b = true) (h2 : c = b ∨ dirty c = true) :
    c = a ∨ dirty c = true := by
  rcases h2 with rfl | h2
  · exact h1
  · exact Or.inr h2

theorem Kept.trans {z1 z2 z3 : Zim} (h1 : Kept rest z1 z2) (h2 : Kept rest z2 z3) : Kept rest z1 z3 :=
  ⟨h1.bytes.trans h2.bytes, h1.header.trans h2.header, changed_trans h1.mimetypes h2.mimetypes,
    changed_trans h1.urls h2.urls, changed_trans h1.clusters h2.clusters, fun h => h2.listable (h1.listable h),
    fun h => h2.fewer (h1.fewer h), by
      rcases h2.space with e | e
      · rcases h1.space with e' | e' | e'
        · exact Or.inl ⟨e.1.trans e'.1, e.2.trans e'.2⟩
        · rcases h2.urls with u | u
          · rw [u]; exact Or.inr (Or.inl e')
          · exact Or.inr (Or.inl u)
        · rcases h2.clusters with u | u
          · rw [u]; exact Or.inr (Or.inr e')
          · exact Or.inr (Or.inr u)
      · exact Or.inr e⟩

theorem Frame.kept {other : Nat → Prop} (h : Frame other z z') (hr : ∀ x, rest x → other x) : Kept rest z z' :=
  ⟨h.bytes.mono hr, h.header, Or.inl h.mimetypes, h.urls, Or.inl h.clusters, by rw [h.mimetypes]; exact id,
    by rw [h.mimetypes]; exact id, h.space.imp id Or.inl⟩

theorem writeCluster_num {num : Option Int} {fuel : Nat} {r : Nat × K} (hok : writeCluster O fuel c num z = (.ok r, z')) :
    ∀ n ∈ num, 0 ≤ n := by
  cases hd : decide (∀ n ∈ num, 0 ≤ n) with
  | true => exact of_decide_eq_true hd
  | false =>
    unfold writeCluster at hok
    rw [hd, PyM.require_false_bind] at hok
    cases hok

theorem Clustered.write (h : Clustered z rows cs rest) (hw : ClusterWrite O z cs z' cs') :
    Clustered z' rows cs' rest ∧ SameButClusters z z' ∧ KeepsBytes (Used rows cs rest) z.file z'.file ∧
      z'.clusters.dirty = true := by
  cases hw with
  | @new c c' chunks num fuel n off _ h1 h2 h3 h4 h5 h6 =>
    obtain ⟨off', c'', z'', e1, e2, e3, e4, -, -, e5, -, e6⟩ := h.writeCluster_new (fun x => (h.inUse x).1) h1 h2 h4
      (writeCluster_num h5) h3
    rw [h5] at e1
    cases e1
    rw [h6] at e4
    cases e4
    exact ⟨e2, e3, e5, e6⟩
  | @replace c c' chunks num fuel n off i old _ h1 h2 h3 h4 h5 h6 h7 h8 h9 =>
    obtain ⟨off', c'', z'', e1, e2, e3, e4, -, -, e5, -, e6⟩ := h.writeCluster_old (fun x => (h.inUse x).1) h1 h2 h4 h5 h6
      h7 h3
    rw [h8] at e1
    cases e1
    rw [h9] at e4
    cases e4
    exact ⟨e2, e3, e5, e6⟩

theorem SameButClusters.kept (h : SameButClusters z z') (hk : KeepsBytes rest z.file z'.file)
    (hd : z'.clusters.dirty = true) : Kept rest z z' :=
  ⟨hk, by rw [h.header]; exact MainOnly.refl _, Or.inl h.mimetypes, Or.inl h.urls, Or.inr hd,
    by rw [h.mimetypes]; exact id, by rw [h.mimetypes]; exact id, Or.inr (Or.inr hd)⟩

theorem Rep.mimes {other : Nat → Prop} (h : Rep z rows other) (m : MimeTypeList) :
    Rep { z with mimetypes := m } rows other :=
  ⟨h.store, h.sorted, h.urls, h.urlsMutable, h.isOpen, h.isMutable, h.noTitles, h.headerMutable⟩

theorem Clustered.mimes (h : Clustered z rows cs rest) (m : MimeTypeList) :
    Clustered { z with mimetypes := m } rows cs rest :=
  ⟨h.rep.mimes m, h.pointers, h.mutable, h.num, h.held, h.nonempty, h.disjoint, h.apart⟩

theorem Clustered.header (h : Clustered z rows cs rest) {hd : Header} (hm : hd.mutable = true) :
    Clustered { z with header := hd } rows cs rest :=
  ⟨⟨h.rep.store, h.rep.sorted, h.rep.urls, h.rep.urlsMutable, h.rep.isOpen, h.rep.isMutable, h.rep.noTitles, hm⟩,
    h.pointers, h.mutable, h.num, h.held, h.nonempty, h.disjoint, h.apart⟩

theorem setMainPage_mainOnly {hd hd' : Header} {v : Option Int} {r : PyRes Unit} (h : hd.setMainPage v = (r, hd')) :
    MainOnly hd hd' := by
  unfold Header.setMainPage at h
  repeat' split at h
  all_goals
    injection h with _ h
    subst h
    first
    | exact MainOnly.refl _
    | exact Or.inr ⟨_, rfl⟩

theorem MainOnly.mutable {hd hd' : Header} (h : MainOnly hd hd') : hd'.mutable = hd.mutable := by
  rcases h with rfl | ⟨m, rfl⟩ <;> rfl

theorem getIndex_changes {m m' : MimeTypeList} {mt : Bytes} {reg : Bool} {r : PyRes (Option Nat)}
    (h : m.getIndex mt reg = (r, m')) : m' = m ∨ (m'.dirty = true ∧ m'.mimetypes = m.mimetypes ++ [mt]) := by
  have hreg : ∀ q, m.register mt = q → q.2 = m ∨ (q.2.dirty = true ∧ q.2.mimetypes = m.mimetypes ++ [mt]) := by
    intro q hq
    subst hq
    unfold MimeTypeList.register
    split
    · exact Or.inl rfl
    · split
      · exact Or.inl rfl
      · exact Or.inr ⟨rfl, rfl⟩
  unfold MimeTypeList.getIndex at h
  split at h
  · injection h with _ h; exact Or.inl h.symm
  · split at h
    · cases hq : m.register mt with
      | mk q1 q2 =>
        have := hreg _ hq
        rw [hq] at h
        cases q1 with
        | error e => injection h with _ h; subst h; exact this
        | ok u => cases u; injection h with _ h; subst h; exact this
    · injection h with _ h; exact Or.inl h.symm

/-- removing an entry, once it is known what happens to the blob -/
theorem Rep.removeEntry_with {other : Nat → Prop} (h : Rep z rows other) {bd blob : Entry → PyM Zim Unit} {d : Nat}
    {u : String} (hok : removeEntry bd d blob u z = (.ok (), z')) :
    ∃ e z1, z.entryByFullUrl u = .ok e ∧ (if e.isRedirect then z1 = z else blob e z = (.ok (), z1)) ∧
      ∀ other1, Rep z1 rows other1 → ∃ rows', Rep z' rows' other1 ∧ Frame other1 z1 z' := by
  cases d with
  | zero => cases hok
  | succ d =>
    by_cases hu : ∃ r ∈ rows, r.2.fullUrl = u
    · obtain ⟨⟨o, e0⟩, hr, rfl⟩ := hu
      obtain ⟨k, hk⟩ := List.getElem?_of_mem hr
      rw [h.removeEntry_eq hk] at hok
      obtain ⟨⟨⟩, z1, hb, hok⟩ := PyM.bind_ok_iff.1 hok
      refine ⟨e0, z1, h.entryByFullUrl hr, ?_, ?_⟩
      · by_cases hir : e0.isRedirect = true
        · rw [if_pos hir] at hb ⊢
          injection hb with _ hb
          exact hb.symm
        · rw [if_neg hir] at hb ⊢
          exact hb
      · intro other1 h1
        obtain ⟨rows', h2, h3, -⟩ := Rep.removeRest_ok bd d z1 rows k o e0 z' h1 hk hok
        exact ⟨rows', h2, h3⟩
    · rw [h.removeEntry_missing (fun r hr he => hu ⟨r, hr, he⟩)] at hok
      cases hok

/-- A modification keeps the clusters that it does not replace, and everything else. -/
theorem Clustered.work (h : Clustered z rows cs rest) (hw : Work O z cs z' cs') :
    ∃ rows', Clustered z' rows' cs' rest ∧ Kept rest z z' := by
  cases hw with
  | cluster hw =>
    obtain ⟨h1, h2, h3, h4⟩ := h.write hw
    exact ⟨rows, h1, h2.kept (h3.mono fun x hx => Or.inl hx) h4⟩
  | entry ha hok =>
    obtain ⟨old, rows', f, -, -, h1, h2, -⟩ := h.rep.writeEntry_ok ha.proper (h.rep.accepts ha) hok
    exact ⟨rows', h.framed h1 h2, h2.kept fun x hx => Or.inl hx⟩
  | remove hb hok =>
    obtain ⟨e, z1, h1, h2, h3⟩ := h.rep.removeEntry_with hok
    have hz : z1 = z := by
      by_cases hir : e.isRedirect = true
      · rw [if_pos hir] at h2; exact h2
      · rw [if_neg hir] at h2; exact hb e z1 h1 (by simpa using hir) h2
    subst hz
    obtain ⟨rows', h4, h5⟩ := h3 _ h.rep
    exact ⟨rows', h.framed h4 h5, h5.kept fun x hx => Or.inl hx⟩
  | removeBlob he hr hb hw hok =>
    obtain ⟨e, z1, h1, h2, h3⟩ := h.rep.removeEntry_with hok
    rw [he] at h1
    cases h1
    rw [if_neg (by rw [hr]; simp), hb] at h2
    cases h2
    obtain ⟨w1, w2, w3, w4⟩ := h.write hw
    obtain ⟨rows', h4, h5⟩ := h3 _ w1.rep
    exact ⟨rows', w1.framed h4 h5, (w2.kept (w3.mono fun x hx => Or.inl hx) w4).trans (h5.kept fun x hx => Or.inl hx)⟩
  | @mimetype mt reg r m hne hz hm =>
    refine ⟨rows, h.mimes m, ⟨KeepsBytes.refl _ _, MainOnly.refl _, ?_, Or.inl rfl, Or.inl rfl, ?_, ?_, Or.inl ⟨rfl, rfl⟩⟩⟩
    all_goals rcases getIndex_changes hm with rfl | ⟨h1, h2⟩
    · exact Or.inl rfl
    · exact Or.inr h1
    · exact id
    · intro hl x hx
      simp only [h2] at hx
      rcases List.mem_append.1 hx with hx | hx
      · exact hl x hx
      · rw [List.mem_singleton] at hx; subst hx; exact ⟨hne, hz⟩
    · exact id
    · intro _; simp only [h2]; simp
  | @mainPage v z' hok =>
    simp only [onHeader] at hok
    injection hok with h1 h2
    subst h2
    have hmo : MainOnly z.header (z.header.setMainPage v).2 := setMainPage_mainOnly rfl
    exact ⟨rows, h.header (by rw [hmo.mutable]; exact h.rep.headerMutable),
      ⟨KeepsBytes.refl _ _, hmo, Or.inl rfl, Or.inl rfl, Or.inl rfl, id, id, Or.inl ⟨rfl, rfl⟩⟩⟩
  | buffer r m =>
    exact ⟨rows, ⟨⟨h.rep.store, h.rep.sorted, h.rep.urls, h.rep.urlsMutable, h.rep.isOpen, h.rep.isMutable,
      h.rep.noTitles, h.rep.headerMutable⟩, h.pointers, h.mutable, h.num, h.held, h.nonempty, h.disjoint, h.apart⟩,
      ⟨KeepsBytes.refl _ _, MainOnly.refl _, Or.inl rfl, Or.inl rfl, Or.inl rfl, id, id, Or.inl ⟨rfl, rfl⟩⟩⟩

theorem Clustered.works (h : Clustered z rows cs rest) (hw : Works O z cs z' cs') :
    ∃ rows', Clustered z' rows' cs' rest ∧ Kept rest z z' := by
  induction hw with
  | refl => exact ⟨rows, h, Kept.refl _ _⟩
  | step _ hw ih =>
    obtain ⟨rows1, h1, h2⟩ := ih
    obtain ⟨rows2, h3, h4⟩ := h1.work hw
    exact ⟨rows2, h3, h2.trans h4⟩

end Zim
end Pyzim
