import Verif.Spec.Archive

namespace Pyzim

/-! ### bytes in a file -/

/-- the file after `f.seek(off); f.write(d)` -/
abbrev wr (file : Bytes) (off : Nat) (d : Bytes) : Bytes := (((PyFile.mk file 0).seek off).write d).data

theorem wr_nil (file : Bytes) (off : Nat) : wr file off [] = file := rfl

theorem wr_eq (file : Bytes) (off : Nat) {d : Bytes} (hd : d ≠ []) : wr file off d =
    (file ++ List.replicate (off - file.length) 0).take off ++ d ++ file.drop (off + d.length) := by
  cases d with
  | nil => exact absurd rfl hd
  | cons a d => rfl

theorem wr_length (file : Bytes) (off : Nat) {d : Bytes} (hd : d ≠ []) :
    (wr file off d).length = max file.length (off + d.length) := by
  rw [wr_eq file off hd]; simp; omega

theorem Holds.below {file : Bytes} {off : Nat} {b : Bytes} (h : Holds file off b) (hb : b ≠ []) :
    off + b.length ≤ file.length := by
  have h0 := List.length_pos_iff.2 hb
  have := h (b.length - 1) (by omega)
  rw [List.getElem?_eq_getElem (show b.length - 1 < b.length by omega)] at this
  have := (List.getElem?_eq_some_iff.1 this).1
  omega

theorem wr_getElem? (file : Bytes) (off : Nat) {d : Bytes} (hd : d ≠ []) (x : Nat) :
    (wr file off d)[x]? =
      if x < off then (if x < file.length then file[x]? else some 0)
      else if x < off + d.length then d[x - off]? else file[x]? := by
  rw [wr_eq file off hd]
  have hl : ((file ++ List.replicate (off - file.length) 0).take off).length = off := by
    simp; omega
  by_cases h1 : x < off
  · rw [if_pos h1, List.append_assoc, List.getElem?_append_left (by rw [hl]; exact h1),
      List.getElem?_take_of_lt h1]
    by_cases h2 : x < file.length
    · rw [if_pos h2, List.getElem?_append_left h2]
    · rw [if_neg h2, List.getElem?_append_right (by omega), List.getElem?_replicate, if_pos (by omega)]
  · rw [if_neg h1, List.append_assoc, List.getElem?_append_right (by rw [hl]; omega), hl]
    by_cases h2 : x < off + d.length
    · rw [if_pos h2, List.getElem?_append_left (by omega)]
    · rw [if_neg h2, List.getElem?_append_right (by omega), List.getElem?_drop]
      congr 1; omega

theorem holds_wr (file : Bytes) (off : Nat) (d : Bytes) : Holds (wr file off d) off d := by
  intro i hi
  rw [wr_getElem? _ _ (by rintro rfl; simp at hi), if_neg (by omega), if_pos (by omega)]
  congr 1; omega

/-- a write elsewhere keeps existing bytes -/
theorem wr_frame {file : Bytes} {off : Nat} {d : Bytes} {x : Nat} {b : UInt8} (h : file[x]? = some b)
    (hx : ¬ (off ≤ x ∧ x < off + d.length)) : (wr file off d)[x]? = some b := by
  have hlt : x < file.length := (List.getElem?_eq_some_iff.1 h).1
  by_cases hd : d = []
  · subst hd; exact h
  rw [wr_getElem? _ _ hd]
  by_cases h1 : x < off
  · rw [if_pos h1, if_pos hlt, h]
  · rw [if_neg h1, if_neg (by omega), h]

theorem Holds.wr {file : Bytes} {o : Nat} {b : Bytes} (h : Holds file o b) {off : Nat} {d : Bytes}
    (hd : ∀ x, o ≤ x → x < o + b.length → ¬ (off ≤ x ∧ x < off + d.length)) : Holds (wr file off d) o b := by
  intro i hi
  have := h i hi
  rw [List.getElem?_eq_getElem hi] at this ⊢
  exact wr_frame this (hd _ (by omega) (by omega))

theorem Holds.split {file : Bytes} {o : Nat} {b : Bytes} (h : Holds file o b) (hb : b ≠ []) :
    ∃ pre post, file = pre ++ b ++ post ∧ pre.length = o := by
  have hpos : 0 < b.length := List.length_pos_iff.2 hb
  have hlen : o + b.length ≤ file.length := by
    have := h (b.length - 1) (by omega)
    rw [List.getElem?_eq_getElem (l := b) (i := b.length - 1) (by omega)] at this
    have := (List.getElem?_eq_some_iff.1 this).1
    omega
  refine ⟨file.take o, file.drop (o + b.length), ?_, by simp; omega⟩
  have hmid : (file.drop o).take b.length = b := by
    refine List.ext_getElem? fun i => ?_
    by_cases hi : i < b.length
    · rw [List.getElem?_take_of_lt hi, List.getElem?_drop, h i hi]
    · rw [List.getElem?_take_eq_none (by omega), List.getElem?_eq_none (by omega)]
  have h1 : file.drop o = b ++ file.drop (o + b.length) := by
    conv => lhs; rw [← List.take_append_drop b.length (file.drop o), hmid, List.drop_drop]
  rw [List.append_assoc, ← h1, List.take_append_drop]

/-! ### entries -/

namespace Entry

theorem size_pos (e : Entry) : 0 < e.getDiskSize := by
  unfold getDiskSize; simp only; omega

theorem toBytes_ne_nil {e : Entry} {b : Bytes} (h : e.toBytes = .ok b) : b ≠ [] := by
  have := size_eq e b h
  have := size_pos e
  intro hb; subst hb; simp at *; omega

theorem Clean.toBytes {e : Entry} (h : e.Clean) : ∃ b, e.toBytes = .ok b := by
  obtain ⟨t, ht, -⟩ := h.storable.title
  exact (toBytes_ok_iff e).2 ⟨packHead_ok e h.storable, t, ht⟩

theorem fresh_toBytes (e : Entry) : e.fresh.toBytes = e.toBytes := rfl
theorem fresh_size (e : Entry) : e.fresh.getDiskSize = e.getDiskSize := rfl
theorem fresh_fullUrl (e : Entry) : e.fresh.fullUrl = e.fullUrl := rfl
theorem fresh_fresh (e : Entry) : e.fresh.fresh = e.fresh := rfl

/-- a clean entry is read back from any file holding it -/
theorem read_clean {e : Entry} (h : e.Clean) {file : Bytes} {off : Nat} {b : Bytes} (hb : e.toBytes = .ok b)
    (hh : Holds file off b) : ∃ f', fromFile ⟨file, 0⟩ (some off) = some (.ok e, f') := by
  obtain ⟨pre, post, hfile, hpre⟩ := hh.split (toBytes_ne_nil hb)
  cases hk : e.kind with
  | content c n =>
    have hm : e.mimetypeId ≠ 0xffff := fun hm => by
      obtain ⟨r, hr⟩ := h.kind.2 hm; rw [hk] at hr; cases hr
    obtain ⟨b', hb', -, hr⟩ := C14_round_trip e h.storable c n hk hm pre post 0
    rw [hb] at hb'; injection hb' with hb'; subst hb'
    exact ⟨_, by rw [hfile, ← hpre, hr, h.fresh]⟩
  | redirect r =>
    have hm : e.mimetypeId = 0xffff := h.kind.1 ⟨r, hk⟩
    obtain ⟨b', hb', -, hr⟩ := C15_round_trip e h.storable r hk hm pre post 0
    rw [hb] at hb'; injection hb' with hb'; subst hb'
    exact ⟨_, by rw [hfile, ← hpre, hr, h.fresh]⟩

theorem Clean.isRedirect {e : Entry} (h : e.Clean) : e.isRedirect = true ↔ ∃ r, e.kind = .redirect r := by
  rw [h.kind]; unfold Entry.isRedirect; exact decide_eq_true_iff

theorem Clean.oldFullUrl {e : Entry} (h : e.Clean) : e.oldFullUrl = some e.fullUrl := by
  have := congrArg Entry.oldFullUrl h.fresh
  exact this.symm

theorem Clean.force {e : Entry} (h : e.Clean) : e.forceIsArticle = none := by
  have := congrArg Entry.forceIsArticle h.fresh
  exact this.symm

theorem Clean.mutable {e : Entry} (h : e.Clean) : e.mutable = true := by
  have := congrArg Entry.mutable h.fresh
  exact this.symm

end Entry

namespace Zim
open SpaceAllocator (InBlock)

/-! ### the store -/

theorem inRow_bytes {r : Row} {b : Bytes} (hb : r.2.toBytes = .ok b) (x : Nat) :
    InRow r x ↔ r.1 ≤ x ∧ x < r.1 + b.length := by
  rw [Entry.size_eq _ _ hb]; rfl

theorem inv_congr {s : SpaceAllocator} {u v : Nat → Prop} (h : s.Inv u) (huv : ∀ x, u x ↔ v x) : s.Inv v := by
  have : u = v := funext fun x => propext (huv x)
  rw [← this]; exact h

theorem Store.read {file : Bytes} {space : SpaceAllocator} {rows : List Row} {other : Nat → Prop}
    (h : Store file space rows other) {r : Row} (hr : r ∈ rows) :
    ∃ f', Entry.fromFile ⟨file, 0⟩ (some r.1) = some (.ok r.2, f') := by
  obtain ⟨b, hb, hh⟩ := h.stored r hr
  exact Entry.read_clean (h.clean r hr) hb hh

theorem Store.perm {file : Bytes} {space : SpaceAllocator} {rows rows' : List Row} {other : Nat → Prop}
    (h : Store file space rows other) (hp : rows.Perm rows') : Store file space rows' other where
  clean r hr := h.clean r (hp.mem_iff.2 hr)
  stored r hr := h.stored r (hp.mem_iff.2 hr)
  disjoint := hp.pairwise h.disjoint (fun {a b} hab x hb ha => hab x ha hb)
  apart r hr := h.apart r (hp.mem_iff.2 hr)
  space := inv_congr h.space fun x => by
    refine or_congr Iff.rfl ⟨?_, ?_⟩ <;> rintro ⟨r, hr, hx⟩
    · exact ⟨r, hp.mem_iff.1 hr, hx⟩
    · exact ⟨r, hp.mem_iff.2 hr, hx⟩
  length := h.length

theorem Store.congr {file : Bytes} {space : SpaceAllocator} {rows : List Row} {other other' : Nat → Prop}
    (h : Store file space rows other) (ho : ∀ x, other x ↔ other' x) : Store file space rows other' := by
  have : other = other' := funext fun x => propext (ho x)
  rw [← this]; exact h

/-- a row may be counted as other bytes -/
theorem Store.forget {file : Bytes} {space : SpaceAllocator} {r : Row} {rows : List Row} {other : Nat → Prop}
    (h : Store file space (r :: rows) other) : Store file space rows (fun x => other x ∨ InRow r x) where
  clean s hs := h.clean s (by simp [hs])
  stored s hs := h.stored s (by simp [hs])
  disjoint := (List.pairwise_cons.1 h.disjoint).2
  apart s hs x hx hx' := by
    rcases hx' with hx' | hx'
    · exact h.apart s (by simp [hs]) x hx hx'
    · exact (List.pairwise_cons.1 h.disjoint).1 s hs x hx' hx
  space := inv_congr h.space fun x => by simp [or_assoc]
  length := h.length

/-- bytes holding an entry may be counted as a row -/
theorem Store.adopt {file : Bytes} {space : SpaceAllocator} {r : Row} {rows : List Row} {other : Nat → Prop}
    (h : Store file space rows (fun x => other x ∨ InRow r x)) (hc : r.2.Clean)
    (hs : ∃ b, r.2.toBytes = .ok b ∧ Holds file r.1 b) (ha : ∀ x, InRow r x → ¬ other x) :
    Store file space (r :: rows) other where
  clean s hs := by
    rcases List.mem_cons.1 hs with rfl | hs
    · exact hc
    · exact h.clean s hs
  stored s hs' := by
    rcases List.mem_cons.1 hs' with rfl | hs'
    · exact hs
    · exact h.stored s hs'
  disjoint := List.pairwise_cons.2 ⟨fun s hs x hx hx' => h.apart s hs x hx' (Or.inr hx), h.disjoint⟩
  apart s hs x hx := by
    rcases List.mem_cons.1 hs with rfl | hs
    · exact ha x hx
    · exact fun ho => h.apart s hs x hx (Or.inl ho)
  space := inv_congr h.space fun x => by simp [or_assoc]
  length := h.length

/-- freeing other bytes -/
theorem Store.free {file : Bytes} {space : SpaceAllocator} {rows : List Row} {other : Nat → Prop} {start length : Nat}
    (h : Store file space rows (fun x => other x ∨ InBlock (start, length) x))
    (ha : ∀ x, InBlock (start, length) x → ¬ other x) :
    Store file (space.markFree start length) rows other where
  clean := h.clean
  stored := h.stored
  disjoint := h.disjoint
  apart r hr x hx ho := h.apart r hr x hx (Or.inl ho)
  space := by
    refine inv_congr (SpaceAllocator.inv_free h.space start length fun x hx => Or.inl (Or.inr hx)) fun x => ?_
    constructor
    · rintro ⟨(h1 | h1) | h1, h2⟩
      · exact Or.inl h1
      · exact absurd h1 h2
      · exact Or.inr h1
    · rintro (h1 | ⟨r, hr, hx⟩)
      · exact ⟨Or.inl (Or.inl h1), fun hb => ha x hb h1⟩
      · exact ⟨Or.inr ⟨r, hr, hx⟩, fun hb => h.apart r hr x hx (Or.inr hb)⟩
  length := by rw [SpaceAllocator.markFree_fileEnd]; exact h.length

/-- allocating bytes: they are new, and counted as other bytes -/
theorem Store.alloc {file : Bytes} {space : SpaceAllocator} {rows : List Row} {other : Nat → Prop}
    (h : Store file space rows other) (n : Nat) :
    Store file (space.allocate n).2 rows (fun x => other x ∨ InBlock ((space.allocate n).1, n) x) ∧
    (∀ x, InBlock ((space.allocate n).1, n) x → ¬ other x ∧ ∀ r ∈ rows, ¬ InRow r x) := by
  have hfresh : ∀ x, InBlock ((space.allocate n).1, n) x → ¬ (other x ∨ ∃ r ∈ rows, InRow r x) := by
    intro x hx hu
    by_cases hn : n = 0
    · subst hn; simp [InBlock] at hx; omega
    · rcases ((SpaceAllocator.allocate_spec space n (by omega) h.space.wf).2.2.1 x hx.1 hx.2).1 with hc | hc
      · exact h.space.excl x ⟨hu, hc⟩
      · have := h.space.used_lt hu; omega
  refine ⟨{ clean := h.clean, stored := h.stored, disjoint := h.disjoint, apart := ?_, space := ?_, length := ?_ }, ?_⟩
  · rintro r hr x hx (ho | ho)
    · exact h.apart r hr x hx ho
    · exact hfresh x ho (Or.inr ⟨r, hr, hx⟩)
  · by_cases hn : n = 0
    · subst hn; exact h.length
    · have := (SpaceAllocator.allocate_spec space n (by omega) h.space.wf).2.1
      have := h.length
      omega
  · exact inv_congr (SpaceAllocator.inv_alloc h.space n) fun x => by
      constructor
      · rintro ((h1 | h1) | h1)
        · exact Or.inl (Or.inl h1)
        · exact Or.inr h1
        · exact Or.inl (Or.inr h1)
      · rintro ((h1 | h1) | h1)
        · exact Or.inl (Or.inl h1)
        · exact Or.inr h1
        · exact Or.inl (Or.inr h1)
  · intro x hx
    exact ⟨fun ho => hfresh x hx (Or.inl ho), fun r hr hr' => hfresh x hx (Or.inr ⟨r, hr, hr'⟩)⟩

theorem wr_length_le (file : Bytes) (off : Nat) (d : Bytes) : file.length ≤ (wr file off d).length ∧
    (d ≠ [] → off + d.length ≤ (wr file off d).length) ∧ (wr file off d).length ≤ max file.length (off + d.length) := by
  by_cases hd : d = []
  · subst hd; rw [wr_nil]; simp; omega
  · rw [wr_eq file off hd]
    simp only [List.length_append, List.length_take, List.length_replicate, List.length_drop]
    refine ⟨?_, fun _ => ?_, ?_⟩ <;> omega

/-- bytes in use are below the file end -/
theorem Store.below {file : Bytes} {space : SpaceAllocator} {rows : List Row} {other : Nat → Prop}
    (h : Store file space rows other) {off n : Nat} (hn : 0 < n) (hb : ∀ x, off ≤ x → x < off + n → other x) :
    off + n ≤ space.fileEnd + 16 := by
  have := h.space.used_lt (Or.inl (hb (off + n - 1) (by omega) (by omega)))
  omega

/-- writing where no row is -/
theorem Store.write {file : Bytes} {space : SpaceAllocator} {rows : List Row} {other : Nat → Prop}
    (h : Store file space rows other) (off : Nat) (d : Bytes)
    (ha : ∀ r ∈ rows, ∀ x, InRow r x → ¬ (off ≤ x ∧ x < off + d.length)) (he : off + d.length ≤ space.fileEnd + 16) :
    Store (wr file off d) space rows other where
  clean := h.clean
  stored r hr := by
    obtain ⟨b, hb, hh⟩ := h.stored r hr
    exact ⟨b, hb, hh.wr fun x h1 h2 => ha r hr x ((inRow_bytes hb x).2 ⟨h1, h2⟩)⟩
  disjoint := h.disjoint
  apart := h.apart
  space := h.space
  length := by
    have h1 := (wr_length_le file off d).2.2
    have h2 := h.length
    omega

/-- rewriting a row in place -/
theorem Store.rewrite {file : Bytes} {space : SpaceAllocator} {o : Nat} {e e' : Entry} {rows : List Row}
    {other : Nat → Prop} (h : Store file space ((o, e) :: rows) other) (hc : e'.Clean) {b : Bytes}
    (hb : e'.toBytes = .ok b) (hs : e'.getDiskSize = e.getDiskSize) :
    Store (wr file o b) space ((o, e') :: rows) other := by
  have hrow : ∀ x, InRow (o, e') x ↔ InRow (o, e) x := fun x => by simp only [InRow, hs]
  have h1 := h.forget
  have hlen : b.length = e.getDiskSize := by rw [Entry.size_eq _ _ hb, hs]
  have h2 := h1.write o b (fun r hr x hx hx' =>
    h1.apart r hr x hx (Or.inr (by simp only [InRow]; omega)))
    (h1.below (by rw [hlen]; exact Entry.size_pos _) fun x hx hx' => Or.inr (by simp only [InRow]; omega))
  refine (h2.congr fun x => or_congr Iff.rfl (hrow x).symm).adopt hc ⟨b, hb, holds_wr _ _ _⟩ ?_
  intro x hx
  exact h.apart (o, e) (by simp) x ((hrow x).1 hx)

end Zim
end Pyzim
