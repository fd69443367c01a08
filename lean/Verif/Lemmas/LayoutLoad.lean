import Verif.Lemmas.LayoutFlush

namespace Pyzim

theorem Header.fromFile_holds {file : Bytes} {h : Header} {b : Bytes} (hb : h.toBytes = .ok b) (hh : Holds file 0 b) :
    Header.fromFile ⟨file, 0⟩ 0 = .ok { h with dirty := false, mutable := true } := by
  obtain ⟨c, h1, h2, h3⟩ := Header.C11_write_read h ((Header.fits_iff h).1 (Fmt.pack_fits hb))
  rw [hb] at h1
  injection h1 with h1
  subst h1
  have := hh.drop_take
  unfold Header.fromFile
  simp only [PyFile.seek, PyFile.read, Header.C11_length]
  rw [h2] at this
  rw [this]
  exact h3

theorem PointerList.fromFile_holds {file : Bytes} {l : PointerList} {b : Bytes} {off : Nat} (hb : l.toBytes 8 = .ok b)
    (hh : Holds file off b) : PointerList.fromFile 8 ⟨file, 0⟩ l.len off = .ok { l with dirty := false, mutable := true } := by
  obtain ⟨c, h1, h2, h3⟩ := PointerList.C04_write_read 8 (by omega) l (packFields_map_fits 8 l.pointers b hb)
  rw [hb] at h1
  injection h1 with h1
  subst h1
  have := hh.drop_take
  rw [h2] at this
  have hb := this.symm
  rw [show ({ l with dirty := false, mutable := true } : PointerList) = { pointers := l.pointers, dirty := false, mutable := true }
    from rfl, ← h3]
  unfold PointerList.fromFile PointerList.fromBytes
  simp only [PyFile.seek, PyFile.read]
  rw [if_neg (by rw [h2]; simp [PointerList.diskSize]), h2]
  unfold PointerList.diskSize at this ⊢
  unfold PointerList.len
  rw [this, Nat.mul_div_cancel_left _ (by omega)]

theorem MimeTypeList.fromFile_holds {file : Bytes} {m : MimeTypeList} {off : Nat}
    (hm : ∀ mt ∈ m.mimetypes, mt ≠ [] ∧ (0 : UInt8) ∉ mt) (hh : Holds file off m.toBytes) :
    ∃ f, MimeTypeList.fromFile ⟨file, 0⟩ (some off) = some ({ m with dirty := false, mutable := true }, f) := by
  obtain ⟨pre, post, hf, hl⟩ := hh.split (by unfold MimeTypeList.toBytes; simp)
  subst hl
  rw [hf]
  by_cases he : m.mimetypes = []
  · have := MimeTypeList.C09_empty_list_size_wrong pre post
    obtain ⟨-, -, this⟩ := this
    have e1 : m.toBytes = ({ mimetypes := [] } : MimeTypeList).toBytes := by unfold MimeTypeList.toBytes; rw [he]
    rw [e1, this]
    exact ⟨_, by rw [he]⟩
  · exact ⟨_, (MimeTypeList.C09_round_trip m he hm pre post).1⟩

namespace Archive
open SpaceAllocator (InBlock)
open Zim (Row Stored Clustered Works SameContent KeepsBytes InRow InCluster)

variable {reserve : Option Nat} {a a' : Archive} {rows : List Row} {cs cs' : List Stored} {extra : Nat → Prop}

/-- the archive read from the file of `a` -/
def loaded (writable : Bool) (as : PointerList) (a : Archive) : Archive :=
  { zim :=
      { file := a.zim.file
        header := { a.zim.header with dirty := false, mutable := writable }
        mimetypes := { a.zim.mimetypes with dirty := false, mutable := writable }
        urls := { a.zim.urls with dirty := false, mutable := writable }
        clusters := { a.zim.clusters with dirty := false, mutable := writable }
        articles := { as with mutable := writable }
        space := SpaceAllocator.new a.zim.header.checksumPosition
        clusterNum := a.zim.clusters.len
        mutable := writable }
    mimeSize := a.zim.mimetypes.getDiskSize
    urlSize := a.zim.urls.diskSize 8
    clusterSize := a.zim.clusters.diskSize 8 }

theorem loaded_entryByFullUrl (w : Bool) (as : PointerList) (a : Archive) (u : String) :
    (loaded w as a).zim.entryByFullUrl u = a.zim.entryByFullUrl u := rfl

theorem loaded_hasEntry (w : Bool) (as : PointerList) (a : Archive) (u : String) :
    (loaded w as a).zim.hasEntry u = a.zim.hasEntry u := rfl

/-- reading the file -/
theorem Parts.load (h : Parts reserve a rows cs extra) (d1 : a.zim.header.dirty = false)
    (d2 : a.zim.mimetypes.dirty = false) (d3 : a.zim.urls.dirty = false) (d4 : a.zim.clusters.dirty = false)
    (titles articles : Zim → PyRes PointerList) (w : Bool) :
    ∃ has, a.zim.hasEntry "Xlisting/titleOrdered/v1" = .ok has ∧
      load titles articles w a.zim.file =
        match (if has then articles (loaded w { pointers := [] } a).zim else .ok { pointers := [] }) with
        | .error x => .error x
        | .ok as => .ok (loaded w as a) := by
  obtain ⟨has, hhas, -⟩ := h.content.rep.hasEntry "Xlisting/titleOrdered/v1"
  refine ⟨has, hhas, ?_⟩
  obtain ⟨b1, hb1, hh1⟩ := h.header d1
  obtain ⟨hh2, -⟩ := h.mimetypes d2
  obtain ⟨b3, hb3, hh3, hn3, -⟩ := h.urls d3
  obtain ⟨b4, hb4, hh4, hn4, -⟩ := h.clusters d4
  obtain ⟨f, hf⟩ := MimeTypeList.fromFile_holds h.listable hh2
  have e3 := PointerList.fromFile_holds hb3 hh3
  have e4 := PointerList.fromFile_holds hb4 hh4
  rw [← hn3] at e3
  rw [← hn4] at e4
  have hh := (loaded_hasEntry w { pointers := [] } a "Xlisting/titleOrdered/v1").trans hhas
  unfold loaded at hh
  unfold Archive.load
  rw [Header.fromFile_holds hb1 hh1]
  simp only [bind, Except.bind]
  rw [hf, e3, e4]
  simp only
  rw [if_pos h.version]
  erw [hh]
  cases has with
  | false => rfl
  | true =>
    simp only [if_true]
    cases ha : articles (loaded w { pointers := [] } a).zim with
    | error x => erw [ha]
    | ok as => erw [ha]; rfl

/-- the archive that is read -/
theorem Laid.load (h : Laid reserve a rows cs extra) (d1 : a.zim.header.dirty = false)
    (d2 : a.zim.mimetypes.dirty = false) (d3 : a.zim.urls.dirty = false) (d4 : a.zim.clusters.dirty = false)
    (as : PointerList) :
    ∃ extra', Laid reserve (loaded true as a) rows cs extra' := by
  obtain ⟨hck, hlen⟩ := h.ends d1 d2 d3 d4
  obtain ⟨b1, hb1, hh1⟩ := h.header d1
  obtain ⟨hh2, hp2⟩ := h.mimetypes d2
  obtain ⟨b3, hb3, hh3, hn3, hs3⟩ := h.urls d3
  obtain ⟨b4, hb4, hh4, hn4, hs4⟩ := h.clusters d4
  have hfix : (loaded true as a).fixed reserve = a.fixed reserve := by
    unfold fixed mimePiece
    rw [hs3, hs4]
    cases reserve with
    | some r => rfl
    | none =>
      have : a.mimeSize = (loaded true as a).mimeSize := by
        have h1 : a.mimeSize = a.zim.mimetypes.toBytes.length := hp2
        rw [h1, ← MimeTypeList.size_eq h.room]; rfl
      rw [this]; rfl
  let used : Nat → Prop := fun x =>
    (∃ p ∈ a.fixed reserve, InBlock p x) ∨ (∃ c ∈ cs, InCluster c x) ∨ ∃ r ∈ rows, InRow r x
  refine ⟨fun x => x < a.zim.header.checksumPosition ∧ ¬ used x, ?_⟩
  have hst := h.content.rep.store
  have hfe : (loaded true as a).zim.space.fileEnd = a.zim.space.fileEnd := hck
  have hlt : ∀ x, used x → x < a.zim.header.checksumPosition := by
    rw [hck]
    rintro x (⟨p, hp, hx⟩ | ⟨c, hc, hx⟩ | ⟨r, hr, hx⟩)
    · exact h.toParts.fixed_lt hp hx
    · exact h.toParts.cluster_lt hc hx
    · exact h.toParts.row_lt hr hx
  have hstore : Zim.Store (loaded true as a).zim.file (loaded true as a).zim.space rows (fun x =>
      ((x < a.zim.header.checksumPosition ∧ ¬ used x) ∨ ∃ p ∈ a.fixed reserve, InBlock p x) ∨ ∃ c ∈ cs, InCluster c x) := by
    refine ⟨hst.clean, hst.stored, hst.disjoint, ?_, ?_, ?_⟩
    · rintro r hr x hx ((hu | hp) | hc)
      · exact hu.2 (Or.inr (Or.inr ⟨r, hr, hx⟩))
      · exact hst.apart r hr x hx (Or.inl (Or.inr hp))
      · exact hst.apart r hr x hx (Or.inr hc)
    · rw [hfe]; exact hst.length
    · refine Zim.inv_congr (SpaceAllocator.inv_new a.zim.header.checksumPosition) ?_
      intro x
      by_cases hu : used x
      · have h1 := hlt x hu
        simp only [h1, true_iff]
        rcases hu with hp | hc | hr
        · exact Or.inl (Or.inl (Or.inr hp))
        · exact Or.inl (Or.inr hc)
        · exact Or.inr hr
      · constructor
        · intro h1; exact Or.inl (Or.inl (Or.inl ⟨h1, hu⟩))
        · rintro (((h1 | h1) | h1) | h1)
          · exact h1.1
          · exact absurd (Or.inl h1) hu
          · exact absurd (Or.inr (Or.inl h1)) hu
          · exact absurd (Or.inr (Or.inr h1)) hu
  refine ⟨⟨?_, by rw [hfix]; exact h.disjoint, ?_, ?_, h.version, h.listable, ?_, ?_, ?_, ?_⟩, ?_⟩
  · rw [hfix]
    refine ⟨⟨hstore, h.content.rep.sorted, h.content.rep.urls, rfl, rfl, rfl, rfl, rfl⟩, h.content.pointers, rfl, ?_,
      h.content.held, h.content.nonempty, h.content.disjoint, ?_⟩
    · show a.zim.clusters.len = _
      unfold PointerList.len
      rw [h.content.pointers, List.length_map]
    · rintro c hc x hx (hu | hp)
      · exact hu.2 (Or.inr (Or.inl ⟨c, hc, hx⟩))
      · exact h.content.apart c hc x hx (Or.inr hp)
  · rw [hfix]
    exact fun p hp x hx hu => hu.2 (Or.inl ⟨p, hp, hx⟩)
  · exact h.room
  · intro _; exact ⟨b1, hb1, hh1⟩
  · intro _
    refine ⟨hh2, ?_⟩
    cases reserve with
    | none => exact MimeTypeList.size_eq h.room
    | some r => exact hp2
  · intro _; exact ⟨b3, hb3, hh3, hn3, rfl⟩
  · intro _; exact ⟨b4, hb4, hh4, hn4, rfl⟩
  · intro _ _ _ _
    exact ⟨rfl, by rw [hfe]; exact hlen⟩

/-- a new archive with reserved space for the mimetype list -/
theorem Laid.new {r : Nat} (hr : 2 ≤ r) {uuid : Bytes} (hu : uuid.length = 16) :
    ∃ a, Archive.new (some r) uuid = .ok a ∧ a.isDirty = true ∧ Laid (some r) a [] [] (fun _ => False) := by
  obtain ⟨b, hb, hl, -⟩ := Header.C11_write_read (Header.placeholder uuid) (by
    constructor <;> simp [Header.placeholder, hu, Header.MAGIC_NUMBER])
  unfold Archive.new
  simp only [hb]
  refine ⟨_, rfl, rfl, ⟨⟨⟨⟨⟨?_, ?_, ?_, ?_, ?_, ?_⟩, ?_, rfl, rfl, rfl, rfl, rfl, rfl⟩, rfl, rfl, rfl, ?_, ?_, ?_, ?_⟩, ?_, ?_, hr, ?_,
    ?_, ?_, ?_, ?_, ?_⟩, ?_⟩⟩
  · simp
  · simp
  · simp
  · simp
  · show (wr [] 0 b).length ≤ _
    rw [wr_length _ _ (by rw [← List.length_pos_iff, hl]; omega), hl]
    simp [SpaceAllocator.new, Header.C11_length]
    omega
  · refine Zim.inv_congr (SpaceAllocator.inv_new (Header.LENGTH + r)) ?_
    intro x
    simp only [Header.C11_length, fixed, mimePiece, Header.placeholder, InBlock, List.mem_cons, List.not_mem_nil,
      false_and, exists_false, or_false, false_or]
    constructor
    · intro hx
      by_cases h80 : x < 80
      · exact ⟨(0, 80), by simp, by simp; omega⟩
      · exact ⟨(80, r), by simp, by simp; omega⟩
    · rintro ⟨p, hp, hx⟩
      rcases hp with rfl | rfl | rfl | rfl <;> simp only at hx <;> omega
  · simp
  · simp
  · simp
  · simp
  · simp
  · simp only [fixed, mimePiece, Header.placeholder]
    refine List.pairwise_cons.2 ⟨?_, List.pairwise_cons.2 ⟨?_, List.pairwise_cons.2 ⟨?_, List.pairwise_singleton _ _⟩⟩⟩
    all_goals
      intro q hq x hx hy
      simp only [List.mem_cons, List.not_mem_nil, or_false] at hq
      simp only [InBlock] at hx hy
      rcases hq with rfl | rfl | rfl <;> simp only at hy <;> omega
  · exact fun _ _ _ _ h => h
  · right; exact ⟨rfl, Nat.le_refl _⟩
  · simp
  · intro h; cases h
  · intro h; cases h
  · intro h; cases h
  · intro h; cases h
  · intro h; cases h

end Archive
end Pyzim
