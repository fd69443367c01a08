import Verif.Props.ArchiveSuccess

/-!
# Failing writes (C65) and the rest of the file (C66)
-/

namespace Pyzim
namespace Zim

variable {z : Zim} {m : Catalogue} {S : String → Prop}

/-! ## C65 -/

theorem Shows.of_space {z z' : Zim} (h : Shows z m) (hz : z' = { z with space := z'.space }) : Shows z' m := by
  rw [hz]
  exact ⟨h.found, h.missing, h.has, h.iter⟩

/-- C65: if a new entry cannot be stored, writing it fails, and the archive is as it was, except that a piece of the
file is considered to be in use. -/
theorem C65_new_partial {e : Entry} {x : PyErr} {d : Nat} {upd att : Bool} (h : ReadyWith z S) (hs : Shows z m)
    (hold : e.oldFullUrl = some e.fullUrl) (hnew : z.hasEntry e.fullUrl = .ok false) (hx : e.toBytes = .error x) :
    ∃ z', writeEntry (d + 1) e upd att z = (.error x, z') ∧ z' = { z with space := z'.space } ∧ ReadyWith z' S ∧
      Shows z' m := by
  obtain ⟨rows, other, h, hA⟩ := h
  have hno : ∀ r ∈ rows, r.2.fullUrl ≠ e.fullUrl := fun r hr he => rep_hasEntry_false h hnew ⟨r, hr, he⟩
  obtain ⟨ia, hia⟩ := h.isArticle_ok hold
  rw [h.writeEntry_new_eq hold hno d upd att ia hia]
  have halloc : allocate e.getDiskSize z =
      (.ok (z.space.allocate e.getDiskSize).1, { z with space := (z.space.allocate e.getDiskSize).2 }) := rfl
  rw [PyM.bind_ok halloc, hx]
  refine ⟨_, PyM.bind_err (writeAt_err (z := { z with space := (z.space.allocate e.getDiskSize).2 }) h.isOpen _ x), rfl, ?_,
    hs.of_space rfl⟩
  obtain ⟨p, sp, hsp⟩ : ∃ p sp, z.space.allocate e.getDiskSize = (p, sp) := ⟨_, _, rfl⟩
  have hinv := SpaceAllocator.inv_alloc h.store.space e.getDiskSize
  have hfresh : ∀ y, SpaceAllocator.InBlock ((z.space.allocate e.getDiskSize).1, e.getDiskSize) y →
      ¬ (other y ∨ ∃ r ∈ rows, InRow r y) := by
    intro y hy hused
    obtain ⟨-, -, h3, -⟩ := SpaceAllocator.allocate_spec z.space e.getDiskSize (getDiskSize_pos e) h.store.space.wf
    rcases (h3 y hy.1 hy.2).1 with hc | hc
    · exact h.store.space.excl y ⟨hused, hc⟩
    · have := h.store.space.used_lt hused; omega
  rw [hsp] at hinv hfresh ⊢
  simp only at hinv hfresh ⊢
  refine ⟨rows, fun x => other x ∨ SpaceAllocator.InBlock (p, e.getDiskSize) x, ⟨⟨h.store.clean, h.store.stored, h.store.disjoint, ?_, ?_, ?_⟩,
    h.sorted, h.urls, h.urlsMutable, h.isOpen, h.isMutable, h.noTitles, h.headerMutable⟩, hA⟩
  · rintro r hr y hy (ho | hb)
    · exact h.store.apart r hr y hy ho
    · exact hfresh y hb (Or.inr ⟨r, hr, hy⟩)
  · have h2 := (SpaceAllocator.allocate_spec z.space e.getDiskSize (getDiskSize_pos e) h.store.space.wf).2.1
    rw [hsp] at h2
    exact Nat.le_trans h.store.length (by simp only at h2 ⊢; omega)
  · have : (fun x => (other x ∨ ∃ r ∈ rows, InRow r x) ∨ SpaceAllocator.InBlock (p, e.getDiskSize) x) =
        fun x => (other x ∨ SpaceAllocator.InBlock (p, e.getDiskSize) x) ∨ ∃ r ∈ rows, InRow r x := by
      funext y
      apply propext
      constructor
      · rintro ((h | h) | h)
        · exact Or.inl (Or.inl h)
        · exact Or.inr h
        · exact Or.inl (Or.inr h)
      · rintro ((h | h) | h)
        · exact Or.inl (Or.inl h)
        · exact Or.inr h
        · exact Or.inl (Or.inr h)
    rw [← this]
    exact hinv

/-- an entry whose mimetype does not fit -/
def bad (url title : String) : Entry := { art url title with mimetypeId := 70000 }

example : sample.hasEntry (bad "x" "t").fullUrl = .ok false ∧ (bad "x" "t").toBytes = .error .structError ∧
    (bad "x" "t").oldFullUrl = some (bad "x" "t").fullUrl := by
  decide +kernel

/-- C65: if the new version of an entry cannot be stored, and has the same size as the current one, writing it fails
and changes nothing. -/
theorem C65_same_size_partial {e e0 : Entry} {x : PyErr} {d : Nat} {upd att : Bool} (h : Ready z)
    (hold : e.oldFullUrl = some e.fullUrl) (h0 : z.entryByFullUrl e.fullUrl = .ok e0)
    (hsize : e.getDiskSize = e0.getDiskSize) (hx : e.toBytes = .error x) :
    writeEntry (d + 1) e upd att z = (.error x, z) := by
  obtain ⟨rows, other, h⟩ := h
  have hh : HasUrl rows e.fullUrl := by
    by_contra hh
    rw [h.entryByFullUrl_missing fun r hr he => hh ⟨r, hr, he⟩] at h0
    cases h0
  obtain ⟨⟨o, e1⟩, hr, hru⟩ := hh
  simp only at hru
  have h0' := h.entryByFullUrl hr
  simp only at h0'
  rw [hru, h0] at h0'
  injection h0' with h0'
  subst h0'
  obtain ⟨j, hj⟩ := List.getElem?_of_mem hr
  obtain ⟨ia, hia⟩ := h.isArticle_ok hold
  obtain ⟨ai, hai, -⟩ := pointerIndex_ok z.articles j
  rw [h.writeEntry_inplace_eq hj hold hru.symm hsize d upd att ia ai hia hai, hx]
  exact PyM.bind_err (writeAt_err h.isOpen _ x)

example : (sample.entryByFullUrl "Cb").toOption.map Entry.getDiskSize = some (bad "b" "t").getDiskSize ∧
    (bad "b" "t").toBytes = .error .structError := by
  decide +kernel

/-- the full claim of C65: after a failing write, the archive is as well-formed as before -/
def C65Full : Prop := ∀ (z z' : Zim) (e : Entry) (x : PyErr) (d : Nat) (m : Catalogue), Ready z → Shows z m →
  e.oldFullUrl = some e.fullUrl → writeEntry (d + 2) e true true z = (.error x, z') → Ready z' ∧ Shows z' m

/-- the sample after a failed attempt to write a longer version of "Cb" -/
def sampleBad : Zim := write (bad "b" "longer") sample

theorem write_err {e : Entry} {z : Zim} {x : PyErr} (h : (writeEntry (7 + 2) e true true z).1 = .error x) :
    writeEntry (7 + 2) e true true z = (.error x, write e z) := by
  unfold write
  exact Prod.ext h rfl

/-- C65 is false: the piece of the file with the current version of the entry is considered free, so that it is
overwritten by the next entry that fits. -/
theorem C65_false : ¬ C65Full := by
  intro hall
  obtain ⟨m, hm, -⟩ := sample_hist
  have hs := C33_map blank_ready blank_shows hm
  have herr := write_err (e := bad "b" "longer") (z := sample) (x := .structError) (by decide +kernel)
  have hbad := hall sample sampleBad (bad "b" "longer") .structError 7 m hs.1 hs.2 rfl herr
  -- in a well-formed archive which shows `m`, "Cb" is there after writing "Ac"
  obtain ⟨e', hok⟩ := write_eq (e := page "A" "c" "q") (z := sampleBad) (by decide +kernel)
  have hist := Hist.write (z0 := sampleBad) (m0 := m) .start
    ⟨page_proper (n := "A") (u := "c") (t := "q") (by decide +kernel) (by decide +kernel), fun _ => rfl⟩ hok
  have h2 := (C33_map hbad.1 hbad.2 hist).2
  have h3 : m "Cb" ≠ none := by
    intro hn
    have := hs.2.missing "Cb" hn
    have h4 : (sample.entryByFullUrl "Cb").toOption.isSome = true := by decide +kernel
    rw [this] at h4
    cases h4
  obtain ⟨v, hv⟩ := Option.ne_none_iff_exists'.1 h3
  have hv2 : m.write (page "A" "c" "q") (page "A" "c" "q").oldFullUrl "Cb" = some v := by
    unfold Catalogue.write
    rw [if_neg (by decide), if_neg (by decide), hv]
  obtain ⟨e, he, -⟩ := h2.found "Cb" v hv2
  have h5 : ((write (page "A" "c" "q") sampleBad).entryByFullUrl "Cb").toOption.isSome = false := by decide +kernel
  rw [he] at h5
  cases h5

/-! ## C66 -/

/-- reading `n` bytes at `p` -/
def bytesAt (z : Zim) (p n : Nat) : Bytes := (z.file.drop p).take n

theorem KeepsBytes.bytesAt {other : Nat → Prop} {z z' : Zim} (h : KeepsBytes other z.file z'.file) {p n : Nat}
    (hin : p + n ≤ z.file.length) (ho : ∀ x, p ≤ x → x < p + n → other x) : z'.bytesAt p n = z.bytesAt p n := by
  unfold Zim.bytesAt
  refine List.ext_getElem? fun i => ?_
  by_cases hi : i < n
  · rw [List.getElem?_take_of_lt hi, List.getElem?_take_of_lt hi, List.getElem?_drop, List.getElem?_drop]
    have hlt : p + i < z.file.length := by omega
    have := List.getElem?_eq_getElem hlt
    rw [h _ _ (ho _ (by omega) (by omega)) this, this]
  · rw [List.getElem?_eq_none (by rw [List.length_take]; omega), List.getElem?_eq_none (by rw [List.length_take]; omega)]

/-- C66: writing an entry changes no byte of the parts of the file that are in use for other things, nor the lists of
mimetypes and clusters, nor the buffered operations. The same parts are in use for other things after that. -/
theorem C66_write_frame {z z' : Zim} {rows : List Row} {other : Nat → Prop} {e e' : Entry} {d : Nat} {upd att : Bool}
    (h : Rep z rows other) (ha : Accepts z e) (hok : writeEntry d e upd att z = (.ok e', z')) :
    Frame other z z' ∧ (∃ rows', Rep z' rows' other) ∧
      ∀ p n, p + n ≤ z.file.length → (∀ x, p ≤ x → x < p + n → other x) → z'.bytesAt p n = z.bytesAt p n := by
  obtain ⟨old, rows', f, -, -, hrep, hfr, -⟩ := h.writeEntry_ok ha.proper (h.accepts ha) hok
  exact ⟨hfr, ⟨rows', hrep⟩, fun p n hin ho => KeepsBytes.bytesAt hfr.bytes hin ho⟩

/-- C66: the same for removing an entry while keeping its blob. -/
theorem C66_remove_frame {z z' : Zim} {rows : List Row} {other : Nat → Prop} {u : String} {bd : Entry → PyM Zim Unit} {d : Nat}
    (h : Rep z rows other) (hok : removeEntry bd d (fun _ => pure ()) u z = (.ok (), z')) :
    Frame other z z' ∧ (∃ rows', Rep z' rows' other) ∧
      ∀ p n, p + n ≤ z.file.length → (∀ x, p ≤ x → x < p + n → other x) → z'.bytesAt p n = z.bytesAt p n := by
  have hfr : Frame other z z' ∧ ∃ rows', Rep z' rows' other := by
    cases d with
    | zero => cases hok
    | succ d =>
      by_cases hu : ∃ r ∈ rows, r.2.fullUrl = u
      · obtain ⟨⟨o, e0⟩, hr, rfl⟩ := hu
        obtain ⟨k, hk⟩ := List.getElem?_of_mem hr
        rw [h.removeEntry_eq hk] at hok
        have hpure : (if e0.isRedirect = true then pure () else pure () : PyM Zim Unit) z = (.ok (), z) := by split <;> rfl
        rw [PyM.bind_ok hpure] at hok
        obtain ⟨rows', h1, h2, -⟩ := Rep.removeRest_ok bd d z rows k o e0 z' h hk hok
        exact ⟨h2, rows', h1⟩
      · rw [h.removeEntry_missing (fun r hr he => hu ⟨r, hr, he⟩)] at hok
        cases hok
  exact ⟨hfr.1, hfr.2, fun p n hin ho => KeepsBytes.bytesAt hfr.1.bytes hin ho⟩

/-- The first 80 bytes of the sample file are not touched by rewriting "Ca". -/
example : ∃ rows other, Rep sample rows other ∧ (∀ x, x < 80 → other x) ∧ 80 ≤ sample.file.length ∧
    (writeEntry 9 (art "a" "longer") true true sample).1.toOption.isSome = true := by
  obtain ⟨S, ⟨rows, other, h, -, ho, -⟩, -⟩ := sample_roomy
  exact ⟨rows, other, h, ho, by decide +kernel, by decide +kernel⟩

end Zim
end Pyzim
