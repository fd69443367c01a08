import Verif.Model.Header
import Verif.Lemmas.Struct

/-!
# Properties C11–C13: the header
-/

namespace Pyzim.Header

/-! ## C11: round trip -/

/-- All values of the header fit into the fields of the file format. -/
structure InRange (h : Header) : Prop where
  magic : 0 ≤ h.magicNumber ∧ h.magicNumber < 2 ^ 32
  major : h.majorVersion < 2 ^ 16
  minor : h.minorVersion < 2 ^ 16
  uuid : h.uuid.length = 16
  entries : h.entryCount < 2 ^ 32
  clusters : h.clusterCount < 2 ^ 32
  urlp : h.urlPointerPosition < 2 ^ 64
  titlep : h.titlePointerPosition < 2 ^ 64
  clusterp : h.clusterPointerPosition < 2 ^ 64
  mimep : h.mimeListPosition < 2 ^ 64
  mainp : h.mainPageRaw < 2 ^ 32
  layoutp : h.layoutPageRaw < 2 ^ 32
  checksump : h.checksumPosition < 2 ^ 64

theorem fits_iff (h : Header) : Fmt.FitsAll format h.toVals ↔ InRange h := by
  simp only [format, toVals, Fmt.FitsAll, Fmt.Fits]
  constructor
  · rintro ⟨h1, h2, h3, h4, h5, h6, h7, h8, h9, h10, h11, h12, h13, -⟩
    constructor <;> omega
  · rintro ⟨h1, h2, h3, h4, h5, h6, h7, h8, h9, h10, h11, h12, h13⟩
    refine ⟨?_, ?_, ?_, h4, ?_, ?_, ?_, ?_, ?_, ?_, ?_, ?_, ?_, trivial⟩ <;> omega

theorem ofVals_toVals (h : Header) :
    ofVals h.toVals = .ok { h with dirty := false, mutable := true } := by
  simp [ofVals, toVals]

/-- C11. The header occupies 80 bytes. -/
theorem C11_length : LENGTH = 80 := by decide

/-- C11. Every header whose values fit is written as 80 bytes, and these parse to the same header
(as a fresh object: clean and mutable). -/
theorem C11_write_read (h : Header) (hr : InRange h) :
    ∃ b, h.toBytes = .ok b ∧ b.length = 80 ∧
      fromBytes b = .ok { h with dirty := false, mutable := true } := by
  obtain ⟨b, h1, h2, h3⟩ := Fmt.pack_ok ((fits_iff h).2 hr)
  refine ⟨b, h1, by rw [h2]; rfl, ?_⟩
  unfold fromBytes
  rw [if_neg (by rw [h2]; simp [LENGTH]), h3]
  exact ofVals_toVals h

/-- C11. A header with a value that does not fit is not written. -/
theorem C11_no_truncation (h : Header) (hr : ¬ InRange h) : ∃ e, h.toBytes = .error e := by
  cases hb : h.toBytes with
  | error e => exact ⟨e, rfl⟩
  | ok b => exact absurd ((fits_iff h).1 (Fmt.pack_fits hb)) hr

/-- C11. Every string of 80 bytes parses to a header whose serialization is this string. -/
theorem C11_read_write (s : Bytes) (hs : s.length = 80) :
    ∃ h, fromBytes s = .ok h ∧ InRange h ∧ h.toBytes = .ok s := by
  obtain ⟨vs, h1, h2, h3⟩ := Fmt.unpack_ok (fs := format) (s := s) (by rw [hs]; decide)
  unfold fromBytes
  rw [if_neg (by rw [hs, C11_length]; simp), h1]
  -- the values have the shape of a header
  obtain ⟨h, hh⟩ : ∃ h : Header, vs = h.toVals := by
    simp only [format] at h2
    match vs, h2 with
    | [.int v1, .int v2, .int v3, .raw v4, .int v5, .int v6, .int v7, .int v8, .int v9, .int v10,
        .int v11, .int v12, .int v13], h2 =>
      obtain ⟨h1, h2, h3, h4, h5, h6, h7, h8, h9, h10, h11, h12, h13, -⟩ := h2
      refine ⟨⟨v1, v2.toNat, v3.toNat, v4, v5.toNat, v6.toNat, v7.toNat, v8.toNat, v9.toNat,
        v10.toNat, v11.toNat, v12.toNat, v13.toNat, false, true⟩, ?_⟩
      simp only [toVals]
      rw [Int.toNat_of_nonneg h2.1, Int.toNat_of_nonneg h3.1, Int.toNat_of_nonneg h5.1,
        Int.toNat_of_nonneg h6.1, Int.toNat_of_nonneg h7.1, Int.toNat_of_nonneg h8.1,
        Int.toNat_of_nonneg h9.1, Int.toNat_of_nonneg h10.1, Int.toNat_of_nonneg h11.1,
        Int.toNat_of_nonneg h12.1, Int.toNat_of_nonneg h13.1]
  subst hh
  refine ⟨_, ofVals_toVals h, ?_, ?_⟩
  · have := (fits_iff h).1 h2
    exact ⟨this.1, this.2, this.3, this.4, this.5, this.6, this.7, this.8, this.9, this.10,
      this.11, this.12, this.13⟩
  · exact h3

/-- C11. Strings of any other length are rejected with a `ValueError`. -/
theorem C11_bad_length (s : Bytes) (hs : s.length ≠ 80) : fromBytes s = .error .valueError := by
  unfold fromBytes
  rw [if_pos (by rw [C11_length]; exact hs)]

/-- C11. Two headers with the same serialization are equal up to the object flags. -/
theorem C11_injective (h h' : Header) (b : Bytes) (hb : h.toBytes = .ok b)
    (hb' : h'.toBytes = .ok b) :
    { h with dirty := false, mutable := true } = { h' with dirty := false, mutable := true } := by
  have r := (fits_iff h).1 (Fmt.pack_fits hb)
  have r' := (fits_iff h').1 (Fmt.pack_fits hb')
  obtain ⟨c, h1, _, h2⟩ := C11_write_read h r
  obtain ⟨c', h1', _, h2'⟩ := C11_write_read h' r'
  rw [hb] at h1; rw [hb'] at h1'
  injection h1 with h1; injection h1' with h1'
  subst h1; subst h1'
  rw [h2] at h2'
  injection h2'

/-- a header with distinguishable values in all fields -/
def sample : Header :=
  { magicNumber := 72173914, majorVersion := 6, minorVersion := 3
    uuid := [1, 2, 3, 4, 5, 6, 7, 8, 9, 10, 11, 12, 13, 14, 15, 16]
    entryCount := 1000, clusterCount := 17, urlPointerPosition := 2 ^ 33
    titlePointerPosition := 0xffffffffffffffff, clusterPointerPosition := 5000
    mimeListPosition := 80, mainPageRaw := 12, layoutPageRaw := 0xffffffff
    checksumPosition := 2 ^ 40 }

example : InRange sample := by constructor <;> decide
/-- byte 0–7 of the sample: magic number and versions -/
example : (sample.toBytes.toOption.map (·.take 8)) = some [0x5a, 0x49, 0x4d, 0x04, 6, 0, 3, 0] := by
  decide +kernel

/-! ## C12: acceptance decision and page sentinel -/

/-- C12. A header is accepted iff it has the magic number of ZIM files and version 6.x, x ≥ 1. -/
theorem C12_accepted (h : Header) :
    h.checkCompatible = .ok () ↔
      h.magicNumber = 72173914 ∧ h.majorVersion = 6 ∧ 1 ≤ h.minorVersion := by
  unfold checkCompatible MAGIC_NUMBER
  by_cases h1 : h.magicNumber = 72173914
  · by_cases h2 : h.majorVersion = 6
    · by_cases h3 : h.minorVersion < 1
      · simp [h1, h2, h3] <;> omega
      · simp [h1, h2, h3] <;> omega
    · simp [h1, h2]
  · simp [h1]

/-- C12. `NotAZimFile` is raised iff the magic number is wrong. -/
theorem C12_not_a_zim (h : Header) :
    h.checkCompatible = .error .notAZimFile ↔ h.magicNumber ≠ 72173914 := by
  unfold checkCompatible MAGIC_NUMBER
  by_cases h1 : h.magicNumber = 72173914
  · by_cases h2 : h.majorVersion = 6
    · by_cases h3 : h.minorVersion < 1 <;> simp [h1, h2, h3]
    · simp [h1, h2]
  · simp [h1]

/-- C12. `IncompatibleZimFile` is raised iff the magic number is right and the version is not
supported; no other exception is raised. -/
theorem C12_incompatible (h : Header) :
    (h.checkCompatible = .error .incompatibleZimFile ↔
      h.magicNumber = 72173914 ∧ ¬ (h.majorVersion = 6 ∧ 1 ≤ h.minorVersion)) ∧
    (h.checkCompatible = .ok () ∨ h.checkCompatible = .error .notAZimFile ∨
      h.checkCompatible = .error .incompatibleZimFile) := by
  unfold checkCompatible MAGIC_NUMBER
  by_cases h1 : h.magicNumber = 72173914
  · by_cases h2 : h.majorVersion = 6
    · by_cases h3 : h.minorVersion < 1
      · simp [h1, h2, h3] <;> omega
      · simp [h1, h2, h3] <;> omega
    · simp [h1, h2]
  · simp [h1]

/-- C12. The pages read as "none" exactly for the value 0xffffffff, otherwise as the stored
index. -/
theorem C12_page_getter (h : Header) :
    (h.mainPage = none ↔ h.mainPageRaw = 0xffffffff) ∧
    (∀ i, h.mainPage = some i ↔ h.mainPageRaw = i ∧ i ≠ 0xffffffff) ∧
    (h.layoutPage = none ↔ h.layoutPageRaw = 0xffffffff) ∧
    (∀ i, h.layoutPage = some i ↔ h.layoutPageRaw = i ∧ i ≠ 0xffffffff) ∧
    (h.hasMainPage = true ↔ h.mainPageRaw ≠ 0xffffffff) ∧
    (h.hasLayoutPage = true ↔ h.layoutPageRaw ≠ 0xffffffff) := by
  unfold hasMainPage hasLayoutPage mainPage layoutPage
  by_cases h1 : h.mainPageRaw = 0xffffffff <;> by_cases h2 : h.layoutPageRaw = 0xffffffff <;>
    simp [h1, h2] <;> omega

/-- C12. Setting a page (an index other than the sentinel, or none) and reading it back returns
it; the other page is not affected. -/
theorem C12_page_set_get (h : Header) (hm : h.mutable = true) (v : Option Nat)
    (hv : v ≠ some 0xffffffff) :
    (h.setMainPage (v.map Int.ofNat)).1 = .ok () ∧
    (h.setMainPage (v.map Int.ofNat)).2.mainPage = v ∧
    (h.setMainPage (v.map Int.ofNat)).2.layoutPage = h.layoutPage ∧
    (h.setLayoutPage (v.map Int.ofNat)).1 = .ok () ∧
    (h.setLayoutPage (v.map Int.ofNat)).2.layoutPage = v ∧
    (h.setLayoutPage (v.map Int.ofNat)).2.mainPage = h.mainPage := by
  have neg : ∀ n : Nat, ¬ ((n : Int) < 0) := by intro n; omega
  cases v with
  | none =>
    simp only [Option.map_none, setMainPage, setLayoutPage, hm, Bool.not_true, Bool.false_eq_true,
      if_false]
    refine ⟨?_, ?_, ?_, ?_, ?_, ?_⟩ <;> split <;> simp_all [mainPage, layoutPage] <;> omega
  | some n =>
    have hn : n ≠ 0xffffffff := fun h => hv (by rw [h])
    simp only [Option.map_some, setMainPage, setLayoutPage, hm, Bool.not_true, Bool.false_eq_true,
      if_false, Int.ofNat_eq_natCast, neg, Int.toNat_natCast]
    refine ⟨?_, ?_, ?_, ?_, ?_, ?_⟩ <;> split <;> simp_all [mainPage, layoutPage]

example : sample.checkCompatible = .ok () := by decide
example : { sample with minorVersion := 0 }.checkCompatible = .error .incompatibleZimFile := by
  decide
example : { sample with majorVersion := 5 }.checkCompatible = .error .incompatibleZimFile := by
  decide
example : sample.mutable = true ∧ (some 7 : Option Nat) ≠ some 0xffffffff := by decide

/-! ## C13: setters -/

/-- The fields with a plain setter. -/
inductive Field
  | majorVersion | minorVersion | entryCount | clusterCount | urlPointerPosition
  | titlePointerPosition | clusterPointerPosition | mimeListPosition | checksumPosition
deriving DecidableEq, Repr

/-- value of a field -/
def Field.get : Field → Header → Nat
  | majorVersion, h => h.majorVersion
  | minorVersion, h => h.minorVersion
  | entryCount, h => h.entryCount
  | clusterCount, h => h.clusterCount
  | urlPointerPosition, h => h.urlPointerPosition
  | titlePointerPosition, h => h.titlePointerPosition
  | clusterPointerPosition, h => h.clusterPointerPosition
  | mimeListPosition, h => h.mimeListPosition
  | checksumPosition, h => h.checksumPosition

/-- the setter of a field -/
def Field.set : Field → Header → Int → PyRes Unit × Header
  | majorVersion => setMajorVersion
  | minorVersion => setMinorVersion
  | entryCount => setEntryCount
  | clusterCount => setClusterCount
  | urlPointerPosition => setUrlPointerPosition
  | titlePointerPosition => setTitlePointerPosition
  | clusterPointerPosition => setClusterPointerPosition
  | mimeListPosition => setMimeListPosition
  | checksumPosition => setChecksumPosition

/-- everything of a header not covered by `Field` and `dirty` -/
def rest (h : Header) : Int × Bytes × Nat × Nat × Bool :=
  (h.magicNumber, h.uuid, h.mainPageRaw, h.layoutPageRaw, h.mutable)

/-- C13. A negative value raises `ValueError` and changes nothing. -/
theorem C13_negative (f : Field) (h : Header) (v : Int) (hv : v < 0) :
    f.set h v = (.error .valueError, h) := by
  cases f <;> simp only [Field.set, setMajorVersion, setMinorVersion, setEntryCount, setClusterCount,
    setUrlPointerPosition, setTitlePointerPosition, setClusterPointerPosition,
    setMimeListPosition, setChecksumPosition, setNat, if_pos hv]

/-- C13. On an immutable header a setter raises `NonMutable` and changes nothing. -/
theorem C13_immutable (f : Field) (h : Header) (v : Int) (hv : 0 ≤ v) (hm : h.mutable = false) :
    f.set h v = (.error .nonMutable, h) := by
  have neg : ¬ (v < 0) := by omega
  cases f <;> simp only [Field.set, setMajorVersion, setMinorVersion, setEntryCount, setClusterCount,
    setUrlPointerPosition, setTitlePointerPosition, setClusterPointerPosition,
    setMimeListPosition, setChecksumPosition, setNat, neg, if_false, hm, Bool.not_false, if_true]

/-- C13. Otherwise exactly the named field takes the value, and the header is dirty afterwards iff
it was dirty before or the value differs. -/
theorem C13_set (f : Field) (h : Header) (v : Nat) (hm : h.mutable = true) :
    (f.set h v).1 = .ok () ∧ f.get (f.set h v).2 = v ∧
    (∀ g, g ≠ f → g.get (f.set h v).2 = g.get h) ∧ rest (f.set h v).2 = rest h ∧
    ((f.set h v).2.dirty = true ↔ h.dirty = true ∨ f.get h ≠ v) := by
  have neg : ¬ ((v : Int) < 0) := by omega
  cases f <;>
    (simp only [Field.set, setMajorVersion, setMinorVersion, setEntryCount, setClusterCount,
      setUrlPointerPosition, setTitlePointerPosition, setClusterPointerPosition,
      setMimeListPosition, setChecksumPosition, setNat, neg, if_false, hm, Bool.not_true,
      Bool.false_eq_true, Int.toNat_natCast, Field.get]
     split
     · rename_i hne
       refine ⟨rfl, rfl, ?_, by simp [rest, hm], ?_⟩
       · intro g hg; cases g <;> first | rfl | exact absurd rfl hg
       · simpa using Or.inr (fun he => hne he.symm)
     · rename_i hne
       have heq : _ = _ := (Classical.not_not.1 hne).symm
       refine ⟨rfl, heq, fun g _ => rfl, rfl, ?_⟩
       simp [heq])

/-- C13. The setters of the magic number and of the uuid work alike; the magic number may be any
integer, the uuid must have 16 bytes. -/
theorem C13_magic_uuid (h : Header) (m : Int) (u : Bytes) :
    (h.mutable = false → h.setMagicNumber m = (.error .nonMutable, h)) ∧
    (h.mutable = true → h.setMagicNumber m =
      (.ok (), { h with magicNumber := m, dirty := h.dirty || decide (m ≠ h.magicNumber) })) ∧
    (u.length ≠ 16 → h.setUuid u = (.error .valueError, h)) ∧
    (u.length = 16 → h.mutable = false → h.setUuid u = (.error .nonMutable, h)) ∧
    (u.length = 16 → h.mutable = true → h.setUuid u =
      (.ok (), { h with uuid := u, dirty := h.dirty || decide (u ≠ h.uuid) })) := by
  refine ⟨?_, ?_, ?_, ?_, ?_⟩
  · intro hm; simp [setMagicNumber, hm]
  · intro hm
    simp only [setMagicNumber, hm, Bool.not_true, Bool.false_eq_true, if_false]
    by_cases he : m = h.magicNumber
    · subst he; cases h; simp_all
    · simp [he]
  · intro hu; simp [setUuid, hu]
  · intro hu hm; simp [setUuid, hu, hm]
  · intro hu hm
    simp only [setUuid, hu, hm, Bool.not_true, Bool.false_eq_true, if_false, ne_eq, not_true_eq_false]
    by_cases he : u = h.uuid
    · subst he; cases h; simp_all
    · simp [he]

/-- C13. The page setters raise on negative values and on immutable headers without changing
anything, and otherwise mark the header dirty iff the page changes. -/
theorem C13_page_setters (h : Header) (v : Option Int) :
    ((∃ i, v = some i ∧ i < 0) → h.setMainPage v = (.error .valueError, h) ∧
      h.setLayoutPage v = (.error .valueError, h)) ∧
    ((∀ i, v = some i → 0 ≤ i) → h.mutable = false →
      h.setMainPage v = (.error .nonMutable, h) ∧ h.setLayoutPage v = (.error .nonMutable, h)) ∧
    ((∀ i, v = some i → 0 ≤ i) → h.mutable = true → ∀ raw : Nat,
      raw = (match v with | none => 0xffffffff | some i => i.toNat) →
      h.setMainPage v = (.ok (), { h with mainPageRaw := raw, dirty := h.dirty || decide (raw ≠ h.mainPageRaw) }) ∧
      h.setLayoutPage v =
        (.ok (), { h with layoutPageRaw := raw, dirty := h.dirty || decide (raw ≠ h.layoutPageRaw) })) := by
  refine ⟨?_, ?_, ?_⟩
  · rintro ⟨i, rfl, hi⟩; simp [setMainPage, setLayoutPage, hi]
  · intro hv hm
    cases v with
    | none => simp [setMainPage, setLayoutPage, hm]
    | some i => have := hv i rfl; simp [setMainPage, setLayoutPage, hm, Int.not_lt.2 this]
  · intro hv hm raw hraw
    cases v with
    | none =>
      simp only [setMainPage, setLayoutPage, hm, Bool.not_true, Bool.false_eq_true, if_false]
      simp only at hraw
      subst hraw
      constructor
      · by_cases he : 4294967295 = h.mainPageRaw
        · rw [if_neg (by simpa using he)]; cases h; simp_all
        · rw [if_pos he]; simp [he]
      · by_cases he : 4294967295 = h.layoutPageRaw
        · rw [if_neg (by simpa using he)]; cases h; simp_all
        · rw [if_pos he]; simp [he]
    | some i =>
      have := hv i rfl
      simp only [setMainPage, setLayoutPage, hm, Bool.not_true, Bool.false_eq_true, if_false,
        Int.not_lt.2 this]
      simp only at hraw
      subst hraw
      constructor
      · by_cases he : i.toNat = h.mainPageRaw
        · rw [if_neg (by simpa using he)]; cases h; simp_all
        · rw [if_pos he]; simp [he]
      · by_cases he : i.toNat = h.layoutPageRaw
        · rw [if_neg (by simpa using he)]; cases h; simp_all
        · rw [if_pos he]; simp [he]

/-- C13, histories. After any sequence of plain setter calls on a clean mutable header, each
field has the value of the last successful call for it, and a clean header means that nothing
changed at all. -/
theorem C13_clean_means_unchanged (calls : List (Field × Int)) (h : Header)
    (hd : (calls.foldl (fun h c => (c.1.set h c.2).2) h).dirty = false) :
    calls.foldl (fun h c => (c.1.set h c.2).2) h = h := by
  induction calls generalizing h with
  | nil => rfl
  | cons c cs ih =>
    simp only [List.foldl_cons] at hd ⊢
    have ih' := ih _ hd
    rw [ih'] at hd ⊢
    obtain ⟨f, v⟩ := c
    simp only at hd ⊢
    by_cases hv : v < 0
    · rw [C13_negative f h v hv]
    · cases hm : h.mutable with
      | false => rw [C13_immutable f h v (by omega) hm]
      | true =>
        have hvn : ((v.toNat : Nat) : Int) = v := Int.toNat_of_nonneg (by omega)
        have hset := C13_set f h v.toNat hm
        rw [hvn] at hset
        obtain ⟨_, h2, h3, h4, h5⟩ := hset
        have hnd : ¬ (h.dirty = true ∨ f.get h ≠ v.toNat) := fun hc => by
          rw [h5.2 hc] at hd; cases hd
        have hnd1 : h.dirty = false := by
          cases hh : h.dirty with
          | false => rfl
          | true => exact absurd (Or.inl hh) hnd
        have hfe : f.get h = v.toNat := Classical.byContradiction fun hc => hnd (Or.inr hc)
        have hall : ∀ g : Field, g.get (f.set h v).2 = g.get h := by
          intro g
          by_cases hg : g = f
          · rw [hg, h2, hfe]
          · exact h3 g hg
        generalize (f.set h v).2 = h' at hd h4 hall
        have a1 := hall .majorVersion
        have a2 := hall .minorVersion
        have a3 := hall .entryCount
        have a4 := hall .clusterCount
        have a5 := hall .urlPointerPosition
        have a6 := hall .titlePointerPosition
        have a7 := hall .clusterPointerPosition
        have a8 := hall .mimeListPosition
        have a9 := hall .checksumPosition
        cases h; cases h'
        simp only [Field.get, rest, Prod.mk.injEq] at *
        simp_all

example : (Field.entryCount.set sample 5).2 = { sample with entryCount := 5, dirty := true } := by
  decide
example : (Field.entryCount.set sample 1000).2 = sample := by decide
example : Field.entryCount.set { sample with mutable := false } 5 =
    (.error .nonMutable, { sample with mutable := false }) := by decide

end Pyzim.Header
