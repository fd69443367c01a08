import Verif.Lemmas.Embedded
import Verif.Props.Creator

/-!
# An archive that starts at an offset of its file

`Zim(f, offset=n)`: the archive is stored behind other data. Its entries and contents are read as if it were alone; the
checksum, the list of all titles of archives of an older version and the end of `flush` are not right.
-/

namespace Pyzim
namespace Embedded
variable {D : Type} {X : Codecs D} {kind : ClusterKind} {calls follow : Nat}

/-- **C83, in full:** an archive behind other data has the same lists and checksum, and all readers work alike. -/
def C83Full : Prop := ∀ (D : Type) (X : Codecs D) (kind : ClusterKind) (calls follow : Nat) (H : Hasher) (pre file : Bytes)
  (a : Archive),
  Archive.load (fun z => titleList X kind follow ⟨0, z⟩)
    (Zim.listFromEntry X kind calls follow "Xlisting/titleOrdered/v1") false file = .ok a →
  ∃ e, load X kind follow pre.length (pre ++ file) = .ok e ∧ ReadsAlike X kind calls e a.zim ∧
    e.getChecksum = a.zim.getChecksum ∧
    ∀ short chunksize, e.calculateChecksum H short chunksize = a.zim.calculateChecksum H short chunksize

/-- **C83.** Archives of version 6.3 or later: opening the archive behind other data raises what opening it alone raises,
or both succeed and cannot be told apart by reading their lists, entries and contents. Whether the archive is complete or
damaged plays no role. Missing: the checksum (see `C83_checksum`). -/
theorem C83_embedded_partial (pre file : Bytes) (titles : Zim → PyRes PointerList)
    (hv : ∀ h, Header.fromFile ⟨file, 0⟩ 0 = .ok h → NewVersion h) :
    match Archive.load titles (Zim.listFromEntry X kind calls follow "Xlisting/titleOrdered/v1") false file with
    | .error x => load X kind follow pre.length (pre ++ file) = .error x
    | .ok a => ∃ e, load X kind follow pre.length (pre ++ file) = .ok e ∧ ReadsAlike X kind calls e a.zim := by
  have h := load_behind (X := X) (kind := kind) (calls := calls) pre follow file titles
    (fun h _ _ _ h1 h2 => absurd (hv h h1) h2)
  rw [h]
  cases hl : Archive.load titles (Zim.listFromEntry X kind calls follow "Xlisting/titleOrdered/v1") false file with
  | error x => rfl
  | ok a => exact ⟨_, rfl, behind_alike pre (load_mutable hl)⟩

/-- **C83.** The same for an archive of an older version in which the list of all titles is the content of an entry. -/
theorem C83_old_partial {pre file : Bytes} {a : Archive}
    (ha : Archive.load (fun z => titleList X kind follow ⟨0, z⟩)
      (Zim.listFromEntry X kind calls follow "Xlisting/titleOrdered/v1") false file = .ok a)
    (h0 : a.zim.hasEntry "Xlisting/titleOrdered/v0" = .ok true) :
    ∃ e, load X kind follow pre.length (pre ++ file) = .ok e ∧ ReadsAlike X kind calls e a.zim := by
  obtain ⟨hd, urls, h1, h2, h3, h4, h5⟩ := load_parts ha
  have h := load_behind (X := X) (kind := kind) (calls := calls) pre follow file
    (fun z => titleList X kind follow ⟨0, z⟩) ?_
  · rw [h, ha]
    exact ⟨_, rfl, behind_alike pre h5⟩
  · intro h' mt urls' clusters h6 _ h7
    rw [h1] at h6
    cases h6
    rw [h2] at h7
    cases h7
    have h8 : (raw file hd mt urls clusters none).hasEntry "Xlisting/titleOrdered/v0" = .ok true := by
      rw [← h0]
      have hk : (raw file hd mt urls clusters none).urlKey = a.zim.urlKey := by
        funext l
        simp only [Zim.urlKey, Zim.entryAt, h3]
        rfl
      simp only [Zim.hasEntry, hk, h4]
      rfl
    have e2 : ∀ (p : Bytes) (z : Zim), z.mutable = false → z.hasEntry "Xlisting/titleOrdered/v0" = .ok true →
        titleList X kind follow (behind p z) = Zim.listFromEntry X kind calls follow "Xlisting/titleOrdered/v0" z := by
      intro p z hz hh
      unfold titleList
      rw [behind_hasEntry, hh, ← behind_list p hz]
      rfl
    have e3 := e2 [] (raw file hd mt urls clusters none) rfl h8
    rw [e2 pre _ rfl h8, ← e3]
    rfl

/-! ### A small archive -/

/-- The header of the archive. -/
def demoHeader (minor : Nat) : Header :=
  { Header.placeholder (List.replicate 16 7) with
    minorVersion := minor, entryCount := 2, clusterCount := 1, urlPointerPosition := 83, titlePointerPosition := 160,
    clusterPointerPosition := 99, mimeListPosition := 80, mainPageRaw := 1, checksumPosition := 168 }

/-- An archive with the entry `Ca`, whose content is `[1, 2, 3]`, a redirect `Cb` to it, a list of all titles for older
versions and a checksum. -/
def demoFile (minor : Nat) : Bytes :=
  ((demoHeader minor).toBytes.toOption.getD []) ++ [116, 0, 0] ++
  [107, 0, 0, 0, 0, 0, 0, 0] ++ [126, 0, 0, 0, 0, 0, 0, 0] ++ [142, 0, 0, 0, 0, 0, 0, 0] ++
  [0, 0, 0, 67, 0, 0, 0, 0, 0, 0, 0, 0, 0, 0, 0, 0, 97, 0, 0] ++ [255, 255, 0, 67, 0, 0, 0, 0, 0, 0, 0, 0, 98, 0, 0, 0] ++
  [1, 8, 0, 0, 0, 11, 0, 0, 0, 1, 2, 3] ++ List.replicate 6 0 ++ [0, 0, 0, 0, 1, 0, 0, 0] ++ List.replicate 16 9

/-- The other data. -/
def demoPre : Bytes := List.replicate 50 77

/-- The archive alone. -/
def demoAlone (minor : Nat) : PyRes Archive :=
  Archive.load (fun z => titleList Cluster.rawCodecs .onDisk 3 ⟨0, z⟩)
    (Zim.listFromEntry Cluster.rawCodecs .onDisk 9 3 "Xlisting/titleOrdered/v1") false (demoFile minor)

/-- The archive behind other data. -/
def demoEmbedded (minor : Nat) : PyRes Embedded := load Cluster.rawCodecs .onDisk 3 demoPre.length (demoPre ++ demoFile minor)

/-- A stand-in for `hashlib.md5`: it adds up the bytes. -/
def demoHasher : Hasher where
  State := Nat
  init := 0
  update n b := n + (b.map UInt8.toNat).sum
  digest n := List.replicate 16 (UInt8.ofNat n)

/-- What the calls return. -/
def demoRead (e : Embedded) (u : String) : PyRes Bytes := do
  let x ← e.entryByFullUrl u
  let x ← e.resolve 3 x
  e.readContent Cluster.rawCodecs .onDisk x none none

theorem demo_facts :
    (∃ a e, demoAlone 3 = .ok a ∧ demoEmbedded 3 = .ok e ∧ a.zim.getChecksum = .ok (List.replicate 16 9) ∧
      e.getChecksum ≠ a.zim.getChecksum ∧
      e.calculateChecksum demoHasher (fun _ n => n) 8192 ≠ a.zim.calculateChecksum demoHasher (fun _ n => n) 8192 ∧
      demoRead e "Ca" = .ok [1, 2, 3] ∧ demoRead e "Cb" = .ok [1, 2, 3] ∧
      e.mainpageEntry.map Entry.fullUrl = .ok "Cb" ∧
      (finishFlush demoHasher (fun _ n => n) 8192 true e).1 = .ok () ∧
      demoRead (finishFlush demoHasher (fun _ n => n) 8192 true e).2 "Ca" = .error .structError) ∧
    (∃ a e, demoAlone 1 = .ok a ∧ demoEmbedded 1 = .ok e ∧ a.zim.titles.map PointerList.pointers = some [0, 1] ∧
      e.zim.titles ≠ a.zim.titles) := by
  have h : ((match demoAlone 3, demoEmbedded 3 with
      | .ok a, .ok e => decide (a.zim.getChecksum = .ok (List.replicate 16 9) ∧ e.getChecksum ≠ a.zim.getChecksum ∧
          e.calculateChecksum demoHasher (fun _ n => n) 8192 ≠ a.zim.calculateChecksum demoHasher (fun _ n => n) 8192 ∧
          demoRead e "Ca" = .ok [1, 2, 3] ∧ demoRead e "Cb" = .ok [1, 2, 3] ∧
          e.mainpageEntry.map Entry.fullUrl = .ok "Cb" ∧
          (finishFlush demoHasher (fun _ n => n) 8192 true e).1 = .ok () ∧
          demoRead (finishFlush demoHasher (fun _ n => n) 8192 true e).2 "Ca" = .error .structError)
      | _, _ => false) && (match demoAlone 1, demoEmbedded 1 with
      | .ok a, .ok e => decide (a.zim.titles.map PointerList.pointers = some [0, 1] ∧ e.zim.titles ≠ a.zim.titles)
      | _, _ => false)) = true := by decide +kernel
  rw [Bool.and_eq_true] at h
  obtain ⟨h1, h2⟩ := h
  refine ⟨?_, ?_⟩
  · rcases ha : demoAlone 3 with _ | a
    · rw [ha] at h1; cases h1
    · rcases he : demoEmbedded 3 with _ | e
      · rw [ha, he] at h1; cases h1
      · rw [ha, he] at h1
        exact ⟨a, e, rfl, rfl, of_decide_eq_true h1⟩
  · rcases ha : demoAlone 1 with _ | a
    · rw [ha] at h2; cases h2
    · rcases he : demoEmbedded 1 with _ | e
      · rw [ha, he] at h2; cases h2
      · rw [ha, he] at h2
        exact ⟨a, e, rfl, rfl, of_decide_eq_true h2⟩

/-- The archive can be read behind other data. -/
example : ∃ e, demoEmbedded 3 = .ok e ∧ demoRead e "Ca" = .ok [1, 2, 3] ∧ demoRead e "Cb" = .ok [1, 2, 3] ∧
    e.mainpageEntry.map Entry.fullUrl = .ok "Cb" := by
  obtain ⟨a, e, -, h1, -, -, -, h2, h3, h4, -⟩ := demo_facts.1
  exact ⟨e, h1, h2, h3, h4⟩

/-- It meets the condition of `C83_embedded_partial`. -/
example : ∀ h, Header.fromFile ⟨demoFile 3, 0⟩ 0 = .ok h → NewVersion h := by
  have : (match Header.fromFile ⟨demoFile 3, 0⟩ 0 with | .ok h => decide (NewVersion h) | .error _ => false) = true := by
    decide +kernel
  intro h hh
  rw [hh] at this
  exact of_decide_eq_true this

/-- An archive of an older version with the entry `Ca` and an entry with the list of all titles. -/
def demoOld : Bytes :=
  (({ demoHeader 1 with checksumPosition := 191, mainPageRaw := 0 } : Header).toBytes.toOption.getD []) ++ [116, 0, 0] ++
  [107, 0, 0, 0, 0, 0, 0, 0] ++ [126, 0, 0, 0, 0, 0, 0, 0] ++ [167, 0, 0, 0, 0, 0, 0, 0] ++
  [0, 0, 0, 67, 0, 0, 0, 0, 0, 0, 0, 0, 0, 0, 0, 0, 97, 0, 0] ++
  [0, 0, 0, 88, 0, 0, 0, 0, 0, 0, 0, 0, 1, 0, 0, 0] ++ encode "listing/titleOrdered/v0" ++ [0, 0] ++
  [1, 12, 0, 0, 0, 15, 0, 0, 0, 23, 0, 0, 0, 1, 2, 3, 0, 0, 0, 0, 1, 0, 0, 0] ++ List.replicate 16 9

/-- It meets the conditions of `C83_old_partial`. -/
example : ∃ a, Archive.load (fun z => titleList Cluster.rawCodecs .onDisk 3 ⟨0, z⟩)
      (Zim.listFromEntry Cluster.rawCodecs .onDisk 9 3 "Xlisting/titleOrdered/v1") false demoOld = .ok a ∧
    a.zim.hasEntry "Xlisting/titleOrdered/v0" = .ok true ∧ a.zim.titles.map PointerList.pointers = some [0, 1] := by
  have h : (match Archive.load (fun z => titleList Cluster.rawCodecs .onDisk 3 ⟨0, z⟩)
      (Zim.listFromEntry Cluster.rawCodecs .onDisk 9 3 "Xlisting/titleOrdered/v1") false demoOld with
      | .ok a => decide (a.zim.hasEntry "Xlisting/titleOrdered/v0" = .ok true ∧
          a.zim.titles.map PointerList.pointers = some [0, 1])
      | .error _ => false) = true := by decide +kernel
  rcases ha : Archive.load (fun z => titleList Cluster.rawCodecs .onDisk 3 ⟨0, z⟩)
      (Zim.listFromEntry Cluster.rawCodecs .onDisk 9 3 "Xlisting/titleOrdered/v1") false demoOld with _ | a
  · rw [ha] at h; cases h
  · rw [ha] at h
    exact ⟨a, rfl, of_decide_eq_true h⟩

/-- **C83 is false in full:** the checksum is read at, and computed up to, its position without the offset. -/
theorem C83_checksum : ∃ a e, demoAlone 3 = .ok a ∧ demoEmbedded 3 = .ok e ∧
    a.zim.getChecksum = .ok (List.replicate 16 9) ∧ e.getChecksum ≠ a.zim.getChecksum ∧
    e.calculateChecksum demoHasher (fun _ n => n) 8192 ≠ a.zim.calculateChecksum demoHasher (fun _ n => n) 8192 := by
  obtain ⟨a, e, h1, h2, h3, h4, h5, -⟩ := demo_facts.1
  exact ⟨a, e, h1, h2, h3, h4, h5⟩

/-- **C83 is false in full.** -/
theorem C83_false : ¬ C83Full := by
  intro h
  obtain ⟨a, e, h1, h2, -, h4, -⟩ := demo_facts.1
  obtain ⟨e', h5, -, h6, -⟩ := h _ Cluster.rawCodecs .onDisk 9 3 demoHasher demoPre (demoFile 3) a h1
  have h7 : demoEmbedded 3 = .ok e' := h5
  rw [h2] at h7
  cases h7
  exact h4 h6

/-- The list of all titles of an archive of an older version is read from a wrong place if it is not the content of an
entry. -/
theorem C83_old_titles : ∃ a e, demoAlone 1 = .ok a ∧ demoEmbedded 1 = .ok e ∧
    a.zim.titles.map PointerList.pointers = some [0, 1] ∧ e.zim.titles ≠ a.zim.titles := demo_facts.2

/-- The end of `flush` cuts the file behind the position of the checksum plus 16, counted from the start of the file: of
an archive that starts at an offset, as many bytes are missing at its end. -/
theorem C83_flush_cuts {H : Hasher} {short : Nat → Nat → Nat} {chunksize : Nat} {e e' : Embedded}
    (h : finishFlush H short chunksize true e = (.ok (), e')) :
    e'.base = e.base ∧ e'.zim.header = e.zim.header ∧ e'.zim.file.length = e.zim.header.checksumPosition + 16 := by
  unfold finishFlush at h
  simp only [if_true] at h
  generalize hr : (Zim.updateChecksum H short chunksize >>= fun _ =>
    Zim.truncateAt (e.zim.header.checksumPosition + 16)) e.zim = r at h
  rcases r with ⟨r1, r2⟩
  cases h
  obtain ⟨_, z1, h1, h2⟩ := PyM.bind_ok_iff.1 hr
  have h3 : z1.header = e.zim.header := by
    unfold Zim.updateChecksum at h1
    rw [PyM.get_bind] at h1
    rcases hc : Zim.calculateChecksum H short chunksize e.zim with x | c
    · rw [hc, PyM.lift_err_bind] at h1; cases h1
    · rw [hc, PyM.lift_ok_bind, Zim.writeAt] at h1
      split at h1
      · cases h1
      · cases h1; rfl
  unfold Zim.truncateAt at h2
  split at h2
  · cases h2
  · cases h2
    refine ⟨rfl, h3, ?_⟩
    simp only [List.length_take, List.length_append, List.length_replicate]
    omega

/-- Content that could be read before is lost. -/
theorem C83_flush_loses : ∃ e, demoEmbedded 3 = .ok e ∧ demoRead e "Ca" = .ok [1, 2, 3] ∧
    (finishFlush demoHasher (fun _ n => n) 8192 true e).1 = .ok () ∧
    demoRead (finishFlush demoHasher (fun _ n => n) 8192 true e).2 "Ca" = .error .structError := by
  obtain ⟨a, e, -, h1, -, -, -, h2, -, -, h5, h6⟩ := demo_facts.1
  exact ⟨e, h1, h2, h5, h6⟩

end Embedded

namespace Creator
open Strategy (item)
variable {D K : Type} {S : Setup D K} {c : Creator D} {done : List (List Sourced)} {recent : List Sourced}
  {rs : List Zim.Redirect} {md5 : Bytes → Bytes} {r : Nat} {mts : List String}

/-- **C83.** An archive that was written, without unsaved changes, can be put behind any other data: opened there it cannot
be told apart, by its entries and contents, from an archive that shows exactly the items and redirects that were added. -/
theorem C83_written_partial (hr : 2 ≤ r) (hS : S.Good md5 (some r)) (h : CreatorHist S c done recent rs)
    (hA : Apart rs (done ++ [recent])) (hd : c.arch.isDirty = false) (hmts : mts.length < 65534)
    (hl : ∀ l ∈ done ++ [recent], Batch mts l) (kind : ClusterKind) (calls follow : Nat) (pre : Bytes) :
    ∃ e z, Embedded.load S.X kind follow pre.length (pre ++ c.arch.zim.file) = .ok e ∧ ReadsAlike S.X kind calls e z ∧
      ShowsItems S.X kind calls z (current (done ++ [recent])) rs := by
  obtain ⟨a, h1, h2⟩ := C70_items_survive hr hS h hA hd hmts hl kind calls follow
    (fun z => Embedded.titleList S.X kind follow (Embedded.behind pre z))
  have h3 := Embedded.load_behind (X := S.X) (kind := kind) (calls := calls) pre follow c.arch.zim.file
    (fun z => Embedded.titleList S.X kind follow (Embedded.behind pre z)) (fun _ _ _ _ _ _ _ => rfl)
  have h4 : Archive.load (fun z => Embedded.titleList S.X kind follow (Embedded.behind pre z))
      (Zim.listFromEntry S.X kind calls follow "Xlisting/titleOrdered/v1") false c.arch.zim.file = .ok a := h1
  rw [h4] at h3
  exact ⟨_, a.zim, h3, Embedded.behind_alike pre (Embedded.load_mutable h4), h2⟩

example (kind : ClusterKind) (pre : Bytes) : ∃ e z,
    Embedded.load Cluster.rawCodecs kind 0 pre.length (pre ++ demoE.arch.zim.file) = .ok e ∧
    ReadsAlike Cluster.rawCodecs kind 0 e z ∧ ShowsItems Cluster.rawCodecs kind 0 z
      [item "b" "image/png" [4, 5], item "c" "text/html" [6], item "a" "text/html" [7, 8]] [] :=
  C83_written_partial (by omega) demoSetup_good demoE_hist (apart_nil _) demoE_clean (by decide) demoE_batches kind 0 0 pre

end Creator
end Pyzim
