import Verif.Lemmas.HistFilled

/-!
# Flushing an archive succeeds
-/

namespace Pyzim

namespace Archive
open SpaceAllocator (InBlock)
open Zim (Row Stored Clustered Works Longer Filled writeAt_ok)

variable {reserve : Option Nat} {a a' : Archive} {rows : List Row} {cs : List Stored} {extra : Nat → Prop} {n k : Nat}

/-- The file does not get shorter, whether the call succeeds or not. -/
def Grows (m : PyM Archive Unit) : Prop := ∀ n, Keeps (fun a : Archive => Longer n a.zim) m

theorem long_onZim {α : Type} {g : PyM Zim α} (h : Keeps (Longer n) g) : Keeps (fun a : Archive => Longer n a.zim) (onZim g) :=
  fun a ha => h a.zim ha

theorem grows_mimetypes (reserve : Option Nat) : Grows (flushMimetypes reserve) := by
  intro n
  unfold flushMimetypes
  refine Keeps.get.bind fun a => ?_
  split
  · refine Keeps.bind ?_ fun p => (long_onZim (Zim.long_writeAt _ _)).bind fun _ => (long_onZim (Zim.long_onHeader _)).bind fun _ =>
      Keeps.modify fun a h => h
    unfold placeMimetypes
    refine Keeps.get.bind fun a => ?_
    cases reserve with
    | none => exact (long_onZim (Zim.long_markFree _ _)).bind fun _ => long_onZim (Zim.long_allocate _)
    | some r => exact (Keeps.require _ _).bind fun _ => Keeps.pure _
  · exact Keeps.pure _

theorem grows_clusters : Grows flushClusters := by
  intro n
  unfold flushClusters
  refine Keeps.get.bind fun a => ?_
  split
  · exact (long_onZim (Zim.long_markFree _ _)).bind fun _ => (long_onZim (Zim.long_allocate _)).bind fun _ =>
      (long_onZim (Zim.long_writeAt _ _)).bind fun _ => (long_onZim (Zim.long_onHeader _)).bind fun _ =>
      (long_onZim (Zim.long_onHeader _)).bind fun _ => Keeps.modify fun a h => h
  · exact Keeps.pure _

theorem grows_urls : Grows flushUrls := by
  intro n
  unfold flushUrls
  refine Keeps.get.bind fun a => ?_
  split
  · exact (long_onZim (Zim.long_markFree _ _)).bind fun _ => (long_onZim (Zim.long_allocate _)).bind fun _ =>
      (long_onZim (Zim.long_writeAt _ _)).bind fun _ => (long_onZim (Zim.long_onHeader _)).bind fun _ =>
      (long_onZim (Zim.long_onHeader _)).bind fun _ => Keeps.modify fun a h => h
  · exact Keeps.pure _

theorem grows_header : Grows flushHeader := by
  intro n
  unfold flushHeader
  refine Keeps.get.bind fun a => (long_onZim (Zim.long_onHeader _)).bind fun _ => Keeps.get.bind fun a => ?_
  split
  · exact (long_onZim (Zim.long_writeAt _ _)).bind fun _ => Keeps.modify fun a h => h
  · exact Keeps.pure _

/-- The call succeeds, unless the file becomes too long for the pointers of the format. -/
def OkOr (m : PyM Archive Unit) (a : Archive) : Prop := (∃ a', m a = (.ok (), a')) ∨ 2 ^ 64 ≤ (m a).2.zim.file.length

theorem OkOr.bind {m k : PyM Archive Unit} (h : OkOr m a) (h' : ∀ a', m a = (.ok (), a') → OkOr k a') :
    OkOr (m >>= fun _ => k) a := by
  cases e : m a with
  | mk x a1 =>
    cases x with
    | ok u =>
      unfold OkOr
      rw [PyM.bind_ok e]
      exact h' a1 e
    | error x =>
      unfold OkOr at h ⊢
      rw [e] at h
      rw [PyM.bind_err e]
      rcases h with ⟨a', h⟩ | h
      · cases h
      · exact .inr h

theorem OkOr.of {m : PyM Archive Unit} (hg : Grows m) (h : a.zim.file.length < 2 ^ 64 → ∃ a', m a = (.ok (), a')) : OkOr m a := by
  by_cases hl : a.zim.file.length < 2 ^ 64
  · exact .inl (h hl)
  · exact .inr (hg _ a (show 2 ^ 64 ≤ a.zim.file.length by omega))

theorem flushMimetypes_succ {r : Nat} (h : Parts (some r) a rows cs extra) (hs : a.zim.mimetypes.getDiskSize ≤ r) :
    ∃ a', flushMimetypes (some r) a = (.ok (), a') := by
  cases hd : a.zim.mimetypes.dirty with
  | false => exact ⟨a, by unfold flushMimetypes; rw [PyM.get_bind, if_neg (by simp [hd])]; rfl⟩
  | true =>
    have hopen := h.content.rep.isOpen
    obtain ⟨d, hs', -⟩ := Header.setNat_ok (get := Header.mimeListPosition)
      (put := fun h v => { h with mimeListPosition := v }) h.content.rep.headerMutable rfl 80
    unfold flushMimetypes
    rw [PyM.get_bind, if_pos hd]
    have e1 : placeMimetypes (some r) a = (.ok 80, a) := by
      unfold placeMimetypes
      rw [PyM.get_bind]
      simp only
      rw [decide_eq_true hs, PyM.require_true_bind]
      rfl
    rw [PyM.bind_ok e1]
    have e3 : onZim (Zim.writeAt 80 (.ok a.zim.mimetypes.toBytes)) a =
        (.ok (), { a with zim := { a.zim with file := wr a.zim.file 80 a.zim.mimetypes.toBytes } }) := by
      unfold onZim
      simp only
      rw [writeAt_ok hopen]
    rw [PyM.bind_ok e3]
    have e4 : onZim (Zim.onHeader (fun h => h.setMimeListPosition (80 : Nat)))
        { a with zim := { a.zim with file := wr a.zim.file 80 a.zim.mimetypes.toBytes } } =
        (.ok (), { a with zim := { a.zim with
          file := wr a.zim.file 80 a.zim.mimetypes.toBytes
          header := { a.zim.header with mimeListPosition := 80, dirty := d } } }) := by
      unfold onZim Zim.onHeader Header.setMimeListPosition
      simp only [hs']
    rw [PyM.bind_ok e4, PyM.modify_apply]
    exact ⟨_, rfl⟩

theorem flushUrls_succ (h : Parts reserve a rows cs extra) (hl : a.zim.file.length < 2 ^ 64) : ∃ a', flushUrls a = (.ok (), a') := by
  cases hd : a.zim.urls.dirty with
  | false => exact ⟨a, by unfold flushUrls; rw [PyM.get_bind, if_neg (by simp [hd])]; rfl⟩
  | true =>
    have hopen := h.content.rep.isOpen
    have hmut := h.content.rep.headerMutable
    obtain ⟨b, hb, hlen, -⟩ := PointerList.C04_write_read 8 (by omega) a.zim.urls (by
      intro p hp
      rw [h.content.rep.urls] at hp
      obtain ⟨r, hr, rfl⟩ := List.mem_map.1 hp
      obtain ⟨b, hb, hh⟩ := h.content.rep.store.stored r hr
      have h1 := Entry.size_eq _ _ hb
      have h2 : b ≠ [] := by
        intro e
        rw [e] at h1
        simp [Entry.getDiskSize] at h1
        omega
      have h3 := hh.below h2
      unfold FitsField
      omega)
    unfold flushUrls
    rw [PyM.get_bind, if_pos hd, hb]
    obtain ⟨pos, space, hal⟩ : ∃ pos space,
        (a.zim.space.markFree a.zim.header.urlPointerPosition a.urlSize).allocate b.length = (pos, space) := ⟨_, _, rfl⟩
    obtain ⟨d1, hs1, -⟩ := Header.setNat_ok (get := Header.urlPointerPosition)
      (put := fun h v => { h with urlPointerPosition := v }) hmut rfl pos
    obtain ⟨d2, hs2, -⟩ := Header.setNat_ok (get := Header.entryCount)
      (put := fun h v => { h with entryCount := v })
      (h := { a.zim.header with urlPointerPosition := pos, dirty := d1 }) hmut rfl a.zim.urls.len
    have e1 : onZim (Zim.markFree a.zim.header.urlPointerPosition a.urlSize) a = (.ok (), { a with zim := { a.zim with
        space := a.zim.space.markFree a.zim.header.urlPointerPosition a.urlSize } }) := rfl
    rw [PyM.bind_ok e1]
    have e2 : onZim (Zim.allocate (a.zim.urls.diskSize 8)) { a with zim := { a.zim with
        space := a.zim.space.markFree a.zim.header.urlPointerPosition a.urlSize } } =
        (.ok pos, { a with zim := { a.zim with space := space } }) := by
      unfold onZim Zim.allocate
      simp only [← hlen, hal]
    rw [PyM.bind_ok e2]
    have e3 : onZim (Zim.writeAt pos (.ok b)) { a with zim := { a.zim with space := space } } =
        (.ok (), { a with zim := { a.zim with space := space, file := wr a.zim.file pos b } }) := by
      unfold onZim
      simp only
      rw [writeAt_ok (z := { a.zim with space := space }) hopen]
    rw [PyM.bind_ok e3]
    have e4 : onZim (Zim.onHeader (fun h => h.setUrlPointerPosition pos))
        { a with zim := { a.zim with space := space, file := wr a.zim.file pos b } } =
        (.ok (), { a with zim := { a.zim with
          space := space, file := wr a.zim.file pos b
          header := { a.zim.header with urlPointerPosition := pos, dirty := d1 } } }) := by
      unfold onZim Zim.onHeader Header.setUrlPointerPosition
      simp only [hs1]
    rw [PyM.bind_ok e4]
    have e5 : onZim (Zim.onHeader (fun h => h.setEntryCount a.zim.urls.len))
        { a with zim := { a.zim with
          space := space, file := wr a.zim.file pos b
          header := { a.zim.header with urlPointerPosition := pos, dirty := d1 } } } =
        (.ok (), { a with zim := { a.zim with
          space := space, file := wr a.zim.file pos b
          header := { a.zim.header with urlPointerPosition := pos, entryCount := a.zim.urls.len, dirty := d2 } } }) := by
      unfold onZim Zim.onHeader Header.setEntryCount
      simp only [hs2]
    rw [PyM.bind_ok e5, PyM.modify_apply]
    exact ⟨_, rfl⟩

theorem flushClusters_succ (h : Parts reserve a rows cs extra) (hl : a.zim.file.length < 2 ^ 64) :
    ∃ a', flushClusters a = (.ok (), a') := by
  cases hd : a.zim.clusters.dirty with
  | false => exact ⟨a, by unfold flushClusters; rw [PyM.get_bind, if_neg (by simp [hd])]; rfl⟩
  | true =>
    have hopen := h.content.rep.isOpen
    have hmut := h.content.rep.headerMutable
    obtain ⟨b, hb, hlen, -⟩ := PointerList.C04_write_read 8 (by omega) a.zim.clusters (by
      intro p hp
      rw [h.content.pointers] at hp
      obtain ⟨c, hc, rfl⟩ := List.mem_map.1 hp
      have h2 := h.content.nonempty c hc
      have h3 := (h.content.held c hc).below h2
      have h4 := List.length_pos_iff.2 h2
      unfold FitsField
      omega)
    unfold flushClusters
    rw [PyM.get_bind, if_pos hd, hb]
    obtain ⟨pos, space, hal⟩ : ∃ pos space,
        (a.zim.space.markFree a.zim.header.clusterPointerPosition a.clusterSize).allocate b.length = (pos, space) := ⟨_, _, rfl⟩
    obtain ⟨d1, hs1, -⟩ := Header.setNat_ok (get := Header.clusterPointerPosition)
      (put := fun h v => { h with clusterPointerPosition := v }) hmut rfl pos
    obtain ⟨d2, hs2, -⟩ := Header.setNat_ok (get := Header.clusterCount)
      (put := fun h v => { h with clusterCount := v })
      (h := { a.zim.header with clusterPointerPosition := pos, dirty := d1 }) hmut rfl a.zim.clusters.len
    have e1 : onZim (Zim.markFree a.zim.header.clusterPointerPosition a.clusterSize) a = (.ok (), { a with zim := { a.zim with
        space := a.zim.space.markFree a.zim.header.clusterPointerPosition a.clusterSize } }) := rfl
    rw [PyM.bind_ok e1]
    have e2 : onZim (Zim.allocate (a.zim.clusters.diskSize 8)) { a with zim := { a.zim with
        space := a.zim.space.markFree a.zim.header.clusterPointerPosition a.clusterSize } } =
        (.ok pos, { a with zim := { a.zim with space := space } }) := by
      unfold onZim Zim.allocate
      simp only [← hlen, hal]
    rw [PyM.bind_ok e2]
    have e3 : onZim (Zim.writeAt pos (.ok b)) { a with zim := { a.zim with space := space } } =
        (.ok (), { a with zim := { a.zim with space := space, file := wr a.zim.file pos b } }) := by
      unfold onZim
      simp only
      rw [writeAt_ok (z := { a.zim with space := space }) hopen]
    rw [PyM.bind_ok e3]
    have e4 : onZim (Zim.onHeader (fun h => h.setClusterPointerPosition pos))
        { a with zim := { a.zim with space := space, file := wr a.zim.file pos b } } =
        (.ok (), { a with zim := { a.zim with
          space := space, file := wr a.zim.file pos b
          header := { a.zim.header with clusterPointerPosition := pos, dirty := d1 } } }) := by
      unfold onZim Zim.onHeader Header.setClusterPointerPosition
      simp only [hs1]
    rw [PyM.bind_ok e4]
    have e5 : onZim (Zim.onHeader (fun h => h.setClusterCount a.zim.clusters.len))
        { a with zim := { a.zim with
          space := space, file := wr a.zim.file pos b
          header := { a.zim.header with clusterPointerPosition := pos, dirty := d1 } } } =
        (.ok (), { a with zim := { a.zim with
          space := space, file := wr a.zim.file pos b
          header := { a.zim.header with clusterPointerPosition := pos, clusterCount := a.zim.clusters.len, dirty := d2 } } }) := by
      unfold onZim Zim.onHeader Header.setClusterCount
      simp only [hs2]
    rw [PyM.bind_ok e5, PyM.modify_apply]
    exact ⟨_, rfl⟩

theorem flushHeader_succ (h : Parts reserve a rows cs extra)
    (hr : Header.InRange { a.zim.header with checksumPosition := a.zim.space.fileEnd }) : ∃ a', flushHeader a = (.ok (), a') := by
  have hopen := h.content.rep.isOpen
  have hmut := h.content.rep.headerMutable
  unfold flushHeader
  rw [PyM.get_bind]
  obtain ⟨d, hs, -⟩ := Header.setNat_ok (get := Header.checksumPosition)
    (put := fun h v => { h with checksumPosition := v }) hmut rfl a.zim.space.fileEnd
  have e1 : onZim (Zim.onHeader (fun h => h.setChecksumPosition a.zim.space.fileEnd)) a = (.ok (), { a with
      zim := { a.zim with header := { a.zim.header with checksumPosition := a.zim.space.fileEnd, dirty := d } } }) := by
    unfold onZim Zim.onHeader Header.setChecksumPosition
    simp only [hs]
  rw [PyM.bind_ok e1, PyM.get_bind]
  cases d with
  | false => exact ⟨_, rfl⟩
  | true =>
    simp only [if_true]
    obtain ⟨b, hb, -⟩ := Header.C11_write_read { a.zim.header with checksumPosition := a.zim.space.fileEnd, dirty := true }
      ⟨hr.1, hr.2, hr.3, hr.4, hr.5, hr.6, hr.7, hr.8, hr.9, hr.10, hr.11, hr.12, hr.13⟩
    rw [hb]
    have e3 : onZim (Zim.writeAt 0 (.ok b)) { a with
        zim := { a.zim with header := { a.zim.header with checksumPosition := a.zim.space.fileEnd, dirty := true } } } =
        (.ok (), { a with zim := { a.zim with
          header := { a.zim.header with checksumPosition := a.zim.space.fileEnd, dirty := true }
          file := wr a.zim.file 0 b } }) := by
      unfold onZim
      simp only
      rw [writeAt_ok (z := { a.zim with
        header := { a.zim.header with checksumPosition := a.zim.space.fileEnd, dirty := true } }) hopen]
    rw [PyM.bind_ok e3, PyM.modify_apply]
    exact ⟨_, rfl⟩

/-! ## The end of the file -/

theorem filled_onZim {α : Type} {g : PyM Zim α} (h : KeepsOk (Filled k) g) :
    KeepsOk (fun a : Archive => Filled k a.zim) (onZim g) := by
  intro a x a' ha hok
  unfold onZim at hok
  injection hok with h1 h2
  rw [← h2]
  exact h a.zim x _ ha (Prod.ext h1 rfl)

theorem filled_flushMimetypes (h : Parts (some n) a rows cs extra) (hok : flushMimetypes (some n) a = (.ok (), a'))
    (hz : Filled k a.zim) : Filled k a'.zim := by
  cases hd : a.zim.mimetypes.dirty with
  | false => rw [(h.flushMimetypes hok).2.2.2.2.2.1 hd]; exact hz
  | true =>
    obtain ⟨pos, space, d, -, h2, rfl, -⟩ := flushMimetypes_ok h hd hok
    obtain ⟨-, rfl, -⟩ := h2 n rfl
    have := (Zim.wr_length_le a.zim.file pos a.zim.mimetypes.toBytes).1
    unfold Filled at hz ⊢
    show a.zim.space.fileEnd ≤ max k (wr a.zim.file pos a.zim.mimetypes.toBytes).length
    omega

theorem filled_realloc {s : SpaceAllocator} {space : SpaceAllocator} {file b : Bytes} {pos st ln : Nat}
    (hal : (s.markFree st ln).allocate b.length = (pos, space)) (hb : b ≠ []) (hz : s.fileEnd ≤ max k file.length) :
    space.fileEnd ≤ max k (wr file pos b).length := by
  have h1 := SpaceAllocator.allocate_end (s.markFree st ln) b.length
  rw [hal, SpaceAllocator.markFree_end] at h1
  have h2 := wr_end file pos b hb
  have h3 := (Zim.wr_length_le file pos b).1
  simp only at h1
  omega

theorem filled_flushClusters (h : Parts reserve a rows cs extra) (hcs : cs ≠ []) (hok : flushClusters a = (.ok (), a'))
    (hz : Filled k a.zim) : Filled k a'.zim := by
  cases hd : a.zim.clusters.dirty with
  | false => rw [(h.flushClusters hok).2.2.2.2.2 hd]; exact hz
  | true =>
    obtain ⟨b, pos, space, d, hb, hal, rfl, -⟩ := flushClusters_ok h hd hok
    refine filled_realloc hal ?_ hz
    intro e
    have := PointerList.toBytes_length (by omega) hb
    rw [e] at this
    unfold PointerList.diskSize at this
    rw [h.content.pointers, List.length_map] at this
    have := List.length_pos_iff.2 hcs
    simp at *
    omega

theorem filled_flushUrls (h : Parts reserve a rows cs extra) (hrows : rows ≠ []) (hok : flushUrls a = (.ok (), a'))
    (hz : Filled k a.zim) : Filled k a'.zim := by
  cases hd : a.zim.urls.dirty with
  | false => rw [(h.flushUrls hok).2.2.2.2.2 hd]; exact hz
  | true =>
    obtain ⟨b, pos, space, d, hb, hal, rfl, -⟩ := flushUrls_ok h hd hok
    refine filled_realloc hal ?_ hz
    intro e
    have := PointerList.toBytes_length (by omega) hb
    rw [e] at this
    unfold PointerList.diskSize at this
    rw [h.content.rep.urls, List.length_map] at this
    have := List.length_pos_iff.2 hrows
    simp at *
    omega

/-- Something is behind the reserved room, so the file is as long as the part that is in use. -/
theorem filled_length {r : Nat} (h : Parts (some r) a rows cs extra) (hcs : cs ≠ []) (hr : 2 ≤ r) (hz : Filled (80 + r) a.zim) :
    a.zim.space.fileEnd ≤ a.zim.file.length := by
  obtain ⟨c, hc⟩ := List.exists_mem_of_ne_nil _ hcs
  have h1 := h.content.nonempty c hc
  have h2 := (h.content.held c hc).below h1
  have h3 := List.length_pos_iff.2 h1
  have h4 : 80 + r ≤ c.1 := by
    by_contra hlt
    refine h.content.apart c hc c.1 ⟨Nat.le_refl _, by omega⟩ (.inr ?_)
    by_cases h80 : c.1 < 80
    · exact ⟨(0, 80), by simp [fixed], by unfold InBlock; simp only; omega⟩
    · exact ⟨(80, r), by simp [fixed, mimePiece], by unfold InBlock; simp only; omega⟩
  unfold Filled at hz
  omega

/-- Writing the lists, the header and the checksum succeeds. -/
theorem Parts.rest_total {H : Hasher} {md5 : Bytes → Bytes} {short : Nat → Nat → Nat} {chunksize r : Nat} {truncate : Bool}
    (hH : H.Computes md5) (hs : Delivering short) (hc : 0 < chunksize) (hr : 2 ≤ r)
    (h : Parts (some r) a rows cs extra) (hz : Filled (80 + r) a.zim) (hp : a.zim.PlainHead)
    (hm : a.zim.mimetypes.getDiskSize ≤ r) (h1 : rows ≠ []) (h2 : rows.length < 2 ^ 32) (h3 : cs ≠ []) (h4 : cs.length < 2 ^ 32) :
    OkOr (restOf H short chunksize ⟨truncate, some r⟩) a := by
  unfold restOf
  refine (OkOr.of (grows_mimetypes _) fun _ => flushMimetypes_succ h hm).bind fun a3 e3 => ?_
  obtain ⟨p3, m3, -⟩ := h.flushMimetypes e3
  have z3 := filled_flushMimetypes h e3 hz
  have q3 : a3.zim.PlainHead := keeps_ok (P := fun a : Archive => a.zim.PlainHead) (plain_flushMimetypes _) e3 hp
  refine (OkOr.of grows_clusters fun hl => flushClusters_succ p3 hl).bind fun a4 e4 => ?_
  obtain ⟨p4, c4, m4, -⟩ := p3.flushClusters e4
  have z4 := filled_flushClusters p3 h3 e4 z3
  have q4 : a4.zim.PlainHead := keeps_ok (P := fun a : Archive => a.zim.PlainHead) plain_flushClusters e4 q3
  refine (OkOr.of grows_urls fun hl => flushUrls_succ p4 hl).bind fun a5 e5 => ?_
  obtain ⟨p5, u5, m5, c5, -⟩ := p4.flushUrls e5
  have z5 := filled_flushUrls p4 h1 e5 z4
  have q5 : a5.zim.PlainHead := keeps_ok (P := fun a : Archive => a.zim.PlainHead) plain_flushUrls e5 q4
  have hend := filled_length p5 h3 hr z5
  have hrows : a5.zim.urls.len = rows.length := by
    unfold PointerList.len; rw [p5.content.rep.urls, List.length_map]
  have hcs : a5.zim.clusters.len = cs.length := by
    unfold PointerList.len; rw [p5.content.pointers, List.length_map]
  have hrl := List.length_pos_iff.2 h1
  have hcl := List.length_pos_iff.2 h3
  refine (OkOr.of grows_header fun hl => flushHeader_succ p5 ?_).bind fun a6 e6 => ?_
  · obtain ⟨ub, u1, u2, u3, -⟩ := p5.urls u5
    obtain ⟨cb, c1, c2, c3, -⟩ := p5.clusters (by rw [c5]; exact c4)
    obtain ⟨m1, -⟩ := p5.mimetypes (by rw [m5, m4]; exact m3)
    have ul := PointerList.toBytes_length (by omega) u1
    have cl := PointerList.toBytes_length (by omega) c1
    unfold PointerList.diskSize at ul cl
    unfold PointerList.len at hrows hcs u3 c3
    have hu := u2.below (by intro e; rw [e] at ul; simp at ul; omega)
    have hcc := c2.below (by intro e; rw [e] at cl; simp at cl; omega)
    have hmm := m1.below (by unfold MimeTypeList.toBytes; simp)
    have hpl := q5.header
    refine ⟨?_, ?_, ?_, hpl.uuid, ?_, ?_, ?_, hpl.title, ?_, ?_, ?_, hpl.layout, ?_⟩
    · rw [hpl.magic]; decide
    · show a5.zim.header.majorVersion < _; rw [hpl.version.1]; decide
    · show a5.zim.header.minorVersion < _; rw [hpl.version.2]; decide
    · show a5.zim.header.entryCount < _; omega
    · show a5.zim.header.clusterCount < _; omega
    · show a5.zim.header.urlPointerPosition < _; omega
    · show a5.zim.header.clusterPointerPosition < _; omega
    · show a5.zim.header.mimeListPosition < _; omega
    · show a5.zim.header.mainPageRaw < _; rw [hpl.main]; decide
    · show a5.zim.space.fileEnd < _; omega
  obtain ⟨p6, -, -, -, -, -, s6, k6⟩ := p5.flushHeader e6
  have hlen6 : a5.zim.file.length ≤ a6.zim.file.length := by
    have := grows_header a5.zim.file.length a5 (Nat.le_refl _)
    rwa [e6] at this
  have e7 : ∃ a7, onZim (Zim.updateChecksum H short chunksize) a6 = (.ok (), a7) ∧ a7.zim.closed = false := by
    unfold onZim Zim.updateChecksum
    rw [PyM.get_bind, Zim.calculateChecksum_ok hH hs hc p6.content.rep.isOpen (by rw [k6, s6]; omega), PyM.lift_ok_bind,
      writeAt_ok p6.content.rep.isOpen]
    exact ⟨_, rfl, p6.content.rep.isOpen⟩
  obtain ⟨a7, e7, hopen⟩ := e7
  refine .inl ?_
  rw [PyM.bind_ok e7, PyM.get_bind]
  cases truncate with
  | false =>
    simp only [Bool.false_eq_true, if_false]
    exact ⟨_, rfl⟩
  | true =>
    simp only [if_true]
    have e8 : ∃ a8, onZim (Zim.truncateAt (a7.zim.header.checksumPosition + 16)) a7 = (.ok (), a8) := by
      unfold onZim Zim.truncateAt
      rw [if_neg (by rw [hopen]; simp)]
      exact ⟨_, rfl⟩
    obtain ⟨a8, e8⟩ := e8
    rw [PyM.bind_ok e8]
    exact ⟨_, rfl⟩

end Archive

end Pyzim
