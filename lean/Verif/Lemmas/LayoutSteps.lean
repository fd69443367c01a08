import Verif.Lemmas.Layout

namespace Pyzim

namespace Header

theorem toBytes_length {h : Header} {b : Bytes} (hb : h.toBytes = .ok b) : b.length = 80 := by
  obtain ⟨c, h1, h2, -⟩ := C11_write_read h ((fits_iff h).1 (Fmt.pack_fits hb))
  rw [hb] at h1
  injection h1 with h1
  rw [h1]; exact h2

theorem setNat_ok {get : Header → Nat} {put : Header → Nat → Header} {h : Header} (hm : h.mutable = true)
    (hput : put h (get h) = h) (v : Nat) :
    ∃ d, setNat get put h v = (.ok (), { put h v with dirty := d }) ∧ (d = false → v = get h ∧ h.dirty = false) := by
  unfold setNat
  rw [if_neg (by omega), hm, if_neg (by simp), Int.toNat_natCast]
  by_cases hv : v = get h
  · rw [if_neg (by simpa using hv)]
    subst hv
    exact ⟨h.dirty, by rw [hput], fun hd => ⟨rfl, hd⟩⟩
  · rw [if_pos hv]
    exact ⟨true, rfl, fun h => by cases h⟩

end Header

theorem PointerList.toBytes_length {w : Nat} (hw : 0 < w) {l : PointerList} {b : Bytes} (hb : l.toBytes w = .ok b) :
    b.length = l.diskSize w := by
  obtain ⟨c, h1, h2, -⟩ := PointerList.C04_write_read w hw l (packFields_map_fits w l.pointers b hb)
  rw [hb] at h1
  injection h1 with h1
  rw [h1]; exact h2

theorem MimeTypeList.size_eq {m : MimeTypeList} (h : m.mimetypes ≠ []) : m.getDiskSize = m.toBytes.length := by
  unfold MimeTypeList.getDiskSize MimeTypeList.toBytes
  rw [MimeTypeList.toBytes_eq _ h, MimeTypeList.foldl_size]
  simp; omega

theorem MimeTypeList.size_le {m : MimeTypeList} {r : Nat} (h : m.getDiskSize ≤ r) (hr : 2 ≤ r) : m.toBytes.length ≤ r := by
  by_cases he : m.mimetypes = []
  · unfold MimeTypeList.toBytes; rw [he]; exact hr
  · rw [← MimeTypeList.size_eq he]; exact h

namespace Archive
open SpaceAllocator (InBlock)
open Zim (Row Stored Clustered Works SameContent KeepsBytes Kept writeAt_ok writeAt_err)

variable {K : Type} {O : ClusterOps K} {reserve : Option Nat} {a a' : Archive} {rows : List Row} {cs cs' : List Stored}
  {extra : Nat → Prop}

theorem Placed.piece {b : Bytes} (h : Placed reserve a.zim.header.mimeListPosition a.mimeSize b) (x : Nat)
    (hx : InBlock (a.zim.header.mimeListPosition, b.length) x) : InBlock (a.mimePiece reserve) x := by
  unfold mimePiece
  cases reserve with
  | none => simp only [Placed] at h ⊢; rw [h]; exact hx
  | some r =>
    simp only [Placed, InBlock] at h hx ⊢
    omega

/-- modifications of the content -/
theorem Parts.kept (h : Parts reserve a rows cs extra) {z' : Zim} {rows' : List Row}
    (h1 : Clustered z' rows' cs' (fun x => extra x ∨ ∃ p ∈ a.fixed reserve, InBlock p x))
    (h2 : Kept (fun x => extra x ∨ ∃ p ∈ a.fixed reserve, InBlock p x) a.zim z') :
    Parts reserve { a with zim := z' } rows' cs' extra := by
  have hpos : z'.header.mimeListPosition = a.zim.header.mimeListPosition ∧
      z'.header.urlPointerPosition = a.zim.header.urlPointerPosition ∧
      z'.header.clusterPointerPosition = a.zim.header.clusterPointerPosition ∧
      z'.header.entryCount = a.zim.header.entryCount ∧ z'.header.clusterCount = a.zim.header.clusterCount ∧
      z'.header.majorVersion = a.zim.header.majorVersion ∧ z'.header.minorVersion = a.zim.header.minorVersion := by
    rcases h2.header with e | ⟨m, e⟩ <;> rw [e] <;> exact ⟨rfl, rfl, rfl, rfl, rfl, rfl, rfl⟩
  have hfix : ({ a with zim := z' } : Archive).fixed reserve = a.fixed reserve := by
    unfold fixed mimePiece
    simp only [hpos]
  have hkeep : ∀ {p : Block} {off : Nat} {b : Bytes}, p ∈ a.fixed reserve → (∀ x, InBlock (off, b.length) x → InBlock p x) →
      Holds a.zim.file off b → Holds z'.file off b := by
    intro p off b hp hin hh
    exact h2.bytes.holds hh fun x h1 h2 => Or.inr ⟨p, hp, hin x ⟨h1, h2⟩⟩
  refine ⟨by rw [hfix]; exact h1, by rw [hfix]; exact h.disjoint, by rw [hfix]; exact h.apart, ?_, ?_,
    h2.listable h.listable, ?_, ?_, ?_, ?_⟩
  · have := h.room
    unfold Room at this ⊢
    cases reserve with
    | none => exact h2.fewer this
    | some r => exact this
  · simp only [hpos]; exact h.version
  · intro hd
    rcases h2.header with e | ⟨m, e⟩
    · simp only at hd ⊢
      rw [e] at hd ⊢
      obtain ⟨b, hb, hh⟩ := h.header hd
      exact ⟨b, hb, hkeep (p := (0, 80)) (by simp [fixed]) (by rw [Header.toBytes_length hb]; exact fun x hx => hx) hh⟩
    · simp only at hd
      rw [e] at hd; cases hd
  · intro hd
    rcases h2.mimetypes with e | e
    · simp only [hpos] at hd ⊢
      rw [e] at hd ⊢
      obtain ⟨h3, h4⟩ := h.mimetypes hd
      refine ⟨hkeep (p := a.mimePiece reserve) (by simp [fixed]) ?_ h3, h4⟩
      exact h4.piece
    · simp only at hd
      rw [e] at hd; cases hd
  · intro hd
    rcases h2.urls with e | e
    · simp only [hpos] at hd ⊢
      rw [e] at hd ⊢
      obtain ⟨b, hb, hh, h3, h4⟩ := h.urls hd
      refine ⟨b, hb, hkeep (p := (a.zim.header.urlPointerPosition, a.urlSize)) (by simp [fixed]) ?_ hh, h3, h4⟩
      rw [PointerList.toBytes_length (by omega) hb, h4]; exact fun x hx => hx
    · simp only at hd
      rw [e] at hd; cases hd
  · intro hd
    rcases h2.clusters with e | e
    · simp only [hpos] at hd ⊢
      rw [e] at hd ⊢
      obtain ⟨b, hb, hh, h3, h4⟩ := h.clusters hd
      refine ⟨b, hb, hkeep (p := (a.zim.header.clusterPointerPosition, a.clusterSize)) (by simp [fixed]) ?_ hh, h3, h4⟩
      rw [PointerList.toBytes_length (by omega) hb, h4]; exact fun x hx => hx
    · simp only at hd
      rw [e] at hd; cases hd

theorem Parts.works (h : Parts reserve a rows cs extra) {z' : Zim} (hw : Works O a.zim cs z' cs') :
    ∃ rows', Parts reserve { a with zim := z' } rows' cs' extra ∧ Kept (fun x => extra x ∨ ∃ p ∈ a.fixed reserve, InBlock p x) a.zim z' := by
  obtain ⟨rows', h1, h2⟩ := h.content.works hw
  exact ⟨rows', h.kept h1 h2, h2⟩

theorem Laid.kept (h : Laid reserve a rows cs extra) {z' : Zim} {rows' : List Row}
    (hc : Clustered z' rows' cs' (fun x => extra x ∨ ∃ p ∈ a.fixed reserve, InBlock p x))
    (h2 : Kept (fun x => extra x ∨ ∃ p ∈ a.fixed reserve, InBlock p x) a.zim z') :
    Laid reserve { a with zim := z' } rows' cs' extra := by
  refine ⟨h.toParts.kept hc h2, ?_⟩
  intro d1 d2 d3 d4
  simp only at d1 d2 d3 d4 ⊢
  rcases h2.header with e1 | ⟨m, e1⟩
  · rcases h2.mimetypes with e2 | e2
    · rcases h2.urls with e3 | e3
      · rcases h2.clusters with e4 | e4
        · rcases h2.space with ⟨e5, e6⟩ | e5 | e5
          · rw [e1, e5, e6]
            exact h.ends (by rw [← e1]; exact d1) (by rw [← e2]; exact d2) (by rw [← e3]; exact d3)
              (by rw [← e4]; exact d4)
          · rw [e5] at d3; cases d3
          · rw [e5] at d4; cases d4
        · rw [e4] at d4; cases d4
      · rw [e3] at d3; cases d3
    · rw [e2] at d2; cases d2
  · rw [e1] at d1; cases d1

theorem Laid.works (h : Laid reserve a rows cs extra) {z' : Zim} (hw : Works O a.zim cs z' cs') :
    ∃ rows', Laid reserve { a with zim := z' } rows' cs' extra := by
  obtain ⟨rows', h1, h2⟩ := h.content.works hw
  exact ⟨rows', h.kept h1 h2⟩

/-- the url pointer list -/
theorem flushUrls_ok (h : Parts reserve a rows cs extra) (hd : a.zim.urls.dirty = true)
    (hok : flushUrls a = (.ok (), a')) :
    ∃ b pos space d, a.zim.urls.toBytes 8 = .ok b ∧
      (a.zim.space.markFree a.zim.header.urlPointerPosition a.urlSize).allocate b.length = (pos, space) ∧
      a' = { a with
        zim := { a.zim with
          space := space, file := wr a.zim.file pos b
          header := { a.zim.header with urlPointerPosition := pos, entryCount := a.zim.urls.len, dirty := d }
          urls := { a.zim.urls with dirty := false } }
        urlSize := b.length } ∧
      (d = false → pos = a.zim.header.urlPointerPosition ∧ a.zim.urls.len = a.zim.header.entryCount ∧
        a.zim.header.dirty = false) := by
  have hopen := h.content.rep.isOpen
  have hmut := h.content.rep.headerMutable
  unfold flushUrls at hok
  rw [PyM.get_bind, if_pos hd] at hok
  cases hb : a.zim.urls.toBytes 8 with
  | error x =>
    obtain ⟨⟨⟩, a1, h1, hok⟩ := PyM.bind_ok_iff.1 hok
    obtain ⟨pos, a2, h2, hok⟩ := PyM.bind_ok_iff.1 hok
    obtain ⟨⟨⟩, a3, h3, hok⟩ := PyM.bind_ok_iff.1 hok
    rw [hb] at h3
    unfold onZim Zim.writeAt at h3
    split at h3 <;> cases h3
  | ok b =>
    have hlen := PointerList.toBytes_length (by omega) hb
    rw [hb] at hok
    obtain ⟨pos, space, hal⟩ : ∃ pos space,
        (a.zim.space.markFree a.zim.header.urlPointerPosition a.urlSize).allocate b.length = (pos, space) := ⟨_, _, rfl⟩
    obtain ⟨d1, hs1, hd1⟩ := Header.setNat_ok (get := Header.urlPointerPosition)
      (put := fun h v => { h with urlPointerPosition := v }) hmut rfl pos
    obtain ⟨d2, hs2, hd2⟩ := Header.setNat_ok (get := Header.entryCount)
      (put := fun h v => { h with entryCount := v })
      (h := { a.zim.header with urlPointerPosition := pos, dirty := d1 }) hmut rfl a.zim.urls.len
    have e1 : onZim (Zim.markFree a.zim.header.urlPointerPosition a.urlSize) a = (.ok (), { a with zim := { a.zim with
        space := a.zim.space.markFree a.zim.header.urlPointerPosition a.urlSize } }) := rfl
    rw [PyM.bind_ok e1] at hok
    have e2 : onZim (Zim.allocate (a.zim.urls.diskSize 8)) { a with zim := { a.zim with
        space := a.zim.space.markFree a.zim.header.urlPointerPosition a.urlSize } } =
        (.ok pos, { a with zim := { a.zim with space := space } }) := by
      unfold onZim Zim.allocate
      simp only [← hlen, hal]
    rw [PyM.bind_ok e2] at hok
    have e3 : onZim (Zim.writeAt pos (.ok b)) { a with zim := { a.zim with space := space } } =
        (.ok (), { a with zim := { a.zim with space := space, file := wr a.zim.file pos b } }) := by
      unfold onZim
      simp only
      rw [writeAt_ok (z := { a.zim with space := space }) hopen]
    rw [PyM.bind_ok e3] at hok
    have e4 : onZim (Zim.onHeader (fun h => h.setUrlPointerPosition pos))
        { a with zim := { a.zim with space := space, file := wr a.zim.file pos b } } =
        (.ok (), { a with zim := { a.zim with
          space := space, file := wr a.zim.file pos b
          header := { a.zim.header with urlPointerPosition := pos, dirty := d1 } } }) := by
      unfold onZim Zim.onHeader Header.setUrlPointerPosition
      simp only [hs1]
    rw [PyM.bind_ok e4] at hok
    have e5 : onZim (Zim.onHeader (fun h => h.setEntryCount a.zim.urls.len))
        { a with zim := { a.zim with
          space := space, file := wr a.zim.file pos b
          header := { a.zim.header with urlPointerPosition := pos, dirty := d1 } } } =
        (.ok (), { a with zim := { a.zim with
          space := space, file := wr a.zim.file pos b
          header := { a.zim.header with urlPointerPosition := pos, entryCount := a.zim.urls.len, dirty := d2 } } }) := by
      unfold onZim Zim.onHeader Header.setEntryCount
      simp only [hs2]
    rw [PyM.bind_ok e5, PyM.modify_apply] at hok
    injection hok with _ hok
    refine ⟨b, pos, space, d2, rfl, hal, ?_, fun hd => ?_⟩
    · rw [← hok, hlen]
    · obtain ⟨h1, h2⟩ := hd2 hd
      obtain ⟨h3, h4⟩ := hd1 h2
      exact ⟨h3, h1, h4⟩

theorem Parts.flushUrls (h : Parts reserve a rows cs extra) (hok : flushUrls a = (.ok (), a')) :
    Parts reserve a' rows cs extra ∧ a'.zim.urls.dirty = false ∧ a'.zim.mimetypes = a.zim.mimetypes ∧
      a'.zim.clusters = a.zim.clusters ∧ a'.zim.articles = a.zim.articles ∧
      (a.zim.urls.dirty = false → a' = a) := by
  cases hd : a.zim.urls.dirty with
  | false =>
    unfold Archive.flushUrls at hok
    rw [PyM.get_bind, if_neg (by simp [hd])] at hok
    cases hok
    exact ⟨h, hd, rfl, rfl, rfl, fun _ => rfl⟩
  | true =>
  obtain ⟨b, pos, space, d, hb, hal, ha', hhd⟩ := flushUrls_ok h hd hok
  have hlen := PointerList.toBytes_length (by omega) hb
  have hfix : a'.fixed reserve = (a.fixed reserve).set 2 (pos, b.length) := by rw [ha']; rfl
  have hsame : SameContent a.zim a'.zim := by rw [ha']; exact ⟨rfl, rfl, rfl, rfl, rfl, rfl, rfl, rfl, rfl⟩
  obtain ⟨h1, h2, h3, h4, h5⟩ := h.content.realloc h.disjoint h.apart (k := 2) rfl b hal hsame (by rw [ha']) (by rw [ha'])
  rw [← hfix] at h1 h2 h3
  have hkeep : ∀ {p : Block} {off : Nat} {c : Bytes}, p ∈ (a.fixed reserve).eraseIdx 2 →
      (∀ x, InBlock (off, c.length) x → InBlock p x) → Holds a.zim.file off c → Holds a'.zim.file off c :=
    fun hp hin hh => h5.holds hh fun x h1 h2 => ⟨_, hp, hin x ⟨h1, h2⟩⟩
  refine ⟨⟨h1, h2, h3, ?_, ?_, ?_, ?_, ?_, ?_, ?_⟩, ?_, ?_, ?_, ?_, fun hh => by cases hh⟩
  · rw [ha']; exact h.room
  · rw [ha']; exact h.version
  · rw [ha']; exact h.listable
  · intro hd'
    have hd' : d = false := by rw [ha'] at hd'; exact hd'
    obtain ⟨e1, e2, e3⟩ := hhd hd'
    obtain ⟨c, hc, hh⟩ := h.header e3
    refine ⟨c, ?_, hkeep (p := (0, 80)) (by simp [fixed]) (by rw [Header.toBytes_length hc]; exact fun x hx => hx) hh⟩
    rw [← hc, ha', hd', e1, e2, ← e3]
  · intro hd'
    rw [ha'] at hd'
    obtain ⟨e1, e2⟩ := h.mimetypes hd'
    have := hkeep (p := a.mimePiece reserve) (by simp [fixed]) e2.piece e1
    rw [ha'] at this ⊢
    exact ⟨this, e2⟩
  · intro _
    have e1 : a'.zim.urls.toBytes 8 = .ok b := by rw [ha']; exact hb
    have e2 : a'.zim.header.urlPointerPosition = pos := by rw [ha']
    exact ⟨b, e1, by rw [e2]; exact h4, by rw [ha']; rfl, by rw [ha']; exact hlen⟩
  · intro hd'
    rw [ha'] at hd'
    obtain ⟨c, hc, hh, e1, e2⟩ := h.clusters hd'
    have := hkeep (p := (a.zim.header.clusterPointerPosition, a.clusterSize)) (by simp [fixed])
      (by rw [PointerList.toBytes_length (by omega) hc, e2]; exact fun x hx => hx) hh
    rw [ha'] at this ⊢
    exact ⟨c, hc, this, e1, e2⟩
  all_goals rw [ha']

/-- the cluster pointer list -/
theorem flushClusters_ok (h : Parts reserve a rows cs extra) (hd : a.zim.clusters.dirty = true)
    (hok : flushClusters a = (.ok (), a')) :
    ∃ b pos space d, a.zim.clusters.toBytes 8 = .ok b ∧
      (a.zim.space.markFree a.zim.header.clusterPointerPosition a.clusterSize).allocate b.length = (pos, space) ∧
      a' = { a with
        zim := { a.zim with
          space := space, file := wr a.zim.file pos b
          header := { a.zim.header with clusterPointerPosition := pos, clusterCount := a.zim.clusters.len, dirty := d }
          clusters := { a.zim.clusters with dirty := false } }
        clusterSize := b.length } ∧
      (d = false → pos = a.zim.header.clusterPointerPosition ∧ a.zim.clusters.len = a.zim.header.clusterCount ∧
        a.zim.header.dirty = false) := by
  have hopen := h.content.rep.isOpen
  have hmut := h.content.rep.headerMutable
  unfold flushClusters at hok
  rw [PyM.get_bind, if_pos hd] at hok
  cases hb : a.zim.clusters.toBytes 8 with
  | error x =>
    obtain ⟨⟨⟩, a1, h1, hok⟩ := PyM.bind_ok_iff.1 hok
    obtain ⟨pos, a2, h2, hok⟩ := PyM.bind_ok_iff.1 hok
    obtain ⟨⟨⟩, a3, h3, hok⟩ := PyM.bind_ok_iff.1 hok
    rw [hb] at h3
    unfold onZim Zim.writeAt at h3
    split at h3 <;> cases h3
  | ok b =>
    have hlen := PointerList.toBytes_length (by omega) hb
    rw [hb] at hok
    obtain ⟨pos, space, hal⟩ : ∃ pos space,
        (a.zim.space.markFree a.zim.header.clusterPointerPosition a.clusterSize).allocate b.length = (pos, space) := ⟨_, _, rfl⟩
    obtain ⟨d1, hs1, hd1⟩ := Header.setNat_ok (get := Header.clusterPointerPosition)
      (put := fun h v => { h with clusterPointerPosition := v }) hmut rfl pos
    obtain ⟨d2, hs2, hd2⟩ := Header.setNat_ok (get := Header.clusterCount)
      (put := fun h v => { h with clusterCount := v })
      (h := { a.zim.header with clusterPointerPosition := pos, dirty := d1 }) hmut rfl a.zim.clusters.len
    have e1 : onZim (Zim.markFree a.zim.header.clusterPointerPosition a.clusterSize) a = (.ok (), { a with zim := { a.zim with
        space := a.zim.space.markFree a.zim.header.clusterPointerPosition a.clusterSize } }) := rfl
    rw [PyM.bind_ok e1] at hok
    have e2 : onZim (Zim.allocate (a.zim.clusters.diskSize 8)) { a with zim := { a.zim with
        space := a.zim.space.markFree a.zim.header.clusterPointerPosition a.clusterSize } } =
        (.ok pos, { a with zim := { a.zim with space := space } }) := by
      unfold onZim Zim.allocate
      simp only [← hlen, hal]
    rw [PyM.bind_ok e2] at hok
    have e3 : onZim (Zim.writeAt pos (.ok b)) { a with zim := { a.zim with space := space } } =
        (.ok (), { a with zim := { a.zim with space := space, file := wr a.zim.file pos b } }) := by
      unfold onZim
      simp only
      rw [writeAt_ok (z := { a.zim with space := space }) hopen]
    rw [PyM.bind_ok e3] at hok
    have e4 : onZim (Zim.onHeader (fun h => h.setClusterPointerPosition pos))
        { a with zim := { a.zim with space := space, file := wr a.zim.file pos b } } =
        (.ok (), { a with zim := { a.zim with
          space := space, file := wr a.zim.file pos b
          header := { a.zim.header with clusterPointerPosition := pos, dirty := d1 } } }) := by
      unfold onZim Zim.onHeader Header.setClusterPointerPosition
      simp only [hs1]
    rw [PyM.bind_ok e4] at hok
    have e5 : onZim (Zim.onHeader (fun h => h.setClusterCount a.zim.clusters.len))
        { a with zim := { a.zim with
          space := space, file := wr a.zim.file pos b
          header := { a.zim.header with clusterPointerPosition := pos, dirty := d1 } } } =
        (.ok (), { a with zim := { a.zim with
          space := space, file := wr a.zim.file pos b
          header := { a.zim.header with clusterPointerPosition := pos, clusterCount := a.zim.clusters.len, dirty := d2 } } }) := by
      unfold onZim Zim.onHeader Header.setClusterCount
      simp only [hs2]
    rw [PyM.bind_ok e5, PyM.modify_apply] at hok
    injection hok with _ hok
    refine ⟨b, pos, space, d2, rfl, hal, ?_, fun hd => ?_⟩
    · rw [← hok, hlen]
    · obtain ⟨h1, h2⟩ := hd2 hd
      obtain ⟨h3, h4⟩ := hd1 h2
      exact ⟨h3, h1, h4⟩

theorem Parts.flushClusters (h : Parts reserve a rows cs extra) (hok : flushClusters a = (.ok (), a')) :
    Parts reserve a' rows cs extra ∧ a'.zim.clusters.dirty = false ∧ a'.zim.mimetypes = a.zim.mimetypes ∧
      a'.zim.urls = a.zim.urls ∧ a'.zim.articles = a.zim.articles ∧
      (a.zim.clusters.dirty = false → a' = a) := by
  cases hd : a.zim.clusters.dirty with
  | false =>
    unfold Archive.flushClusters at hok
    rw [PyM.get_bind, if_neg (by simp [hd])] at hok
    cases hok
    exact ⟨h, hd, rfl, rfl, rfl, fun _ => rfl⟩
  | true =>
  obtain ⟨b, pos, space, d, hb, hal, ha', hhd⟩ := flushClusters_ok h hd hok
  have hlen := PointerList.toBytes_length (by omega) hb
  have hfix : a'.fixed reserve = (a.fixed reserve).set 3 (pos, b.length) := by rw [ha']; rfl
  have hsame : SameContent a.zim a'.zim := by rw [ha']; exact ⟨rfl, rfl, rfl, rfl, rfl, rfl, rfl, rfl, rfl⟩
  obtain ⟨h1, h2, h3, h4, h5⟩ := h.content.realloc h.disjoint h.apart (k := 3) rfl b hal hsame (by rw [ha']) (by rw [ha'])
  rw [← hfix] at h1 h2 h3
  have hkeep : ∀ {p : Block} {off : Nat} {c : Bytes}, p ∈ (a.fixed reserve).eraseIdx 3 →
      (∀ x, InBlock (off, c.length) x → InBlock p x) → Holds a.zim.file off c → Holds a'.zim.file off c :=
    fun hp hin hh => h5.holds hh fun x h1 h2 => ⟨_, hp, hin x ⟨h1, h2⟩⟩
  refine ⟨⟨h1, h2, h3, ?_, ?_, ?_, ?_, ?_, ?_, ?_⟩, ?_, ?_, ?_, ?_, fun hh => by cases hh⟩
  · rw [ha']; exact h.room
  · rw [ha']; exact h.version
  · rw [ha']; exact h.listable
  · intro hd'
    have hd' : d = false := by rw [ha'] at hd'; exact hd'
    obtain ⟨e1, e2, e3⟩ := hhd hd'
    obtain ⟨c, hc, hh⟩ := h.header e3
    refine ⟨c, ?_, hkeep (p := (0, 80)) (by simp [fixed]) (by rw [Header.toBytes_length hc]; exact fun x hx => hx) hh⟩
    rw [← hc, ha', hd', e1, e2, ← e3]
  · intro hd'
    rw [ha'] at hd'
    obtain ⟨e1, e2⟩ := h.mimetypes hd'
    have := hkeep (p := a.mimePiece reserve) (by simp [fixed]) e2.piece e1
    rw [ha'] at this ⊢
    exact ⟨this, e2⟩
  · intro hd'
    rw [ha'] at hd'
    obtain ⟨c, hc, hh, e1, e2⟩ := h.urls hd'
    have := hkeep (p := (a.zim.header.urlPointerPosition, a.urlSize)) (by simp [fixed])
      (by rw [PointerList.toBytes_length (by omega) hc, e2]; exact fun x hx => hx) hh
    rw [ha'] at this ⊢
    exact ⟨c, hc, this, e1, e2⟩
  · intro _
    have e1 : a'.zim.clusters.toBytes 8 = .ok b := by rw [ha']; exact hb
    have e2 : a'.zim.header.clusterPointerPosition = pos := by rw [ha']
    exact ⟨b, e1, by rw [e2]; exact h4, by rw [ha']; rfl, by rw [ha']; exact hlen⟩
  all_goals rw [ha']

/-- the place of the mimetype list -/
theorem placeMimetypes_ok {pos : Nat} {a1 : Archive} (hok : placeMimetypes reserve a = (.ok pos, a1)) :
    ∃ space, a1 = { a with zim := { a.zim with space := space } } ∧
      (reserve = none → (a.zim.space.markFree a.zim.header.mimeListPosition a.mimeSize).allocate
        a.zim.mimetypes.getDiskSize = (pos, space)) ∧
      ∀ r, reserve = some r → pos = 80 ∧ space = a.zim.space ∧ a.zim.mimetypes.getDiskSize ≤ r := by
  unfold placeMimetypes at hok
  rw [PyM.get_bind] at hok
  cases reserve with
  | none =>
    simp only at hok
    refine ⟨((a.zim.space.markFree a.zim.header.mimeListPosition a.mimeSize).allocate a.zim.mimetypes.getDiskSize).2, ?_⟩
    have e1 : onZim (Zim.markFree a.zim.header.mimeListPosition a.mimeSize) a = (.ok (), { a with zim := { a.zim with
        space := a.zim.space.markFree a.zim.header.mimeListPosition a.mimeSize } }) := rfl
    rw [PyM.bind_ok e1] at hok
    unfold onZim Zim.allocate at hok
    simp only at hok
    injection hok with h1 h2
    injection h1 with h1
    exact ⟨h2.symm, fun _ => by rw [← h1], fun r hr => by cases hr⟩
  | some r =>
    simp only at hok
    cases hd : decide (a.zim.mimetypes.getDiskSize ≤ r) with
    | false => rw [hd, PyM.require_false_bind] at hok; cases hok
    | true =>
      rw [hd, PyM.require_true_bind] at hok
      injection hok with h1 h2
      injection h1 with h1
      refine ⟨a.zim.space, h2.symm, (fun h => by cases h), fun r' hr => ?_⟩
      injection hr with hr
      subst hr
      exact ⟨h1.symm, rfl, of_decide_eq_true hd⟩

theorem flushMimetypes_ok (h : Parts reserve a rows cs extra) (hd : a.zim.mimetypes.dirty = true)
    (hok : flushMimetypes reserve a = (.ok (), a')) :
    ∃ pos space d,
      (reserve = none → (a.zim.space.markFree a.zim.header.mimeListPosition a.mimeSize).allocate
        a.zim.mimetypes.getDiskSize = (pos, space)) ∧
      (∀ r, reserve = some r → pos = 80 ∧ space = a.zim.space ∧ a.zim.mimetypes.getDiskSize ≤ r) ∧
      a' = { a with
        zim := { a.zim with
          space := space, file := wr a.zim.file pos a.zim.mimetypes.toBytes
          header := { a.zim.header with mimeListPosition := pos, dirty := d }
          mimetypes := { a.zim.mimetypes with dirty := false } }
        mimeSize := a.zim.mimetypes.getDiskSize } ∧
      (d = false → pos = a.zim.header.mimeListPosition ∧ a.zim.header.dirty = false) := by
  have hopen := h.content.rep.isOpen
  have hmut := h.content.rep.headerMutable
  unfold flushMimetypes at hok
  rw [PyM.get_bind, if_pos hd] at hok
  obtain ⟨pos, a1, h1, hok⟩ := PyM.bind_ok_iff.1 hok
  obtain ⟨space, rfl, h2, h3⟩ := placeMimetypes_ok h1
  obtain ⟨d, hs, hd1⟩ := Header.setNat_ok (get := Header.mimeListPosition)
    (put := fun h v => { h with mimeListPosition := v }) hmut rfl pos
  have e3 : onZim (Zim.writeAt pos (.ok a.zim.mimetypes.toBytes)) { a with zim := { a.zim with space := space } } =
      (.ok (), { a with zim := { a.zim with space := space, file := wr a.zim.file pos a.zim.mimetypes.toBytes } }) := by
    unfold onZim
    simp only
    rw [writeAt_ok (z := { a.zim with space := space }) hopen]
  rw [PyM.bind_ok e3] at hok
  have e4 : onZim (Zim.onHeader (fun h => h.setMimeListPosition pos))
      { a with zim := { a.zim with space := space, file := wr a.zim.file pos a.zim.mimetypes.toBytes } } =
      (.ok (), { a with zim := { a.zim with
        space := space, file := wr a.zim.file pos a.zim.mimetypes.toBytes
        header := { a.zim.header with mimeListPosition := pos, dirty := d } } }) := by
    unfold onZim Zim.onHeader Header.setMimeListPosition
    simp only [hs]
  rw [PyM.bind_ok e4, PyM.modify_apply] at hok
  injection hok with _ hok
  exact ⟨pos, space, d, h2, h3, hok.symm, hd1⟩

theorem Parts.flushMimetypes (h : Parts reserve a rows cs extra) (hok : flushMimetypes reserve a = (.ok (), a')) :
    Parts reserve a' rows cs extra ∧ a'.zim.mimetypes.dirty = false ∧ a'.zim.urls = a.zim.urls ∧
      a'.zim.clusters = a.zim.clusters ∧ a'.zim.articles = a.zim.articles ∧
      (a.zim.mimetypes.dirty = false → a' = a) ∧ a'.zim.mimetypes.mimetypes = a.zim.mimetypes.mimetypes := by
  cases hd : a.zim.mimetypes.dirty with
  | false =>
    unfold Archive.flushMimetypes at hok
    rw [PyM.get_bind, if_neg (by simp [hd])] at hok
    cases hok
    exact ⟨h, hd, rfl, rfl, rfl, fun _ => rfl, rfl⟩
  | true =>
  obtain ⟨pos, space, d, hal, hres, ha', hhd⟩ := flushMimetypes_ok h hd hok
  have hsame : SameContent a.zim a'.zim := by rw [ha']; exact ⟨rfl, rfl, rfl, rfl, rfl, rfl, rfl, rfl, rfl⟩
  -- the pieces
  have key : Clustered a'.zim rows cs (fun x => extra x ∨ ∃ p ∈ a'.fixed reserve, InBlock p x) ∧
      (a'.fixed reserve).Pairwise (fun p q => ∀ x, InBlock p x → ¬ InBlock q x) ∧
      (∀ p ∈ a'.fixed reserve, ∀ x, InBlock p x → ¬ extra x) ∧
      Holds a'.zim.file pos a.zim.mimetypes.toBytes ∧
      KeepsBytes (fun x => ∃ q ∈ (a.fixed reserve).eraseIdx 1, InBlock q x) a.zim.file a'.zim.file ∧
      Placed reserve pos a'.mimeSize a.zim.mimetypes.toBytes := by
    cases reserve with
    | none =>
      have hne : a.zim.mimetypes.mimetypes ≠ [] := h.room
      have hsz := MimeTypeList.size_eq hne
      have hfix : a'.fixed none = (a.fixed none).set 1 (pos, a.zim.mimetypes.toBytes.length) := by rw [ha', ← hsz]; rfl
      obtain ⟨h1, h2, h3, h4, h5⟩ := h.content.realloc h.disjoint h.apart (k := 1)
        (p := (a.zim.header.mimeListPosition, a.mimeSize)) (pos := pos) (space := space) rfl a.zim.mimetypes.toBytes
        (by rw [← hsz]; exact hal rfl) hsame (by rw [ha']) (by rw [ha'])
      rw [← hfix] at h1 h2 h3
      exact ⟨h1, h2, h3, h4, h5, by rw [ha']; exact hsz⟩
    | some r =>
      obtain ⟨rfl, rfl, hle⟩ := hres r rfl
      have hle := MimeTypeList.size_le hle h.room
      have hfix : a'.fixed (some r) = a.fixed (some r) := by rw [ha']; rfl
      have hfile : a'.zim.file = wr a.zim.file 80 a.zim.mimetypes.toBytes := by rw [ha']
      rw [hfix]
      have hin : ∀ x, InBlock (80, a.zim.mimetypes.toBytes.length) x → InBlock (80, r) x := by
        intro x hx
        simp only [InBlock] at hx ⊢
        omega
      refine ⟨h.content.overwrite hsame hfile (by rw [ha']) fun x hx => Or.inr ⟨(80, r), by simp [fixed, mimePiece], hin x hx⟩,
        h.disjoint, h.apart, by rw [hfile]; exact holds_wr _ _ _, ?_, rfl, hle⟩
      rw [hfile]
      refine Zim.keepsBytes_wr fun x hq hx => ?_
      obtain ⟨q, hq, hqx⟩ := hq
      have hdis := (List.pairwise_cons.1 (((Zim.perm_cons_eraseIdx (l := a.fixed (some r)) (i := 1) (a := (80, r)) rfl).pairwise_iff
        (fun h x h1 h2 => h x h2 h1)).1 h.disjoint)).1
      exact hdis q hq x (hin x hx) hqx
  obtain ⟨h1, h2, h3, h4, h5, h6⟩ := key
  have hkeep : ∀ {p : Block} {off : Nat} {c : Bytes}, p ∈ (a.fixed reserve).eraseIdx 1 →
      (∀ x, InBlock (off, c.length) x → InBlock p x) → Holds a.zim.file off c → Holds a'.zim.file off c :=
    fun hp hin hh => h5.holds hh fun x h1 h2 => ⟨_, hp, hin x ⟨h1, h2⟩⟩
  refine ⟨⟨h1, h2, h3, ?_, ?_, ?_, ?_, ?_, ?_, ?_⟩, ?_, ?_, ?_, ?_, (fun hh => by cases hh), ?_⟩
  · rw [ha']; exact h.room
  · rw [ha']; exact h.version
  · rw [ha']; exact h.listable
  · intro hd'
    have hd' : d = false := by rw [ha'] at hd'; exact hd'
    obtain ⟨e1, e3⟩ := hhd hd'
    obtain ⟨c, hc, hh⟩ := h.header e3
    refine ⟨c, ?_, hkeep (p := (0, 80)) (by simp [fixed]) (by rw [Header.toBytes_length hc]; exact fun x hx => hx) hh⟩
    rw [← hc, ha', hd', e1, ← e3]
  · intro _
    have e1 : a'.zim.mimetypes.toBytes = a.zim.mimetypes.toBytes := by rw [ha']; rfl
    have e2 : a'.zim.header.mimeListPosition = pos := by rw [ha']
    rw [e1, e2]
    exact ⟨h4, h6⟩
  · intro hd'
    rw [ha'] at hd'
    obtain ⟨c, hc, hh, e1, e2⟩ := h.urls hd'
    have := hkeep (p := (a.zim.header.urlPointerPosition, a.urlSize)) (by simp [fixed])
      (by rw [PointerList.toBytes_length (by omega) hc, e2]; exact fun x hx => hx) hh
    rw [ha'] at this ⊢
    exact ⟨c, hc, this, e1, e2⟩
  · intro hd'
    rw [ha'] at hd'
    obtain ⟨c, hc, hh, e1, e2⟩ := h.clusters hd'
    have := hkeep (p := (a.zim.header.clusterPointerPosition, a.clusterSize)) (by simp [fixed])
      (by rw [PointerList.toBytes_length (by omega) hc, e2]; exact fun x hx => hx) hh
    rw [ha'] at this ⊢
    exact ⟨c, hc, this, e1, e2⟩
  all_goals rw [ha']

/-- the header -/
theorem flushHeader_ok (h : Parts reserve a rows cs extra) (hok : flushHeader a = (.ok (), a')) :
    ∃ file d, a' = { a with zim := { a.zim with
        file := file
        header := { a.zim.header with checksumPosition := a.zim.space.fileEnd, dirty := false } } } ∧
      (d = false → a.zim.header.checksumPosition = a.zim.space.fileEnd ∧ a.zim.header.dirty = false ∧ file = a.zim.file) ∧
      (d = true → ∃ b, ({ a.zim.header with checksumPosition := a.zim.space.fileEnd } : Header).toBytes = .ok b ∧
        file = wr a.zim.file 0 b) := by
  have hopen := h.content.rep.isOpen
  have hmut := h.content.rep.headerMutable
  unfold flushHeader at hok
  rw [PyM.get_bind] at hok
  obtain ⟨d, hs, hd1⟩ := Header.setNat_ok (get := Header.checksumPosition)
    (put := fun h v => { h with checksumPosition := v }) hmut rfl a.zim.space.fileEnd
  have e1 : onZim (Zim.onHeader (fun h => h.setChecksumPosition a.zim.space.fileEnd)) a = (.ok (), { a with
      zim := { a.zim with header := { a.zim.header with checksumPosition := a.zim.space.fileEnd, dirty := d } } }) := by
    unfold onZim Zim.onHeader Header.setChecksumPosition
    simp only [hs]
  rw [PyM.bind_ok e1, PyM.get_bind] at hok
  cases d with
  | false =>
    simp only [Bool.false_eq_true, if_false, PyM.pure_apply] at hok
    injection hok with _ hok
    obtain ⟨h1, h2⟩ := hd1 rfl
    exact ⟨a.zim.file, false, hok.symm, fun _ => ⟨h1.symm, h2, rfl⟩, fun h => by cases h⟩
  | true =>
    simp only [if_true] at hok
    cases hb : ({ a.zim.header with checksumPosition := a.zim.space.fileEnd, dirty := true } : Header).toBytes with
    | error x =>
      obtain ⟨⟨⟩, a3, h3, hok⟩ := PyM.bind_ok_iff.1 hok
      rw [hb] at h3
      unfold onZim Zim.writeAt at h3
      split at h3 <;> cases h3
    | ok b =>
      rw [hb] at hok
      have e3 : onZim (Zim.writeAt 0 (.ok b)) { a with
          zim := { a.zim with header := { a.zim.header with checksumPosition := a.zim.space.fileEnd, dirty := true } } } =
          (.ok (), { a with zim := { a.zim with
            header := { a.zim.header with checksumPosition := a.zim.space.fileEnd, dirty := true }
            file := wr a.zim.file 0 b } }) := by
        unfold onZim
        simp only
        rw [writeAt_ok (z := { a.zim with
          header := { a.zim.header with checksumPosition := a.zim.space.fileEnd, dirty := true } }) hopen]
      rw [PyM.bind_ok e3, PyM.modify_apply] at hok
      injection hok with _ hok
      exact ⟨wr a.zim.file 0 b, true, hok.symm, (fun h => by cases h), fun _ => ⟨b, hb, rfl⟩⟩

theorem Parts.flushHeader (h : Parts reserve a rows cs extra) (hok : flushHeader a = (.ok (), a')) :
    Parts reserve a' rows cs extra ∧ a'.zim.header.dirty = false ∧ a'.zim.urls = a.zim.urls ∧
      a'.zim.clusters = a.zim.clusters ∧ a'.zim.articles = a.zim.articles ∧ a'.zim.mimetypes = a.zim.mimetypes ∧
      a'.zim.space = a.zim.space ∧ a'.zim.header.checksumPosition = a'.zim.space.fileEnd := by
  obtain ⟨file, d, ha', h1, h2⟩ := flushHeader_ok h hok
  have hsame : SameContent a.zim a'.zim := by rw [ha']; exact ⟨rfl, rfl, rfl, rfl, rfl, rfl, rfl, rfl, rfl⟩
  have hfix : a'.fixed reserve = a.fixed reserve := by rw [ha']; rfl
  have hfile : a'.zim.file = file := by rw [ha']
  have hspace : a'.zim.space = a.zim.space := by rw [ha']
  have key : Clustered a'.zim rows cs (fun x => extra x ∨ ∃ p ∈ a.fixed reserve, InBlock p x) ∧
      (∃ b, a'.zim.header.toBytes = .ok b ∧ Holds a'.zim.file 0 b) ∧
      KeepsBytes (fun x => ∃ q ∈ (a.fixed reserve).eraseIdx 0, InBlock q x) a.zim.file a'.zim.file := by
    cases d with
    | false =>
      obtain ⟨e1, e2, e3⟩ := h1 rfl
      obtain ⟨b, hb, hh⟩ := h.header e2
      refine ⟨h.content.same hsame (by rw [hfile, e3]) hspace, ⟨b, ?_, by rw [hfile, e3]; exact hh⟩,
        by rw [hfile, e3]; exact Zim.KeepsBytes.refl _ _⟩
      rw [← hb, ha', ← e1, ← e2]
    | true =>
      obtain ⟨b, hb, e1⟩ := h2 rfl
      have hl := Header.toBytes_length hb
      have hfile : a'.zim.file = wr a.zim.file 0 b := by rw [hfile, e1]
      refine ⟨h.content.overwrite hsame hfile hspace fun x hx => Or.inr ⟨(0, 80), by simp [fixed], by rw [← hl]; exact hx⟩,
        ⟨b, by rw [ha']; exact hb, by rw [hfile]; exact holds_wr _ _ _⟩, ?_⟩
      rw [hfile]
      refine Zim.keepsBytes_wr fun x hq hx => ?_
      obtain ⟨q, hq, hqx⟩ := hq
      exact (List.pairwise_cons.1 h.disjoint).1 q hq x (by rw [← hl]; exact hx) hqx
  obtain ⟨k1, k2, k3⟩ := key
  have hkeep : ∀ {p : Block} {off : Nat} {c : Bytes}, p ∈ (a.fixed reserve).eraseIdx 0 →
      (∀ x, InBlock (off, c.length) x → InBlock p x) → Holds a.zim.file off c → Holds a'.zim.file off c :=
    fun hp hin hh => k3.holds hh fun x h1 h2 => ⟨_, hp, hin x ⟨h1, h2⟩⟩
  refine ⟨⟨by rw [hfix]; exact k1, by rw [hfix]; exact h.disjoint, by rw [hfix]; exact h.apart, ?_, ?_, ?_, fun _ => k2,
    ?_, ?_, ?_⟩, ?_, ?_, ?_, ?_, ?_, hspace, ?_⟩
  · rw [ha']; exact h.room
  · rw [ha']; exact h.version
  · rw [ha']; exact h.listable
  · intro hd'
    rw [ha'] at hd'
    obtain ⟨e1, e2⟩ := h.mimetypes hd'
    have := hkeep (p := a.mimePiece reserve) (by simp [fixed]) e2.piece e1
    rw [ha'] at this ⊢
    exact ⟨this, e2⟩
  · intro hd'
    rw [ha'] at hd'
    obtain ⟨c, hc, hh, e1, e2⟩ := h.urls hd'
    have := hkeep (p := (a.zim.header.urlPointerPosition, a.urlSize)) (by simp [fixed])
      (by rw [PointerList.toBytes_length (by omega) hc, e2]; exact fun x hx => hx) hh
    rw [ha'] at this ⊢
    exact ⟨c, hc, this, e1, e2⟩
  · intro hd'
    rw [ha'] at hd'
    obtain ⟨c, hc, hh, e1, e2⟩ := h.clusters hd'
    have := hkeep (p := (a.zim.header.clusterPointerPosition, a.clusterSize)) (by simp [fixed])
      (by rw [PointerList.toBytes_length (by omega) hc, e2]; exact fun x hx => hx) hh
    rw [ha'] at this ⊢
    exact ⟨c, hc, this, e1, e2⟩
  all_goals rw [ha']

end Archive
end Pyzim
