import Verif.Lemmas.Entry

/-!
# Properties C14–C16: entries
-/

namespace Pyzim.Entry

/-! ## C14, C15: round trips -/

/-- The entry can be stored: numbers fit their fields, the namespace is one byte, the strings
contain no zero byte and the title is set. -/
structure Storable (e : Entry) : Prop where
  ns : (encode e.ns).length = 1
  url : (0 : UInt8) ∉ encode e.url
  title : ∃ t, e.titleRaw = some t ∧ (0 : UInt8) ∉ encode t
  mimetype : e.mimetypeId < 2 ^ 16
  numbers : match e.kind with
    | .content c b => c < 2 ^ 32 ∧ b < 2 ^ 32
    | .redirect i => i < 2 ^ 32

/-- The entry as a freshly read object. -/
def fresh (e : Entry) : Entry :=
  { e with oldFullUrl := some e.fullUrl, forceIsArticle := none, dirty := false, mutable := true }

theorem toBytes_ok_iff (e : Entry) :
    (∃ b, e.toBytes = .ok b) ↔ (∃ h, e.packHead = .ok h) ∧ ∃ t, e.titleRaw = some t := by
  unfold toBytes
  cases e.packHead with
  | error x => simp
  | ok d => cases e.titleRaw <;> simp

theorem packHead_ok (e : Entry) (hs : Storable e) : ∃ h, e.packHead = .ok h := by
  unfold packHead
  have h1 := hs.ns
  have h4 := hs.mimetype
  have h5 := hs.numbers
  cases hk : e.kind with
  | content c b =>
    rw [hk] at h5
    simp only at h5 ⊢
    obtain ⟨d, hd, _⟩ := Fmt.pack_ok (fs := formatMT ++ formatContent)
      (vs := [.int e.mimetypeId, .int 0, .raw (encode e.ns), .int 0, .int c, .int b]) (by
        simp only [formatMT, formatContent, List.cons_append, List.nil_append, Fmt.FitsAll, Fmt.Fits]
        refine ⟨?_, ?_, h1, ?_, ?_, ?_, trivial⟩ <;> omega)
    exact ⟨d, hd⟩
  | redirect i =>
    rw [hk] at h5
    simp only at h5 ⊢
    obtain ⟨d, hd, _⟩ := Fmt.pack_ok (fs := formatMT ++ formatRedirect)
      (vs := [.int e.mimetypeId, .int 0, .raw (encode e.ns), .int 0, .int i]) (by
        simp only [formatMT, formatRedirect, List.cons_append, List.nil_append, Fmt.FitsAll, Fmt.Fits]
        refine ⟨?_, ?_, h1, ?_, ?_, trivial⟩ <;> omega)
    exact ⟨d, hd⟩

/-- Serialization never truncates: what can be serialized has fitting numbers and a namespace of
one byte. -/
theorem packHead_fits (e : Entry) (h : Bytes) (hh : e.packHead = .ok h) :
    (encode e.ns).length = 1 ∧ e.mimetypeId < 2 ^ 16 ∧
    (match e.kind with
      | .content c b => c < 2 ^ 32 ∧ b < 2 ^ 32
      | .redirect i => i < 2 ^ 32) := by
  unfold packHead at hh
  cases hk : e.kind with
  | content c b =>
    rw [hk] at hh
    have := Fmt.pack_fits hh
    simp only [formatMT, formatContent, List.cons_append, List.nil_append, Fmt.FitsAll, Fmt.Fits] at this
    simp only
    omega
  | redirect i =>
    rw [hk] at hh
    have := Fmt.pack_fits hh
    simp only [formatMT, formatRedirect, List.cons_append, List.nil_append, Fmt.FitsAll, Fmt.Fits] at this
    simp only
    omega

/-- The number of bytes written is `get_disk_size`. -/
theorem size_eq (e : Entry) (b : Bytes) (hb : e.toBytes = .ok b) : b.length = e.getDiskSize := by
  unfold toBytes at hb
  split at hb
  · cases hb
  · rename_i d hd
    split at hb
    · cases hb
    · rename_i t ht
      injection hb with hb
      subst hb
      have hlen : d.length = Fmt.calcsize formatMT + (match e.kind with
          | .content _ _ => Fmt.calcsize formatContent
          | .redirect _ => Fmt.calcsize formatRedirect) := by
        unfold packHead at hd
        cases hk : e.kind with
        | content c b => rw [hk] at hd; rw [(Fmt.unpack_pack hd).2]; rfl
        | redirect i => rw [hk] at hd; rw [(Fmt.unpack_pack hd).2]; rfl
      have htl : (if t = "" then 1 else (encode e.title).length + 1) = (encode t).length + 1 := by
        simp only [ht, title]
        by_cases h : t = ""
        · subst h; simp
        · rw [if_neg h, if_neg h]
      unfold getDiskSize
      simp only [ht, htl, List.length_append, hlen, List.length_cons, List.length_nil]
      cases e.kind <;> simp only <;> omega

/-- C14. A content entry with fitting numbers, NUL-free url and title and a mimetype id below
0xffff is written as `get_disk_size` many bytes; reading these from any file at any position, with
anything before and behind, gives the same entry and leaves the file right behind them. -/
theorem C14_round_trip (e : Entry) (hs : Storable e) (c b : Nat) (hk : e.kind = .content c b)
    (hm : e.mimetypeId ≠ 0xffff) (before tail : Bytes) (pos : Nat) :
    ∃ bytes, e.toBytes = .ok bytes ∧ bytes.length = e.getDiskSize ∧
      fromFile ⟨before ++ bytes ++ tail, pos⟩ (some before.length) =
        some (.ok e.fresh, ⟨before ++ bytes ++ tail, before.length + bytes.length⟩) := by
  obtain ⟨t, ht, ht0⟩ := hs.title
  obtain ⟨hd, hhd⟩ := packHead_ok e hs
  have hbytes : e.toBytes = .ok (hd ++ (encode e.url ++ [0]) ++ (encode t ++ [0])) := by
    simp [toBytes, hhd, ht]
  refine ⟨_, hbytes, size_eq e _ hbytes, ?_⟩
  simp only [packHead, hk] at hhd
  obtain ⟨b1, b2, p1, p2, rfl⟩ := Fmt.pack_append (fs := formatMT) (gs := formatContent)
    (vs := [.int e.mimetypeId])
    (ws := [.int 0, .raw (encode e.ns), .int 0, .int c, .int b]) rfl hhd
  obtain ⟨u1, l1⟩ := Fmt.unpack_pack p1
  obtain ⟨u2, l2⟩ := Fmt.unpack_pack p2
  unfold fromFile
  simp only [PyFile.seek]
  generalize hdata : before ++ (b1 ++ b2 ++ (encode e.url ++ [0]) ++ (encode t ++ [0])) ++ tail = data
  have d0 : data.drop before.length = b1 ++ (b2 ++ ((encode e.url ++ [0]) ++ (encode t ++ [0]) ++ tail)) := by
    rw [← hdata]; simp
  rw [PyFile.read_append (f := ⟨data, before.length⟩) d0 l1]
  simp only [u1, Int.toNat_natCast]
  rw [if_neg (by simpa [MIMETYPE_ID_REDIRECT] using hm)]
  have d1 := PyFile.drop_pos (f := ⟨data, before.length⟩) d0 l1
  simp only at d1
  unfold contentFromFile
  rw [PyFile.read_append (f := ⟨data, _⟩) d1 l2]
  simp only [u2, decode_encode]
  have d2 := PyFile.drop_pos (f := ⟨data, _⟩) d1 l2
  simp only at d2
  rw [show (0 : Int).toNat = 0 from rfl, readTail_zero_ok (f := ⟨data, _⟩) hs.url ht0 d2]
  simp only [newContent, and_self, if_true, Int.toNat_natCast]
  simp only [Option.some.injEq, Prod.mk.injEq, Except.ok.injEq, PyFile.mk.injEq, true_and]
  refine ⟨?_, ?_⟩
  · rw [← ht, ← hk]; rfl
  · simp [l1, l2]; omega

/-- C15. The same for redirect entries (whose mimetype id is 0xffff). -/
theorem C15_round_trip (e : Entry) (hs : Storable e) (i : Nat) (hk : e.kind = .redirect i)
    (hm : e.mimetypeId = 0xffff) (before tail : Bytes) (pos : Nat) :
    ∃ bytes, e.toBytes = .ok bytes ∧ bytes.length = e.getDiskSize ∧
      fromFile ⟨before ++ bytes ++ tail, pos⟩ (some before.length) =
        some (.ok e.fresh, ⟨before ++ bytes ++ tail, before.length + bytes.length⟩) := by
  obtain ⟨t, ht, ht0⟩ := hs.title
  obtain ⟨hd, hhd⟩ := packHead_ok e hs
  have hbytes : e.toBytes = .ok (hd ++ (encode e.url ++ [0]) ++ (encode t ++ [0])) := by
    simp [toBytes, hhd, ht]
  refine ⟨_, hbytes, size_eq e _ hbytes, ?_⟩
  simp only [packHead, hk] at hhd
  obtain ⟨b1, b2, p1, p2, rfl⟩ := Fmt.pack_append (fs := formatMT) (gs := formatRedirect)
    (vs := [.int e.mimetypeId])
    (ws := [.int 0, .raw (encode e.ns), .int 0, .int i]) rfl hhd
  obtain ⟨u1, l1⟩ := Fmt.unpack_pack p1
  obtain ⟨u2, l2⟩ := Fmt.unpack_pack p2
  unfold fromFile
  simp only [PyFile.seek]
  generalize hdata : before ++ (b1 ++ b2 ++ (encode e.url ++ [0]) ++ (encode t ++ [0])) ++ tail = data
  have d0 : data.drop before.length = b1 ++ (b2 ++ ((encode e.url ++ [0]) ++ (encode t ++ [0]) ++ tail)) := by
    rw [← hdata]; simp
  rw [PyFile.read_append (f := ⟨data, before.length⟩) d0 l1]
  simp only [u1, Int.toNat_natCast]
  rw [if_pos (by simpa [MIMETYPE_ID_REDIRECT] using hm)]
  have d1 := PyFile.drop_pos (f := ⟨data, before.length⟩) d0 l1
  simp only at d1
  unfold redirectFromFile
  rw [if_neg (by simpa [MIMETYPE_ID_REDIRECT] using hm)]
  rw [PyFile.read_append (f := ⟨data, _⟩) d1 l2]
  simp only [u2, decode_encode]
  have d2 := PyFile.drop_pos (f := ⟨data, _⟩) d1 l2
  simp only at d2
  rw [show (0 : Int).toNat = 0 from rfl, readTail_zero_ok (f := ⟨data, _⟩) hs.url ht0 d2]
  simp only [newRedirect, and_self, if_true, Int.toNat_natCast]
  simp only [Option.some.injEq, Prod.mk.injEq, Except.ok.injEq, PyFile.mk.injEq, true_and]
  refine ⟨?_, ?_⟩
  · rw [← ht, ← hk, show MIMETYPE_ID_REDIRECT = e.mimetypeId from hm.symm]; rfl
  · simp [l1, l2]; omega

/-- C15. Whatever is read from a file: the result is a redirect entry iff the stored mimetype id is
0xffff; so the two kinds are never confused as long as no content entry has this id. -/
theorem C15_kinds (f f' : PyFile) (seek : Option Nat) (e : Entry)
    (h : fromFile f seek = some (.ok e, f')) :
    ((∃ i, e.kind = .redirect i) ↔ e.mimetypeId = 0xffff) ∧
    (e.isRedirect = true ↔ ∃ i, e.kind = .redirect i) := by
  have key : (∃ i, e.kind = .redirect i) ↔ e.mimetypeId = 0xffff := by
    unfold fromFile at h
    simp only at h
    split at h
    · cases h
    · rename_i mt _
      split at h
      · unfold redirectFromFile at h
        rename_i hmt
        rw [if_neg (by simpa using hmt)] at h
        simp only at h
        split at h
        · cases h
        · split at h
          · cases h
          · split at h
            · cases h
            · cases h
            · unfold newRedirect at h
              split at h
              · simp only [Option.some.injEq, Prod.mk.injEq, Except.ok.injEq] at h
                rw [← h.1]
                simp [afterFlushOrRead, MIMETYPE_ID_REDIRECT]
              · cases h
        · cases h
      · unfold contentFromFile at h
        rename_i hmt
        simp only at h
        split at h
        · cases h
        · split at h
          · cases h
          · split at h
            · cases h
            · cases h
            · unfold newContent at h
              split at h
              · simp only [Option.some.injEq, Prod.mk.injEq, Except.ok.injEq] at h
                rw [← h.1]
                simp only [afterFlushOrRead]
                simp
                simpa [MIMETYPE_ID_REDIRECT] using hmt
              · cases h
        · cases h
    · cases h
  refine ⟨key, ?_⟩
  rw [key]
  unfold isRedirect MIMETYPE_ID_REDIRECT
  exact decide_eq_true_iff

/-- C15, finding. A content entry which was given the mimetype id 0xffff (the setter accepts it)
is read back as a redirect entry with a different url. -/
theorem C15_confused_if_mimetype_ffff :
    ∃ (e e' : Entry) (bytes : Bytes) (f' : PyFile),
      e.kind = .content 3 65 ∧ e.url = "a" ∧ (e.setMimetypeId 0xffff).1 = .ok () ∧
      (e.setMimetypeId 0xffff).2.toBytes = .ok bytes ∧
      fromFile ⟨bytes, 0⟩ none = some (.ok e', f') ∧ e'.kind = .redirect 3 ∧ e'.url = "A" := by
  refine ⟨{ mimetypeId := 0, ns := "C", url := "a", titleRaw := some "b", kind := .content 3 65 },
    { mimetypeId := 0xffff, ns := "C", url := "A", titleRaw := some "", kind := .redirect 3,
      oldFullUrl := some "CA" },
    [255, 255, 0, 67, 0, 0, 0, 0, 3, 0, 0, 0, 65, 0, 0, 0, 97, 0, 98, 0],
    ⟨[255, 255, 0, 67, 0, 0, 0, 0, 3, 0, 0, 0, 65, 0, 0, 0, 97, 0, 98, 0], 15⟩,
    rfl, rfl, by decide +kernel, by decide +kernel, ?_, rfl, rfl⟩
  decide +kernel

theorem toBytes_of {e : Entry} {d : Bytes} {t : String} (hd : e.packHead = .ok d)
    (ht : e.titleRaw = some t) :
    e.toBytes = .ok (d ++ (encode e.url ++ [0]) ++ (encode t ++ [0])) := by
  simp [toBytes, hd, ht]

theorem int_toNat_fit {v : Int} {w : Nat} (h : Fmt.Fits (.uint w) (.int v)) :
    ((v.toNat : Nat) : Int) = v := Int.toNat_of_nonneg h.1

/-- C14, C15, other direction: every entry successfully read from a file is serialized as exactly
the bytes it was read from; in particular reading never accepts two encodings of one entry. -/
theorem C14_read_write (f f' : PyFile) (e : Entry) (h : fromFile f none = some (.ok e, f')) :
    ∃ bytes, e.toBytes = .ok bytes ∧ f.data.drop f.pos = bytes ++ f'.data.drop f'.pos ∧
      f'.data = f.data ∧ f'.pos = f.pos + bytes.length := by
  unfold fromFile at h
  simp only at h
  -- the mimetype
  obtain ⟨r1, r2, -⟩ := PyFile.read_spec f (Fmt.calcsize formatMT)
  have r3 : (f.read (Fmt.calcsize formatMT)).2.data = f.data := rfl
  have r4 : (f.read (Fmt.calcsize formatMT)).2.pos =
    f.pos + (f.read (Fmt.calcsize formatMT)).1.length := rfl
  generalize f.read (Fmt.calcsize formatMT) = rd at h r1 r2 r3 r4
  obtain ⟨d1, f1⟩ := rd
  simp only at h r1 r2 r3 r4
  by_cases hl1 : d1.length = Fmt.calcsize formatMT
  rotate_left
  · rw [Fmt.unpack_err hl1] at h; cases h
  obtain ⟨vs1, u1, fit1, p1⟩ := Fmt.unpack_ok hl1
  rw [u1] at h
  split at h
  · rename_i h'; cases h'
  · rename_i mt hmt
    injection hmt with hmt
    subst hmt
    have hmtn : ((mt.toNat : Nat) : Int) = mt := by
      simp only [formatMT, Fmt.FitsAll] at fit1; exact int_toNat_fit fit1.1
    split at h
    · -- redirect
      rename_i hred
      unfold redirectFromFile at h
      rw [if_neg (by simpa using hred)] at h
      simp only at h
      obtain ⟨q1, q2, -⟩ := PyFile.read_spec f1 (Fmt.calcsize formatRedirect)
      have q3 : (f1.read (Fmt.calcsize formatRedirect)).2.data = f1.data := rfl
      have q4 : (f1.read (Fmt.calcsize formatRedirect)).2.pos =
        f1.pos + (f1.read (Fmt.calcsize formatRedirect)).1.length := rfl
      generalize f1.read (Fmt.calcsize formatRedirect) = rd at h q1 q2 q3 q4
      obtain ⟨d2, f2⟩ := rd
      simp only at h q1 q2 q3 q4
      by_cases hl2 : d2.length = Fmt.calcsize formatRedirect
      rotate_left
      · rw [Fmt.unpack_err hl2] at h; cases h
      obtain ⟨vs2, u2, fit2, p2⟩ := Fmt.unpack_ok hl2
      rw [u2] at h
      split at h
      · rename_i h'; cases h'
      · rename_i np ns rev ri hvs
        injection hvs with hvs
        subst hvs
        split at h
        · cases h
        · rename_i nss hns
          split at h
          · cases h
          · cases h
          · rename_i url title ps f3 htail
            unfold newRedirect at h
            rw [← hred] at h
            split at h
            rotate_left
            · cases h
            rename_i hcond
            obtain ⟨hrev, hps⟩ := hcond
            simp only [Option.some.injEq, Prod.mk.injEq, Except.ok.injEq] at h
            obtain ⟨rfl, rfl⟩ := h
            obtain ⟨t1, t2, t3, t4, t5, t6⟩ := readTail_inv htail hps
            simp only [formatRedirect, Fmt.FitsAll] at fit2
            have e1 := int_toNat_fit fit2.1
            have e2 := int_toNat_fit fit2.2.2.1
            have e3 := int_toNat_fit fit2.2.2.2.1
            rw [t1] at e1; rw [hrev] at e2
            have hns' := encode_of_decode hns
            refine ⟨d1 ++ d2 ++ (encode url ++ [0]) ++ (encode title ++ [0]), ?_, ?_, ?_, ?_⟩
            · have hp : packHead (afterFlushOrRead ⟨mt.toNat, nss, url, some title,
                  .redirect ri.toNat, none, none, false, true⟩) = .ok (d1 ++ d2) := by
                unfold packHead afterFlushOrRead
                simp only
                rw [hns', hmtn, e3]
                have := Fmt.pack_append_ok p1 p2
                rw [← e1, ← e2] at this
                exact this
              exact toBytes_of hp rfl
            · rw [r1, q1, t4]; simp
            · rw [t5, q3, r3]
            · rw [t6, q4, r4]; simp; omega
      · cases h
    · -- content
      unfold contentFromFile at h
      simp only at h
      obtain ⟨q1, q2, -⟩ := PyFile.read_spec f1 (Fmt.calcsize formatContent)
      have q3 : (f1.read (Fmt.calcsize formatContent)).2.data = f1.data := rfl
      have q4 : (f1.read (Fmt.calcsize formatContent)).2.pos =
        f1.pos + (f1.read (Fmt.calcsize formatContent)).1.length := rfl
      generalize f1.read (Fmt.calcsize formatContent) = rd at h q1 q2 q3 q4
      obtain ⟨d2, f2⟩ := rd
      simp only at h q1 q2 q3 q4
      by_cases hl2 : d2.length = Fmt.calcsize formatContent
      rotate_left
      · rw [Fmt.unpack_err hl2] at h; cases h
      obtain ⟨vs2, u2, fit2, p2⟩ := Fmt.unpack_ok hl2
      rw [u2] at h
      split at h
      · rename_i h'; cases h'
      · rename_i np ns rev cn bn hvs
        injection hvs with hvs
        subst hvs
        split at h
        · cases h
        · rename_i nss hns
          split at h
          · cases h
          · cases h
          · rename_i url title ps f3 htail
            unfold newContent at h
            split at h
            rotate_left
            · cases h
            rename_i hcond
            obtain ⟨hrev, hps⟩ := hcond
            simp only [Option.some.injEq, Prod.mk.injEq, Except.ok.injEq] at h
            obtain ⟨rfl, rfl⟩ := h
            obtain ⟨t1, t2, t3, t4, t5, t6⟩ := readTail_inv htail hps
            simp only [formatContent, Fmt.FitsAll] at fit2
            have e1 := int_toNat_fit fit2.1
            have e2 := int_toNat_fit fit2.2.2.1
            have e3 := int_toNat_fit fit2.2.2.2.1
            have e4 := int_toNat_fit fit2.2.2.2.2.1
            rw [t1] at e1; rw [hrev] at e2
            have hns' := encode_of_decode hns
            refine ⟨d1 ++ d2 ++ (encode url ++ [0]) ++ (encode title ++ [0]), ?_, ?_, ?_, ?_⟩
            · have hp : packHead (afterFlushOrRead ⟨mt.toNat, nss, url, some title,
                  .content cn.toNat bn.toNat, none, none, false, true⟩) = .ok (d1 ++ d2) := by
                unfold packHead afterFlushOrRead
                simp only
                rw [hns', hmtn, e3, e4]
                have := Fmt.pack_append_ok p1 p2
                rw [← e1, ← e2] at this
                exact this
              exact toBytes_of hp rfl
            · rw [r1, q1, t4]; simp
            · rw [t5, q3, r3]
            · rw [t6, q4, r4]; simp; omega
      · cases h
  · cases h

/-- C14, C15. What is serialized at all is serialized without loss of digits: a number that does
not fit its field, or a namespace that is not one byte, makes serialization fail. -/
theorem C14_no_truncation (e : Entry) (b : Bytes) (h : e.toBytes = .ok b) :
    (encode e.ns).length = 1 ∧ e.mimetypeId < 2 ^ 16 ∧
    (match e.kind with
      | .content c b => c < 2 ^ 32 ∧ b < 2 ^ 32
      | .redirect i => i < 2 ^ 32) ∧ b.length = e.getDiskSize := by
  obtain ⟨⟨hd, hhd⟩, _⟩ := (toBytes_ok_iff e).1 ⟨b, h⟩
  obtain ⟨h1, h2, h3⟩ := packHead_fits e hd hhd
  exact ⟨h1, h2, h3, size_eq e b h⟩

/-- a content entry and a redirect entry meeting the hypotheses -/
def sampleContent : Entry :=
  { mimetypeId := 4, ns := "C", url := "größe/π.html", titleRaw := some "Größe", kind := .content 7 70000 }
def sampleRedirect : Entry :=
  { mimetypeId := 0xffff, ns := "C", url := "old", titleRaw := some "", kind := .redirect 12 }

example : Storable sampleContent ∧ sampleContent.mimetypeId ≠ 0xffff := by
  refine ⟨⟨by decide +kernel, by decide +kernel, ⟨_, rfl, by decide +kernel⟩, by decide, by simp [sampleContent]⟩, by decide⟩
example : Storable sampleRedirect ∧ sampleRedirect.mimetypeId = 0xffff := by
  refine ⟨⟨by decide +kernel, by decide +kernel, ⟨_, rfl, by decide +kernel⟩, by decide, by simp [sampleRedirect]⟩, by decide⟩

/-! ## C16: attributes -/

/-- C16. The title is the stored title unless that is empty or missing; then it is the url. -/
theorem C16_title (e : Entry) :
    (e.titleRaw = none ∨ e.titleRaw = some "" → e.title = e.url) ∧
    (∀ t, e.titleRaw = some t → t ≠ "" → e.title = t) := by
  constructor
  · rintro (h | h) <;> simp [title, h]
  · intro t h ht; simp [title, h, ht]

/-- the decoded argument of a setter, if it can be decoded -/
def _root_.Pyzim.StrArg.text : StrArg → Option String
  | .str s => some s
  | .bytes b => (decode b).toOption

theorem both_spec (v : StrArg) (s : String) (hv : v.text = some s) : v.both = .ok (encode s, s) := by
  cases v with
  | str t => simp [StrArg.text] at hv; subst hv; rfl
  | bytes b =>
    simp only [StrArg.text] at hv
    cases hd : decode b with
    | error e => rw [hd] at hv; cases hv
    | ok t =>
      rw [hd] at hv
      simp [Except.toOption] at hv
      subst hv
      simp [StrArg.both, hd, encode_of_decode hd]

/-- C16. The url setter: undecodable bytes and strings with a NUL are rejected without effect, as
is any value on an immutable entry; otherwise exactly the url (and the dirty flag, iff the url
differs) changes. -/
theorem C16_set_url (e : Entry) (v : StrArg) :
    (v.text = none → e.setUrl v = (.error .unicodeError, e)) ∧
    (∀ s, v.text = some s → 0 ∈ encode s → e.setUrl v = (.error .valueError, e)) ∧
    (∀ s, v.text = some s → 0 ∉ encode s → e.mutable = false →
      e.setUrl v = (.error .nonMutable, e)) ∧
    (∀ s, v.text = some s → 0 ∉ encode s → e.mutable = true →
      e.setUrl v = (.ok (), { e with url := s, dirty := e.dirty || decide (s ≠ e.url) })) := by
  refine ⟨?_, ?_, ?_, ?_⟩
  · intro h
    cases v with
    | str s => cases h
    | bytes b =>
      simp only [StrArg.text] at h
      unfold decode at h
      split at h
      · cases h
      · rename_i hv; simp [setUrl, StrArg.both, decode, hv]
  · intro s hs h0; simp [setUrl, both_spec v s hs, h0]
  · intro s hs h0 hm; simp [setUrl, both_spec v s hs, h0, hm]
  · intro s hs h0 hm
    simp only [setUrl, both_spec v s hs, h0, if_false, hm, Bool.not_true, Bool.false_eq_true]
    by_cases he : s = e.url
    · rw [if_neg (by simpa using he)]; cases e; simp_all
    · rw [if_pos he]; simp [he]

/-- C16. The title setter; `None` stands for the empty title. -/
theorem C16_set_title (e : Entry) (v : Option StrArg) :
    ((v.getD (.str "")).text = none → e.setTitle v = (.error .unicodeError, e)) ∧
    (∀ s, (v.getD (.str "")).text = some s → 0 ∈ encode s → e.setTitle v = (.error .valueError, e)) ∧
    (∀ s, (v.getD (.str "")).text = some s → 0 ∉ encode s → e.mutable = false →
      e.setTitle v = (.error .nonMutable, e)) ∧
    (∀ s, (v.getD (.str "")).text = some s → 0 ∉ encode s → e.mutable = true →
      e.setTitle v =
        (.ok (), { e with titleRaw := some s, dirty := e.dirty || decide (some s ≠ e.titleRaw) })) := by
  refine ⟨?_, ?_, ?_, ?_⟩
  · intro h
    unfold setTitle
    cases hv : v.getD (.str "") with
    | str s => rw [hv] at h; cases h
    | bytes b =>
      rw [hv] at h
      simp only [StrArg.text] at h
      unfold decode at h
      split at h
      · cases h
      · rename_i hv; simp [StrArg.both, decode, hv]
  · intro s hs h0; simp [setTitle, both_spec _ s hs, h0]
  · intro s hs h0 hm; simp [setTitle, both_spec _ s hs, h0, hm]
  · intro s hs h0 hm
    simp only [setTitle, both_spec _ s hs, h0, if_false, hm, Bool.not_true, Bool.false_eq_true]
    by_cases he : some s = e.titleRaw
    · rw [if_neg (by simpa using he)]; cases e; simp_all
    · rw [if_pos he]; simp [he]

/-- C16. The namespace setter: values not encoding to one byte are rejected without effect;
leaving namespace C forces the entry not to be an article. -/
theorem C16_set_namespace (e : Entry) (v : StrArg) :
    (v.text = none → e.setNamespace v = (.error .unicodeError, e)) ∧
    (∀ s, v.text = some s → (encode s).length ≠ 1 → e.setNamespace v = (.error .valueError, e)) ∧
    (∀ s, v.text = some s → (encode s).length = 1 → e.mutable = false →
      e.setNamespace v = (.error .nonMutable, e)) ∧
    (∀ s, v.text = some s → (encode s).length = 1 → e.mutable = true →
      e.setNamespace v = (.ok (), if s = e.ns then e else
        { e with ns := s, dirty := true
                 forceIsArticle := if s = "C" then e.forceIsArticle else some false })) := by
  refine ⟨?_, ?_, ?_, ?_⟩
  · intro h
    cases v with
    | str s => cases h
    | bytes b =>
      simp only [StrArg.text] at h
      unfold decode at h
      split at h
      · cases h
      · rename_i hv; simp [setNamespace, StrArg.both, decode, hv]
  · intro s hs h0; simp [setNamespace, both_spec v s hs, h0]
  · intro s hs h0 hm; simp [setNamespace, both_spec v s hs, h0, hm]
  · intro s hs h0 hm
    simp only [setNamespace, both_spec v s hs, h0, hm, Bool.not_true, Bool.false_eq_true, if_false,
      ne_eq, not_true_eq_false]
    by_cases he : s = e.ns
    · rw [if_neg (by simpa using he), if_pos he]
    · rw [if_pos he, if_neg he]
      by_cases hc : s = "C"
      · rw [if_neg (by simpa using hc), if_pos hc]
      · rw [if_pos hc, if_neg hc]

/-- A call of a setter. -/
inductive SetOp
  | mimetypeId (v : Int)
  | namespace (v : StrArg)
  | url (v : StrArg)
  | title (v : Option StrArg)
  | fullUrl (v : StrArg)
  | isArticle (v : Bool)
  | clusterNumber (v : Int)
  | blobNumber (v : Int)
  | redirectIndex (v : Int)
  | flushed

/-- effect of a setter call (or of a flush) -/
def apply (e : Entry) : SetOp → Entry
  | .mimetypeId v => (e.setMimetypeId v).2
  | .namespace v => (e.setNamespace v).2
  | .url v => (e.setUrl v).2
  | .title v => (e.setTitle v).2
  | .fullUrl v => (e.setFullUrl v).2
  | .isArticle v => (e.setIsArticle v).2
  | .clusterNumber v => (e.setClusterNumber v).2
  | .blobNumber v => (e.setBlobNumber v).2
  | .redirectIndex v => (e.setRedirectIndex v).2
  | .flushed => e.afterFlushOrRead

/-- what every history preserves: the namespace is one byte, url and title (if set) have no zero
byte, and only entries of namespace C can be forced to be articles -/
structure Good (e : Entry) : Prop where
  ns : (encode e.ns).length = 1
  url : (0 : UInt8) ∉ encode e.url
  title : ∀ t, e.titleRaw = some t → (0 : UInt8) ∉ encode t
  article : e.forceIsArticle = some true → e.ns = "C"

theorem both_inv {v : StrArg} {b : Bytes} {u : String} (h : v.both = .ok (b, u)) : b = encode u := by
  cases v with
  | str s => simp [StrArg.both] at h; rw [← h.1, h.2]
  | bytes x =>
    simp only [StrArg.both] at h
    cases hd : decode x with
    | error e => rw [hd] at h; cases h
    | ok s =>
      rw [hd] at h
      simp at h
      rw [← h.1, ← h.2, encode_of_decode hd]

theorem setNamespace_good {e : Entry} (g : Good e) (v : StrArg) : Good (e.setNamespace v).2 := by
  unfold setNamespace
  split
  · exact g
  · rename_i b u hb
    have := both_inv hb
    subst this
    split
    · exact g
    · rename_i hl
      split
      · exact g
      · split
        · have hl : (encode u).length = 1 := Classical.not_not.1 hl
          simp only
          split
          · exact ⟨hl, g.url, g.title, fun h => by cases h⟩
          · rename_i hc
            exact ⟨hl, g.url, g.title, fun _ => Classical.not_not.1 hc⟩
        · exact g

theorem setUrl_good {e : Entry} (g : Good e) (v : StrArg) : Good (e.setUrl v).2 := by
  unfold setUrl
  split
  · exact g
  · rename_i b u hb
    have := both_inv hb
    subst this
    split
    · exact g
    · rename_i h0
      split
      · exact g
      · split
        · exact ⟨g.ns, h0, g.title, g.article⟩
        · exact g

theorem apply_good {e : Entry} (g : Good e) (op : SetOp) : Good (e.apply op) := by
  cases op with
  | mimetypeId v =>
    simp only [apply, setMimetypeId]
    repeat' split
    all_goals first | exact g | exact ⟨g.ns, g.url, g.title, g.article⟩
  | «namespace» v => exact setNamespace_good g v
  | url v => exact setUrl_good g v
  | title v =>
    simp only [apply, setTitle]
    split
    · exact g
    · rename_i b u hb
      have := both_inv hb
      subst this
      split
      · exact g
      · rename_i h0
        split
        · exact g
        · split
          · exact ⟨g.ns, g.url, fun t ht => by injection ht with ht; subst ht; exact h0, g.article⟩
          · exact g
  | fullUrl v =>
    simp only [apply, setFullUrl]
    split
    · exact g
    · split
      · exact g
      · rename_i c rest _
        have gn := setNamespace_good g (.str (String.singleton c))
        split
        · rename_i h; rw [h] at gn; exact gn
        · rename_i h; rw [h] at gn; exact setUrl_good gn _
  | isArticle v =>
    simp only [apply, setIsArticle]
    split
    · exact g
    · split
      · exact g
      · rename_i hn
        split
        · refine ⟨g.ns, g.url, g.title, fun h => ?_⟩
          injection h with h
          subst h
          exact Classical.byContradiction fun hc => hn ⟨rfl, hc⟩
        · exact g
  | clusterNumber v =>
    simp only [apply, setClusterNumber]
    repeat' split
    all_goals first | exact g | exact ⟨g.ns, g.url, g.title, g.article⟩
  | blobNumber v =>
    simp only [apply, setBlobNumber]
    repeat' split
    all_goals first | exact g | exact ⟨g.ns, g.url, g.title, g.article⟩
  | redirectIndex v =>
    simp only [apply, setRedirectIndex]
    repeat' split
    all_goals first | exact g | exact ⟨g.ns, g.url, g.title, g.article⟩
  | flushed => exact ⟨g.ns, g.url, g.title, g.article⟩

/-- C16. After any sequence of setter calls and flushes the namespace is one byte, url and title
contain no NUL, and the entry is not reported as an article unless it is in namespace C. -/
theorem C16_histories (e : Entry) (g : Good e) (ops : List SetOp) :
    Good (ops.foldl apply e) ∧
    ∀ lookup, (ops.foldl apply e).isArticle lookup = .ok true → (ops.foldl apply e).ns = "C" := by
  have key : Good (ops.foldl apply e) := by
    induction ops generalizing e with
    | nil => exact g
    | cons op ops ih => exact ih _ (apply_good g op)
  refine ⟨key, ?_⟩
  intro lookup h
  generalize ops.foldl apply e = e' at *
  unfold isArticle at h
  split at h
  · rename_i b hb
    injection h with h
    subst h
    exact key.article hb
  · split at h
    · cases h
    · split at h
      · cases h
      · rename_i hn; exact Classical.not_not.1 hn

/-- C16. Everything read from a file is such an entry. -/
theorem C16_read_good (f f' : PyFile) (e : Entry) (h : fromFile f none = some (.ok e, f')) :
    (encode e.ns).length = 1 := by
  obtain ⟨b, hb, _⟩ := C14_read_write f f' e h
  exact (C14_no_truncation e b hb).1

/-- C16. The full url is namespace followed by url, and it determines both. -/
theorem C16_full_url (e e' : Entry) (h : (encode e.ns).length = 1) (h' : (encode e'.ns).length = 1) :
    encode e.fullUrl = encode e.ns ++ encode e.url ∧
    (e.fullUrl = e'.fullUrl ↔ e.ns = e'.ns ∧ e.url = e'.url) := by
  refine ⟨encode_append _ _, fun hf => append_inj_of_one_byte h h' hf, ?_⟩
  rintro ⟨h1, h2⟩
  unfold fullUrl
  rw [h1, h2]

/-- C16. Setting the full url sets both parts, and reading it back returns it. -/
theorem C16_set_full_url (e : Entry) (hm : e.mutable = true) (ns url : String)
    (hns : (encode ns).length = 1) (hurl : (0 : UInt8) ∉ encode url) :
    (e.setFullUrl (.str (ns ++ url))).1 = .ok () ∧
    (e.setFullUrl (.str (ns ++ url))).2.ns = ns ∧ (e.setFullUrl (.str (ns ++ url))).2.url = url ∧
    (e.setFullUrl (.str (ns ++ url))).2.fullUrl = ns ++ url := by
  obtain ⟨c, hc, hsz⟩ := encode_length_one hns
  have hl : (ns ++ url).toList = c :: url.toList := by simp [hc]
  have key : ∃ e1 : Entry, e.setNamespace (.str (String.singleton c)) = (.ok (), e1) ∧ e1.ns = ns ∧
      e1.mutable = true := by
    have := (C16_set_namespace e (.str ns)).2.2.2 ns rfl hns hm
    rw [hc] at this
    refine ⟨_, this, ?_, ?_⟩
    · split
      · rename_i h; rw [hc]; exact h.symm
      · exact hc.symm
    · split
      · exact hm
      · exact hm
  obtain ⟨e1, h1, h2, h3⟩ := key
  have hu := (C16_set_url e1 (.str url)).2.2.2 url rfl hurl h3
  have : e.setFullUrl (.str (ns ++ url)) =
      (.ok (), { e1 with url := url, dirty := e1.dirty || decide (url ≠ e1.url) }) := by
    unfold setFullUrl
    simp only [hl, h1, String.ofList_toList]
    exact hu
  rw [this]
  refine ⟨rfl, h2, rfl, ?_⟩
  simp only [fullUrl, h2]

/-- C16, finding. Setting the full url is not atomic: if the url part is rejected, the namespace
has been changed already. -/
theorem C16_set_full_url_not_atomic :
    ∃ e : Entry, (e.setFullUrl (.str "A\x00")).1 = .error .valueError ∧
      (e.setFullUrl (.str "A\x00")).2 ≠ e := by
  refine ⟨sampleContent, by decide +kernel, by decide +kernel⟩

example : Good sampleContent := by
  refine ⟨by decide +kernel, by decide +kernel, ?_, by decide⟩
  intro t ht
  injection ht with ht
  subst ht
  decide +kernel
example : (([SetOp.isArticle true, .fullUrl (.str "Mtitle"), .isArticle true,
    .namespace (.bytes [67])] : List SetOp).foldl apply sampleContent).forceIsArticle = some false := by
  decide +kernel

end Pyzim.Entry
