import Verif.Lemmas.SetContent
import Verif.Props.Layout

/-!
# Flushing an archive: what it does to the entries and the clusters
-/

namespace Pyzim

namespace Zim
variable {z : Zim} {rows rows' : List Row} {other other' : Nat → Prop}

/-- The entries of an archive are determined by its state. -/
theorem Rep.unique (h : Rep z rows other) (h' : Rep z rows' other') : rows' = rows := by
  have hp := h.urls.symm.trans h'.urls
  clear * - hp h h'
  have key : ∀ l l' : List Row, (∀ r ∈ l, z.entryAt r.1 = .ok r.2) → (∀ r ∈ l', z.entryAt r.1 = .ok r.2) →
      l.map (fun r => (r.1 : Int)) = l'.map (fun r => (r.1 : Int)) → l' = l := by
    intro l
    induction l with
    | nil => intro l' _ _ h; cases l' with
      | nil => rfl
      | cons => cases h
    | cons r l ih =>
      intro l' h1 h2 h
      cases l' with
      | nil => cases h
      | cons r' l' =>
        simp only [List.map_cons, List.cons.injEq] at h
        have e1 := h1 r List.mem_cons_self
        have e2 := h2 r' List.mem_cons_self
        rw [h.1, e2] at e1
        injection e1 with e1
        have e3 : r' = r := Prod.ext (by have := h.1; omega) e1
        rw [e3, ih l' (fun r hr => h1 r (List.mem_cons_of_mem _ hr)) (fun r hr => h2 r (List.mem_cons_of_mem _ hr)) h.2]
  exact key _ _ (fun r hr => h.entryAt hr) (fun r hr => h'.entryAt hr) hp

end Zim

namespace Archive
open SpaceAllocator (InBlock)
open Zim (Row Stored Clustered Works onZim_ok updateChecksum_ok truncateAt)

variable {reserve : Option Nat} {a a' : Archive} {rows : List Row} {cs : List Stored} {extra : Nat → Prop}

/-- `flush` after the content has been written. -/
def restOf (H : Hasher) (short : Nat → Nat → Nat) (chunksize : Nat) (policy : FlushPolicy) : PyM Archive Unit := do
  flushMimetypes policy.reserveMimetypeSpace
  flushClusters
  flushUrls
  flushHeader
  onZim (Zim.updateChecksum H short chunksize)
  let a ← PyM.get
  (if policy.truncate then onZim (Zim.truncateAt (a.zim.header.checksumPosition + 16)) else pure ())
  PyM.modify (fun a => { a with dirty := false })

theorem flushDirty_eq (H : Hasher) (short : Nat → Nat → Nat) (chunksize : Nat) (policy : FlushPolicy)
    (content : PyM Zim Unit) (setContent : Bytes → PyM Zim Unit) :
    flushDirty H short chunksize policy content setContent =
      (onZim content >>= fun _ => onZim (flushArticles setContent) >>= fun _ => restOf H short chunksize policy) := rfl

/-- what flushing the lists does not change -/
structure Same (a a' : Archive) : Prop where
  articles : a'.zim.articles = a.zim.articles
  mimetypes : a'.zim.mimetypes = { a.zim.mimetypes with dirty := a'.zim.mimetypes.dirty }
  redirects : a'.zim.bufferedRedirects = a.zim.bufferedRedirects
  mainpage : a'.zim.bufferedMainpage = a.zim.bufferedMainpage
  main : a'.zim.header.mainPageRaw = a.zim.header.mainPageRaw

theorem Same.refl (a : Archive) : Same a a := ⟨rfl, rfl, rfl, rfl, rfl⟩

theorem Same.trans {b c : Archive} (h : Same a b) (h' : Same b c) : Same a c :=
  ⟨h'.articles.trans h.articles, by rw [h'.mimetypes, h.mimetypes], h'.redirects.trans h.redirects,
    h'.mainpage.trans h.mainpage, h'.main.trans h.main⟩

theorem same_mimetypes (h : Parts reserve a rows cs extra) (hok : Archive.flushMimetypes reserve a = (.ok (), a')) :
    Same a a' := by
  obtain ⟨-, h2, -, -, -, h6, -⟩ := h.flushMimetypes hok
  cases hd : a.zim.mimetypes.dirty with
  | false => rw [h6 hd]; exact Same.refl a
  | true =>
    obtain ⟨pos, space, d, -, -, ha', -⟩ := flushMimetypes_ok h hd hok
    rw [ha']; exact ⟨rfl, rfl, rfl, rfl, rfl⟩

theorem same_clusters (h : Parts reserve a rows cs extra) (hok : Archive.flushClusters a = (.ok (), a')) :
    Same a a' := by
  obtain ⟨-, h2, -, -, -, h6⟩ := h.flushClusters hok
  cases hd : a.zim.clusters.dirty with
  | false => rw [h6 hd]; exact Same.refl a
  | true =>
    obtain ⟨b, pos, space, d, -, -, ha', -⟩ := flushClusters_ok h hd hok
    rw [ha']; exact ⟨rfl, rfl, rfl, rfl, rfl⟩

theorem same_urls (h : Parts reserve a rows cs extra) (hok : Archive.flushUrls a = (.ok (), a')) :
    Same a a' := by
  obtain ⟨-, h2, -, -, -, h6⟩ := h.flushUrls hok
  cases hd : a.zim.urls.dirty with
  | false => rw [h6 hd]; exact Same.refl a
  | true =>
    obtain ⟨b, pos, space, d, -, -, ha', -⟩ := flushUrls_ok h hd hok
    rw [ha']; exact ⟨rfl, rfl, rfl, rfl, rfl⟩

theorem same_header (h : Parts reserve a rows cs extra) (hok : Archive.flushHeader a = (.ok (), a')) :
    Same a a' := by
  obtain ⟨file, d, ha', -⟩ := flushHeader_ok h hok
  rw [ha']; exact ⟨rfl, rfl, rfl, rfl, rfl⟩

theorem Parts.rest {H : Hasher} {md5 : Bytes → Bytes} {short : Nat → Nat → Nat} {chunksize : Nat} {truncate : Bool}
    (hH : H.Computes md5) (hs : Delivering short) (hc : 0 < chunksize)
    (h : Parts reserve a rows cs extra) (hda : a.zim.articles.dirty = false)
    (hok : restOf H short chunksize ⟨truncate, reserve⟩ a = (.ok (), a')) :
    Laid reserve a' rows cs extra ∧ Same a a' ∧ a'.isDirty = false := by
  unfold restOf at hok
  obtain ⟨⟨⟩, a3, e3, hokA⟩ := PyM.bind_ok_iff.1 hok
  obtain ⟨⟨⟩, a4, e4, hokB⟩ := PyM.bind_ok_iff.1 hokA
  obtain ⟨⟨⟩, a5, e5, hokC⟩ := PyM.bind_ok_iff.1 hokB
  obtain ⟨⟨⟩, a6, e6, hokD⟩ := PyM.bind_ok_iff.1 hokC
  obtain ⟨⟨⟩, a7, e7, hokE⟩ := PyM.bind_ok_iff.1 hokD
  rw [PyM.get_bind] at hokE
  obtain ⟨⟨⟩, a8, e8, hokF⟩ := PyM.bind_ok_iff.1 hokE
  rw [PyM.modify_apply] at hokF
  injection hokF with _ hokF
  obtain ⟨p3, m3, u3, c3, ar3, -, -⟩ := h.flushMimetypes e3
  obtain ⟨p4, c4, m4, u4, ar4, -⟩ := p3.flushClusters e4
  obtain ⟨p5, u5, m5, c5, ar5, -⟩ := p4.flushUrls e5
  obtain ⟨p6, h6, u6, c6, ar6, m6, s6, k6⟩ := p5.flushHeader e6
  have hsame := (((same_mimetypes h e3).trans (same_clusters p3 e4)).trans (same_urls p4 e5)).trans (same_header p5 e6)
  obtain ⟨i7, j7⟩ := onZim_ok e7
  obtain ⟨_, hlen, hz7⟩ := updateChecksum_ok hH hs hc i7
  rw [k6] at hz7 hlen
  rw [hz7] at j7
  have hl := hH.length (a6.zim.file.take a6.zim.space.fileEnd)
  have p7 := p6.tail hl
  rw [← j7] at p7
  have hlen7 : a7.zim.file.length = a7.zim.space.fileEnd + 16 := by
    have h16 := p6.content.rep.store.length
    rw [j7]
    show (wr a6.zim.file a6.zim.space.fileEnd _).length = a6.zim.space.fileEnd + 16
    rw [wr_length _ _ (fun h => by rw [h] at hl; simp at hl), hl]
    omega
  have hk7 : a7.zim.header.checksumPosition = a7.zim.space.fileEnd := by rw [j7]; exact k6
  have h8 : a8 = a7 := by
    cases truncate with
    | false =>
      simp only [Bool.false_eq_true, if_false, PyM.pure_apply] at e8
      injection e8 with _ e8
      exact e8.symm
    | true =>
      simp only [if_true] at e8
      obtain ⟨i8, j8⟩ := onZim_ok e8
      unfold truncateAt at i8
      rw [if_neg (by rw [p7.content.rep.isOpen]; simp), hk7, ← hlen7, Nat.sub_self, List.replicate_zero,
        List.append_nil, List.take_length] at i8
      injection i8 with _ i8
      rw [j8, ← i8]
  rw [h8] at hokF
  have hs7 : Same a6 a7 := by rw [j7]; exact ⟨rfl, rfl, rfl, rfl, rfl⟩
  have hall := hsame.trans hs7
  rw [← hokF]
  refine ⟨⟨p7.dirty false, fun _ _ _ _ => ⟨hk7, hlen7⟩⟩, ⟨hall.articles, hall.mimetypes, hall.redirects, hall.mainpage, hall.main⟩, ?_⟩
  have q1 : a7.zim.header.dirty = false := by rw [j7]; exact h6
  have q2 : a7.zim.mimetypes.dirty = false := by rw [j7]; show a6.zim.mimetypes.dirty = false; rw [m6, m5, m4]; exact m3
  have q3 : a7.zim.urls.dirty = false := by rw [j7]; show a6.zim.urls.dirty = false; rw [u6]; exact u5
  have q4 : a7.zim.clusters.dirty = false := by rw [j7]; show a6.zim.clusters.dirty = false; rw [c6, c5]; exact c4
  have q5 : a7.zim.articles.dirty = false := by
    rw [j7]; show a6.zim.articles.dirty = false; rw [ar6, ar5, ar4, ar3]; exact hda
  simp only [isDirty, q1, q2, q3, q4, q5, Bool.or_self]

end Archive

namespace Zim

/-- If nothing is buffered, there is nothing to execute. -/
theorem finalizeOperations_nothing {z : Zim} (blob : Entry → PyM Zim Unit) (depth : Nat) {passes : Nat} (hp : 0 < passes)
    (h1 : z.bufferedRedirects = []) (h2 : z.bufferedMainpage = none) :
    finalizeOperations blob depth passes z = (.ok (), z) := by
  obtain ⟨p, rfl⟩ : ∃ p, passes = p + 1 := ⟨passes - 1, by omega⟩
  have hz : ({ z with bufferedRedirects := [] } : Zim) = z := by rw [← h1]
  have e1 : redirectLoop depth (p + 1) z = (.ok (), z) := by
    unfold redirectLoop
    rw [PyM.get_bind, PyM.modify_bind, h1, hz]
    rw [PyM.bind_ok (show addBuffered depth [] z = (.ok (), z) from rfl), PyM.get_bind, if_neg (by rw [h1]; simp)]
    rfl
  have e2 : applyRedirects depth (p + 1) z = (.ok (), z) := by
    unfold applyRedirects
    rw [PyM.bind_ok e1, PyM.get_bind, h1]
    rfl
  unfold finalizeOperations
  rw [PyM.bind_ok e2]
  unfold applySetMainpageUrl
  rw [PyM.get_bind, h2]
  rfl

end Zim
end Pyzim
