import Verif.Lemmas.CreatorRedirects
import Verif.Spec.Creator

/-!
# An archive filled by strategies: flushing
-/

namespace Pyzim
open Zim (Row Stored Clustered Works Lists Art MimesIn Mirrored catalogue marked Redirect Leads)
open SpaceAllocator (InBlock)

variable {D K : Type} {ML : List Bytes} {reserve : Option Nat} {a a' : Archive}
  {G G' : List (List Sourced)} {rows : List Row} {cs : List Stored} {extra : Nat → Prop} {es : List Entry} {L : Bytes}
  {m0 : Catalogue} {R B : List Redirect}

theorem Zim.MimesIn.same {m m' : MimeTypeList} (h : MimesIn ML m) {d : Bool} (e : m' = { m with dirty := d }) : MimesIn ML m' := by
  rw [e]; exact ⟨h.mutable, h.nodup, h.sub⟩

/-- What a flush of the lists keeps. -/
theorem Core.same {X : Codecs D} {C : Compressors K} {L' : Bytes} {cs' : List Stored} {ext' : Bool} {cl : List Bytes}
    (h : Core gh mp X C ML reserve a G rows cs extra es L m0 R B) (hl : Archive.Laid reserve a' rows cs' extra)
    (hcs : cs'.map Prod.snd = plainBytes ext' [L'] :: cl) (hfit : PlainFits ext' [L'])
    (hG : List.Forall₂ (fun g b => HasBlobs X C b (g.map Prod.snd)) G cl)
    {d d' : Bool} (hm : a'.zim.mimetypes = { a.zim.mimetypes with dirty := d })
    (ha : a'.zim.articles = { a.zim.articles with dirty := d' })
    (hr : a'.zim.bufferedRedirects = B) (hp : a'.zim.bufferedMainpage = mp)
    (hL : a'.zim.articles.toBytes 4 = .ok L') : Core gh mp X C ML reserve a' G rows cs' extra es L' m0 R B := by
  refine ⟨hl, ⟨ext', cl, hcs, hfit, hG⟩, ?_, h.other, h.lists, ?_, h.mimes.same hm, hr, hp, fun _ => hL, h.shown, h.only, ?_⟩
  · exact h.entries.imp fun _ _ h => h.mono (by rw [hm]; exact List.prefix_rfl)
  · rw [ha]
    exact ⟨h.art.mutable, h.art.nonneg, h.art.nodup, h.art.mem, h.art.sorted, h.art.inC, h.art.dom⟩
  · intro r hr hO
    have h1 := h.leads r hr hO
    exact ⟨hl.content.rep.leads_iff.2 (h.laid.content.rep.leads_iff.1 h1.leads), h1.title⟩

/-- flushing once the buffered operations are done -/
theorem Core.flushLists {S : Setup D K} {md5 : Bytes → Bytes} (hS : S.Good md5 reserve)
    (h : Core gh mp S.X S.C ML reserve a G rows cs extra es L m0 R B)
    (hok : (Archive.onZim (Archive.flushArticles (Creator.setListing S)) >>= fun _ =>
      Archive.restOf S.H S.short S.chunksize S.policy) a = (.ok (), a')) :
    ∃ cs' L', Core gh mp S.X S.C ML reserve a' G rows cs' extra es L' m0 R B ∧ a'.isDirty = false ∧
      a'.zim.mimetypes.mimetypes = a.zim.mimetypes.mimetypes ∧
      a'.zim.header.mainPageRaw = a.zim.header.mainPageRaw := by
  obtain ⟨ext, cl, f1, f2, f3⟩ := h.first
  obtain ⟨⟨⟩, a2, h2, hrest⟩ := PyM.bind_ok_iff.1 hok
  clear hok
  have hpol : S.policy = ⟨S.policy.truncate, reserve⟩ := by rw [← hS.policy]
  rw [hpol] at hrest
  cases hd : a.zim.articles.dirty with
  | false =>
    have e2 : a2 = a := by
      unfold Archive.onZim Archive.flushArticles at h2
      rw [PyM.get_bind, if_neg (by rw [hd]; simp), PyM.pure_apply] at h2
      injection h2 with _ h2
      exact h2.symm
    subst e2
    obtain ⟨g1, g2, g3⟩ := h.laid.toParts.rest hS.hasher hS.short hS.chunksize hd hrest
    refine ⟨cs, L, ?_, g3, by rw [g2.mimetypes], g2.main⟩
    exact h.same g1 f1 f2 f3 g2.mimetypes (d' := false) (by rw [g2.articles, ← hd]) (g2.redirects.trans h.redirects)
      (g2.mainpage.trans h.mainpage) (by rw [g2.articles]; exact h.listed hd)
  | true =>
    obtain ⟨off, hcs⟩ : ∃ off, cs[0]? = some (off, plainBytes ext [L]) := by
      cases cs with
      | nil => cases f1
      | cons c cs =>
        rw [List.map_cons] at f1
        injection f1 with f1 _
        exact ⟨c.1, by rw [← f1]; rfl⟩
    unfold Archive.onZim Archive.flushArticles at h2
    rw [PyM.get_bind, if_pos hd] at h2
    cases hb : a.zim.articles.toBytes 4 with
    | error x => rw [hb] at h2; cases h2
    | ok b =>
    rw [hb, PyM.lift_ok_bind] at h2
    obtain ⟨e, he1, he2, he3⟩ := h.listing
    have hlen := toBytes_length h.art.nodup hb
    obtain ⟨z', off', ext', s1, s2, s3⟩ := Zim.setContent_plain hS.passthrough
      (hS.plain.works.imp fun _ h => h.1) h.laid.content hcs f2 he2 he3 (by simp)
      (src := (BlobSourceObj.inMemory b).toSource) (c := b) (Blob.C52_pieces_complete (.inMemory b) trivial)
      (by simp; omega) S.kind S.calls
    have hset : Creator.setListing S b a.zim = (.ok (), z') := by
      unfold Creator.setListing
      rw [PyM.get_bind, he1, PyM.lift_ok_bind]
      exact s1
    rw [PyM.bind_ok hset, PyM.modify_apply] at h2
    injection h2 with _ h2
    simp only at h2
    have hw : Works (ClusterObj.ops S.X S.C) a.zim cs z' (cs.set 0 (off', plainBytes ext' [b])) :=
      .step .refl (.cluster s3)
    obtain ⟨w1, w2, -, -⟩ := h.laid.content.write s3
    obtain ⟨rows', p1, -⟩ := h.laid.toParts.works hw
    have hr : rows' = rows := Zim.Rep.unique w1.rep p1.content.rep
    subst hr
    have p2 := p1.articles { z'.articles with dirty := false }
    simp only at p2
    rw [h2] at p2
    have hart : a2.zim.articles = { a.zim.articles with dirty := false } := by rw [← h2, ← w2.articles]
    obtain ⟨g1, g2, g3⟩ := p2.rest hS.hasher hS.short hS.chunksize (by rw [hart]) hrest
    refine ⟨cs.set 0 (off', plainBytes ext' [b]), b, ?_, g3, by
      rw [g2.mimetypes, ← h2]
      show z'.mimetypes.mimetypes = _
      rw [w2.mimetypes], by
      rw [g2.main, ← h2]
      show z'.header.mainPageRaw = _
      rw [w2.header]⟩
    refine h.same g1 (ext' := ext') (cl := cl) ?_ s2 f3 (d' := false) ?_ ?_ ?_ ?_ ?_ (d := a'.zim.mimetypes.dirty)
    · cases cs with
      | nil => cases f1
      | cons c cs =>
        rw [List.map_cons] at f1
        injection f1 with _ f1
        simp [f1]
    · rw [g2.mimetypes, ← h2]
      simp only
      rw [w2.mimetypes]
    · rw [g2.articles, hart]
    · rw [g2.redirects, ← h2]; exact w2.redirects.trans h.redirects
    · rw [g2.mainpage, ← h2]; exact w2.mainpage.trans h.mainpage
    · rw [g2.articles, hart]; exact hb

theorem Core.flush {S : Setup D K} {md5 : Bytes → Bytes} (hS : S.Good md5 reserve)
    (h : Core gh none S.X S.C ML reserve a G rows cs extra es L m0 R B) (hn : NewSources es m0 B)
    (hok : Archive.flushDirty S.H S.short S.chunksize S.policy (Zim.finalizeOperations S.blob S.depth S.passes)
      (Creator.setListing S) a = (.ok (), a')) :
    ∃ rows' cs' L' m0' R', Core gh none S.X S.C ML reserve a' G rows' cs' extra es L' m0' (R ++ R') [] ∧ a'.isDirty = false ∧
      a'.zim.mimetypes.mimetypes = a.zim.mimetypes.mimetypes ∧ R'.Perm B := by
  rw [Archive.flushDirty_eq] at hok
  obtain ⟨⟨⟩, a1, h1, hok⟩ := PyM.bind_ok_iff.1 hok
  unfold Archive.onZim at h1
  cases hfin : Zim.finalizeOperations S.blob S.depth S.passes a.zim with
  | mk res Z1 =>
  rw [hfin] at h1
  injection h1 with h1 h1'
  simp only at h1
  subst h1
  obtain ⟨rows1, m1, R1, hc, hmt, hperm⟩ := h.finalize hn hfin
  rw [show ({ a with zim := Z1 } : Archive) = a1 from h1'] at hc
  have hmt' : a1.zim.mimetypes.mimetypes = a.zim.mimetypes.mimetypes := by rw [← hmt, ← h1']
  obtain ⟨cs', L', k1, k2, k3, -⟩ := hc.flushLists hS hok
  exact ⟨rows1, cs', L', m1, R1, k1, k2, k3.trans hmt', hperm⟩

end Pyzim
