import Verif.Lemmas.FlushTotal
import Verif.Lemmas.CreatorCrash
import Verif.Model.Interrupted

/-!
# A flush that is not finished
-/

namespace Pyzim
open Zim (Row Stored Clustered Lists Art MimesIn Mirrored catalogue marked Redirect Stays KeepsBytes InRow InCluster Works)
open SpaceAllocator (InBlock)

variable {D K : Type} {X : Codecs D} {C : Compressors K} {ML : List Bytes} {reserve : Option Nat} {a a0 a' : Archive}
  {G G' : List (List Sourced)} {rows rows0 : List Row} {cs cs0 : List Stored} {extra extra0 : Nat → Prop} {es es0 : List Entry}
  {L L0 : Bytes} {m0 m1 : Catalogue} {R B R' B' : List Redirect} {d : Nat}

/-- flushing a strategy only adds -/
theorem Core.flushStrategy_onward {t : CompressionType} {mx : Int} {P : List Sourced} {s s' : Strategy D} {Z' : Zim} {depth : Nat}
    (W : Working X C t) (h : Core false none X C ML reserve a G rows cs extra es L m0 R B) (hw : s.Waits X t mx a.zim.mimetypes P) (hf : s.Fit)
    (hh : NotHuge P) (ho : ∀ q ∈ P, q.1.fullUrl ≠ URL_ARTICLES)
    (hok : Strategy.flushOn (Zim.backend X C depth) (s, a.zim) = (.ok (), (s', Z'))) :
    ∃ rows' cs' es' G', Core false none X C ML reserve { a with zim := Z' } (G ++ G') rows' cs' extra es' L m0 R B ∧
      G'.flatten.Perm P ∧ Z'.mimetypes = a.zim.mimetypes ∧
      Onward reserve (fun _ => False) a rows cs extra es { a with zim := Z' } rows' cs' es' := by
  obtain ⟨z', h1, h2, h3⟩ := Mirrored.flush (h.mirrored (C := C)) hf hok
  obtain ⟨s'', z'', G', g1, g2, g4, g5, g6, -⟩ := Strategy.Waits.flush (z := logOf a cs es) W hw hh
  rw [h1] at g1
  injection g1 with _ g1
  injection g1 with g1 g1'
  subst g1 g1'
  obtain ⟨rows', cs', hc, h4⟩ := h.step h2 g4 (by rw [g2]; exact List.prefix_rfl) (fun q hq => ho q (g6.subset hq))
  exact ⟨rows', cs', _, G', hc, g6, by rw [h2.mimetypes, g2]; rfl, h4⟩

theorem Core.addBuffered_onward (Q : List Redirect) : ∀ {a : Archive} {rows : List Row} {m0 : Catalogue} {R B : List Redirect} {Z' : Zim},
    Core false none X C ML reserve a G rows cs extra es L m0 R B → NewSources es m0 Q → Zim.addBuffered d Q a.zim = (.ok (), Z') →
    ∃ rows' m0' R' U, Core false none X C ML reserve { a with zim := Z' } G rows' cs extra es L m0' (R ++ R') (B ++ U) ∧
      (R' ++ U).Perm Q ∧ U.Sublist Q ∧ (∀ u, u ∉ R'.map (·.1) → m0' u = m0 u) ∧
      Onward reserve (· ∈ Q.map (·.1)) a rows cs extra es { a with zim := Z' } rows' cs es := by
  induction Q with
  | nil =>
    intro a rows m0 R B Z' h _ hok
    injection hok with _ hok
    subst hok
    exact ⟨rows, m0, [], [], by simpa using h, .nil, .slnil, fun _ _ => rfl, .refl⟩
  | cons r Q ih =>
    intro a rows m0 R B Z' h hn hok
    have hmono : ∀ u, (u = r.1 ∨ u ∈ Q.map (·.1)) → u ∈ (r :: Q).map (·.1) := by
      intro u hu
      rw [List.map_cons, List.mem_cons]
      exact hu
    obtain ⟨⟨⟩, Z1, h1, h2⟩ := PyM.bind_ok_iff.1 hok
    rcases h.redirect (hn.valid r (by simp)) (hn.entries r (by simp)) (hn.redirects r (by simp)) h1 with
      ⟨k1, k2, k3⟩ | ⟨rows1, m1, k1, k2, k3, k4⟩
    · obtain ⟨rows', m0', R', U, g1, g3, g4, g5, g6⟩ := ih k1 (hn.tail fun _ _ => rfl) h2
      refine ⟨rows', m0', R', r :: U, by simpa using g1, ?_, g4.cons_cons _, g5, (k3.trans g6).mono hmono⟩
      exact List.perm_middle.trans (g3.cons _)
    · obtain ⟨rows', m0', R', U, g1, g3, g4, g5, g6⟩ := ih k1 (hn.tail k3) h2
      refine ⟨rows', m0', r :: R', U, by simpa using g1, g3.cons _, g4.cons _, ?_, (k4.trans g6).mono hmono⟩
      intro u hu
      rw [List.map_cons, List.mem_cons, not_or] at hu
      rw [g5 u hu.2, k3 u hu.1]

theorem Core.redirectLoop_onward (p : Nat) : ∀ {a : Archive} {rows : List Row} {m0 : Catalogue} {R B : List Redirect} {Z' : Zim},
    Core false none X C ML reserve a G rows cs extra es L m0 R B → NewSources es m0 B → Zim.redirectLoop d p a.zim = (.ok (), Z') →
    ∃ rows' m0' R' U, Core false none X C ML reserve { a with zim := Z' } G rows' cs extra es L m0' (R ++ R') U ∧ (R' ++ U).Perm B ∧
      Onward reserve (· ∈ B.map (·.1)) a rows cs extra es { a with zim := Z' } rows' cs es := by
  induction p with
  | zero => intro a rows m0 R B Z' _ _ hok; cases hok
  | succ p ih =>
    intro a rows m0 R B Z' h hn hok
    rw [Zim.redirectLoop_succ] at hok
    obtain ⟨⟨⟩, Z1, h1, h2⟩ := PyM.bind_ok_iff.1 hok
    rw [h.redirects] at h1
    obtain ⟨rows1, m1, R1, U1, g1, g3, g4, g5, g6⟩ := Core.addBuffered_onward B (h.buffer []) hn h1
    rw [List.nil_append] at g1
    have g7 : Onward reserve (· ∈ B.map (·.1)) a rows cs extra es { a with zim := Z1 } rows1 cs es :=
      ⟨g6.entries, g6.before, g6.stays, g6.bytes, g6.rest, g6.longer, g6.mimes⟩
    rw [PyM.get_bind] at h2
    split at h2
    · have hsub : ∀ r, r ∈ U1 → r ∈ B := fun r hr => g4.subset hr
      obtain ⟨rows', m0', R', U, k1, k3, k4⟩ := ih (Z' := Z') g1 ⟨fun r hr => hn.valid r (hsub r hr), hn.nodup.sublist (g4.map _),
        fun r hr => hn.entries r (hsub r hr), fun r hr => by
          rw [g5]
          · exact hn.redirects r (hsub r hr)
          · intro hm
            have := (g3.map (·.1)).nodup_iff.2 hn.nodup
            rw [List.map_append, List.nodup_append] at this
            exact this.2.2 _ hm _ (List.mem_map_of_mem hr) rfl⟩ h2
      refine ⟨rows', m0', R1 ++ R', U, by rw [← List.append_assoc]; exact k1, ?_, (g7.trans k4).mono ?_⟩
      · rw [List.append_assoc]
        exact (k3.append_left _).trans g3
      · rintro u (hu | hu)
        · exact hu
        · exact (g4.map _).subset hu
    · injection h2 with _ h2
      subst h2
      exact ⟨rows1, m1, R1, U1, g1, g3, g7⟩

/-- writing buffered redirects only adds -/
theorem Core.finalize_onward (h : Core false none X C ML reserve a G rows cs extra es L m0 R B) (hn : NewSources es m0 B)
    {blob : Entry → PyM Zim Unit} {passes : Nat} {Z' : Zim}
    (hok : Zim.finalizeOperations blob d passes a.zim = (.ok (), Z')) :
    ∃ rows' m0' R', Core false none X C ML reserve { a with zim := Z' } G rows' cs extra es L m0' (R ++ R') [] ∧ R'.Perm B ∧
      Onward reserve (· ∈ B.map (·.1)) a rows cs extra es { a with zim := Z' } rows' cs es := by
  unfold Zim.finalizeOperations at hok
  obtain ⟨⟨⟩, Z1, h1, h2⟩ := PyM.bind_ok_iff.1 hok
  unfold Zim.applyRedirects at h1
  obtain ⟨⟨⟩, Z2, h3, h4⟩ := PyM.bind_ok_iff.1 h1
  rw [PyM.get_bind] at h4
  obtain ⟨rows', m0', R', U, g1, g3, g5⟩ := Core.redirectLoop_onward passes h hn h3
  have hU : Z2.bufferedRedirects = U := g1.redirects
  unfold PyM.require at h4
  split at h4
  · rename_i hlen
    rw [hU, decide_eq_true_eq, List.length_eq_zero_iff] at hlen
    injection h4 with _ h4
    subst h4
    unfold Zim.applySetMainpageUrl at h2
    rw [PyM.get_bind, show Z2.bufferedMainpage = none from g1.mainpage] at h2
    injection h2 with _ h2
    subst h2
    subst hlen
    exact ⟨rows', m0', R', g1, by simpa using g3, g5⟩
  · cases h4


variable {S : Setup D K} {c c' c0 : Creator D} {G0 : List (List Sourced)} {rs rs' : List Redirect} {items0 items P1 P2 : List Sourced}

/-- the strategies and the buffered operations only add -/
theorem HasAt.interrupted {md5 : Bytes → Bytes} (hS : S.Good md5 reserve) (h : HasAt false none S ML reserve G0 items rs c G P1 P2)
    (hc : Core false none S.X S.C ML reserve c.arch (G0 ++ G) rows cs extra es L m0 R B) (hB : (R ++ B).Perm rs) (hh : NotHuge items)
    (ho : ∀ q ∈ items, q.1.fullUrl ≠ URL_ARTICLES) (hs : Separate rs G0 items) {n : Nat} (hn : n ≤ 3)
    (hok : Creator.interrupted S n c = (.ok (), c')) :
    ∃ G' rows' cs' es' m0' R' B', Core false none S.X S.C ML reserve c'.arch (G0 ++ (G ++ G')) rows' cs' extra es' L m0' R' B' ∧
      (∀ p ∈ G'.flatten, p ∈ P1 ++ P2) ∧
      Onward reserve (· ∈ B.map (·.1)) c.arch rows cs extra es c'.arch rows' cs' es' ∧
      (n = 3 → G'.flatten.Perm (P1 ++ P2) ∧ B' = [] ∧ (R' ++ B').Perm rs) := by
  obtain ⟨-, ⟨t, mx1, W, hw1⟩, ⟨mx2, hw2⟩, hf1, hf2, hperm, -⟩ := h
  have hn1 : NotHuge P1 := (hh.perm hperm).sublist (by rw [List.append_assoc]; exact List.sublist_append_left _ _)
  have hn2 : NotHuge P2 := (hh.perm hperm).sublist (by
    rw [List.append_assoc]
    exact (List.sublist_append_left _ _).trans (List.sublist_append_right _ _))
  unfold Creator.interrupted Creator.flushParts at hok
  rcases n with _ | n
  · injection hok with _ hok
    subst hok
    exact ⟨[], rows, cs, es, m0, R, B, by simpa using hc, by simp, .refl, by omega⟩
  rw [List.take_succ_cons] at hok
  unfold Creator.runParts at hok
  obtain ⟨⟨⟩, c1, h1, hok1⟩ := PyM.bind_ok_iff.1 hok
  clear hok
  simp only [Creator.onMain, PyM.of_apply] at h1
  cases hr : Strategy.flushOn (Zim.backend S.X S.C S.depth) (c.main, c.arch.zim) with
  | mk r q =>
  obtain ⟨s1, Z1⟩ := q
  rw [hr] at h1
  injection h1 with h1 h1'
  simp only at h1
  subst h1
  obtain ⟨rows1, cs1, es1, G1, g1, g4, g5, g6⟩ := hc.flushStrategy_onward W hw1 hf1 hn1
    (fun q hq => ho q (hperm.subset (by simp [hq]))) hr
  rcases n with _ | n
  · injection hok1 with _ hok1
    rw [← h1'] at hok1
    subst hok1
    refine ⟨G1, rows1, cs1, es1, m0, R, B, by rw [← List.append_assoc]; exact g1, fun p hp => List.mem_append_left _ (g4.subset hp),
      g6.mono fun _ h => h.elim, by omega⟩
  rw [List.take_succ_cons] at hok1
  unfold Creator.runParts at hok1
  obtain ⟨⟨⟩, c2, h2, hok2⟩ := PyM.bind_ok_iff.1 hok1
  clear hok1
  rw [← h1'] at h2
  simp only [Creator.onPlain, PyM.of_apply] at h2
  cases hr2 : Strategy.flushOn (Zim.backend S.X S.C S.depth) (c.plain, Z1) with
  | mk r q =>
  obtain ⟨s2, Z2⟩ := q
  rw [hr2] at h2
  injection h2 with h2 h2'
  simp only at h2
  subst h2
  obtain ⟨rows2, cs2, es2, G2, k1, k4, k5, k6⟩ := g1.flushStrategy_onward hS.plain (by simp only; rw [g5]; exact hw2) hf2 hn2
    (fun q hq => ho q (hperm.subset (by simp [hq]))) hr2
  have hsub : ∀ p ∈ (G1 ++ G2).flatten, p ∈ P1 ++ P2 := by
    intro p hp
    rw [List.flatten_append] at hp
    rcases List.mem_append.1 hp with hp | hp
    · exact List.mem_append_left _ (g4.subset hp)
    · exact List.mem_append_right _ (k4.subset hp)
  rw [List.append_assoc, List.append_assoc] at k1
  have o2 := g6.trans k6
  rcases n with _ | n
  · injection hok2 with _ hok2
    rw [← h2'] at hok2
    subst hok2
    exact ⟨G1 ++ G2, rows2, cs2, es2, m0, R, B, k1, hsub, o2.mono fun _ h => (h.elim id id).elim, by omega⟩
  rcases n with _ | n
  · rw [List.take_succ_cons] at hok2
    unfold Creator.runParts at hok2
    obtain ⟨⟨⟩, c3, h3, hok3⟩ := PyM.bind_ok_iff.1 hok2
    injection hok3 with _ hok3
    subst hok3
    rw [← h2'] at h3
    simp only [Creator.onArch, PyM.of_apply, Archive.onZim] at h3
    cases hr3 : Zim.finalizeOperations S.blob S.depth S.passes Z2 with
    | mk r Z3 =>
    rw [hr3] at h3
    injection h3 with h3 h3'
    simp only at h3
    subst h3
    obtain ⟨rows3, m3, R3, l1, l2, l3⟩ := k1.finalize_onward (k1.newSources hs hB fun p hp => by
      rw [List.flatten_append] at hp
      refine hperm.subset ?_
      rcases List.mem_append.1 hp with hp | hp
      · exact List.mem_append_right _ hp
      · exact List.mem_append_left _ (hsub p hp)) hr3
    subst h3'
    refine ⟨G1 ++ G2, rows3, cs2, es2, m3, R ++ R3, [], l1, hsub, (o2.trans l3).mono fun u h => ?_, fun _ => ⟨?_, rfl, ?_⟩⟩
    · rcases h with h | h
      · exact (h.elim id id).elim
      · exact h
    · rw [List.flatten_append]; exact g4.append k4
    · rw [List.append_nil]; exact (l2.append_left _).trans hB
  · omega

namespace Archive
open Zim (onZim_ok updateChecksum_ok truncateAt)

/-- writing the mimetype list, the pointer lists and the header -/
theorem Parts.lists {a3 a4 a5 a6 : Archive} (h : Parts reserve a rows cs extra) (hda : a.zim.articles.dirty = false)
    (e3 : Archive.flushMimetypes reserve a = (.ok (), a3)) (e4 : Archive.flushClusters a3 = (.ok (), a4))
    (e5 : Archive.flushUrls a4 = (.ok (), a5)) (e6 : Archive.flushHeader a5 = (.ok (), a6)) :
    Parts reserve a6 rows cs extra ∧ Same a a6 ∧ a6.zim.header.checksumPosition = a6.zim.space.fileEnd ∧
      a6.zim.header.dirty = false ∧ a6.zim.mimetypes.dirty = false ∧ a6.zim.urls.dirty = false ∧ a6.zim.clusters.dirty = false := by
  obtain ⟨p3, m3, u3, c3, ar3, -, -⟩ := h.flushMimetypes e3
  obtain ⟨p4, c4, m4, u4, ar4, -⟩ := p3.flushClusters e4
  obtain ⟨p5, u5, m5, c5, ar5, -⟩ := p4.flushUrls e5
  obtain ⟨p6, h6, u6, c6, ar6, m6, s6, k6⟩ := p5.flushHeader e6
  have hsame := (((same_mimetypes h e3).trans (same_clusters p3 e4)).trans (same_urls p4 e5)).trans (same_header p5 e6)
  exact ⟨p6, hsame, k6, h6, by rw [m6, m5, m4]; exact m3, by rw [u6]; exact u5, by rw [c6, c5]; exact c4⟩

/-- the checksum and the end of the file -/
theorem Parts.ending {H : Hasher} {md5 : Bytes → Bytes} {short : Nat → Nat → Nat} {chunksize : Nat}
    (hH : H.Computes md5) (hs : Delivering short) (hc : 0 < chunksize) {a6 a7 : Archive} (p6 : Parts reserve a6 rows cs extra)
    (k6 : a6.zim.header.checksumPosition = a6.zim.space.fileEnd)
    (e7 : onZim (Zim.updateChecksum H short chunksize) a6 = (.ok (), a7)) :
    Parts reserve a7 rows cs extra ∧ a7 = { a6 with zim := { a6.zim with file := a7.zim.file } } ∧
      a7.zim.file.length = a7.zim.space.fileEnd + 16 := by
  obtain ⟨i7, j7⟩ := onZim_ok e7
  obtain ⟨_, hlen, hz7⟩ := updateChecksum_ok hH hs hc i7
  rw [k6] at hz7 hlen
  rw [hz7] at j7
  have hl := hH.length (a6.zim.file.take a6.zim.space.fileEnd)
  have p7 := p6.tail hl
  rw [← j7] at p7
  have hlen7 : a7.zim.file.length = a7.zim.space.fileEnd + 16 := by
    have h16 := p6.content.rep.store.length
    rw [j7]
    show (wr a6.zim.file a6.zim.space.fileEnd _).length = a6.zim.space.fileEnd + 16
    rw [wr_length _ _ (fun h => by rw [h] at hl; simp at hl), hl]
    omega
  exact ⟨p7, by rw [j7], hlen7⟩

end Archive

theorem clusterWrite_longer {K' : Type} {O : ClusterOps K'} {z z' : Zim} {cs' : List Stored} {rest : Nat → Prop}
    (h : Clustered z rows cs rest) (hw : Zim.ClusterWrite O z cs z' cs') : z.file.length ≤ z'.file.length := by
  cases hw with
  | @new c c' chunks num fuel n off _ h1 h2 h3 h4 h5 h6 =>
    obtain ⟨off', c'', z'', e1, e2, e3, e4, -, -, -, e5, -⟩ := h.writeCluster_new (fun x => (h.inUse x).1) h1 h2 h4
      (Zim.writeCluster_num h5) h3
    rw [h5] at e1
    cases e1
    exact e5.longer
  | @replace c c' chunks num fuel n off i old _ h1 h2 h3 h4 h5 h6 h7 h8 h9 =>
    obtain ⟨off', c'', z'', e1, e2, e3, e4, -, -, -, e5, -⟩ := h.writeCluster_old (fun x => (h.inUse x).1) h1 h2 h4 h5 h6
      h7 h3
    rw [h8] at e1
    cases e1
    exact e5.longer

/-- flushing the article title list -/
theorem Core.articles {md5 : Bytes → Bytes} (hS : S.Good md5 reserve) (h : Core false none S.X S.C ML reserve a G rows cs extra es L m0 R B)
    {a2 : Archive} (h2 : Archive.onZim (Archive.flushArticles (Creator.setListing S)) a = (.ok (), a2)) :
    ∃ cs' L' ext' cl, Archive.Parts reserve a2 rows cs' extra ∧ cs'.map Prod.snd = plainBytes ext' [L'] :: cl ∧
      PlainFits ext' [L'] ∧ List.Forall₂ (fun g b => HasBlobs S.X S.C b (g.map Prod.snd)) G cl ∧
      a2.zim.mimetypes = a.zim.mimetypes ∧ a2.zim.articles = { a.zim.articles with dirty := false } ∧
      a2.zim.articles.toBytes 4 = .ok L' ∧
      KeepsBytes (Zim.Used rows cs (restOf reserve a extra)) a.zim.file a2.zim.file ∧
      a.zim.file.length ≤ a2.zim.file.length := by
  obtain ⟨ext, cl, f1, f2, f3⟩ := h.first
  cases hd : a.zim.articles.dirty with
  | false =>
    have e2 : a2 = a := by
      unfold Archive.onZim Archive.flushArticles at h2
      rw [PyM.get_bind, if_neg (by rw [hd]; simp), PyM.pure_apply] at h2
      injection h2 with _ h2
      exact h2.symm
    subst e2
    exact ⟨cs, L, ext, cl, h.laid.toParts, f1, f2, f3, rfl, by rw [← hd], h.listed hd, KeepsBytes.refl _ _, Nat.le_refl _⟩
  | true =>
    obtain ⟨off, hcs⟩ : ∃ off, cs[0]? = some (off, plainBytes ext [L]) := by
      cases cs with
      | nil => cases f1
      | cons c cs =>
        rw [List.map_cons] at f1
        injection f1 with f1 _
        exact ⟨c.1, by rw [← f1]; rfl⟩
    unfold Archive.onZim Archive.flushArticles at h2
    rw [PyM.get_bind, if_pos hd] at h2
    cases hb : a.zim.articles.toBytes 4 with
    | error x => rw [hb] at h2; cases h2
    | ok b =>
    rw [hb, PyM.lift_ok_bind] at h2
    obtain ⟨e, he1, he2, he3⟩ := h.listing
    have hlen := toBytes_length h.art.nodup hb
    obtain ⟨z', off', ext', s1, s2, s3⟩ := Zim.setContent_plain hS.passthrough
      (hS.plain.works.imp fun _ h => h.1) h.laid.content hcs f2 he2 he3 (by simp)
      (src := (BlobSourceObj.inMemory b).toSource) (c := b) (Blob.C52_pieces_complete (.inMemory b) trivial)
      (by simp; omega) S.kind S.calls
    have hset : Creator.setListing S b a.zim = (.ok (), z') := by
      unfold Creator.setListing
      rw [PyM.get_bind, he1, PyM.lift_ok_bind]
      exact s1
    rw [PyM.bind_ok hset, PyM.modify_apply] at h2
    injection h2 with _ h2
    simp only at h2
    have hw : Works (ClusterObj.ops S.X S.C) a.zim cs z' (cs.set 0 (off', plainBytes ext' [b])) :=
      .step .refl (.cluster s3)
    obtain ⟨w1, w2, w3, -⟩ := h.laid.content.write s3
    have w4 := clusterWrite_longer h.laid.content s3
    obtain ⟨rows', p1, -⟩ := h.laid.toParts.works hw
    have hr : rows' = rows := Zim.Rep.unique w1.rep p1.content.rep
    subst hr
    have p2 := p1.articles { z'.articles with dirty := false }
    simp only at p2
    rw [h2] at p2
    have hart : a2.zim.articles = { a.zim.articles with dirty := false } := by rw [← h2, ← w2.articles]
    refine ⟨cs.set 0 (off', plainBytes ext' [b]), b, ext', cl, p2, ?_, s2, f3, ?_, by rw [hart], by rw [hart]; exact hb,
      by rw [← h2]; exact w3, by rw [← h2]; exact w4⟩
    · cases cs with
      | nil => cases f1
      | cons c cs =>
        rw [List.map_cons] at f1
        injection f1 with _ f1
        simp [f1]
    · rw [← h2]
      simp only
      rw [w2.mimetypes]

/-- the same archive with a longer mimetype list -/
def withMimetypes (a : Archive) (m : MimeTypeList) : Archive :=
  { a with
    zim := { a.zim with file := wr a.zim.file 80 m.toBytes, mimetypes := { m with dirty := false } }
    mimeSize := m.getDiskSize }

/-- a longer mimetype list in the reserved space -/
theorem Readable.parts_mimetypes {r : Nat} (h : Readable false X (some r) a G rows cs extra es L m0 R) {m : MimeTypeList}
    (hl : ∀ t ∈ m.mimetypes, t ≠ [] ∧ (0 : UInt8) ∉ t) (hsz : m.getDiskSize ≤ r) :
    Archive.Parts (some r) (withMimetypes a m) rows cs extra := by
  obtain ⟨d1, d2, d3, d4⟩ := h.clean
  have p0 : Archive.Parts (some r) { a with zim := { a.zim with mimetypes := { m with dirty := true } } } rows cs extra :=
    ⟨⟨⟨h.parts.content.rep.store, h.parts.content.rep.sorted, h.parts.content.rep.urls, h.parts.content.rep.urlsMutable,
        h.parts.content.rep.isOpen, h.parts.content.rep.isMutable, h.parts.content.rep.noTitles, h.parts.content.rep.headerMutable⟩,
      h.parts.content.pointers, h.parts.content.mutable, h.parts.content.num, h.parts.content.held, h.parts.content.nonempty,
      h.parts.content.disjoint, h.parts.content.apart⟩, h.parts.disjoint, h.parts.apart, h.parts.room, h.parts.version, hl, h.parts.header,
      fun e => (by cases e), h.parts.urls, h.parts.clusters⟩
  have hpos : a.zim.header.mimeListPosition = 80 := (h.parts.mimetypes d2).2.1
  obtain ⟨a', e1⟩ := Archive.flushMimetypes_succ p0 hsz
  obtain ⟨pos, space, d, -, g1, g2, -⟩ := Archive.flushMimetypes_ok p0 rfl e1
  obtain ⟨rfl, rfl, -⟩ := g1 r rfl
  obtain ⟨p1, -⟩ := p0.flushMimetypes e1
  have hh : { a.zim.header with mimeListPosition := 80, dirty := false } = a.zim.header := by
    rw [← hpos, ← d1]
  have h80 : ∀ x, InBlock (80, m.toBytes.length) x → InBlock (80, r) x := by
    intro x hx
    have := MimeTypeList.size_le hsz h.parts.room
    simp only [InBlock] at hx ⊢
    omega
  have hhead : ∃ b, a.zim.header.toBytes = .ok b ∧ Holds (wr a.zim.file 80 m.toBytes) 0 b := by
    obtain ⟨b, hb, hd⟩ := h.parts.header d1
    refine ⟨b, hb, ?_⟩
    have hlen := Header.toBytes_length hb
    intro i hi
    have := hd i hi
    rw [List.getElem?_eq_getElem hi] at this ⊢
    exact wr_frame this fun hx => by omega
  rw [g2] at p1
  exact ⟨⟨⟨p1.content.rep.store, p1.content.rep.sorted, p1.content.rep.urls, p1.content.rep.urlsMutable,
      p1.content.rep.isOpen, p1.content.rep.isMutable, p1.content.rep.noTitles, h.parts.content.rep.headerMutable⟩,
    p1.content.pointers, p1.content.mutable, p1.content.num, p1.content.held, p1.content.nonempty,
    p1.content.disjoint, p1.content.apart⟩, p1.disjoint, p1.apart, p1.room, p1.version, hl, fun _ => hhead,
    fun _ => by rw [show (withMimetypes a m).zim.header.mimeListPosition = 80 from hpos]; exact p1.mimetypes rfl, p1.urls, p1.clusters⟩

/-- writing a longer mimetype list into the reserved space -/
theorem Readable.mimetypes {r : Nat} (h : Readable false X (some r) a G rows cs extra es L m0 R) {m : MimeTypeList}
    (hp : a.zim.mimetypes.mimetypes <+: m.mimetypes) (hl : ∀ t ∈ m.mimetypes, t ≠ [] ∧ (0 : UInt8) ∉ t) (hsz : m.getDiskSize ≤ r)
    (hb : ∀ i g, G[i]? = some g → ∃ st, cs[1 + i]? = some st ∧ ∀ kind b (hb : b < (g.map Prod.snd).length),
      Cluster.Gives X (Zim.clusterAt kind (withMimetypes a m).zim st.1) b (g.map Prod.snd)[b]) :
    Readable false X (some r) (withMimetypes a m) G rows cs extra es L m0 R := by
  obtain ⟨d1, d2, d3, d4⟩ := h.clean
  refine ⟨h.parts_mimetypes hl hsz, ⟨d1, rfl, d3, d4⟩, h.first, hb, ?_, h.other, h.lists, h.art, h.listed, h.shown, h.only⟩
  exact h.entries.imp fun _ _ k => EntryFor.mono (by exact hp) k

theorem runParts_append (l l' : List (PyM (Creator D) Unit)) :
    Creator.runParts (l ++ l') = (Creator.runParts l >>= fun _ => Creator.runParts l') := by
  induction l with
  | nil => rfl
  | cons g l ih =>
    show (g >>= fun _ => Creator.runParts (l ++ l')) = ((g >>= fun _ => Creator.runParts l) >>= fun _ => Creator.runParts l')
    rw [ih]
    exact funext fun s => (PyM.bind_assoc' _ _ _ s).symm

theorem onArch_ok {f : PyM Archive Unit} (h : Creator.onArch f c = (.ok (), c')) : f c.arch = (.ok (), c'.arch) := by
  simp only [Creator.onArch, PyM.of_apply] at h
  injection h with h1 h2
  rw [← h2]
  exact Prod.ext h1 rfl

/-- the file if the flush is stopped before the pointer lists are written -/
theorem AddedTo.interrupted_shows {md5 : Bytes → Bytes} {r : Nat} {done : List (List Sourced)} (hr : 2 ≤ r) (hS : S.Good md5 (some r))
    (h0 : CreatorHist S c0 done items0 rs) (hd : c0.arch.isDirty = false) (h : AddedTo S c0 c items rs')
    (hA : Apart (rs ++ rs') (done ++ [items0 ++ items])) (hML : ML.length < 65535)
    (hmt : encode Creator.placeholder.mimetype ∈ ML)
    (hm0 : ∀ l ∈ done ++ [items0], (l.map urlOf).Nodup)
    (hm : ∀ l ∈ done ++ [items0 ++ items], NotHuge l ∧
      ∀ p ∈ l, encode p.1.mimetype ∈ ML ∧ p.1.fullUrl ≠ URL_ARTICLES)
    (hnew : ∀ p ∈ items, ∀ l ∈ done ++ [items0], ∀ q ∈ l, p.1.fullUrl ≠ q.1.fullUrl)
    {n : Nat} (hn : n ≤ 5) (hok : Creator.interrupted S n c = (.ok (), c'))
    (kind : ClusterKind) (calls follow : Nat) (titles : Zim → PyRes PointerList) :
    ∃ a, Creator.openArchive { S with kind := kind, calls := calls, follow := follow } titles false c'.arch.zim.file = .ok a ∧
      ShowsItems S.X kind calls a.zim (current (done ++ [items0])) rs := by
  obtain ⟨Gb, G, rows, cs, extra, es, L, m0, R, h1, hc, hperm, hB, hsep, Gn, P1, P2, rows', cs', es', m0', R', B', k1, k2, k3, k4, k5,
    k6⟩ := h.later hr hS h0 hd hA hML hmt hm0 hm
  have hml := hm (items0 ++ items) (by simp)
  have hA1 : Apart rs (done ++ [items0 ++ items]) := hA.sub (List.sublist_append_left _ _) fun x hx q hq => ⟨x, hx, hq⟩
  have hv : ∀ x ∈ rs, Redirect.Valid x := fun x hx => hsep.valid x (List.mem_append_left _ hx)
  obtain ⟨c3, hok3, hrest⟩ : ∃ c3, Creator.interrupted S (min n 3) c = (.ok (), c3) ∧
      Creator.runParts (((Creator.flushParts S).drop 3).take (n - 3)) c3 = (.ok (), c') := by
    by_cases h3 : n ≤ 3
    · refine ⟨c', by rw [Nat.min_eq_left h3]; exact hok, ?_⟩
      rw [Nat.sub_eq_zero_of_le h3]
      rfl
    · have hsplit : (Creator.flushParts S).take n =
          (Creator.flushParts S).take 3 ++ ((Creator.flushParts S).drop 3).take (n - 3) := by
        rw [← List.take_add, Nat.add_sub_cancel' (by omega)]
      unfold Creator.interrupted at hok ⊢
      rw [hsplit, runParts_append] at hok
      obtain ⟨⟨⟩, c3, e3, hok⟩ := PyM.bind_ok_iff.1 hok
      exact ⟨c3, by rw [Nat.min_eq_right (by omega)]; exact e3, hok⟩
  obtain ⟨G', rows2, cs2, es2, m2, R2, B2, l1, l2, l3, -⟩ := k1.interrupted hS k2 k3 hml.1 (fun q hq => (hml.2 q hq).2) hsep
    (Nat.min_le_right _ _) hok3
  rw [List.append_assoc G] at l1
  have hGn : ∀ p ∈ (Gn ++ G').flatten, p ∈ items := by
    intro p hp
    rw [List.flatten_append] at hp
    rcases List.mem_append.1 hp with hp | hp
    · exact k5 p (List.mem_append_right _ hp)
    · exact k5 p (List.mem_append_left _ (l2 p hp))
  have hU : ∀ x ∈ rows, ¬ (x.2.fullUrl ∈ rs'.map (·.1) ∨ x.2.fullUrl ∈ B'.map (·.1)) := by
    intro x hx
    rintro (hu | hu)
    · exact k6 x hx hu
    · have hno := k2.newSources hsep k3 fun p hp => by
        refine k1.perm.subset ?_
        exact List.mem_append_right _ hp
      obtain ⟨y, hy, hyu⟩ := List.mem_map.1 hu
      have h2 := hno.entries y hy
      obtain ⟨x', hx', hxu⟩ := k4.stays x hx (by
        rintro (h3 | h3)
        · exact k6 x hx h3
        · rw [← hyu] at h3
          exact h2 ((List.drop_sublist _ _).map _ |>.subset h3))
      have h3 := (k2.lists _ _).2 ⟨x', hx', rfl, rfl⟩
      rw [Entry.blank_fullUrl hxu.2, ← hyu, Zim.catalogue_other m0' h2, hno.redirects y hy] at h3
      cases h3
  have o := k4.trans l3
  have hun := hc.untouched (U := fun u => u ∈ rs'.map (·.1) ∨ u ∈ B'.map (·.1)) hperm hB h1 hA1 (fun p hp => (hml.2 p (List.mem_append_right _ hp)).2) hnew l1 hGn hU
  -- any later file in which everything in use is as it was
  have key : ∀ f : Bytes, KeepsBytes (Zim.Used rows2 cs2 (restOf (some r) c3.arch extra)) c3.arch.zim.file f →
      c3.arch.zim.file.length ≤ f.length →
      ∃ rows1 extra1, Readable false S.X (some r) (Pyzim.crashed c0.arch f) (Gb.flatten ++ G) rows1 cs extra1 es L m0 R := by
    intro f hk hl
    refine hc.crashed hd o.stays hun l1.laid.content.rep.store.clean (fun x hx => ?_) (fun x hx => ?_) ?_ (Nat.le_trans o.longer hl)
    · obtain ⟨b, hb, hh⟩ := l1.laid.content.rep.store.stored x hx
      exact ⟨b, hb, hk.holds hh fun y h1 h2 => .inr (.inr ⟨x, hx, (Zim.inRow_bytes hb y).2 ⟨h1, h2⟩⟩)⟩
    · have hx2 := o.before.subset hx
      exact hk.holds (l1.laid.content.held x hx2) fun y h1 h2 => .inr (.inl ⟨x, hx2, h1, h2⟩)
    · refine o.bytes.trans ?_
      rw [← o.rest]
      exact hk.mono fun x hx => .inl hx
  obtain ⟨m, hm4⟩ : ∃ m, m = n - 3 := ⟨_, rfl⟩
  rw [← hm4] at hrest
  rcases m with _ | m
  · injection hrest with _ hrest
    subst hrest
    obtain ⟨rows1, extra1, hR⟩ := key _ (KeepsBytes.refl _ _) (Nat.le_refl _)
    exact hc.shows_readable hS hperm hB h1 hA1 hv hm0 hR kind calls follow titles
  unfold Creator.flushParts at hrest
  simp only [List.drop_succ_cons, List.drop_zero, List.take_succ_cons, Creator.runParts] at hrest
  obtain ⟨⟨⟩, c4, e4, hrest⟩ := PyM.bind_ok_iff.1 hrest
  obtain ⟨cs4, L4, ext4, cl4, p4, -, -, -, q1, -, -, q4, q5⟩ := l1.articles hS (onArch_ok e4)
  obtain ⟨rows1, extra1, hR⟩ := key _ q4 q5
  rcases m with _ | m
  · injection hrest with _ hrest
    subst hrest
    exact hc.shows_readable hS hperm hB h1 hA1 hv hm0 hR kind calls follow titles
  simp only [List.take_succ_cons, Creator.runParts] at hrest
  obtain ⟨⟨⟩, c5, e5, hrest⟩ := PyM.bind_ok_iff.1 hrest
  obtain rfl : m = 0 := by omega
  injection hrest with _ hrest
  subst hrest
  have e5' := onArch_ok e5
  rw [show S.policy.reserveMimetypeSpace = some r from hS.policy] at e5'
  cases hdm : c4.arch.zim.mimetypes.dirty with
  | false =>
    rw [(p4.flushMimetypes e5').2.2.2.2.2.1 hdm]
    exact hc.shows_readable hS hperm hB h1 hA1 hv hm0 hR kind calls follow titles
  | true =>
    obtain ⟨pos, space, d, -, g1, g2, -⟩ := Archive.flushMimetypes_ok p4 hdm e5'
    obtain ⟨rfl, -, g3⟩ := g1 r rfl
    have hfile : c5.arch.zim.file = (withMimetypes (Pyzim.crashed c0.arch c4.arch.zim.file) c4.arch.zim.mimetypes).zim.file := by
      rw [g2]; rfl
    rw [hfile]
    refine hc.shows_readable hS hperm hB h1 hA1 hv hm0 (hR.mimetypes ?_ p4.listable g3 (hc.blobs_before ?_)) kind calls follow titles
    · show c0.arch.zim.mimetypes.mimetypes <+: _
      rw [q1]
      exact o.mimes
    · intro x hx
      have hh := Holds.drop_take ((hR.parts_mimetypes p4.listable g3).content.held x hx)
      rw [← hfile] at hh ⊢
      have hne : x.2.length ≠ 0 := fun e => hc.laid.content.nonempty x hx (List.length_eq_zero_iff.1 e)
      have hlt' := hc.laid.toParts.cluster_lt hx (x := x.1 + (x.2.length - 1)) (by unfold InCluster; omega)
      obtain ⟨d1, d2, d3, d4⟩ := (hc.readable hd).clean
      obtain ⟨-, hend⟩ := hc.laid.ends d1 d2 d3 d4
      have hlen : c4.arch.zim.file.length ≤ c5.arch.zim.file.length := by
        rw [g2]
        exact (Zim.wr_length_le _ _ _).1
      have := Nat.le_trans o.longer q5
      refine ⟨c5.arch.zim.file.drop (x.1 + x.2.length), ?_, ?_⟩
      · intro e
        have := congrArg List.length e
        rw [List.length_drop, List.length_nil] at this
        omega
      · rw [← List.take_append_drop x.2.length (c5.arch.zim.file.drop x.1), hh, List.drop_drop]

/-- the parts of a flush from the article title list on, at least up to the header -/
theorem Core.finished {md5 : Bytes → Bytes} (hS : S.Good md5 reserve)
    (h : Core false none S.X S.C ML reserve c.arch G rows cs extra es L m0 R B) {n : Nat} (hR : n = 0 → Replaceable S.X S.C)
    (hok : Creator.runParts (((Creator.flushParts S).drop 3).take (n + 5)) c = (.ok (), c')) :
    ∃ cs' L', Readable false S.X reserve c'.arch G rows cs' extra es L' m0 R := by
  have hpol : S.policy.reserveMimetypeSpace = reserve := hS.policy
  unfold Creator.flushParts at hok
  simp only [List.drop_succ_cons, List.drop_zero, List.take_succ_cons, Creator.runParts] at hok
  obtain ⟨⟨⟩, c2, e2, hok⟩ := PyM.bind_ok_iff.1 hok
  obtain ⟨⟨⟩, c3, e3, hok⟩ := PyM.bind_ok_iff.1 hok
  obtain ⟨⟨⟩, c4, e4, hok⟩ := PyM.bind_ok_iff.1 hok
  obtain ⟨⟨⟩, c5, e5, hok⟩ := PyM.bind_ok_iff.1 hok
  obtain ⟨⟨⟩, c6, e6, hok⟩ := PyM.bind_ok_iff.1 hok
  have e3' := onArch_ok e3
  rw [hpol] at e3'
  obtain ⟨cs', L', ext', cl, p2, f1, f2, f3, q1, q2, q3, -, -⟩ := h.articles hS (onArch_ok e2)
  obtain ⟨p6, hsame, k6, d1, d2, d3, d4⟩ := p2.lists (by rw [q2]) e3' (onArch_ok e4) (onArch_ok e5) (onArch_ok e6)
  have hhead : ∃ off ext, cs'[0]? = some (off, plainBytes ext [L']) ∧ PlainFits ext [L'] := by
    cases cs' with
    | nil => cases f1
    | cons c cs =>
      rw [List.map_cons] at f1
      injection f1 with f1 _
      exact ⟨c.1, ext', by rw [← f1]; rfl, f2⟩
  have hmm : c6.arch.zim.mimetypes.mimetypes = c.arch.zim.mimetypes.mimetypes := by rw [hsame.mimetypes, q1]
  have hart : c6.arch.zim.articles = { c.arch.zim.articles with dirty := false } := by rw [hsame.articles, q2]
  -- what holds of every later file
  have key : ∀ a' : Archive, Archive.Parts reserve a' rows cs' extra →
      a' = { c6.arch with zim := { c6.arch.zim with file := a'.zim.file } } →
      (Replaceable S.X S.C ∨ a'.zim.file.length = a'.zim.space.fileEnd + 16) →
      Readable false S.X reserve a' G rows cs' extra es L' m0 R := by
    intro a' pa ea hb
    refine ⟨pa, ?_, hhead, ?_, ?_, h.other, h.lists, ?_, ?_, h.shown, h.only⟩
    · rw [ea]; exact ⟨d1, d2, d3, d4⟩
    · intro i g hg
      obtain ⟨st, c3, c4⟩ := stored_of f1 f3 hg
      have hheld := pa.content.held _ (List.mem_of_getElem? c3)
      refine ⟨st, c3, ?_⟩
      obtain ⟨b1, -, t, hne, b2⟩ := c4
      rcases hb with hb | hb
      · obtain ⟨ext', hat⟩ := b2.isCluster hb hne
        obtain ⟨A, -⟩ := hat _ _ hheld
        exact fun kind => (A.blobs (.fresh kind 0)).2
      · have hmem := List.mem_of_getElem? c3
        have hne : st.2.length ≠ 0 := fun e => pa.content.nonempty st hmem (List.length_eq_zero_iff.1 e)
        have hlt := pa.cluster_lt hmem (x := st.1 + (st.2.length - 1)) (by unfold InCluster; omega)
        have hh := Holds.drop_take hheld
        refine fun kind => (b1 a'.zim.file st.1 (a'.zim.file.drop (st.1 + st.2.length)) ?_ ?_ _ (.fresh kind 0)).2
        · intro e
          have := congrArg List.length e
          rw [List.length_drop, List.length_nil] at this
          omega
        · rw [← List.take_append_drop st.2.length (a'.zim.file.drop st.1), hh, List.drop_drop]
    · refine h.entries.imp fun _ _ h => h.mono ?_
      rw [ea]
      show c.arch.zim.mimetypes.mimetypes <+: c6.arch.zim.mimetypes.mimetypes
      rw [hmm]
      exact List.prefix_rfl
    · rw [ea]
      show Art c6.arch.zim.articles rows _
      rw [hart]
      exact ⟨h.art.mutable, h.art.nonneg, h.art.nodup, h.art.mem, h.art.sorted, h.art.inC, h.art.dom⟩
    · rw [ea]
      show c6.arch.zim.articles.toBytes 4 = _
      rw [hsame.articles]
      exact q3
  rcases n with _ | n
  · simp only [List.take_zero, Creator.runParts] at hok
    injection hok with _ hok
    subst hok
    exact ⟨cs', L', key _ p6 rfl (.inl (hR rfl))⟩
  simp only [List.take_succ_cons, Creator.runParts] at hok
  obtain ⟨⟨⟩, c7, e7, hok⟩ := PyM.bind_ok_iff.1 hok
  obtain ⟨p7, j7, hlen⟩ := p6.ending hS.hasher hS.short hS.chunksize k6 (onArch_ok e7)
  rcases n with _ | n
  · simp only [List.take_zero, Creator.runParts] at hok
    injection hok with _ hok
    subst hok
    exact ⟨cs', L', key _ p7 j7 (.inr hlen)⟩
  simp only [List.take_succ_cons, List.take_nil, Creator.runParts] at hok
  obtain ⟨⟨⟩, c8, e8, hok⟩ := PyM.bind_ok_iff.1 hok
  injection hok with _ hok
  subst hok
  have e8' := onArch_ok e8
  rw [PyM.get_bind] at e8'
  have h8 : c8.arch = c7.arch := by
    cases ht : S.policy.truncate with
    | false =>
      rw [ht] at e8'
      simp only [Bool.false_eq_true, if_false, PyM.pure_apply] at e8'
      injection e8' with _ e8'
      exact e8'.symm
    | true =>
      rw [ht] at e8'
      simp only [if_true] at e8'
      obtain ⟨i8, j8⟩ := Zim.onZim_ok e8'
      have hk7 : c7.arch.zim.header.checksumPosition = c7.arch.zim.space.fileEnd := by rw [j7]; exact k6
      unfold Zim.truncateAt at i8
      rw [if_neg (by rw [p7.content.rep.isOpen]; simp), hk7, ← hlen, Nat.sub_self, List.replicate_zero,
        List.append_nil, List.take_length] at i8
      injection i8 with _ i8
      rw [j8, ← i8]
  rw [h8]
  exact ⟨cs', L', key _ p7 j7 (.inr hlen)⟩

/-- the file if the flush is stopped after the header was written -/
theorem CreatorHist.interrupted_shows {md5 : Bytes → Bytes} {r : Nat} {done : List (List Sourced)} (hr : 2 ≤ r)
    (hS : S.Good md5 (some r)) (h : CreatorHist S c done items rs) (hA : Apart rs (done ++ [items])) (hML : ML.length < 65535)
    (hmt : encode Creator.placeholder.mimetype ∈ ML)
    (hm : ∀ l ∈ done ++ [items], (l.map urlOf).Nodup ∧ NotHuge l ∧
      ∀ p ∈ l, encode p.1.mimetype ∈ ML ∧ p.1.fullUrl ≠ URL_ARTICLES)
    {n : Nat} (hn : 8 ≤ n) (hR : n = 8 → Replaceable S.X S.C) (hok : Creator.interrupted S n c = (.ok (), c'))
    (kind : ClusterKind) (calls follow : Nat) (titles : Zim → PyRes PointerList) :
    ∃ a, Creator.openArchive { S with kind := kind, calls := calls, follow := follow } titles false c'.arch.zim.file = .ok a ∧
      ShowsItems S.X kind calls a.zim (current (done ++ [items])) rs := by
  obtain ⟨Gb, h1, G, P1, P2, hat⟩ := h.has hr hS hA hML hmt hm
  obtain ⟨rows, cs, extra, es, L, m0, R, B, hc, hB⟩ := hat.core
  have hsep := hA.separate h.valid h1
  have hml := hm items (by simp)
  obtain ⟨m, rfl⟩ : ∃ m, n = m + 8 := ⟨n - 8, by omega⟩
  have hsplit : (Creator.flushParts S).take (m + 8) = (Creator.flushParts S).take 3 ++ ((Creator.flushParts S).drop 3).take (m + 5) := by
    rw [show m + 8 = 3 + (m + 5) by omega, List.take_add]
  unfold Creator.interrupted at hok
  rw [hsplit, runParts_append] at hok
  obtain ⟨⟨⟩, c3, e3, hok⟩ := PyM.bind_ok_iff.1 hok
  obtain ⟨G', rows3, cs3, es3, m3, R3, B3, k1, k2, k3, k4⟩ := hat.interrupted hS hc hB hml.2.1 (fun q hq => (hml.2.2 q hq).2) hsep
    (Nat.le_refl 3) e3
  obtain ⟨g1, rfl, g3⟩ := k4 rfl
  rw [List.append_nil] at g3
  obtain ⟨cs', L', hRd⟩ := k1.finished hS (fun e => hR (by omega)) hok
  have hall : (G ++ G').flatten.Perm items := by
    rw [List.flatten_append]
    refine ((g1.append_left _).trans ?_).trans hat.perm
    exact List.perm_append_comm
  refine ⟨_, hRd.opens_readOnly (S := { S with kind := kind, calls := calls, follow := follow }) (C := S.C) hS.passthrough titles, ?_⟩
  refine hRd.shows ?_ g3 hA.nodup (fun x hx => k1.apart hsep (fun p hp => hall.subset hp) hx) kind calls
  have := current_perm (List.rel_append h1 (.cons hall .nil)) (fun l hl => (hm l hl).1)
  rw [List.flatten_append] at this
  simpa [present] using this

end Pyzim
