import Verif.Lemmas.CreatorInv

/-!
# An archive filled by strategies: new archives
-/

namespace Pyzim
open Zim (Row Stored Clustered Works Lists Art MimesIn Mirrored Mirrors catalogue marked clusterAt Redirect)
open SpaceAllocator (InBlock)

variable {D K : Type} {X : Codecs D} {C : Compressors K} {ML : List Bytes} {reserve : Option Nat} {a a' : Archive}
  {G G' : List (List Sourced)} {rows : List Row} {cs : List Stored} {extra : Nat → Prop} {es : List Entry} {L : Bytes}
  {S : Setup D K} {G0 : List (List Sourced)} {items : List Sourced} {rs : List Redirect}
  {c c' : Creator D}

theorem Strategy.IsNew.waits {t : CompressionType} {s : Strategy D} (h : s.IsNew t) (m : MimeTypeList) :
    ∃ mx, s.Waits X t mx m [] := by
  obtain ⟨mx, rfl | rfl⟩ := h
  · exact ⟨mx, Simple.new_pending t mx m⟩
  · exact ⟨mx, rfl, rfl, List.nodup_nil, fun _ => [], by simp, fun _ _ => rfl, by simp⟩

theorem Strategy.IsNew.fit {t : CompressionType} {s : Strategy D} (h : s.IsNew t) : s.Fit := by
  obtain ⟨mx, rfl | rfl⟩ := h
  · exact Simple.fit_new t mx
  · exact ⟨List.nodup_nil, by simp⟩

theorem Has.reopen {md5 : Bytes → Bytes} (hS : S.Good md5 reserve) (h : Has gh none S ML reserve G0 items rs c)
    (hd : c.arch.isDirty = false) {t : CompressionType} (W : Working S.X S.C t) {main plain : Strategy D} (h1 : main.IsNew t)
    (h2 : plain.IsNew .none) {titles : Zim → PyRes PointerList}
    (hok : Creator.reopen S titles main plain c.arch.zim.file = .ok c') :
    Has gh none S ML reserve G0 items rs c' ∧ c'.arch.isDirty = false := by
  obtain ⟨G, P1, P2, ⟨rows, cs, extra, es, L, m0, R, B, hc, hB⟩, -, -, -, -, hperm, hcl⟩ := h
  obtain ⟨rfl, rfl, hb⟩ := hcl hd
  obtain rfl : B = [] := hc.redirects.symm.trans (hb rfl)
  unfold Creator.reopen at hok
  rw [hc.opens hS.passthrough hd titles true] at hok
  injection hok with hok
  subst hok
  obtain ⟨extra', g1, g2⟩ := hc.reopened hd
  obtain ⟨mx1, w1⟩ := h1.waits (X := S.X) (Archive.loaded true { pointers := c.arch.zim.articles.pointers } c.arch).zim.mimetypes
  obtain ⟨mx2, w2⟩ := h2.waits (X := S.X) (Archive.loaded true { pointers := c.arch.zim.articles.pointers } c.arch).zim.mimetypes
  exact ⟨⟨G, [], [], ⟨_, _, _, _, _, _, _, _, g1, hB⟩, ⟨t, mx1, W, w1⟩, ⟨mx2, w2⟩, h1.fit, h2.fit,
    hperm, fun _ => ⟨rfl, rfl, fun _ => rfl⟩⟩, g2⟩

theorem Simple.flush_plain (P : Passthrough X C) {mx : Int} {m : MimeTypeList} {g : List Sourced} {s s' : Simple D}
    {z z' : ZimLog} (h : Pending X .none mx m g s) (hg : g ≠ [])
    (hok : flushOn (ZimLog.backend X C) (s, z) = (.ok (), (s', z'))) :
    ∃ ext, z'.clusters = z.clusters ++ [plainBytes ext (g.map Prod.snd)] ∧ PlainFits ext (g.map Prod.snd) := by
  have hlen : s.entries.length = g.length := by rw [← h.entries.length_eq]; simp
  unfold flushOn at hok
  have hne : s.entries.isEmpty = false := by
    cases hs : s.entries with
    | nil => rw [hs] at hlen; exact absurd (List.length_eq_zero_iff.1 hlen.symm) hg
    | cons => rfl
  rw [PyM.get_bind, if_neg (by rw [hne]; simp)] at hok
  unfold finalizeOn at hok
  rw [PyM.get_bind] at hok
  obtain ⟨num, ⟨s1, z1⟩, h1, hokA⟩ := PyM.bind_ok_iff.1 hok
  clear hok
  rw [PyM.modify_bind] at hokA
  obtain ⟨⟨⟩, ⟨s2, z2⟩, h2, hokB⟩ := PyM.bind_ok_iff.1 hokA
  clear hokA
  rw [PyM.modify_apply] at hokB
  injection hokB with _ hokB
  injection hokB with _ hokB
  simp only at hokB
  subst hokB
  simp only [onZim, PyM.of_apply] at h1 h2
  injection h1 with h1 h1'
  injection h1' with h1' h1''
  injection h2 with h2 h2'
  injection h2' with h2' h2''
  -- the entries do not touch the clusters
  have hE : ∀ (es : List Entry) (y y' : ZimLog), (writeEntries (ZimLog.backend X C).writeEntry num es y).2 = y' →
      y'.clusters = y.clusters := by
    intro es
    induction es with
    | nil => intro y y' e; rw [← e]; rfl
    | cons e es ih =>
      intro y y' e1
      unfold writeEntries at e1
      cases hs : e.setClusterNumber num with
      | mk r e' =>
        rw [hs] at e1
        cases r with
        | error x => rw [← e1]; rfl
        | ok u =>
          simp only at e1
          rw [PyM.bind_ok (show (ZimLog.backend X C).writeEntry e' y = (.ok (), { y with entries := y.entries ++ [e'] }) from rfl)] at e1
          exact ih { y with entries := y.entries ++ [e'] } y' e1
  have e1 := hE _ _ _ h2''
  rw [e1]
  have hcomp : MCluster.compOf .none s.cluster = .none := by unfold MCluster.compOf; rw [h.forced]; rfl
  simp only [ZimLog.backend, ZimLog.writeCluster, PyM.of_apply] at h1 h1''
  cases hw : (MCluster.iterWrite X C s.cluster).1 with
  | error x => rw [hw] at h1; cases h1
  | ok out =>
    rw [hw] at h1''
    obtain ⟨k1, k2⟩ := MCluster.written_plain P h.history.plain.toRepr hcomp hw
    refine ⟨_, ?_, k2⟩
    rw [← h1'', ← k1]

theorem Simple.start (P : Passthrough X C) (W : Working X C .none) {mx : Int} {p : Sourced} (hp : Storable p)
    (hh : NotHuge [p]) {s1 s2 : Simple D} {z z1 z2 : ZimLog} (hm : z.mts.mutable = true)
    (h1 : addItemOn X (ZimLog.backend X C) p.1 (Simple.new .none mx, z) = (.ok (), (s1, z1)))
    (h2 : flushOn (ZimLog.backend X C) (s1, z1) = (.ok (), (s2, z2))) :
    (∃ ext, z2.clusters = z.clusters ++ [plainBytes ext [p.2]] ∧ PlainFits ext [p.2]) ∧
      Pending X .none mx z2.mts [] s2 ∧ Wrote X C [[p]] z z2 := by
  obtain ⟨s1', z1', g1, g2, g3, g4⟩ := addItem_spec W (new_pending (D := D) (X := X) .none mx z.mts) (by
    unfold NotHuge; simp) hm p hp
  unfold addItem at g1
  rw [h1] at g1
  injection g1 with _ g1
  injection g1 with g1 g1'
  subst g1 g1'
  rcases g4 with ⟨-, g4, g5⟩ | ⟨⟨g4, -⟩, -⟩
  · obtain ⟨s2', z2', k1, k2, k3, k4⟩ := flush_spec W (show Pending X .none mx z1.mts [p] s1 from g5) hh
    unfold flush at k1
    rw [h2] at k1
    injection k1 with _ k1
    injection k1 with k1 k1'
    subst k1 k1'
    refine ⟨?_, k2, ?_⟩
    · obtain ⟨ext, e1, e2⟩ := flush_plain P (show Pending X .none mx z1.mts [p] s1 from g5) (by simp) h2
      refine ⟨ext, ?_, e2⟩
      obtain ⟨cs, es, w1, -, w3, -⟩ := g4
      cases w3
      rw [e1, w1]
      simp
    · have := g4.trans k4 (by rw [k3]; exact List.prefix_rfl)
      simpa using this
  · exact absurd rfl g4

/-- writing the first item of a new strategy -/
theorem Strategy.IsNew.start (P : Passthrough X C) (W : Working X C .none) {s s1 s2 : Strategy D} (h : s.IsNew .none)
    {p : Sourced} (hp : Storable p) (hh : NotHuge [p]) {z z1 z2 : ZimLog} (hm : z.mts.mutable = true)
    (h1 : Strategy.addItemOn X (ZimLog.backend X C) p.1 (s, z) = (.ok (), (s1, z1)))
    (h2 : Strategy.flushOn (ZimLog.backend X C) (s1, z1) = (.ok (), (s2, z2))) :
    (∃ ext, z2.clusters = z.clusters ++ [plainBytes ext [p.2]] ∧ PlainFits ext [p.2]) ∧
      (∃ mx, s2.Waits X .none mx z2.mts []) ∧ Wrote X C [[p]] z z2 := by
  obtain ⟨mx, rfl | rfl⟩ := h
  · unfold Strategy.addItemOn at h1
    simp only [PyM.of_apply] at h1
    cases hr : Simple.addItemOn X (ZimLog.backend X C) p.1 (Simple.new .none mx, z) with
    | mk r q =>
      obtain ⟨t1, y1⟩ := q
      rw [hr] at h1
      simp only at h1
      injection h1 with h1 h1'
      injection h1' with h1' h1''
      subst h1 h1' h1''
      unfold Strategy.flushOn at h2
      simp only [PyM.of_apply] at h2
      cases hr2 : Simple.flushOn (ZimLog.backend X C) (t1, y1) with
      | mk r q =>
        obtain ⟨t2, y2⟩ := q
        rw [hr2] at h2
        simp only at h2
        injection h2 with h2 h2'
        injection h2' with h2' h2''
        subst h2 h2' h2''
        obtain ⟨g1, g2, g3⟩ := Simple.start P W hp hh hm hr hr2
        exact ⟨g1, ⟨mx, g2⟩, g3⟩
  · unfold Strategy.addItemOn at h1
    simp only [PyM.of_apply, ByMimetype.addItemOn, ByMimetype.getCs, dictGet] at h1
    cases hr : Simple.addItemOn X (ZimLog.backend X C) p.1 (Simple.new .none mx, z) with
    | mk r q =>
      obtain ⟨t1, y1⟩ := q
      rw [hr] at h1
      simp only at h1
      injection h1 with h1 h1'
      injection h1' with h1' h1''
      subst h1 h1' h1''
      unfold Strategy.flushOn at h2
      simp only [PyM.of_apply, ByMimetype.flushOn, dictSet, if_true, ByMimetype.flushAllOn] at h2
      cases hr2 : Simple.flushOn (ZimLog.backend X C) (t1, y1) with
      | mk r q =>
        obtain ⟨t2, y2⟩ := q
        rw [hr2] at h2
        cases r with
        | error x => cases h2
        | ok u =>
        simp only at h2
        injection h2 with h2 h2'
        injection h2' with h2' h2''
        subst h2' h2''
        obtain ⟨g1, g2, g3⟩ := Simple.start P W hp hh hm hr hr2
        refine ⟨g1, ⟨mx, rfl, rfl, ?_, fun _ => [], ?_, fun _ _ => rfl, by simp⟩, g3⟩
        · unfold DistinctKeys; simp
        · intro q hq
          simp only [List.mem_singleton] at hq
          rw [hq]; exact g2

theorem placeholder_delivers : Delivers Creator.placeholder.source [] := Blob.C52_pieces_complete .empty trivial

/-- a new archive, with the list of articles not yet written -/
theorem Has.newDirty {md5 : Bytes → Bytes} {r : Nat} (hr : 2 ≤ r) (hS : S.Good md5 (some r)) {uuid : Bytes} (hu : uuid.length = 16)
    {t : CompressionType} (W : Working S.X S.C t) {main plain : Strategy D} (n1 : main.IsNew t) (n2 : plain.IsNew .none)
    (hML : ML.length < 65535) (hmt : encode Creator.placeholder.mimetype ∈ ML)
    (hok : Creator.new S uuid main plain = .ok c) : HasAt gh none S ML (some r) [] [] [] c [] [] [] ∧
      c.arch.zim.articles.dirty = true ∧ Zim.Filled (80 + r) c.arch.zim := by
  obtain ⟨a, ha, hd, hl⟩ := Archive.Laid.new hr hu
  have hart : a.zim.articles = { pointers := [], dirty := true } ∧ a.zim.mimetypes = { mimetypes := [], dirty := true } ∧
      a.zim.bufferedRedirects = [] ∧ a.zim.bufferedMainpage = none ∧ Zim.Filled (80 + r) a.zim := by
    unfold Archive.new at ha
    simp only at ha
    split at ha
    · cases ha
    · injection ha with ha
      rw [← ha]
      exact ⟨rfl, rfl, rfl, rfl, Nat.le_max_left _ _⟩
  obtain ⟨ha1, ha2, ha3, ha4, ha5⟩ := hart
  unfold Creator.new at hok
  rw [hS.policy, ha] at hok
  simp only at hok
  have hp : Storable (Creator.placeholder, []) := ⟨placeholder_delivers, by decide⟩
  have hi : Creator.placeholder.Addable ML := ⟨⟨by decide, by decide, by decide, by decide⟩, hmt, by decide⟩
  have hm0 : Mirrored S.X S.C ML a.zim [] 0 (restOf (some r) a (fun _ => False)) (fun _ => none) (fun _ => False)
      ⟨a.zim.mimetypes, [], []⟩ a.zim := by
    refine ⟨[], [], .refl, hl.content, ?_, ?_, rfl, rfl, ?_, rfl, rfl, Or.inl rfl, fun _ _ _ h => h, Nat.le_refl _, List.prefix_rfl,
      fun rows0 h0 => by rw [Zim.Rep.unique h0.rep hl.content.rep]; exact Zim.Stays.refl _ _, Nat.le_refl _, fun _ h => h⟩
    · intro u v
      simp [catalogue]
    · rw [ha1]
      exact ⟨rfl, by simp, by simp, by simp, by simp, by simp, fun u hu => hu.elim⟩
    · rw [ha2]
      exact ⟨rfl, by simp, by simp⟩
  cases hrun : (Creator.addItem S Creator.placeholder true >>= fun _ =>
        Creator.onPlain (Strategy.flushOn (Zim.backend S.X S.C S.depth))) { arch := a, main := main, plain := plain } with
  | mk r c2 =>
  rw [hrun] at hok
  cases r with
  | error x => cases hok
  | ok u =>
  simp only at hok
  injection hok with hok
  obtain ⟨⟨⟩, c1, hadd, hfl⟩ := PyM.bind_ok_iff.1 hrun
  clear hrun
  unfold Creator.addItem at hadd
  rw [PyM.get_bind, PyM.bind_ok (show PyM.require (!a.zim.closed) .zimFileClosed (⟨a, main, plain⟩ : Creator D) = (.ok (), ⟨a, main, plain⟩) by
    rw [hl.content.rep.isOpen]; rfl), PyM.bind_ok (show PyM.require a.zim.mutable .nonMutable (⟨a, main, plain⟩ : Creator D) = (.ok (), ⟨a, main, plain⟩) by
    rw [hl.content.rep.isMutable]; rfl)] at hadd
  obtain ⟨⟨⟩, c11, h1, haddA⟩ := PyM.bind_ok_iff.1 hadd
  clear hadd
  rw [PyM.modify_apply] at haddA
  injection haddA with _ haddA
  simp only [if_true, Creator.onPlain, PyM.of_apply] at h1
  cases hr1 : Strategy.addItemOn S.X (Zim.backend S.X S.C S.depth) Creator.placeholder (plain, a.zim) with
  | mk r q =>
  obtain ⟨s1, Z1⟩ := q
  rw [hr1] at h1
  injection h1 with h1 h1'
  simp only at h1
  subst h1
  subst h1'
  subst haddA
  simp only [Creator.onPlain, PyM.of_apply] at hfl
  cases hr2 : Strategy.flushOn (Zim.backend S.X S.C S.depth) (s1, Z1) with
  | mk r q =>
  obtain ⟨s2, Z2⟩ := q
  rw [hr2] at hfl
  injection hfl with h2 h2'
  simp only at h2
  subst h2
  subst h2'
  obtain ⟨z1, k1, k2, k3⟩ := Mirrored.add hm0 n2.fit hML hi hr1
  obtain ⟨z2, l1, l2, l3⟩ := Mirrored.flush k2 k3 hr2
  obtain ⟨⟨ext, b1, b2⟩, ⟨mx2, b3⟩, b4⟩ := n2.start hS.passthrough hS.plain hp (by unfold NotHuge; decide) (by rw [ha2]) k1 l1
  obtain ⟨csB, esB, w1, w2, w3, w4⟩ := b4
  obtain ⟨cs', rows', M⟩ := l2
  obtain ⟨rows'', hl'⟩ := hl.works M.works
  have hre : rows'' = rows' := (Zim.Rep.unique M.clustered.rep hl'.content.rep)
  subst hre
  obtain ⟨mx1, v1⟩ := n1.waits (X := S.X) Z2.mimetypes
  simp only [List.nil_append] at w1 w2 b1
  have hcore : Core gh none S.X S.C ML (some r) { a with zim := Z2 } [] rows'' cs' (fun _ => False) z2.entries [] (fun _ => none) [] [] := by
    refine ⟨hl', ⟨ext, [], ?_, b2, .nil⟩, ?_, by simp, M.lists, M.art, ?_, M.redirects.trans ha3,
      M.mainpage.trans ha4, ?_, by simp, (fun _ _ h => by cases h), by simp⟩
    · rw [← M.clusters, b1]
    · rw [w2]
      rw [show slotsOf gh 1 [] = [] by cases gh <;> rfl]
      show List.Forall₂ (fun (s : Item × Nat × Nat) e => EntryFor Z2.mimetypes s.1 s.2.1 s.2.2 e) [(Creator.placeholder, 0, 0)] esB
      rw [M.mts]
      exact w4
    · show MimesIn ML Z2.mimetypes
      rw [M.mts]; exact M.mimes
    · intro hd
      simp only at hd
      rcases M.arts with e | e
      · rw [e, ha1] at hd; cases hd
      · rw [e] at hd; cases hd
  subst hok
  refine ⟨⟨⟨_, _, _, _, _, _, _, _, (hcore.dirty true).dirty false, .nil⟩, ⟨t, mx1, W, v1⟩, ⟨mx2, by rw [show _ = _ from M.mts]; exact b3⟩, n1.fit, l3,
    .nil, fun _ => ⟨rfl, rfl, fun _ => hcore.redirects⟩⟩, ?_⟩
  refine ⟨show Z2.articles.dirty = true from ?_, M.filled _ ha5⟩
  rcases M.arts with e | e
  · rw [e, ha1]
  · exact e

theorem Has.new {md5 : Bytes → Bytes} {r : Nat} (hr : 2 ≤ r) (hS : S.Good md5 (some r)) {uuid : Bytes} (hu : uuid.length = 16)
    {t : CompressionType} (W : Working S.X S.C t) {main plain : Strategy D} (n1 : main.IsNew t) (n2 : plain.IsNew .none)
    (hML : ML.length < 65535) (hmt : encode Creator.placeholder.mimetype ∈ ML)
    (hok : Creator.new S uuid main plain = .ok c) : Has gh none S ML (some r) [] [] [] c :=
  ⟨[], [], [], (Has.newDirty hr hS hu W n1 n2 hML hmt hok).1⟩

end Pyzim
