import Verif.Spec.Strategy
import Verif.Props.ModCluster
import Verif.Props.Item
import Verif.Props.MimeTypeList
import Mathlib.Data.List.Forall2

/-!
# Lemmas about the compression strategies
-/

namespace Pyzim

theorem getIndex_prefix (m : MimeTypeList) (hm : m.mutable = true) (mt : Bytes) :
    (m.getIndex mt true).2.mutable = true ∧ m.mimetypes <+: (m.getIndex mt true).2.mimetypes := by
  unfold MimeTypeList.getIndex MimeTypeList.register
  rw [hm]
  cases MimeTypeList.search mt 0 m.mimetypes with
  | some i => exact ⟨hm, List.prefix_rfl⟩
  | none =>
    simp only [Bool.not_true, Bool.false_eq_true, if_false, if_true]
    by_cases hmem : m.has mt = true
    · simp only [if_pos hmem]; exact ⟨hm, List.prefix_rfl⟩
    · simp only [if_neg hmem]; exact ⟨trivial, List.prefix_append _ _⟩

theorem MimeTypeList.get_prefix {m m' : MimeTypeList} (h : m.mimetypes <+: m'.mimetypes) {i : Int} {b : Bytes}
    (hg : m.get i = .ok b) : m'.get i = .ok b := by
  obtain ⟨t, ht⟩ := h
  unfold MimeTypeList.get at hg ⊢
  split at hg
  · cases hg
  · rename_i hi
    have hlt : i.toNat < m.mimetypes.length := by omega
    rw [← ht, if_neg (by rw [List.length_append]; omega), List.getElem?_append_left hlt]
    exact hg

theorem EntryFor.mono {m m' : MimeTypeList} (h : m.mimetypes <+: m'.mimetypes) {it : Item} {c b : Nat}
    {e : Entry} (he : EntryFor m it c b e) : EntryFor m' it c b e :=
  ⟨he.ns, he.url, he.title, he.article, MimeTypeList.get_prefix h he.mimetype, he.location⟩

theorem slots_append (base : Nat) (G H : List (List Sourced)) :
    slots base (G ++ H) = slots base G ++ slots (base + G.length) H := by
  induction G generalizing base with
  | nil => simp [slots]
  | cons g G ih => simp [slots, ih, Nat.add_assoc, Nat.add_comm 1]

theorem Wrote.refl {D K : Type} {X : Codecs D} {C : Compressors K} (z : ZimLog) : Wrote X C [] z z :=
  ⟨[], [], by simp, by simp, .nil, .nil⟩

theorem Wrote.mts {D K : Type} {X : Codecs D} {C : Compressors K} {G : List (List Sourced)} {z z' : ZimLog} (h : Wrote X C G z z')
    {m : MimeTypeList} (hm : z'.mts.mimetypes <+: m.mimetypes) : Wrote X C G z { z' with mts := m } := by
  obtain ⟨cs, es, h1, h2, h3, h4⟩ := h
  exact ⟨cs, es, h1, h2, h3, h4.imp fun _ _ h => h.mono hm⟩

theorem Wrote.trans {D K : Type} {X : Codecs D} {C : Compressors K} {G H : List (List Sourced)} {z z' z'' : ZimLog}
    (h : Wrote X C G z z') (h' : Wrote X C H z' z'') (hm : z'.mts.mimetypes <+: z''.mts.mimetypes) :
    Wrote X C (G ++ H) z z'' := by
  obtain ⟨cs, es, h1, h2, h3, h4⟩ := h
  obtain ⟨cs', es', g1, g2, g3, g4⟩ := h'
  refine ⟨cs ++ cs', es ++ es', ?_, ?_, ?_, ?_⟩
  · rw [g1, h1, List.append_assoc]
  · rw [g2, h2, List.append_assoc]
  · exact List.rel_append h3 g3
  · rw [slots_append]
    rw [h1, List.length_append, ← h3.length_eq] at g4
    exact List.rel_append (h4.imp fun _ _ h => h.mono hm) g4

/-- what is written is a cluster with the blobs -/
theorem written_as {D K : Type} {X : Codecs D} {C : Compressors K} {orig view : List Bytes} {ext : Bool} {comp : CompressionType}
    {m : MCluster D} (h : MCluster.Repr X orig ext comp view m) {out : List Bytes} (hw : (MCluster.iterWrite X C m).1 = .ok out) :
    WrittenAs C (MCluster.compOf comp m) out.flatten view := by
  obtain ⟨info, k, cs, outs, hi, hk, hfit, hcs, hca, rfl⟩ := MCluster.iterWrite_ok h hw
  exact ⟨_, info, k, cs, outs.flatten, hi, hk, MCluster.compressAll_compresses hca, hcs, hfit, rfl⟩

namespace Simple
variable {D K : Type} {X : Codecs D} {C : Compressors K}

/-- The state of a simple strategy in which the items `g` wait for their cluster to be written. -/
structure Pending (X : Codecs D) (t : CompressionType) (maxSize : Int) (mts : MimeTypeList)
    (g : List Sourced) (s : Simple D) : Prop where
  comp : s.compressionType = t
  max : s.maxSize = maxSize
  history : MCluster.History X [] false .none (g.map Prod.snd) s.cluster
  forced : s.cluster.forceComp = some t
  width : s.cluster.forceExt = none
  modified : g ≠ [] → s.cluster.hasModifications = true
  entries : List.Forall₂ (fun (p : Sourced × Nat) e => EntryFor mts p.1.1 0 p.2 e ∧ e.mutable = true)
    g.zipIdx s.entries

theorem Pending.mono {m m' : MimeTypeList} (h : m.mimetypes <+: m'.mimetypes) {t : CompressionType} {mx : Int}
    {g : List Sourced} {s : Simple D} (hp : Pending X t mx m g s) : Pending X t mx m' g s :=
  ⟨hp.comp, hp.max, hp.history, hp.forced, hp.width, hp.modified,
    hp.entries.imp fun _ _ q => ⟨q.1.mono h, q.2⟩⟩

theorem new_pending (t : CompressionType) (mx : Int) (m : MimeTypeList) :
    Pending X t mx m [] (new t mx : Simple D) :=
  ⟨rfl, rfl, .setCompression _ (.fresh (.inl ⟨rfl, rfl, rfl, rfl⟩)), rfl, rfl, by simp, .nil⟩

theorem flatten_length (g : List Sourced) : (g.map Prod.snd).flatten.length =
    (g.map fun p => p.2.length).sum := by
  induction g with
  | nil => rfl
  | cons p g ih => simp [ih]

theorem writeEntries_spec (num : Nat) (mts : MimeTypeList) : ∀ (ps : List (Sourced × Nat))
    (es : List Entry) (z : ZimLog),
    List.Forall₂ (fun (p : Sourced × Nat) e => EntryFor mts p.1.1 0 p.2 e ∧ e.mutable = true) ps es →
    ∃ es', writeEntries ZimLog.writeEntry num es z = (.ok (), { z with entries := z.entries ++ es' }) ∧
      List.Forall₂ (fun (s : Item × Nat × Nat) e => EntryFor mts s.1 s.2.1 s.2.2 e)
        (ps.map fun p => (p.1.1, num, p.2)) es' := by
  intro ps es z h
  induction h generalizing z with
  | nil => exact ⟨[], by simp [writeEntries, PyM.pure_apply], .nil⟩
  | @cons p e ps es he _ ih =>
    obtain ⟨he, hmut⟩ := he
    have key : ∃ e', e.setClusterNumber num = (.ok (), e') ∧ EntryFor mts p.1.1 num p.2 e' := by
      unfold Entry.setClusterNumber
      rw [he.location]
      simp only [hmut]
      rw [if_neg (by omega)]
      simp only [Bool.not_true, Bool.false_eq_true, if_false, Int.toNat_natCast]
      split
      · exact ⟨_, rfl, ⟨he.ns, he.url, he.title, he.article, he.mimetype, rfl⟩⟩
      · rename_i h0
        have h0 : num = 0 := by simpa using h0
        subst h0
        exact ⟨_, rfl, he⟩
    obtain ⟨e', h1, h2⟩ := key
    obtain ⟨es', g1, g2⟩ := ih { z with entries := z.entries ++ [e'] }
    refine ⟨e' :: es', ?_, .cons h2 g2⟩
    unfold writeEntries
    rw [h1]
    simp only
    have hw : ZimLog.writeEntry e' z = (.ok (), { z with entries := z.entries ++ [e'] }) := rfl
    rw [PyM.bind_ok hw, g1]
    simp

theorem finalize_spec {t : CompressionType} {mx : Int} {g : List Sourced} {s : Simple D} {z : ZimLog}
    (W : Working X C t) (h : Pending X t mx z.mts g s) (hh : NotHuge g) (hg : g ≠ []) :
    ∃ s' z', finalizeCluster X C (s, z) = (.ok (), (s', z')) ∧ Pending X t mx z'.mts [] s' ∧
      z'.mts = z.mts ∧ Wrote X C [g] z z' := by
  obtain ⟨k, hk, hc⟩ := W.works
  have hcomp : s.cluster.forceComp.getD .none = t := by rw [h.forced]; rfl
  obtain ⟨out, hout⟩ := MCluster.C19_write_succeeds (C := C) h.history h.width (by
    rw [flatten_length, List.length_map]; exact hh) (by rw [hcomp]; exact W.known) (k := k)
    (by rw [hcomp]; exact hk) hc
  obtain ⟨es', g1, g2⟩ := writeEntries_spec z.clusters.length z.mts g.zipIdx s.entries
    { z with clusters := z.clusters ++ [out.flatten] } h.entries
  have hw : ZimLog.writeCluster X C s.cluster z =
      (.ok z.clusters.length, { z with clusters := z.clusters ++ [out.flatten] }) := by
    unfold ZimLog.writeCluster
    simp only [PyM.of_apply, hout]
  refine ⟨{ s with cluster := newCluster s.compressionType, entries := [] },
    { z with clusters := z.clusters ++ [out.flatten], entries := z.entries ++ es' }, ?_,
    ⟨h.comp, h.max, .setCompression _ (.fresh (.inl ⟨rfl, rfl, rfl, rfl⟩)), by rw [← h.comp]; rfl, rfl,
      by simp, .nil⟩, rfl, [out.flatten], es', rfl, rfl, ?_, ?_⟩
  · unfold finalizeCluster finalizeOn ZimLog.backend
    simp only [PyM.get_bind]
    rw [PyM.bind_ok (s' := (s, { z with clusters := z.clusters ++ [out.flatten] })) (a := z.clusters.length)
      (by unfold onZim; simp only [PyM.of_apply, hw])]
    simp only [PyM.modify_bind]
    rw [PyM.bind_ok (s' := ({ s with cluster := newCluster s.compressionType },
        { z with clusters := z.clusters ++ [out.flatten], entries := z.entries ++ es' })) (a := ())
      (by unfold onZim; simp only [PyM.of_apply, g1])]
    rfl
  · refine .cons ⟨fun file o rest hrest hfile st hs => ?_, by simpa using hg, t, W.known, ?_⟩ .nil
    · exact MCluster.C19_round_trip h.history hout (by rw [hcomp]; exact W.lossless)
        (by rw [hcomp]; exact W.known) file o rest hrest hfile st hs
    · have := written_as h.history.plain.toRepr hout
      rw [show MCluster.compOf .none s.cluster = t from hcomp] at this
      exact this
  · simpa [slots] using g2

theorem newClusterNeeded_spec {t : CompressionType} {mx : Int} {g : List Sourced} {s : Simple D} {z : ZimLog}
    (h : Pending X t mx z.mts g s) (p : Sourced) (hp : Storable p) :
    ∃ s', newClusterNeeded X p.1 (s, z) =
      (.ok (decide (g ≠ [] ∧ mx < (clusterSize g : Int) + p.2.length)), (s', z)) ∧
      Pending X t mx z.mts g s' := by
  have hlen : s.entries.length = g.length := by rw [← h.entries.length_eq]; simp
  unfold newClusterNeeded
  simp only [PyM.get_bind]
  by_cases hg : g = []
  · have : s.entries = [] := List.length_eq_zero_iff.1 (by rw [hlen, hg]; rfl)
    rw [this]
    exact ⟨s, by simp [hg, PyM.pure_apply], h⟩
  · have hne : s.entries.isEmpty = false := by
      cases hs : s.entries with
      | nil => rw [hs] at hlen; exact absurd (List.length_eq_zero_iff.1 hlen.symm) hg
      | cons => rfl
    rw [hne]
    obtain ⟨i', g1, g2, _⟩ := MCluster.getTotalDecompressedSize_spec h.history.plain.toRepr
      (.inr (.inl (h.modified hg)))
    have hw : MCluster.widthOf false (g.map Prod.snd) s.cluster =
        if 2 ^ 32 ≤ 4 * (g.length + 1) + (g.map fun p => p.2.length).sum then 8 else 4 := by
      unfold MCluster.widthOf MCluster.extOf
      rw [h.width, flatten_length, List.length_map]
      simp [h.modified hg]
    have hsz : (clusterBody (MCluster.widthOf false (g.map Prod.snd) s.cluster) (g.map Prod.snd)).length =
        clusterSize g := by
      rw [hw]
      unfold clusterSize
      rw [clusterBody_length, blobOffset, List.take_length, flatten_length, List.length_map]
    rw [hsz] at g1
    refine ⟨{ s with cluster := s.cluster.setInner i' }, ?_, ?_⟩
    · simp only [Bool.false_eq_true, if_false]
      rw [PyM.bind_ok (s' := ({ s with cluster := s.cluster.setInner i' }, z)) (a := (clusterSize g : Int))
        (by unfold onCluster; simp only [PyM.of_apply, g1])]
      rw [PyM.pure_apply, h.max, hp.1.size]
      simp [hg]
    · have hh := MCluster.History.decompressedSize h.history
      rw [g1] at hh
      exact ⟨h.comp, h.max, hh, h.forced, h.width, h.modified, h.entries⟩

theorem addItem_spec {t : CompressionType} {mx : Int} {g : List Sourced} {s : Simple D} {z : ZimLog}
    (W : Working X C t) (h : Pending X t mx z.mts g s) (hh : NotHuge g) (hm : z.mts.mutable = true)
    (p : Sourced) (hp : Storable p) :
    ∃ s' z', addItem X C p.1 (s, z) = (.ok (), (s', z')) ∧ z'.mts.mutable = true ∧
      z.mts.mimetypes <+: z'.mts.mimetypes ∧
      ((¬ (g ≠ [] ∧ mx < (clusterSize g : Int) + p.2.length) ∧ Wrote X C [] z z' ∧
          Pending X t mx z'.mts (g ++ [p]) s') ∨
        ((g ≠ [] ∧ mx < (clusterSize g : Int) + p.2.length) ∧ Wrote X C [g] z z' ∧
          Pending X t mx z'.mts [p] s')) := by
  -- adding to the current cluster
  have add : ∀ (g : List Sourced) (s : Simple D) (z : ZimLog), Pending X t mx z.mts g s →
      z.mts.mutable = true → ∃ s' z',
      (do let e ← onZim (PyM.of fun z => ((p.1.toEntry z.mts).1, { z with mts := (p.1.toEntry z.mts).2 }))
          let num ← onCluster (MCluster.appendBlob X p.1.source)
          match e.setBlobNumber num with
          | (.error x, _) => PyM.raise x
          | (.ok (), e) => PyM.modify (fun s => ({ s.1 with entries := s.1.entries ++ [e] }, s.2)) :
          PyM (Simple D × ZimLog) Unit) (s, z) = (.ok (), (s', z')) ∧ z'.mts.mutable = true ∧
      z.mts.mimetypes <+: z'.mts.mimetypes ∧ Wrote X C [] z z' ∧ Pending X t mx z'.mts (g ++ [p]) s' := by
    intro g s z h hm
    obtain ⟨id, a1, a2⟩ := Item.toEntry_spec p.1 z.mts hm hp.2
    obtain ⟨b1, b2⟩ := getIndex_prefix z.mts hm (encode p.1.mimetype)
    have b3 : (z.mts.getIndex (encode p.1.mimetype) true).2.get id = .ok (encode p.1.mimetype) := by
      obtain ⟨id', q1, q2, q3, _⟩ := MimeTypeList.C10_register z.mts hm (encode p.1.mimetype)
      rw [a2] at q1
      cases q1
      exact q3
    have c1 := MCluster.C23_append_index h.history hp.1
    have c2 : ∃ m', MCluster.appendBlob X p.1.source s.cluster = (.ok (g.length : Int), m') ∧
        MCluster.History X [] false .none ((g ++ [p]).map Prod.snd) m' ∧ m'.forceComp = some t ∧
        m'.forceExt = none ∧ m'.hasModifications = true := by
      obtain ⟨i1, r1, r2, _⟩ := MCluster.getNumberOfBlobs_spec h.history.plain.toRepr
      obtain ⟨q1, _⟩ := MCluster.setBlob_spec (h.history.plain.setInner r2) (g.map Prod.snd).length hp.1
      obtain ⟨m', q1, q2, q3, q4, q5, _⟩ := q1 (Nat.le_refl _)
      have happ : MCluster.appendBlob X p.1.source s.cluster = (.ok ((g.map Prod.snd).length : Int), m') := by
        unfold MCluster.appendBlob
        simp only [PyM.get_bind, h.history.plain.mutable, PyM.require_true_bind]
        rw [PyM.bind_ok r1, Int.toNat_natCast, PyM.bind_ok q1]
        rfl
      have hist := MCluster.History.modified (.append p.1.source p.2) hp.1 h.history
      have hex : (ModOp.exec X (.append p.1.source p.2) s.cluster).2 = m' := by
        unfold ModOp.exec
        simp only
        rw [PyM.bind_ok happ]
        rfl
      rw [hex] at hist
      rw [List.length_map] at happ
      refine ⟨m', happ, ?_, q4.trans h.forced, q3.trans h.width, q5⟩
      simpa [ModOp.apply] using hist
    obtain ⟨m', c2, c3, c4, c5, c6⟩ := c2
    have d1 : ∃ e, Entry.setBlobNumber
          { mimetypeId := id, ns := p.1.ns, url := p.1.url, titleRaw := some p.1.title,
            kind := .content 0 0, oldFullUrl := some (p.1.ns ++ p.1.url),
            forceIsArticle := some p.1.isArticle, dirty := true } (g.length : Int) = (.ok (), e) ∧ EntryFor (z.mts.getIndex (encode p.1.mimetype) true).2 p.1 0 g.length e ∧
          e.mutable = true := by
      unfold Entry.setBlobNumber
      simp only
      rw [if_neg (by omega)]
      simp only [Bool.not_true, Bool.false_eq_true, if_false, Int.toNat_natCast]
      split
      · exact ⟨_, rfl, ⟨rfl, rfl, rfl, fun _ => rfl, b3, rfl⟩, rfl⟩
      · rename_i h0
        have h0 : g.length = 0 := by simpa using h0
        exact ⟨_, rfl, ⟨rfl, rfl, rfl, fun _ => rfl, b3, by rw [h0]⟩, rfl⟩
    obtain ⟨e, d1, d2, d3⟩ := d1
    refine ⟨{ s with cluster := m', entries := s.entries ++ [e] },
      { z with mts := (z.mts.getIndex (encode p.1.mimetype) true).2 }, ?_, b1, b2,
      (Wrote.refl z).mts b2, h.comp, h.max, c3, c4, c5, fun _ => c6, ?_⟩
    · rw [PyM.bind_ok (s' := (s, { z with mts := (z.mts.getIndex (encode p.1.mimetype) true).2 }))
        (by unfold onZim; simp only [PyM.of_apply, a1]; rfl)]
      rw [PyM.bind_ok (s' := ({ s with cluster := m' },
        { z with mts := (z.mts.getIndex (encode p.1.mimetype) true).2 })) (a := (g.length : Int))
        (by unfold onCluster; simp only [PyM.of_apply, c2])]
      rw [d1]
      rfl
    · rw [List.zipIdx_append]
      refine List.rel_append ((h.mono b2).entries) ?_
      simpa using ⟨d2, d3⟩
  unfold addItem addItemOn
  obtain ⟨s1, h1, h2⟩ := newClusterNeeded_spec h p hp
  rw [PyM.bind_ok h1]
  by_cases hneed : g ≠ [] ∧ mx < (clusterSize g : Int) + p.2.length
  · rw [decide_eq_true hneed]
    obtain ⟨s2, z2, f1, f2, f3, f4⟩ := finalize_spec W h2 hh hneed.1
    simp only [if_true]
    rw [PyM.bind_ok (show finalizeOn (ZimLog.backend X C) (s1, z) = _ from f1)]
    obtain ⟨s3, z3, k1, k2, k3, k4, k5⟩ := add [] s2 z2 f2 (by rw [f3]; exact hm)
    refine ⟨s3, z3, k1, k2, by rw [← f3]; exact k3, .inr ⟨hneed, ?_, k5⟩⟩
    exact f4.trans k4 k3
  · rw [decide_eq_false hneed]
    obtain ⟨s3, z3, k1, k2, k3, k4, k5⟩ := add g s1 z h2 hm
    exact ⟨s3, z3, k1, k2, k3, .inl ⟨hneed, k4, k5⟩⟩

theorem flush_spec {t : CompressionType} {mx : Int} {g : List Sourced} {s : Simple D} {z : ZimLog}
    (W : Working X C t) (h : Pending X t mx z.mts g s) (hh : NotHuge g) :
    ∃ s' z', flush X C (s, z) = (.ok (), (s', z')) ∧ Pending X t mx z'.mts [] s' ∧ z'.mts = z.mts ∧
      Wrote X C (if g = [] then [] else [g]) z z' := by
  have hlen : s.entries.length = g.length := by rw [← h.entries.length_eq]; simp
  unfold flush flushOn
  simp only [PyM.get_bind]
  by_cases hg : g = []
  · have : s.entries = [] := List.length_eq_zero_iff.1 (by rw [hlen, hg]; rfl)
    rw [this, if_pos hg]
    subst hg
    exact ⟨s, z, rfl, h, rfl, .refl z⟩
  · have hne : s.entries.isEmpty = false := by
      cases hs : s.entries with
      | nil => rw [hs] at hlen; exact absurd (List.length_eq_zero_iff.1 hlen.symm) hg
      | cons => rfl
    rw [hne, if_neg hg]
    exact finalize_spec W h hh hg

end Simple

/-! ### The distribution to clusters -/

theorem distribute_snoc (mx : Int) (items : List Sourced) (p : Sourced) :
    distribute mx (items ++ [p]) =
      if (distribute mx items).2 ≠ [] ∧ mx < (clusterSize (distribute mx items).2 : Int) + p.2.length then
        ((distribute mx items).1 ++ [(distribute mx items).2], [p])
      else ((distribute mx items).1, (distribute mx items).2 ++ [p]) := by
  unfold distribute
  rw [List.foldl_append]
  rfl

/-- Induction over the last element. -/
theorem snoc_induction {α : Type} {P : List α → Prop} (h0 : P []) (h1 : ∀ l a, P l → P (l ++ [a])) (l : List α) :
    P l := by
  rw [← List.reverse_reverse l]
  induction l.reverse with
  | nil => exact h0
  | cons a l ih => rw [List.reverse_cons]; exact h1 _ _ ih

theorem distribute_flatten (mx : Int) (items : List Sourced) :
    (distribute mx items).1.flatten ++ (distribute mx items).2 = items := by
  induction items using snoc_induction with
  | h0 => rfl
  | h1 items p ih =>
    rw [distribute_snoc]
    split
    · simp [ih]
    · simp only; rw [← List.append_assoc, ih]

theorem clustersOf_flatten (mx : Int) (items : List Sourced) : (clustersOf mx items).flatten = items := by
  have h := distribute_flatten mx items
  unfold clustersOf
  simp only
  split
  · rename_i hc; rw [hc] at h; simpa using h
  · simpa using h

theorem distribute_ne_nil (mx : Int) (items : List Sourced) : ∀ g ∈ (distribute mx items).1, g ≠ [] := by
  induction items using snoc_induction with
  | h0 => intro g hg; simp [distribute] at hg
  | h1 items p ih =>
    rw [distribute_snoc]
    split
    · rename_i h
      intro g hg
      rcases List.mem_append.1 hg with hg | hg
      · exact ih g hg
      · simp at hg; rw [hg]; exact h.1
    · exact ih

theorem clustersOf_ne_nil (mx : Int) (items : List Sourced) : ∀ g ∈ clustersOf mx items, g ≠ [] := by
  unfold clustersOf
  simp only
  split
  · exact distribute_ne_nil mx items
  · rename_i h
    intro g hg
    rcases List.mem_append.1 hg with hg | hg
    · exact distribute_ne_nil mx items g hg
    · simp at hg; rw [hg]; exact h

theorem NotHuge.sublist {l l' : List Sourced} (h : NotHuge l) (hs : l'.Sublist l) : NotHuge l' := by
  have h1 := hs.length_le
  have h2 : (l'.map fun p => p.2.length).sum ≤ (l.map fun p => p.2.length).sum := by
    clear h h1
    induction hs with
    | slnil => exact Nat.le_refl _
    | cons a _ ih => simp only [List.map_cons, List.sum_cons]; omega
    | cons_cons a _ ih => simp only [List.map_cons, List.sum_cons]; omega
  unfold NotHuge at h ⊢
  omega

theorem NotHuge.current {items pre : List Sourced} (mx : Int) (h : NotHuge items) (hs : pre.Sublist items) :
    NotHuge (distribute mx pre).2 := by
  refine h.sublist (List.Sublist.trans ?_ hs)
  have := distribute_flatten mx pre
  rw [← this]
  conv => lhs; rw [this]
  exact List.sublist_append_right _ _

end Pyzim
