import Verif.Lemmas.Strategy
import Verif.Lemmas.Counter

/-!
# Properties of the compression strategies (C26, C27, C28)
-/

namespace Pyzim

/-! ### From clusters and groups of items to "stored exactly once" -/

theorem mem_slots (G : List (List Sourced)) : ∀ base s, s ∈ slots base G ↔
    ∃ c b g p, G[c]? = some g ∧ g[b]? = some p ∧ s = (p.1, base + c, b) := by
  induction G with
  | nil => intro base s; simp [slots]
  | cons g G ih =>
    intro base s
    simp only [slots, List.mem_append, List.mem_map, ih]
    constructor
    · rintro (⟨⟨p, b⟩, hp, rfl⟩ | ⟨c, b, g', p, h1, h2, rfl⟩)
      · exact ⟨0, b, g, p, rfl, by simpa using (List.mem_zipIdx_iff_getElem?.1 hp), rfl⟩
      · exact ⟨c + 1, b, g', p, by simpa using h1, h2, by rw [Nat.add_assoc, Nat.add_comm 1]⟩
    · rintro ⟨c, b, g', p, h1, h2, rfl⟩
      cases c with
      | zero =>
        simp at h1
        subst h1
        exact .inl ⟨(p, b), List.mem_zipIdx_iff_getElem?.2 h2, rfl⟩
      | succ c =>
        exact .inr ⟨c, b, g', p, by simpa using h1, h2, by rw [Nat.add_assoc, Nat.add_comm 1]⟩

theorem slots_nodup (G : List (List Sourced)) : ∀ base,
    ((slots base G).map fun s => EntryKind.content s.2.1 s.2.2).Nodup := by
  induction G with
  | nil => intro base; simp [slots]
  | cons g G ih =>
    intro base
    rw [slots, List.map_append, List.nodup_append]
    refine ⟨?_, ih _, ?_⟩
    · rw [List.map_map]
      have : ((fun s : Item × Nat × Nat => EntryKind.content s.2.1 s.2.2) ∘
          fun p : Sourced × Nat => (p.1.1, base, p.2)) = (fun n => EntryKind.content base n) ∘ Prod.snd := rfl
      rw [this, ← List.map_map, List.zipIdx_map_snd]
      exact List.Pairwise.map _ (fun a b hab => by simpa using hab) List.nodup_range'
    · intro a ha b hb hab
      simp only [List.mem_map] at ha hb
      obtain ⟨s, ⟨q, _, rfl⟩, rfl⟩ := ha
      obtain ⟨s', hs', rfl⟩ := hb
      obtain ⟨c, b, g', p, _, _, rfl⟩ := (mem_slots G _ _).1 hs'
      simp at hab
      omega

theorem slots_items (G : List (List Sourced)) : ∀ base,
    List.Forall₂ (fun (p : Sourced) (s : Item × Nat × Nat) => s.1 = p.1 ∧ base ≤ s.2.1 ∧
      ∃ g, G[s.2.1 - base]? = some g ∧ g[s.2.2]? = some p) G.flatten (slots base G) := by
  induction G with
  | nil => intro base; exact .nil
  | cons g G ih =>
    intro base
    rw [List.flatten_cons, slots]
    refine List.rel_append ?_ ((ih (base + 1)).imp fun p s h => ?_)
    · rw [List.forall₂_map_right_iff]
      have : ∀ (l : List Sourced) k, (∀ j, l[j]? = g[k + j]?) → List.Forall₂ (fun (p : Sourced) (q : Sourced × Nat) =>
          q.1.1 = p.1 ∧ base ≤ base ∧ ∃ g', (g :: G)[base - base]? = some g' ∧ g'[q.2]? = some p) l (l.zipIdx k) := by
        intro l
        induction l with
        | nil => intro k _; exact .nil
        | cons a l ih =>
          intro k hk
          rw [List.zipIdx_cons]
          refine .cons ⟨rfl, Nat.le_refl _, g, by simp, ?_⟩ (ih (k + 1) fun j => ?_)
          · have := hk 0; simp at this; simp [← this]
          · have := hk (j + 1); simp at this; rw [this, Nat.add_assoc, Nat.add_comm 1]
      exact this g 0 (fun j => by simp)
    · obtain ⟨h1, h2, g', h3, h4⟩ := h
      refine ⟨h1, by omega, g', ?_, h4⟩
      have : s.2.1 - base = (s.2.1 - (base + 1)) + 1 := by omega
      rw [this, List.getElem?_cons_succ]
      exact h3

theorem forall₂_comp {α β γ : Type} {R : α → β → Prop} {S : β → γ → Prop} {T : α → γ → Prop} {a : List α}
    {b : List β} {c : List γ} (h1 : List.Forall₂ R a b) (h2 : List.Forall₂ S b c)
    (h : ∀ x y z, R x y → S y z → T x z) : List.Forall₂ T a c := by
  induction h1 generalizing c with
  | nil => cases h2; exact .nil
  | cons hr _ ih => cases h2 with | cons hs h2 => exact .cons (h _ _ _ hr hs) (ih h2)

theorem Wrote.storedOnce {D K : Type} {X : Codecs D} {C : Compressors K} {G : List (List Sourced)} {z z' : ZimLog}
    (h : Wrote X C G z z') {items : List Sourced} (hp : G.flatten.Perm items) : StoredOnce X items z z' := by
  obtain ⟨cs, es, h1, h2, h3, h4⟩ := h
  have hkind : es.map Entry.kind = (slots z.clusters.length G).map fun s => EntryKind.content s.2.1 s.2.2 := by
    clear h2
    generalize slots z.clusters.length G = l at h4
    induction h4 with
    | nil => rfl
    | cons he _ ih => rw [List.map_cons, List.map_cons, ih, he.location]
  refine ⟨G.flatten, cs, G.map fun g => g.map Prod.snd, es, hp, h1, h2, ?_, ?_, ?_, ?_⟩
  · rw [List.forall₂_map_right_iff]
    exact (h3.imp fun _ _ h => h.1).flip
  · have := slots_items G z.clusters.length
    refine forall₂_comp this h4 fun p s e hps hse => ?_
    obtain ⟨q1, q2, g, q3, q4⟩ := hps
    refine ⟨s.2.1 - z.clusters.length, s.2.2, g.map Prod.snd, ?_, by rw [List.getElem?_map, q3]; rfl,
      by rw [List.getElem?_map, q4]; rfl⟩
    rw [← q1, show z.clusters.length + (s.2.1 - z.clusters.length) = s.2.1 by omega]
    exact hse
  · rw [hkind]
    exact slots_nodup G _
  · intro c contents hc b hb
    rw [List.getElem?_map] at hc
    cases hg : G[c]? with
    | none => rw [hg] at hc; cases hc
    | some g =>
      rw [hg] at hc
      simp at hc
      subst hc
      rw [List.length_map] at hb
      have hm : EntryKind.content (z.clusters.length + c) b ∈ es.map Entry.kind := by
        rw [hkind, List.mem_map]
        exact ⟨(g[b].1, z.clusters.length + c, b), (mem_slots G _ _).2
          ⟨c, b, g, g[b], hg, List.getElem?_eq_getElem hb, rfl⟩, rfl⟩
      simpa using hm

/-! ### The simple strategy -/

namespace Simple
variable {D K : Type} {X : Codecs D} {C : Compressors K}

theorem addAll_spec {t : CompressionType} (W : Working X C t) (mx : Int) (z : ZimLog) :
    ∀ (rest pre : List Sourced) (s : Simple D) (z1 : ZimLog), (∀ p ∈ rest, Storable p) →
      NotHuge (pre ++ rest) → z1.mts.mutable = true → Pending X t mx z1.mts (distribute mx pre).2 s →
      Wrote X C (distribute mx pre).1 z z1 →
      ∃ s' z', addAll X C (rest.map Prod.fst) (s, z1) = (.ok (), (s', z')) ∧ s'.hasItems = false ∧
        Wrote X C (clustersOf mx (pre ++ rest)) z z' := by
  intro rest
  induction rest with
  | nil =>
    intro pre s z1 _ hh hm hp hw
    rw [List.append_nil] at hh ⊢
    obtain ⟨s', z', h1, h2, h3, h4⟩ := flush_spec W hp (hh.current mx (List.Sublist.refl _))
    refine ⟨s', z', h1, ?_, ?_⟩
    · have := h2.entries.length_eq
      simp only [List.zipIdx_nil, List.length_nil] at this
      simp [hasItems, ← this]
    · have := hw.trans h4 (by rw [h3]; exact List.prefix_rfl)
      unfold clustersOf
      simp only
      split
      · rename_i hc; rw [if_pos hc] at this; simpa using this
      · rename_i hc; rw [if_neg hc] at this; exact this
  | cons p rest ih =>
    intro pre s z1 hs hh hm hp hw
    obtain ⟨s', z', h1, h2, h3, h4⟩ := addItem_spec W hp
      (hh.current mx (List.sublist_append_left _ _)) hm p (hs p (by simp))
    have key : Pending X t mx z'.mts (distribute mx (pre ++ [p])).2 s' ∧
        Wrote X C (distribute mx (pre ++ [p])).1 z z' := by
      rw [distribute_snoc]
      rcases h4 with ⟨hn, g1, g2⟩ | ⟨hn, g1, g2⟩
      · rw [if_neg hn]
        exact ⟨g2, by simpa using hw.trans g1 h3⟩
      · rw [if_pos hn]
        exact ⟨g2, hw.trans g1 h3⟩
    obtain ⟨s'', z'', k1, k2, k3⟩ := ih (pre ++ [p]) s' z' (fun q hq => hs q (by simp [hq]))
      (by rwa [List.append_assoc]) h2 key.1 key.2
    refine ⟨s'', z'', ?_, k2, by simpa using k3⟩
    show (addItem X C p.1 >>= fun _ => addAll X C (rest.map Prod.fst)) (s, z1) = _
    rw [PyM.bind_ok h1, k1]

/-- Adding items to a new simple strategy and flushing it writes one cluster for each group of the
distribution, in this order, and the entries of the items. -/
theorem C27_distribution {t : CompressionType} (W : Working X C t) (mx : Int) (z : ZimLog)
    (hm : z.mts.mutable = true) (items : List Sourced) (hs : ∀ p ∈ items, Storable p) (hh : NotHuge items) :
    ∃ s' z', addAll X C (items.map Prod.fst) (new t mx, z) = (.ok (), (s', z')) ∧ s'.hasItems = false ∧
      Wrote X C (clustersOf mx items) z z' :=
  addAll_spec W mx z items [] (new t mx) z hs (by simpa using hh) hm (new_pending t mx z.mts) (Wrote.refl z)

/-- **C26** for the simple strategy: whatever items are added, after the flush every one is stored
exactly once. -/
theorem C26_simple {t : CompressionType} (W : Working X C t) (mx : Int) (z : ZimLog)
    (hm : z.mts.mutable = true) (items : List Sourced) (hs : ∀ p ∈ items, Storable p) (hh : NotHuge items) :
    ∃ s' z', addAll X C (items.map Prod.fst) (new t mx, z) = (.ok (), (s', z')) ∧ s'.hasItems = false ∧
      StoredOnce X items z z' := by
  obtain ⟨s', z', h1, h2, h3⟩ := C27_distribution W mx z hm items hs hh
  exact ⟨s', z', h1, h2, h3.storedOnce (by rw [clustersOf_flatten])⟩

/-- With several items, a cluster is at most one offset larger than the maximal size. -/
theorem clustersOf_bound (mx : Int) (items : List Sourced) : ∀ g ∈ clustersOf mx items, 1 < g.length →
    4 * ((g.length : Int) + 1) + (g.map fun p => p.2.length).sum ≤ mx + 4 := by
  have key : ∀ items : List Sourced,
      (∀ g ∈ (distribute mx items).1, 1 < g.length →
        4 * ((g.length : Int) + 1) + (g.map fun p => p.2.length).sum ≤ mx + 4) ∧
      (1 < (distribute mx items).2.length → 4 * (((distribute mx items).2.length : Int) + 1) +
        ((distribute mx items).2.map fun p => p.2.length).sum ≤ mx + 4) := by
    intro items
    induction items using snoc_induction with
    | h0 => exact ⟨fun g hg => by simp [distribute] at hg, fun h => by simp [distribute] at h⟩
    | h1 items p ih =>
      rw [distribute_snoc]
      split
      · rename_i h
        refine ⟨fun g hg => ?_, fun h => by simp at h⟩
        rcases List.mem_append.1 hg with hg | hg
        · exact ih.1 g hg
        · simp at hg; subst hg; exact ih.2
      · rename_i h
        refine ⟨ih.1, fun hl => ?_⟩
        have hne : (distribute mx items).2 ≠ [] := fun e => by rw [e] at hl; simp at hl
        have hle : (clusterSize (distribute mx items).2 : Int) + p.2.length ≤ mx := by
          by_contra hc; exact h ⟨hne, by omega⟩
        simp only [List.length_append, List.length_singleton, List.map_append, List.map_cons, List.map_nil,
          List.sum_append, List.sum_cons, List.sum_nil]
        have : 4 * ((distribute mx items).2.length + 1) +
            ((distribute mx items).2.map fun p => p.2.length).sum ≤ clusterSize (distribute mx items).2 := by
          unfold clusterSize
          simp only
          have : ∀ w, 4 ≤ w → 4 * ((distribute mx items).2.length + 1) ≤
              w * ((distribute mx items).2.length + 1) := fun w hw => Nat.mul_le_mul_right _ hw
          split
          · have := this 8 (by omega); omega
          · omega
        omega
  unfold clustersOf
  simp only
  split
  · exact (key items).1
  · intro g hg
    rcases List.mem_append.1 hg with hg | hg
    · exact (key items).1 g hg
    · simp at hg; subst hg; exact (key items).2

/-- **C27.** Every cluster written by the simple strategy holds a single item, or its decompressed size
exceeds the maximal size by at most one offset (4 bytes), for limits below 4 GiB. -/
theorem C27_bound {t : CompressionType} (W : Working X C t) (mx : Int) (hmx : mx < 2 ^ 32 - 4) (z : ZimLog)
    (hm : z.mts.mutable = true) (items : List Sourced) (hs : ∀ p ∈ items, Storable p) (hh : NotHuge items) :
    ∃ s' z' groups, addAll X C (items.map Prod.fst) (new t mx, z) = (.ok (), (s', z')) ∧
      Wrote X C groups z z' ∧ groups.flatten = items ∧
      ∀ g ∈ groups, g.length = 1 ∨ (clusterSize g : Int) ≤ mx + 4 := by
  obtain ⟨s', z', h1, _, h3⟩ := C27_distribution W mx z hm items hs hh
  refine ⟨s', z', _, h1, h3, clustersOf_flatten mx items, fun g hg => ?_⟩
  have hne := List.length_pos_iff.2 (clustersOf_ne_nil mx items g hg)
  by_cases h : g.length = 1
  · exact .inl h
  · have := clustersOf_bound mx items g hg (by omega)
    right
    unfold clusterSize
    simp only
    rw [if_neg (by omega)]
    omega

end Simple

/-! ### The strategy by mimetype -/

/-- The items with the given mimetype, in order. -/
def ofMimetype (mt : String) (items : List Sourced) : List Sourced :=
  items.filter fun p => p.1.mimetype = mt

/-- The groups with the given label, in order. -/
def labelled (mt : String) (G : List (String × List Sourced)) : List (List Sourced) :=
  (G.filter fun g => g.1 = mt).map Prod.snd

theorem labelled_append (mt : String) (G H : List (String × List Sourced)) :
    labelled mt (G ++ H) = labelled mt G ++ labelled mt H := by
  simp [labelled]

namespace ByMimetype
variable {D K : Type} {X : Codecs D} {C : Compressors K}

/-- State after adding the items `pre`. -/
structure Inv (X : Codecs D) (C : Compressors K) (t : CompressionType) (mx : Int) (z0 : ZimLog) (pre : List Sourced)
    (S : ByMimetype D) (z : ZimLog) : Prop where
  comp : S.compressionType = t
  max : S.maxSize = mx
  mutable : z.mts.mutable = true
  keys : DistinctKeys S.strategies
  absent : ∀ mt, dictGet mt S.strategies = none → ofMimetype mt pre = []
  pending : ∀ mt s, dictGet mt S.strategies = some s →
    Simple.Pending X t mx z.mts (distribute mx (ofMimetype mt pre)).2 s
  wrote : ∃ G, Wrote X C (G.map Prod.snd) z0 z ∧
    ∀ mt, labelled mt G = (distribute mx (ofMimetype mt pre)).1

theorem addItem_spec {t : CompressionType} (W : Working X C t) {mx : Int} {z0 z : ZimLog}
    {pre : List Sourced} {S : ByMimetype D} (h : Inv X C t mx z0 pre S z) (hh : NotHuge pre) (p : Sourced)
    (hp : Storable p) :
    ∃ S' z', addItem X C p.1 (S, z) = (.ok (), (S', z')) ∧ Inv X C t mx z0 (pre ++ [p]) S' z' := by
  obtain ⟨G, hw, hG⟩ := h.wrote
  -- the strategy in charge
  have hcs : ∃ cs S1, getCs p.1.mimetype S = (cs, S1) ∧ S1.compressionType = t ∧ S1.maxSize = mx ∧
      Simple.Pending X t mx z.mts (distribute mx (ofMimetype p.1.mimetype pre)).2 cs ∧
      DistinctKeys S1.strategies ∧ ∀ mt, mt ≠ p.1.mimetype → dictGet mt S1.strategies = dictGet mt S.strategies := by
    unfold getCs
    cases hg : dictGet p.1.mimetype S.strategies with
    | some cs => exact ⟨cs, S, rfl, h.comp, h.max, h.pending _ _ hg, h.keys, fun _ _ => rfl⟩
    | none =>
      refine ⟨_, _, rfl, h.comp, h.max, ?_, dictSet_nodup _ _ _ h.keys, fun mt hmt => dictGet_set_ne _ _ hmt⟩
      rw [h.absent _ hg, h.comp, h.max]
      exact Simple.new_pending t mx z.mts
  obtain ⟨cs, S1, c1, c2, c3, c4, c5, c6⟩ := hcs
  have hhc : NotHuge (distribute mx (ofMimetype p.1.mimetype pre)).2 :=
    hh.current mx List.filter_sublist
  obtain ⟨cs', z', a1, a2, a3, a4⟩ := Simple.addItem_spec W c4 hhc h.mutable p hp
  have hsame : ∀ mt, mt ≠ p.1.mimetype → ofMimetype mt (pre ++ [p]) = ofMimetype mt pre := by
    intro mt hmt
    simp [ofMimetype, Ne.symm hmt]
  have hthis : ofMimetype p.1.mimetype (pre ++ [p]) = ofMimetype p.1.mimetype pre ++ [p] := by
    simp [ofMimetype]
  refine ⟨{ S1 with strategies := dictSet p.1.mimetype cs' S1.strategies }, z', ?_, c2, c3, a2,
    dictSet_nodup _ _ _ c5, ?_, ?_, ?_⟩
  · unfold addItem addItemOn
    unfold Simple.addItem at a1
    simp only [PyM.of_apply, c1, a1]
  · intro mt hmt
    by_cases e : mt = p.1.mimetype
    · subst e; rw [dictGet_set_self] at hmt; cases hmt
    · rw [dictGet_set_ne _ _ e, c6 mt e] at hmt
      rw [hsame mt e]
      exact h.absent mt hmt
  · intro mt s hs
    by_cases e : mt = p.1.mimetype
    · subst e
      rw [dictGet_set_self] at hs
      cases hs
      rw [hthis, distribute_snoc]
      rcases a4 with ⟨hn, _, g2⟩ | ⟨hn, _, g2⟩
      · rw [if_neg hn]; exact g2
      · rw [if_pos hn]; exact g2
    · rw [dictGet_set_ne _ _ e, c6 mt e] at hs
      rw [hsame mt e]
      exact (h.pending mt s hs).mono a3
  · rcases a4 with ⟨hn, g1, _⟩ | ⟨hn, g1, _⟩
    · refine ⟨G, by simpa using hw.trans g1 a3, fun mt => ?_⟩
      by_cases e : mt = p.1.mimetype
      · subst e
        rw [hthis, distribute_snoc, if_neg hn]
        exact hG _
      · rw [hsame mt e]; exact hG mt
    · refine ⟨G ++ [(p.1.mimetype, (distribute mx (ofMimetype p.1.mimetype pre)).2)],
        by simpa using hw.trans g1 a3, fun mt => ?_⟩
      rw [labelled_append]
      by_cases e : mt = p.1.mimetype
      · subst e
        rw [hthis, distribute_snoc, if_pos hn, hG]
        simp [labelled]
      · rw [hsame mt e, hG]
        simp [labelled, Ne.symm e]

theorem flushAll_spec {t : CompressionType} (W : Working X C t) {mx : Int} (cur : String → List Sourced) :
    ∀ (L : List (String × Simple D)) (z : ZimLog), DistinctKeys L →
      (∀ q ∈ L, Simple.Pending X t mx z.mts (cur q.1) q.2 ∧ NotHuge (cur q.1)) →
      ∃ L' z' H, flushAllOn (ZimLog.backend X C) L z = (.ok (), L', z') ∧ z'.mts = z.mts ∧ Wrote X C (H.map Prod.snd) z z' ∧
        (∀ mt, labelled mt H = if mt ∈ L.map Prod.fst ∧ cur mt ≠ [] then [cur mt] else []) ∧
        ∀ q ∈ L', q.2.hasItems = false := by
  intro L
  induction L with
  | nil => intro z _ _; exact ⟨[], z, [], rfl, rfl, .refl z, fun mt => by simp [labelled], by simp⟩
  | cons q L ih =>
    intro z hd hp
    obtain ⟨mt0, cs⟩ := q
    have hd' : mt0 ∉ L.map Prod.fst ∧ DistinctKeys L := by
      unfold DistinctKeys at hd ⊢
      rw [List.map_cons, List.nodup_cons] at hd
      exact hd
    obtain ⟨hpq, hhq⟩ := hp (mt0, cs) (by simp)
    obtain ⟨cs', z1, h1, h2, h3, h4⟩ := Simple.flush_spec W hpq hhq
    obtain ⟨L', z', H, g1, g2, g3, g4, g5⟩ := ih z1 hd'.2 (fun q hq => by
      rw [h3]; exact hp q (by simp [hq]))
    refine ⟨(mt0, cs') :: L', z', (if cur mt0 = [] then [] else [(mt0, cur mt0)]) ++ H, ?_,
      g2.trans h3, ?_, fun mt => ?_, ?_⟩
    · unfold flushAllOn
      unfold Simple.flush at h1
      rw [h1]
      simp only [g1]
    · rw [List.map_append]
      have : (if cur mt0 = [] then [] else [(mt0, cur mt0)]).map Prod.snd = if cur mt0 = [] then [] else [cur mt0] := by
        split <;> rfl
      rw [this]
      exact h4.trans g3 (by rw [g2]; exact List.prefix_rfl)
    · rw [labelled_append, g4]
      by_cases e : mt = mt0
      · subst e
        by_cases hc : cur mt = []
        · simp [hc, labelled]
        · have hn : ¬ (mt ∈ L.map Prod.fst ∧ cur mt ≠ []) := fun h => hd'.1 h.1
          rw [if_neg hn, if_neg hc, if_pos ⟨by simp, hc⟩]
          simp [labelled]
      · have : labelled mt (if cur mt0 = [] then [] else [(mt0, cur mt0)]) = [] := by
          split <;> simp [labelled, Ne.symm e]
        have hmem : (mt ∈ ((mt0, cs) :: L).map Prod.fst) ↔ mt ∈ L.map Prod.fst := by
          rw [List.map_cons, List.mem_cons]
          exact ⟨fun h => h.resolve_left e, .inr⟩
        rw [this, List.nil_append]
        simp only [hmem]
    · intro q hq
      rcases List.mem_cons.1 hq with rfl | hq
      · have := h2.entries.length_eq
        simp only [List.zipIdx_nil, List.length_nil] at this
        simp [Simple.hasItems, ← this]
      · exact g5 q hq

theorem dictGet_of_mem {V : Type} {L : List (String × V)} (hd : DistinctKeys L) {q : String × V} (hq : q ∈ L) :
    dictGet q.1 L = some q.2 := by
  induction L with
  | nil => cases hq
  | cons a L ih =>
    unfold DistinctKeys at hd ih
    rw [List.map_cons, List.nodup_cons] at hd
    unfold dictGet
    rcases List.mem_cons.1 hq with rfl | hq
    · simp
    · rw [if_neg (fun e => hd.1 (by rw [e]; exact List.mem_map_of_mem hq))]
      exact ih hd.2 hq

theorem addAll_spec {t : CompressionType} (W : Working X C t) (mx : Int) (z : ZimLog) :
    ∀ (rest pre : List Sourced) (S : ByMimetype D) (z1 : ZimLog), (∀ p ∈ rest, Storable p) →
      NotHuge (pre ++ rest) → Inv X C t mx z pre S z1 →
      ∃ S' z' G, addAll X C (rest.map Prod.fst) (S, z1) = (.ok (), (S', z')) ∧ S'.hasItems = false ∧
        Wrote X C (G.map Prod.snd) z z' ∧
        ∀ mt, labelled mt G = clustersOf mx (ofMimetype mt (pre ++ rest)) := by
  intro rest
  induction rest with
  | nil =>
    intro pre S z1 _ hh h
    rw [List.append_nil] at hh ⊢
    obtain ⟨G, hw, hG⟩ := h.wrote
    obtain ⟨L', z', H, g1, g2, g3, g4, g5⟩ := flushAll_spec W (mx := mx)
      (fun mt => (distribute mx (ofMimetype mt pre)).2) S.strategies z1 h.keys
      (fun q hq => ⟨h.pending _ _ (dictGet_of_mem h.keys hq), hh.current mx List.filter_sublist⟩)
    refine ⟨{ S with strategies := L' }, z', G ++ H, ?_, ?_, ?_, fun mt => ?_⟩
    · show flush X C (S, z1) = _
      unfold flush flushOn
      simp only [PyM.of_apply, g1]
    · unfold hasItems
      rw [List.any_eq_false]
      intro q hq
      simp [g5 q hq]
    · rw [List.map_append]
      exact hw.trans g3 (by rw [g2]; exact List.prefix_rfl)
    · rw [labelled_append, hG, g4]
      unfold clustersOf
      simp only
      by_cases hc : (distribute mx (ofMimetype mt pre)).2 = []
      · simp [hc]
      · have hin : mt ∈ S.strategies.map Prod.fst := by
          by_contra hmem
          have hnone : dictGet mt S.strategies = none := by
            clear g1 g4 g5
            revert hmem
            induction S.strategies with
            | nil => intro _; rfl
            | cons a L ih =>
              intro hmem
              rw [List.map_cons, List.mem_cons, not_or] at hmem
              unfold dictGet
              rw [if_neg (Ne.symm hmem.1)]
              exact ih hmem.2
          rw [h.absent mt hnone] at hc
          exact hc rfl
        rw [if_neg hc, if_pos ⟨hin, hc⟩]
  | cons p rest ih =>
    intro pre S z1 hs hh h
    obtain ⟨S', z', h1, h2⟩ := addItem_spec W h (hh.sublist (List.sublist_append_left _ _)) p (hs p (by simp))
    obtain ⟨S'', z'', G, k1, k2, k3, k4⟩ := ih (pre ++ [p]) S' z' (fun q hq => hs q (by simp [hq]))
      (by rwa [List.append_assoc]) h2
    refine ⟨S'', z'', G, ?_, k2, k3, fun mt => by simpa using k4 mt⟩
    show (addItem X C p.1 >>= fun _ => addAll X C (rest.map Prod.fst)) (S, z1) = _
    rw [PyM.bind_ok h1, k1]

/-- A new strategy. -/
def new (t : CompressionType) (mx : Int) : ByMimetype D := { compressionType := t, maxSize := mx }

/-- **C28.** Adding items to a new strategy by mimetype and flushing it writes clusters that each have
one mimetype, and no empty ones; those of one mimetype are the ones which a simple strategy would have
made from the items with this mimetype, in this order. -/
theorem C28_by_mimetype {t : CompressionType} (W : Working X C t) (mx : Int) (z : ZimLog)
    (hm : z.mts.mutable = true) (items : List Sourced) (hs : ∀ p ∈ items, Storable p) (hh : NotHuge items) :
    ∃ S' z' G, addAll X C (items.map Prod.fst) (new t mx, z) = (.ok (), (S', z')) ∧ S'.hasItems = false ∧
      Wrote X C (G.map Prod.snd) z z' ∧
      (∀ g ∈ G, g.2 ≠ [] ∧ ∀ p ∈ g.2, p.1.mimetype = g.1) ∧
      ∀ mt, labelled mt G = clustersOf mx (ofMimetype mt items) := by
  obtain ⟨S', z', G, h1, h2, h3, h4⟩ := addAll_spec W mx z items [] (new t mx) z hs (by simpa using hh)
    ⟨rfl, rfl, hm, by simp [DistinctKeys, new], fun mt _ => rfl, fun mt s hs => by simp [new, dictGet] at hs,
      [], .refl z, fun mt => rfl⟩
  rw [List.nil_append] at h4
  refine ⟨S', z', G, h1, h2, h3, fun g hg => ?_, h4⟩
  have hmem : g.2 ∈ clustersOf mx (ofMimetype g.1 items) := by
    rw [← h4]
    exact List.mem_map.2 ⟨g, List.mem_filter.2 ⟨hg, by simp⟩, rfl⟩
  refine ⟨clustersOf_ne_nil mx _ _ hmem, fun p hp => ?_⟩
  have : p ∈ (clustersOf mx (ofMimetype g.1 items)).flatten := List.mem_flatten.2 ⟨_, hmem, hp⟩
  rw [clustersOf_flatten] at this
  simpa using (List.mem_filter.1 this).2

/-- **C26** for the strategy by mimetype: whatever items are added, after the flush every one is stored
exactly once. -/
theorem C26_by_mimetype {t : CompressionType} (W : Working X C t) (mx : Int) (z : ZimLog)
    (hm : z.mts.mutable = true) (items : List Sourced) (hs : ∀ p ∈ items, Storable p) (hh : NotHuge items) :
    ∃ S' z', addAll X C (items.map Prod.fst) (new t mx, z) = (.ok (), (S', z')) ∧ S'.hasItems = false ∧
      StoredOnce X items z z' := by
  obtain ⟨S', z', G, h1, h2, h3, h4, h5⟩ := C28_by_mimetype W mx z hm items hs hh
  refine ⟨S', z', h1, h2, h3.storedOnce ?_⟩
  classical
  rw [List.perm_iff_count]
  intro a
  have e1 : ∀ l : List Sourced, l.count a = (ofMimetype a.1.mimetype l).count a := fun l =>
    (List.count_filter (by simp)).symm
  rw [e1 (G.map Prod.snd).flatten, e1 items]
  have e2 : ofMimetype a.1.mimetype (G.map Prod.snd).flatten = (labelled a.1.mimetype G).flatten := by
    clear h1 h3 h5 e1
    induction G with
    | nil => rfl
    | cons g G ih =>
      have hg := (h4 g (by simp)).2
      rw [List.map_cons, List.flatten_cons]
      unfold ofMimetype labelled at *
      rw [List.filter_append, ih (fun g hg => h4 g (by simp [hg]))]
      by_cases e : g.1 = a.1.mimetype
      · rw [List.filter_cons_of_pos (by simpa using e), List.map_cons, List.flatten_cons]
        congr 1
        rw [List.filter_eq_self]
        intro p hp
        simp [hg p hp, e]
      · rw [List.filter_cons_of_neg (by simpa using e)]
        rw [List.filter_eq_nil_iff.2 (fun p hp => by simp [hg p hp, e]), List.nil_append]
  rw [e2, h5, clustersOf_flatten]

end ByMimetype

/-! ### Witnesses and findings -/

namespace Strategy

theorem raw_working : Working Cluster.rawCodecs MCluster.rawCompressors .none :=
  ⟨by decide, ⟨(), rfl, fun cs => ⟨_, MCluster.rawCompresses.2 rfl⟩⟩, MCluster.rawLossless .none⟩

/-- An item with the given content. -/
def item (url mimetype : String) (content : Bytes) : Sourced :=
  ({ ns := "C", url := url, mimetype := mimetype, source := MCluster.mem content, isArticle := true }, content)

/-- Four items with two mimetypes. -/
def demo : List Sourced :=
  [item "a" "text/html" [1, 2], item "b" "image/png" [3], item "c" "text/html" [4], item "d" "text/html" [5, 6, 7]]

theorem demo_storable : ∀ p ∈ demo, Storable p := by
  intro p hp
  simp only [demo, List.mem_cons, List.not_mem_nil, or_false] at hp
  rcases hp with rfl | rfl | rfl | rfl <;> exact ⟨MCluster.mem_delivers _, fun _ => rfl⟩

/-- The archive already has a cluster and a mimetype. -/
def archive : ZimLog := { mts := { mimetypes := [[1]] }, clusters := [[0]] }

example : ∃ s' z', Simple.addAll Cluster.rawCodecs MCluster.rawCompressors (demo.map Prod.fst)
      (Simple.new .none 16, archive) = (.ok (), (s', z')) ∧ s'.hasItems = false ∧
    StoredOnce Cluster.rawCodecs demo archive z' :=
  Simple.C26_simple raw_working 16 archive rfl demo demo_storable (by unfold NotHuge; decide)

example : ∃ s' z', ByMimetype.addAll Cluster.rawCodecs MCluster.rawCompressors (demo.map Prod.fst)
      (ByMimetype.new .none 16, archive) = (.ok (), (s', z')) ∧ s'.hasItems = false ∧
    StoredOnce Cluster.rawCodecs demo archive z' :=
  ByMimetype.C26_by_mimetype raw_working 16 archive rfl demo demo_storable (by unfold NotHuge; decide)

/-- The groups: by size only, and by mimetype and size. -/
example : (clustersOf 16 demo).map (fun g => g.map fun p => p.1.url) = [["a", "b", "c"], ["d"]] := by
  decide +kernel

example : (clustersOf 16 (ofMimetype "text/html" demo)).map (fun g => g.map fun p => p.1.url) =
    [["a", "c"], ["d"]] := by decide +kernel

/-- **C27, finding.** The size limit can be exceeded by clusters with several items: the offset of the
item to be added is not taken into account. Two items of 2 bytes and 1 byte share a cluster of 15 bytes
although the limit is 11. -/
theorem C27_limit_exceeded :
    (clustersOf 11 [item "a" "t" [1, 2], item "b" "t" [3]]).map (fun g => (g.length, clusterSize g)) =
      [(2, 15)] := by decide +kernel

end Strategy
end Pyzim
