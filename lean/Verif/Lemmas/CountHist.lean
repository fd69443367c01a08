import Verif.Lemmas.CountedCore
import Verif.Spec.Counting

/-!
# The counter in the history of an archive
-/

namespace Pyzim
open Zim (Row Stored Clustered Lists Mirrored Mirrors catalogue catalogue_snoc Rep Redirect)

variable {D K : Type} {X : Codecs D} {C : Compressors K} {ML : List Bytes} {reserve : Option Nat} {a a' : Archive}
  {G G' : List (List Sourced)} {rows : List Row} {cs : List Stored} {extra : Nat → Prop} {es : List Entry} {L : Bytes}
  {S : Setup D K} {G0 : List (List Sourced)} {items : List Sourced} {rs : List Redirect}
  {c c' : Counting D} {m0 : Catalogue} {R B : List Redirect} {M : String → Prop} {n n' : Counter} {P1 P2 : List Sourced}

/-- what a flush of an archive with unsaved changes does -/
theorem Counting.flush_ok {md5 : Bytes → Bytes} (hS : S.Good md5 reserve) (hR : Replaceable S.X S.C) (hM : ¬ M "<redirect>")
    (hL : ∀ b ∈ ML, ∀ s, decode b = .ok s → M s) (h : HasAt false none S ML reserve G0 items rs c.creator G P1 P2)
    (hT : TallyG M (G0 ++ G) c.counter) (hh : NotHuge items) (ho : ∀ q ∈ items, q.1.fullUrl ≠ URL_ARTICLES)
    (hs : Separate rs G0 items) (hok : Counting.flush S c = (.ok (), c')) :
    c'.creator.arch.isDirty = false ∧ ((c.creator.arch.isDirty = false ∧ c' = c) ∨
      (c.creator.arch.isDirty = true ∧ ∃ n1 G', (n1 = c.counter ∨ n1.dirty = true) ∧ c'.counter = { n1 with dirty := false } ∧
        G'.flatten.Perm items ∧ TallyG M (G0 ++ G') n1 ∧ HasAt false none S ML reserve (storedIn n1 (G0 ++ G')) [] rs c'.creator [] [] [])) := by
  obtain ⟨⟨rows, cs, extra, es, L, m0, R, B, hc, hB⟩, ⟨t, mx1, W, hw1⟩, ⟨mx2, hw2⟩, hf1, hf2, hperm, hcl⟩ := h
  have hT0 := hc.tallied_iff.2 hT
  unfold Counting.flush at hok
  rw [PyM.get_bind, PyM.bind_ok (show PyM.require (!c.creator.arch.zim.closed) .zimFileClosed c = (.ok (), c) by
    rw [hc.laid.content.rep.isOpen]; rfl), PyM.bind_ok (show PyM.require c.creator.arch.zim.mutable .nonMutable c = (.ok (), c) by
    rw [hc.laid.content.rep.isMutable]; rfl)] at hok
  have hn1 : NotHuge P1 := (hh.perm hperm).sublist (by rw [List.append_assoc]; exact List.sublist_append_left _ _)
  have hn2 : NotHuge P2 := (hh.perm hperm).sublist (by
    rw [List.append_assoc]
    exact (List.sublist_append_left _ _).trans (List.sublist_append_right _ _))
  cases hd : c.creator.arch.isDirty with
  | false =>
    rw [if_neg (by rw [hd]; simp), PyM.pure_apply] at hok
    injection hok with _ hok
    subst hok
    exact ⟨hd, .inl ⟨rfl, rfl⟩⟩
  | true =>
    rw [if_pos hd] at hok
    obtain ⟨⟨⟩, c1, h1, hokA⟩ := PyM.bind_ok_iff.1 hok
    clear hok
    simp only [Counting.onMain, PyM.of_apply] at h1
    cases hr : Strategy.flushOn (Counting.backend S) (c.creator.main, c.creator.arch.zim, c.counter) with
    | mk r q =>
    obtain ⟨s1, Z1, n1⟩ := q
    rw [hr] at h1
    injection h1 with h1 h1'
    simp only at h1
    subst h1
    obtain ⟨hr, hT1, hD1⟩ := Counting.runFlush hM hL hc hT0 hf1 hr
    obtain ⟨rows1, cs1, es1, G1, g1, g2, g3, g4, g5⟩ := hc.flushStrategy W hw1 hf1 hn1
      (fun q hq => ho q (hperm.subset (by simp [hq]))) hr
    obtain ⟨⟨⟩, c2, h2, hokB⟩ := PyM.bind_ok_iff.1 hokA
    clear hokA
    rw [← h1'] at h2
    simp only [Counting.onPlain, PyM.of_apply] at h2
    cases hr2 : Strategy.flushOn (Counting.backend S) (c.creator.plain, Z1, n1) with
    | mk r q =>
    obtain ⟨s2, Z2, n2⟩ := q
    rw [hr2] at h2
    injection h2 with h2 h2'
    simp only at h2
    subst h2
    obtain ⟨hr2, hT2, hD2⟩ := Counting.runFlush hM hL g1 hT1 hf2 hr2
    obtain ⟨rows2, cs2, es2, G2, k1, k2, k3, k4, k5⟩ := g1.flushStrategy hS.plain (by simp only; rw [g5]; exact hw2) hf2 hn2
      (fun q hq => ho q (hperm.subset (by simp [hq]))) hr2
    rw [← h2', PyM.get_bind] at hokB
    obtain ⟨⟨⟩, c3, h3, hokC⟩ := PyM.bind_ok_iff.1 hokB
    clear hokB
    simp only [Counting.onCreator, Creator.onArch, PyM.of_apply] at h3
    injection h3 with e1 e2
    have hpm : (G ++ G1 ++ G2).flatten.Perm items := by
      simp only [List.flatten_append]
      refine List.Perm.trans ?_ hperm
      refine ((g4.append_left _).append k4).trans ?_
      rw [List.append_assoc]
      exact List.perm_append_comm
    rw [List.append_assoc G0, List.append_assoc G0] at k1
    obtain ⟨rows3, cs3, L', m3, R3, m1, m2, m3, m4⟩ := k1.flushCounted (n := n2) hS hR (a' := c3.creator.arch)
      (k1.newSources hs hB fun p hp => hpm.subset hp) (by
      rw [← e2]
      exact Prod.ext e1 rfl)
    rw [PyM.modify_apply] at hokC
    injection hokC with _ e3
    have hmm : c'.creator = c3.creator ∧ c'.counter = { n2 with dirty := false } := by rw [← e3, ← e2]; exact ⟨rfl, rfl⟩
    have hmm2 : c3.creator.main = s1 ∧ c3.creator.plain = s2 := by rw [← e2]; exact ⟨rfl, rfl⟩
    rw [hmm.1]
    refine ⟨m2, .inr ⟨rfl, n2, G ++ G1 ++ G2, ?_, hmm.2, hpm, k1.tallied_iff.1 hT2, ⟨_, _, _, _, _, _, _, _, by rw [List.append_nil]; exact m1, ?_⟩,
      ⟨t, mx1, W, ?_⟩, ⟨mx2, ?_⟩, ?_, ?_, .nil, fun _ => ⟨rfl, rfl, fun _ => m1.redirects⟩⟩⟩
    · rcases hD2 with rfl | hD2
      · exact hD1
      · exact .inr hD2
    · rw [List.append_nil]
      exact (m4.append_left _).trans hB
    · rw [hmm2.1]
      refine g2.mono ?_
      rw [m3]
      simp only [k5]
      exact List.prefix_rfl
    · rw [hmm2.2]
      refine k2.mono ?_
      rw [m3]
      exact List.prefix_rfl
    · rw [hmm2.1]; exact g3
    · rw [hmm2.2]; exact k3

/-! ### Loading the counter -/

theorem Zim.readContent_only {X : Codecs D} {kind : ClusterKind} {calls : Nat} {z : Zim} {e : Entry} {i off j : Nat} {content b : Bytes}
    (hm : z.mutable = true) (hk : e.kind = .content i j) (hc : z.clusters.getByIndex (i : Int) = .ok (off : Int))
    (h : Cluster.Gives X (Zim.clusterAt kind z off) j content) (hb : z.readContent X kind calls e = .ok b) : b = content := by
  unfold Zim.readContent at hb
  rw [hk] at hb
  simp only [Zim.checkRange, bind, Except.bind, Zim.readBlobOf, hm, if_true] at hb
  cases ho : Zim.openCluster X kind calls z i with
  | error x => rw [ho] at hb; cases hb
  | ok o =>
    rw [ho] at hb
    have hom : o.m = { inner := .real (Zim.clusterAt kind z off) } := by
      unfold Zim.openCluster at ho
      rw [hc] at ho
      simp only [bind, Except.bind] at ho
      cases hcl : z.closed with
      | true => rw [hcl] at ho; cases ho
      | false =>
        rw [hcl] at ho
        simp only [Bool.false_eq_true, if_false] at ho
        cases hs : (Cluster.getTotalCompressedSize X calls (Zim.clusterAt kind z (off : Int).toNat)).1 with
        | error x => rw [hs] at ho; cases ho
        | ok n =>
          rw [hs] at ho
          injection ho with ho
          rw [← ho]
          rfl
    simp only [hom] at hb
    have := h.whole
    rw [show (MCluster.readBlob X j none none ({ inner := .real (Zim.clusterAt kind z off) } : MCluster D)).1 =
      (Cluster.readBlob X j none none (Zim.clusterAt kind z off)).1 from rfl, this] at hb
    injection hb with hb
    exact hb.symm

theorem TallyG.of_counts (h : TallyG M G n) (hd : DistinctKeys n'.counts) (hk : ∀ p ∈ n'.counts, M p.1)
    (hc : ∀ mt, n'.getCount mt = n.getCount mt) : TallyG M G n' := ⟨fun mt => by rw [hc, h.counts], hd, hk⟩

theorem distinct_filter {V : Type} {d : List (String × V)} (h : DistinctKeys d) (f : String × V → Bool) : DistinctKeys (d.filter f) :=
  List.Nodup.sublist (List.filter_sublist.map _) h

/-- the counter that was written, read again -/
theorem TallyG.reread (hM : ∀ mt, M mt → MimetypeShape mt) {n0 : Counter} (h : TallyG M G n0) {s : String} (hs : decode (counterText n0) = .ok s)
    (hn : Counter.fromString (.str s) = .ok n) : TallyG M G n := by
  rw [counterText, decode_encode] at hs
  injection hs with hs
  subst hs
  obtain ⟨c', k1, k2⟩ := Counter.C29_counts n0 h.distinct fun p hp _ => hM _ (h.keys p hp)
  have k3 := (Counter.C29_round_trip n0 h.distinct fun p hp _ => hM _ (h.keys p hp)).1
  rw [hn] at k1 k3
  injection k1 with k1
  injection k3 with k3
  refine h.of_counts ?_ ?_ (by rw [k1]; exact k2)
  · rw [k3]; exact distinct_filter h.distinct _
  · rw [k3]; exact fun p hp => h.keys p (List.mem_filter.1 hp).1

/-- counting all entries -/
theorem countAll_ok {mts : MimeTypeList} (hres : ∀ e : Entry, e.isRedirect = false → ∀ mt, Counter.mimetypeOf mts e = .ok mt → M mt) :
    ∀ {es es0 : List Entry} {n n' : Counter}, TalliedBy M mts es0 n → Counter.countAll mts n es = .ok n' → TalliedBy M mts (es0 ++ es) n' := by
  intro es
  induction es with
  | nil =>
    intro es0 n n' h hok
    injection hok with hok
    rw [← hok, List.append_nil]; exact h
  | cons e es ih =>
    intro es0 n n' h hok
    unfold Counter.countAll at hok
    rw [show es0 ++ e :: es = (es0 ++ [e]) ++ es by simp]
    cases hs : Counter.shouldCount e with
    | false =>
      rw [if_pos (by rw [hs]; rfl)] at hok
      refine ih ⟨fun mt => ?_, fun d hd hc => ?_, h.distinct, h.keys⟩ hok
      · rw [Counter.numberOf_append, numberOf_other hs, Nat.add_zero, h.counts]
      · rcases List.mem_append.1 hd with hd | hd
        · exact h.resolved d hd hc
        · rw [List.mem_singleton] at hd; rw [hd, hs] at hc; cases hc
    | true =>
      rw [if_neg (by rw [hs]; simp)] at hok
      cases hmt : Counter.mimetypeOf mts e with
      | error x => rw [hmt] at hok; cases hok
      | ok mt =>
        rw [hmt] at hok
        have hi : e.isRedirect = false := by
          unfold Counter.shouldCount at hs
          cases hi : e.isRedirect with
          | false => rfl
          | true => rw [hi] at hs; simp at hs
        refine ih ⟨fun m => ?_, fun d hd hc => ?_, ?_, ?_⟩ hok
        · rw [Counter.numberOf_append, Counter.numberOf_single _ _ _ hmt, Counter.getCount_increment, h.counts]
          rw [hs]
          by_cases hm : m = mt
          · subst hm; simp
          · simp [hm]
        · rcases List.mem_append.1 hd with hd | hd
          · exact h.resolved d hd hc
          · rw [List.mem_singleton] at hd; rw [hd]; exact ⟨mt, hmt⟩
        · obtain ⟨v, hv, -⟩ := increment_counts n mt
          rw [hv]
          exact dictSet_nodup _ _ _ h.distinct
        · obtain ⟨v, hv, -⟩ := increment_counts n mt
          rw [hv]
          exact dictSet_all h.keys (hres e hi mt hmt)

theorem countAll_tally (h : Core false none X C ML reserve a G rows cs extra es L m0 R B) (hL : ∀ b ∈ ML, ∀ s, decode b = .ok s → M s)
    {ls : List Entry} (hi : a.zim.iterEntries = .ok ls) (hn : Counter.countAll a.zim.mimetypes {} ls = .ok n) : TallyG M G n := by
  refine h.tallied_iff.1 ⟨ls, hi, ?_⟩
  refine countAll_ok (es0 := []) (n := {}) (fun e he mt hmt => ?_) ⟨fun mt => rfl, (fun e he => by cases he), List.nodup_nil, (fun p hp => by cases hp)⟩ hn
  obtain ⟨b, hb, hbm⟩ := mimetypeOf_listed h.mimes he hmt
  exact hL b hb mt hbm

/-- the item with the counter, with a content -/
def counterWith (src : BlobSource) (text : Bytes) : Sourced := ({ Counting.counterItem with source := src }, text)

theorem loadFromArchive_ok {mts : MimeTypeList} {st : PyRes String} {ls : List Entry}
    (h : Counter.loadFromArchive mts st false ls .loadOrReinit = .ok (some n)) :
    (∃ s, st = .ok s ∧ Counter.fromString (.str s) = .ok n) ∨ ∃ k, Counter.countAll mts {} ls = .ok k ∧ n = { k with dirty := true } := by
  have hre : ∀ {p : Prop} [Decidable p] {x : PyErr}, (if p then (match Counter.countAll mts {} ls with
      | .error e => .error e
      | .ok c => .ok (some { c with dirty := true })) else .error x : PyRes (Option Counter)) = .ok (some n) →
      ∃ k, Counter.countAll mts {} ls = .ok k ∧ n = { k with dirty := true } := by
    intro p _ x hx
    split at hx
    · cases hc : Counter.countAll mts {} ls with
      | error e => rw [hc] at hx; cases hx
      | ok k =>
        rw [hc] at hx
        injection hx with hx
        injection hx with hx
        exact ⟨k, rfl, hx.symm⟩
    · cases hx
  unfold Counter.loadFromArchive at h
  cases st with
  | error x => exact .inr (hre h)
  | ok s =>
    simp only at h
    cases hf : Counter.fromString (.str s) with
    | error x => rw [hf] at h; exact .inr (hre h)
    | ok k =>
      rw [hf] at h
      injection h with h
      injection h with h
      rw [← h]
      exact .inl ⟨s, rfl, hf⟩

/-- loading the counter of an archive that has one -/
theorem Counting.load_ok (h : Core false none S.X S.C ML reserve a G rows cs extra es L m0 R B) (hd : a.isDirty = false)
    (hL : ∀ b ∈ ML, ∀ s, decode b = .ok s → M s) (hM : ∀ mt, M mt → MimetypeShape mt) {src : BlobSource} {n0 : Counter}
    (hx : counterWith src (counterText n0) ∈ lastOnes urlOf G.flatten) (hT : TallyG M G n0)
    (hok : Counting.loadCounter S false a.zim = .ok n) : TallyG M G n := by
  unfold Counting.loadCounter at hok
  rw [if_neg (by simp), h.laid.content.rep.iterEntries] at hok
  simp only at hok
  have hre : ∀ s, Counting.stored S a.zim = .ok s → decode (counterText n0) = .ok s := by
    intro s hs
    obtain ⟨e, i, off, j, hf⟩ := h.item hd hx
    unfold Counting.stored at hs
    rw [show URL_COUNTER = (counterWith src (counterText n0)).1.fullUrl from rfl, hf.found] at hs
    simp only [bind, Except.bind] at hs
    cases hb : a.zim.readContent S.X S.kind S.calls e with
    | error x => rw [hb] at hs; cases hs
    | ok b =>
      rw [hb] at hs
      have := Zim.readContent_only h.laid.content.rep.isMutable hf.kind hf.cluster (hf.blob S.kind) hb
      rw [show (counterWith src (counterText n0)).2 = counterText n0 from rfl] at this
      rw [← this]; exact hs
  cases hl : Counter.loadFromArchive a.zim.mimetypes (Counting.stored S a.zim) false (rows.map Prod.snd) .loadOrReinit with
  | error x => rw [hl] at hok; cases hok
  | ok o =>
    rw [hl] at hok
    cases o with
    | none => cases hok
    | some k =>
      simp only at hok
      injection hok with hok
      subst hok
      rcases loadFromArchive_ok hl with ⟨s, h1, h2⟩ | ⟨k', h1, rfl⟩
      · exact hT.reread hM (hre s h1) h2
      · have := countAll_tally h hL h.laid.content.rep.iterEntries h1
        exact ⟨this.counts, this.distinct, this.keys⟩

theorem HasAt.reopen {c c' : Creator D} {md5 : Bytes → Bytes} (hS : S.Good md5 reserve) (h : HasAt false none S ML reserve G0 items rs c G P1 P2)
    (hd : c.arch.isDirty = false) {t : CompressionType} (W : Working S.X S.C t) {main plain : Strategy D} (h1 : main.IsNew t)
    (h2 : plain.IsNew .none) {titles : Zim → PyRes PointerList}
    (hok : Creator.reopen S titles main plain c.arch.zim.file = .ok c') :
    HasAt false none S ML reserve G0 items rs c' G [] [] ∧ c'.arch.isDirty = false := by
  obtain ⟨⟨rows, cs, extra, es, L, m0, R, B, hc, hB⟩, -, -, -, -, hperm, hcl⟩ := h
  obtain ⟨rfl, rfl, hb⟩ := hcl hd
  replace hb := hb rfl
  obtain rfl : B = [] := hc.redirects.symm.trans hb
  unfold Creator.reopen at hok
  rw [hc.opens hS.passthrough hd titles true] at hok
  injection hok with hok
  subst hok
  obtain ⟨extra', g1, g2⟩ := hc.reopened hd
  obtain ⟨mx1, w1⟩ := h1.waits (X := S.X) (Archive.loaded true { pointers := c.arch.zim.articles.pointers } c.arch).zim.mimetypes
  obtain ⟨mx2, w2⟩ := h2.waits (X := S.X) (Archive.loaded true { pointers := c.arch.zim.articles.pointers } c.arch).zim.mimetypes
  exact ⟨⟨⟨_, _, _, _, _, _, _, _, g1, hB⟩, ⟨t, mx1, W, w1⟩, ⟨mx2, w2⟩, h1.fit, h2.fit,
    hperm, fun _ => ⟨rfl, rfl, fun _ => rfl⟩⟩, g2⟩

theorem HasAt.undirty {c : Creator D} (h : HasAt false none S ML reserve G0 items rs c G P1 P2) {d : Bool}
    (hd : { c.arch with dirty := d }.isDirty = false → c.arch.isDirty = false) :
    HasAt false none S ML reserve G0 items rs { c with arch := { c.arch with dirty := d } } G P1 P2 := by
  obtain ⟨⟨rows, cs, extra, es, L, m0, R, B, hc, hB⟩, h1, h2, h3, h4, h5, h6⟩ := h
  exact ⟨⟨_, _, _, _, _, _, _, _, hc.dirty d, hB⟩, h1, h2, h3, h4, h5, fun k => h6 (hd k)⟩

/-- opening an archive that was flushed -/
theorem Counting.reopen_ok {md5 : Bytes → Bytes} (hS : S.Good md5 reserve) (hL : ∀ b ∈ ML, ∀ s, decode b = .ok s → M s)
    (hM : ∀ mt, M mt → MimetypeShape mt)
    (h : HasAt false none S ML reserve G0 items rs c.creator G P1 P2)
    (hd : c.creator.arch.isDirty = false) {t : CompressionType} (W : Working S.X S.C t) {main plain : Strategy D} (h1 : main.IsNew t)
    (h2 : plain.IsNew .none) {titles : Zim → PyRes PointerList} {src : BlobSource} {n0 : Counter}
    (hx : counterWith src (counterText n0) ∈ lastOnes urlOf (G0 ++ G).flatten) (hT : TallyG M (G0 ++ G) n0)
    (hok : Counting.reopen S titles main plain c.creator.arch.zim.file = .ok c') :
    HasAt false none S ML reserve G0 items rs c'.creator G [] [] ∧ c'.creator.arch.isDirty = false ∧ TallyG M (G0 ++ G) c'.counter := by
  unfold Counting.reopen at hok
  cases hr : Creator.reopen S titles main plain c.creator.arch.zim.file with
  | error x => rw [hr] at hok; cases hok
  | ok c1 =>
    rw [hr] at hok
    simp only at hok
    obtain ⟨k1, k2⟩ := h.reopen hS hd W h1 h2 hr
    unfold Counting.start at hok
    cases hl : Counting.loadCounter S false c1.arch.zim with
    | error x => rw [hl] at hok; cases hok
    | ok n =>
      rw [hl] at hok
      simp only at hok
      have k1' := k1
      obtain ⟨⟨rows, cs, extra, es, L, m0, R, B, hc, hB⟩, -⟩ := k1'
      have hTn := Counting.load_ok hc k2 hL hM hx hT hl
      have hhas : c1.arch.zim.hasEntry URL_COUNTER = .ok true := by
        obtain ⟨e, i, off, j, hf⟩ := hc.item k2 hx
        obtain ⟨b, hb, hbi⟩ := hc.laid.content.rep.hasEntry URL_COUNTER
        cases b with
        | true => exact hb
        | false =>
          exfalso
          have : ∀ r ∈ rows, r.2.fullUrl ≠ URL_COUNTER := fun r hr e => by
            have := hbi.2 ⟨r, hr, e⟩
            cases this
          have hmiss := hc.laid.content.rep.entryByFullUrl_missing this
          rw [show URL_COUNTER = (counterWith src (counterText n0)).1.fullUrl from rfl, hf.found] at hmiss
          cases hmiss
      rw [hhas] at hok
      simp only at hok
      injection hok with hok
      subst hok
      have hdd : { c1.arch with dirty := false }.isDirty = false := by
        unfold Archive.isDirty at k2 ⊢
        simp only [Bool.or_eq_false_iff] at k2 ⊢
        simp_all
      exact ⟨k1.undirty fun _ => k2, hdd, hTn⟩

/-- an archive without items has no entries but the list of articles -/
theorem Core.bare (h : Core false none X C ML reserve a [] rows cs extra es L m0 [] B) {u : String} (hu : u ≠ URL_ARTICLES) :
    ∀ r ∈ rows, r.2.fullUrl ≠ u := by
  intro r hr e
  have := (h.lists u r.2.view).2 ⟨r, hr, e, rfl⟩
  rcases (catalogue_iff m0 es _ _).1 this with ⟨e', he', h1, -⟩ | ⟨-, h2⟩
  · rcases h.urls (List.mem_map.2 ⟨e', lastOnes_sub he', h1⟩) with k | ⟨p, hp, -⟩
    · exact hu k
    · cases hp
  · obtain ⟨q, hq, -⟩ := h.only _ _ h2
    cases hq

theorem Creator.addItem_articles {c c' : Creator D} (h : Core false none S.X S.C ML reserve c.arch G rows cs extra es L m0 R B) (hML : ML.length < 65535) {it : Item}
    (hf : c.main.Fit) (hi : it.Addable ML) (hok : Creator.addItem S it false c = (.ok (), c')) (hd : c.arch.zim.articles.dirty = true) :
    c'.arch.zim.articles.dirty = true := by
  unfold Creator.addItem at hok
  rw [PyM.get_bind, PyM.bind_ok (show PyM.require (!c.arch.zim.closed) .zimFileClosed c = (.ok (), c) by
    rw [h.laid.content.rep.isOpen]; rfl), PyM.bind_ok (show PyM.require c.arch.zim.mutable .nonMutable c = (.ok (), c) by
    rw [h.laid.content.rep.isMutable]; rfl)] at hok
  obtain ⟨⟨⟩, c1, h1, hokA⟩ := PyM.bind_ok_iff.1 hok
  clear hok
  rw [PyM.modify_apply] at hokA
  injection hokA with _ hokA
  simp only [Bool.false_eq_true, if_false, Creator.onMain, PyM.of_apply] at h1
  cases hr : Strategy.addItemOn S.X (Zim.backend S.X S.C S.depth) it (c.main, c.arch.zim) with
  | mk r q =>
    obtain ⟨s', Z'⟩ := q
    rw [hr] at h1
    injection h1 with h1 h1'
    simp only at h1
    subst h1
    obtain ⟨z', -, ⟨cs', rows', M⟩, -⟩ := Mirrored.add (h.mirrored (C := S.C)) hf hML hi hr
    rw [← hokA, ← h1']
    show Z'.articles.dirty = true
    rcases M.arts with e | e
    · rw [e]; exact hd
    · exact e

theorem counterItem_delivers : Delivers Counting.counterItem.source [] := Blob.C52_pieces_complete .empty trivial

theorem lastOnes_single {α : Type} (key : α → String) (x : α) : lastOnes key [x] = [x] := rfl

theorem counterItem_valid : Counting.counterItem.Valid :=
  ⟨by decide +kernel, by decide +kernel, by decide +kernel, by intro t h; cases h⟩

/-- a new archive -/
theorem Counting.new_ok {md5 : Bytes → Bytes} {r : Nat} (hr : 2 ≤ r) (hS : S.Good md5 (some r)) {uuid : Bytes} (hu : uuid.length = 16)
    {t : CompressionType} (W : Working S.X S.C t) {main plain : Strategy D} (n1 : main.IsNew t) (n2 : plain.IsNew .none)
    (hML : ML.length < 65535) (hmt : encode Creator.placeholder.mimetype ∈ ML) (hct : encode Counting.counterItem.mimetype ∈ ML)
    (hok : Counting.new S uuid main plain = .ok c) :
    ∃ G P1 P2, HasAt false none S ML (some r) [] [counterPlace] [] c.creator G P1 P2 ∧ c.creator.arch.isDirty = true ∧ c.counter.dirty = true ∧
      TallyG M G c.counter := by
  unfold Counting.new at hok
  cases hn : Creator.new S uuid main plain with
  | error x => rw [hn] at hok; cases hok
  | ok c1 =>
    rw [hn] at hok
    simp only at hok
    obtain ⟨k1, k2, -⟩ := Has.newDirty hr hS hu W n1 n2 hML hmt hn
    have k1' := k1
    obtain ⟨⟨rows, cs, extra, es, L, m0, R, B, hc, hB⟩, -, -, hf, -⟩ := k1'
    obtain ⟨rfl, rfl⟩ : R = [] ∧ B = [] := by simpa using hB.length_eq
    have hb := Core.bare hc (u := URL_COUNTER) (by decide)
    unfold Counting.start at hok
    have hl : Counting.loadCounter S true c1.arch.zim = .ok { dirty := true } := by
      unfold Counting.loadCounter Counting.stored
      rw [hc.laid.content.rep.entryByFullUrl_missing hb]
      rfl
    have hh : c1.arch.zim.hasEntry URL_COUNTER = .ok false := by
      obtain ⟨b, hb', hbi⟩ := hc.laid.content.rep.hasEntry URL_COUNTER
      cases b with
      | false => exact hb'
      | true =>
        obtain ⟨r, hr, e⟩ := hbi.1 rfl
        exact absurd e (hb r hr)
    rw [hl, hh] at hok
    simp only at hok
    cases ha : Creator.addItem S Counting.counterItem false c1 with
    | mk res c2 =>
    rw [ha] at hok
    cases res with
    | error x => cases hok
    | ok v =>
      simp only at hok
      injection hok with hok
      subst hok
      have hi : Counting.counterItem.Addable ML := ⟨counterItem_valid, hct, (fun h => by cases h)⟩
      obtain ⟨G', P1', P2', rows', cs', es', g1, g2, -⟩ := k1.add hS hc hB (p := counterPlace) (by unfold NotHuge; simp) hML
        ⟨counterItem_delivers, (fun h => by cases h)⟩ hi (by intro q hq; simp at hq; rw [hq]; decide) ha
      have hd : ({ c2.arch with dirty := false } : Archive).isDirty = true := by
        have := Creator.addItem_articles hc hML hf hi ha k2
        unfold Archive.isDirty
        simp [this]
      refine ⟨_, _, _, g1.undirty (fun k => by rw [hd] at k; cases k), hd, rfl, fun mt => ?_, List.nodup_nil, (fun p hp => by cases hp)⟩
      have hsub : ∀ p ∈ ([] ++ G').flatten, p = counterPlace := fun p hp => by
        have := g1.perm.subset (List.mem_append_right _ hp)
        simpa using this
      rw [List.filter_eq_nil_iff.2]
      · rfl
      · intro p hp
        rw [hsub p (lastOnes_sub hp)]
        simp [counted, counterPlace, Counting.counterItem]

end Pyzim
