import Verif.Lemmas.CreatorShows
import Verif.Lemmas.StrategyTotal

/-!
# An archive filled by strategies: adding items succeeds
-/

namespace Pyzim

namespace Zim
variable {D K : Type} {X : Codecs D} {C : Compressors K} {ML : List Bytes} {Z0 Z Z' : Zim} {cs0 cs : List Stored} {n0 : Nat}
  {rest : Nat → Prop} {m0 : Catalogue} {S0 : String → Prop} {z : ZimLog} {rows : List Row} {depth lim : Nat} {R : List Redirect}

/-- The archive can hold what the reduced archive has: no url twice, no content entry instead of a redirect, and all new
entries can be stored. If there are redirects, there are not more than `lim` entries. -/
structure Holdable (m0 : Catalogue) (R : List Redirect) (lim : Nat) (t : ZimLog) : Prop where
  nodup : (t.entries.map Entry.fullUrl).Nodup
  apart : ∀ e ∈ t.entries, m0 e.fullUrl = none
  content : ∀ e ∈ t.entries, ∃ c b, e.kind = .content c b ∧ c < 2 ^ 32 ∧ b < 2 ^ 32
  once : ∀ r ∈ R, Once m0 t.entries r.1 r.2.1
  room : R = [] ∨ t.entries.length + R.length ≤ lim

theorem Holdable.left {t t' : ZimLog} {e : Entry} (he : t'.entries = t.entries ++ [e]) (h : Holdable m0 R lim t') :
    Holdable m0 R lim t := by
  obtain ⟨h1, h2, h3, h5, h6⟩ := h
  rw [he] at h1 h2 h3 h5 h6
  rw [List.map_append, List.nodup_append] at h1
  refine ⟨h1.1, fun e he => h2 e (List.mem_append_left _ he), fun e he => h3 e (List.mem_append_left _ he),
    fun r hr => (h5 r hr).left, h6.imp_right fun h => ?_⟩
  rw [List.length_append] at h
  omega

theorem Holdable.same {t t' : ZimLog} (he : t'.entries = t.entries) (h : Holdable m0 R lim t') : Holdable m0 R lim t := by
  obtain ⟨h1, h2, h3, h5, h6⟩ := h
  rw [he] at h1 h2 h3 h5 h6
  exact ⟨h1, h2, h3, h5, h6⟩

/-- what is assumed of the redirects that were written before -/
structure Led (Z0 : Zim) (rest : Nat → Prop) (m0 : Catalogue) (R : List Redirect) (lim : Nat) : Prop where
  only : ∀ u v, m0 u = some v → ∃ r ∈ R, r.1 = u
  leads : ∀ r ∈ R, Leads Z0 r.1 r.2.1
  start : ∀ x, x < lim → rest x
  lim : lim ≤ 2 ^ 32

theorem lastOnes_sub (key : Entry → String) (es : List Entry) : ∀ e ∈ lastOnes key es, e ∈ es := by
  induction es using snoc_induction with
  | h0 => simp [lastOnes]
  | h1 es x ih =>
    intro e he
    rw [lastOnes_snoc] at he
    rcases List.mem_append.1 he with he | he
    · exact List.mem_append_left _ (ih e (List.mem_filter.1 he).1)
    · exact List.mem_append_right _ he

/-- which entries are there -/
theorem Mirrors.row_url (h : Mirrors X C ML Z0 cs0 n0 rest m0 S0 z Z cs rows) {r : Row} (hr : r ∈ rows) :
    (∃ e ∈ z.entries, e.fullUrl = r.2.fullUrl ∧ e.view = r.2.view) ∨ m0 r.2.fullUrl = some r.2.view := by
  rcases (catalogue_iff m0 z.entries _ _).1 ((h.lists _ _).2 ⟨r, hr, rfl, rfl⟩) with ⟨e, he, h1, h2⟩ | ⟨-, h⟩
  · exact .inl ⟨e, lastOnes_sub _ _ _ he, h1, h2⟩
  · exact .inr h

theorem Mirrors.redirect_row (h : Mirrors X C ML Z0 cs0 n0 rest m0 S0 z Z cs rows) (hl : Led Z0 rest m0 R lim)
    (hh : Holdable m0 R lim z) {s : Row} (hs : s ∈ rows) {i : Nat} (hk : s.2.kind = .redirect i) :
    i < rows.length ∧ rows.length ≤ z.entries.length + R.length ∧ lim ≤ s.1 ∧ R ≠ [] := by
  have hv : s.2.view.body = .redirect := by unfold Entry.view; rw [hk]
  rcases h.row_url hs with ⟨e, he, -, h2⟩ | hm
  · obtain ⟨c, b, hc, -⟩ := hh.content e he
    rw [← h2] at hv
    unfold Entry.view at hv
    rw [hc] at hv
    cases hv
  · obtain ⟨r, hr, hru⟩ := hl.only _ _ hm
    obtain ⟨s', hs', e1, j, q, e2, e3, -⟩ := h.clustered.rep.leads_iff.1 (h.leads _ _ (hh.once r hr) (hl.leads r hr))
    have hss : s' = s := (distinct_of_sorted h.clustered.rep.sorted).row_eq hs' hs (by rw [e1, hru])
    rw [hss, hk] at e2
    injection e2 with e2
    subst e2
    refine ⟨(List.getElem?_eq_some_iff.1 e3).1, ?_, ?_, List.ne_nil_of_mem hr⟩
    · have hnd : (rows.map fun r => r.2.fullUrl).Nodup := by
        rw [List.nodup_iff_pairwise_ne, List.pairwise_map]
        exact h.clustered.rep.sorted.imp fun h e => by rw [e] at h; exact absurd h (List.lt_irrefl _)
      have hsub : ∀ u ∈ rows.map (fun r => r.2.fullUrl), u ∈ z.entries.map Entry.fullUrl ++ R.map (·.1) := by
        intro u hu
        obtain ⟨r, hr, rfl⟩ := List.mem_map.1 hu
        rcases h.row_url hr with ⟨e, he, h1, -⟩ | hm
        · exact List.mem_append_left _ (List.mem_map.2 ⟨e, he, h1⟩)
        · obtain ⟨r', hr', e⟩ := hl.only _ _ hm
          exact List.mem_append_right _ (List.mem_map.2 ⟨r', hr', e⟩)
      have := (List.subperm_of_subset hnd hsub).length_le
      simpa using this
    · by_contra hlt
      refine h.clustered.rep.store.apart s hs s.1 ⟨Nat.le_refl _, ?_⟩ (.inl (hl.start _ (by omega)))
      simp only [Entry.getDiskSize]
      omega

theorem Mirrors.writeEntry_ok (h : Mirrors X C ML Z0 cs0 n0 rest m0 S0 z Z cs rows) (hl : Led Z0 rest m0 R lim) {e : Entry}
    (he : Good e) (hm : e.mutable = true) (hh : Holdable m0 R lim { z with entries := z.entries ++ [e] }) (d : Nat) :
    ∃ Z', (backend X C (d + 2)).writeEntry e Z = (.ok (), Z') := by
  have hz : Holdable m0 R lim z := hh.left rfl
  have hno : ∀ r ∈ rows, r.2.fullUrl ≠ e.fullUrl := by
    intro r hr hre
    rcases h.row_url hr with ⟨e', he', h1, -⟩ | hm
    · have := hh.nodup
      rw [List.map_append, List.nodup_append] at this
      exact this.2.2 _ (List.mem_map_of_mem he') e.fullUrl (by simp) (by rw [h1, hre])
    · rw [hre, hh.apart e (by simp)] at hm
      cases hm
  obtain ⟨c, b, hk, hcb⟩ := hh.content e (by simp)
  obtain ⟨r, Z', n, hn, hw, -, htot⟩ := h.clustered.rep.writeEntry_new he.old hno hno he.proper d true true
  obtain ⟨e', rfl⟩ := htot _ h.art (h.clustered.rep.isArticle_ok he.old) hm ((Entry.toBytes_ok_iff e).2 ⟨Entry.packHead_ok e
      ⟨he.ns, he.proper.url, he.proper.title, he.mimetype, by rw [hk]; exact hcb⟩, _, he.proper.title.choose_spec.1⟩) (fun i hi => by rw [hk] at hi; cases hi)
    (fun s v hs ⟨i, hi, _, hni, hv⟩ => by
      obtain ⟨h1, h2, h3, h4⟩ := h.redirect_row hl hz hs hi
      have h5 := hh.room.resolve_left h4
      simp only [List.length_append, List.length_singleton] at h5
      have h6 := hl.lim
      refine ⟨?_, ?_, ?_⟩ <;> omega)
    (fun i hi => by
      unfold insEntry at hi
      rw [hk] at hi
      simp only at hi
      rw [hk] at hi
      cases hi)
  exact ⟨Z', by simp only [backend]; rw [PyM.bind_ok hw]; rfl⟩

/-- What the reduced archive can do, and the archive can hold, the archive can do. -/
theorem Mirrored.tot (hl : Led Z0 rest m0 R lim) (d : Nat) : Backend.Tot (Zim.backend X C (d + 2)) (ZimLog.backend X C)
    (fun it => ML.length < 65535 ∧ it.Addable ML) (fun Z z => Mirrored X C ML Z0 cs0 n0 rest m0 S0 z Z)
    (Holdable m0 R lim) where
  keepE it := fun t ht hp => by
    refine ht (Holdable.same ?_ hp)
    rfl
  keepC m := by
    intro t ht
    simp only [ZimLog.backend, ZimLog.writeCluster, PyM.of_apply]
    cases (MCluster.iterWrite X C m).1 with
    | error x => exact ht
    | ok out =>
      intro hp
      refine ht (Holdable.same ?_ hp)
      rfl
  keepW e := fun t ht hp => ht (hp.left (e := e) rfl)
  toEntry := by
    rintro Z z z' it e ⟨cs, rows, h⟩ ⟨-, -⟩ hok -
    simp only [ZimLog.backend, PyM.of_apply] at hok
    injection hok with h1 h2
    refine ⟨{ Z with mimetypes := (it.toEntry Z.mimetypes).2 }, ?_⟩
    simp only [backend, PyM.of_apply, h.mts, h1]
  writeCluster := by
    rintro Z z z' m n ⟨cs, rows, h⟩ hm hok -
    simp only [ZimLog.backend, ZimLog.writeCluster, PyM.of_apply] at hok
    cases hw : (MCluster.iterWrite X C m).1 with
    | error x => rw [hw] at hok; cases hok
    | ok chunks =>
      rw [hw] at hok
      injection hok with hn _
      injection hn with hn
      have hne := MCluster.iterWrite_ne_nil hw
      have hW := C53_new_cluster_writes (n := { m := m }) hm.1 hm.2 hw Z.file (InUse Z)
      obtain ⟨off, c'', z'', e1, -⟩ := h.clustered.writeCluster_new (fun x => (h.clustered.inUse x).1) hW hne rfl
        (num := none) (by simp) (fuel := chunks.length + 1) (by omega)
      refine ⟨z'', ?_⟩
      simp only [backend]
      have hb : writeClusterObj X C { m := m } Z = (.ok (cs.length, c''), z'') := by
        unfold writeClusterObj chunkBound
        rw [MCluster.onFile_empty hm.1, hw]
        exact e1
      rw [PyM.bind_ok hb, PyM.pure_apply, ← hn, h.clusters, List.length_map]
  writeEntry := by
    rintro Z z z' e ⟨cs, rows, h⟩ he hr hm hok hp
    simp only [ZimLog.backend, ZimLog.writeEntry, PyM.modify_apply] at hok
    injection hok with _ hok
    subst hok
    exact h.writeEntry_ok hl he hm hp d

end Zim

open Zim (Row Stored Clustered Works Lists Art MimesIn Mirrored catalogue marked Redirect Leads Once Holdable Led)
open SpaceAllocator (InBlock)

section
variable {D K : Type} {X : Codecs D} {C : Compressors K} {ML : List Bytes} {reserve : Option Nat} {a a' : Archive}
  {G G' : List (List Sourced)} {rows : List Row} {cs : List Stored} {extra : Nat → Prop} {es : List Entry} {L : Bytes}
  {m0 : Catalogue} {R B : List Redirect} {P : List Sourced}

theorem slots_lt {base : Nat} {G : List (List Sourced)} {s : Item × Nat × Nat} (h : s ∈ slots base G) :
    s.2.1 < base + G.length ∧ s.2.2 < G.flatten.length := by
  induction G generalizing base with
  | nil => cases h
  | cons g G ih =>
    unfold slots at h
    rcases List.mem_append.1 h with h | h
    · obtain ⟨q, hq, rfl⟩ := List.mem_map.1 h
      obtain ⟨i, hi⟩ := List.mem_iff_getElem?.1 hq
      rw [List.getElem?_zipIdx] at hi
      obtain ⟨x, hx, e⟩ := Option.map_eq_some_iff.1 hi
      have := (List.getElem?_eq_some_iff.1 hx).1
      subst e
      simp only [List.length_cons, List.flatten_cons, List.length_append]
      omega
    · have := ih h
      simp only [List.length_cons, List.flatten_cons, List.length_append]
      omega

theorem slots_fst (base : Nat) (G : List (List Sourced)) : (slots base G).map Prod.fst = G.flatten.map Prod.fst := by
  induction G generalizing base with
  | nil => rfl
  | cons g G ih =>
    unfold slots
    rw [List.map_append, ih, List.map_map, List.flatten_cons, List.map_append]
    congr 1
    have : (Prod.fst ∘ fun p : Sourced × Nat => (p.1.1, base, p.2)) = Prod.fst ∘ Prod.fst := rfl
    rw [this, ← List.map_map, List.zipIdx_map_fst]

theorem length_le_flatten {G : List (List Sourced)} (h : ∀ g ∈ G, g ≠ []) : G.length ≤ G.flatten.length := by
  induction G with
  | nil => exact Nat.le_refl _
  | cons g G ih =>
    have h1 := ih fun g hg => h g (List.mem_cons_of_mem _ hg)
    have h2 : 0 < g.length := List.length_pos_iff.2 (h g List.mem_cons_self)
    simp only [List.length_cons, List.flatten_cons, List.length_append]
    omega

/-- The urls of the items `P` are new and differ from each other, and those of the redirects differ from all. -/
structure FreshUrls (G : List (List Sourced)) (P : List Sourced) (R : List Redirect) : Prop where
  nodup : ((G.flatten ++ P).map fun p => p.1.fullUrl).Nodup
  articles : ∀ p ∈ P, p.1.fullUrl ≠ URL_ARTICLES
  sources : ∀ r ∈ R, r.1 ≠ URL_ARTICLES ∧ ∀ p ∈ G.flatten ++ P, p.1.fullUrl ≠ r.1

/-- There is room for the items `P` in an archive with the items `G`, `n` clusters and the redirects `R`. -/
structure RoomFor (reserve : Option Nat) (n : Nat) (G : List (List Sourced)) (P : List Sourced) (R : List Redirect) : Prop where
  clusters : n + P.length ≤ 2 ^ 32
  items : G.flatten.length + P.length < 2 ^ 32
  entries : R = [] ∨ 1 + G.flatten.length + P.length + R.length ≤ 80 + reserve.getD 0 ∧ 80 + reserve.getD 0 ≤ 2 ^ 32

/-- how many entries may be written -/
def limOf (reserve : Option Nat) (R : List Redirect) : Nat := if R = [] then 0 else 80 + reserve.getD 0

theorem Core.clusters_length (h : Core false none X C ML reserve a G rows cs extra es L m0 R B) : cs.length = 1 + G.length := by
  obtain ⟨ext, cl, f1, -, f3⟩ := h.first
  have := congrArg List.length f1
  rw [List.length_map, List.length_cons, ← f3.length_eq] at this
  omega

theorem Core.holdable (h : Core false none X C ML reserve a G rows cs extra es L m0 R B) {z' : ZimLog}
    (hw : Wrote X C G' (logOf a cs es) z') (hne : ∀ g ∈ G', g ≠ []) {P' : List Sourced} (hp : (P' ++ G'.flatten).Perm P)
    (hF : FreshUrls G P R) (hr : RoomFor reserve cs.length G P R) : Holdable m0 R (limOf reserve R) z' := by
  obtain ⟨csB, esB, -, w2, -, w4⟩ := hw
  have hlen : (logOf a cs es).clusters.length = cs.length := by simp [logOf]
  rw [hlen] at w4
  have hGP : G'.flatten.length ≤ P.length := by
    rw [← hp.length_eq, List.length_append]; omega
  have hG' := length_le_flatten hne
  have hcl := h.clusters_length
  have h32 := hr.clusters
  have h33 := hr.items
  have hes : z'.entries = es ++ esB := w2
  -- the urls
  have hurl : ∀ {m : MimeTypeList} {l : List (Item × Nat × Nat)} {es : List Entry},
      List.Forall₂ (fun s e => EntryFor m s.1 s.2.1 s.2.2 e) l es → es.map Entry.fullUrl = (l.map Prod.fst).map Item.fullUrl := by
    intro m l es h
    induction h with
    | nil => rfl
    | cons h1 _ ih => rw [List.map_cons, List.map_cons, List.map_cons, ih, h1.fullUrl]; rfl
  have hu : z'.entries.map Entry.fullUrl =
      URL_ARTICLES :: ((G.flatten ++ G'.flatten).map fun p => p.1.fullUrl) := by
    rw [hes, List.map_append, hurl h.entries, hurl w4, List.map_cons, show slotsOf false 1 G = slots 1 G from rfl, slots_fst, slots_fst, List.map_append, List.map_cons, List.map_map,
      List.map_map]
    rfl
  have hsub : ∀ p ∈ G.flatten ++ G'.flatten, p ∈ G.flatten ++ P := by
    intro p hp'
    rcases List.mem_append.1 hp' with hp' | hp'
    · exact List.mem_append_left _ hp'
    · exact List.mem_append_right _ (hp.subset (List.mem_append_right _ hp'))
  have hnd : (z'.entries.map Entry.fullUrl).Nodup := by
    rw [hu, List.nodup_cons]
    constructor
    · intro hm
      obtain ⟨p, hp', e⟩ := List.mem_map.1 hm
      rcases List.mem_append.1 (hsub p hp') with hp' | hp'
      · exact h.other p hp' e
      · exact hF.articles p hp' e
    · have h1 : ((G.flatten ++ (P' ++ G'.flatten)).map fun p => p.1.fullUrl).Nodup :=
        (((hp.append_left G.flatten).map _).nodup_iff).2 hF.nodup
      refine h1.sublist (List.Sublist.map _ ?_)
      exact List.Sublist.append (List.Sublist.refl _) (List.sublist_append_right _ _)
  have hsrc : ∀ r ∈ R, r.1 ∉ z'.entries.map Entry.fullUrl := by
    intro r hr' hm
    rw [hu] at hm
    rcases List.mem_cons.1 hm with e | hm
    · exact (hF.sources r hr').1 e
    · obtain ⟨p, hp', e⟩ := List.mem_map.1 hm
      exact (hF.sources r hr').2 p (hsub p hp') e
  have hap : ∀ u ∈ z'.entries.map Entry.fullUrl, m0 u = none := by
    intro u hu'
    cases hm : m0 u with
    | none => rfl
    | some v =>
      obtain ⟨r, hr', rfl⟩ := h.only _ _ hm
      exact absurd hu' (hsrc r hr')
  refine ⟨hnd, fun e he => hap _ (List.mem_map_of_mem he), ?_, fun r hr' => ⟨hsrc r hr', ?_, fun hm hu' => hm (hap _ hu')⟩, ?_⟩
  · intro e he
    rw [hes] at he
    rcases List.mem_append.1 he with he | he
    · obtain ⟨s, hs, hse⟩ := forall₂_mem_right h.entries he
      refine ⟨s.2.1, s.2.2, hse.location, ?_⟩
      rcases List.mem_cons.1 hs with rfl | hs
      · refine ⟨?_, ?_⟩ <;> decide
      · have := slots_lt hs
        refine ⟨?_, ?_⟩ <;> omega
    · obtain ⟨s, hs, hse⟩ := forall₂_mem_right w4 he
      have := slots_lt hs
      refine ⟨s.2.1, s.2.2, hse.location, ?_, ?_⟩ <;> omega
  · exact List.nodup_iff_count_le_one.1 hnd _
  · by_cases hR : R = []
    · exact .inl hR
    · right
      have h1 := (hr.entries.resolve_left hR).1
      have h2 := congrArg List.length hu
      simp only [List.length_map, List.length_cons, List.length_append] at h2
      unfold limOf
      rw [if_neg hR]
      omega

theorem Core.led (h : Core false none X C ML reserve a G rows cs extra es L m0 R B) (hF : FreshUrls G P R)
    (hr : RoomFor reserve cs.length G P R) : Led a.zim (restOf reserve a extra) m0 R (limOf reserve R) := by
  have hh := h.holdable (G' := []) (Wrote.refl (logOf a cs es)) (by simp) (P := P) (P' := P) (by simp) hF hr
  refine ⟨h.only, fun r hr' => (h.leads r hr' (hh.once r hr')).leads, fun x hx => ?_, ?_⟩
  · right
    unfold limOf at hx
    split at hx
    · omega
    · unfold Archive.fixed Archive.mimePiece
      cases reserve with
      | none =>
        simp only [Option.getD_none] at hx
        exact ⟨(0, 80), by simp, by unfold InBlock; omega⟩
      | some k =>
        simp only [Option.getD_some] at hx
        by_cases hx' : x < 80
        · exact ⟨(0, 80), by simp, by unfold InBlock; omega⟩
        · exact ⟨(80, k), by simp, by unfold InBlock; omega⟩
  · unfold limOf
    split
    · omega
    · rename_i hR
      exact (hr.entries.resolve_left hR).2

/-- adding an item to a strategy succeeds -/
theorem Core.add_total {t : CompressionType} {mx : Int} {s : Strategy D}
    (W : Working X C t) (h : Core false none X C ML reserve a G rows cs extra es L m0 R B) (hw : s.Waits X t mx a.zim.mimetypes P) (hf : s.Fit)
    (hh : NotHuge P) (hML : ML.length < 65535) {p : Sourced} (hp : Storable p) (hi : p.1.Addable ML)
    (hF : FreshUrls G (P ++ [p]) R) (hr : RoomFor reserve cs.length G (P ++ [p]) R) (d : Nat) :
    ∃ s' Z', Strategy.addItemOn X (Zim.backend X C (d + 2)) p.1 (s, a.zim) = (.ok (), (s', Z')) := by
  obtain ⟨s', z', P', G', g1, g2, g3, g4, g5, g6, g7⟩ := Strategy.Waits.addItem (z := logOf a cs es) W hw hh h.mimes.mutable p hp
  obtain ⟨Z', e⟩ := Backend.Tot.add (Mirrored.sim (d + 2)) (Mirrored.tot (h.led hF hr) d) (h.mirrored (C := C)) hf ⟨hML, hi⟩ g1
    (h.holdable g4 g7 g6 hF hr)
  exact ⟨s', Z', e⟩

/-- flushing a strategy succeeds -/
theorem Core.flushStrategy_total {t : CompressionType} {mx : Int} {s : Strategy D}
    (W : Working X C t) (h : Core false none X C ML reserve a G rows cs extra es L m0 R B) (hw : s.Waits X t mx a.zim.mimetypes P) (hf : s.Fit)
    (hh : NotHuge P) (hF : FreshUrls G P R) (hr : RoomFor reserve cs.length G P R) (d : Nat) :
    ∃ s' Z', Strategy.flushOn (Zim.backend X C (d + 2)) (s, a.zim) = (.ok (), (s', Z')) := by
  obtain ⟨s', z', G', g1, g2, g4, g5, g6, g7⟩ := Strategy.Waits.flush (z := logOf a cs es) W hw hh
  obtain ⟨Z', e⟩ := Backend.Tot.flush (Mirrored.sim (d + 2)) (Mirrored.tot (h.led hF hr) d) (h.mirrored (C := C)) hf g1
    (h.holdable g4 g7 (P' := []) g6 hF hr)
  exact ⟨s', Z', e⟩

end
end Pyzim
