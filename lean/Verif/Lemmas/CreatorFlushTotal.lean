import Verif.Lemmas.FlushTotal
import Verif.Spec.Total

/-!
# An archive filled by strategies: flushing succeeds
-/

namespace Pyzim
open Zim (Row Stored Clustered Works Lists Art MimesIn Mirrored catalogue marked Redirect
  Filled Once catalogue_other)

section
variable {D K : Type} {X : Codecs D} {C : Compressors K} {ML : List Bytes} {reserve : Option Nat} {a a' : Archive}
  {G G' : List (List Sourced)} {rows : List Row} {cs : List Stored} {extra : Nat → Prop} {es : List Entry} {L : Bytes}
  {m0 : Catalogue} {R B : List Redirect} {P : List Sourced}

/-- each cluster has at least one item -/
theorem Core.groups (h : Core false none X C ML reserve a G rows cs extra es L m0 R B) : ∀ g ∈ G, g ≠ [] := by
  obtain ⟨ext, cl, -, -, f3⟩ := h.first
  intro g hg
  obtain ⟨i, hi⟩ := List.mem_iff_getElem.1 hg
  obtain ⟨hi, rfl⟩ := hi
  have := List.Forall₂.get f3 hi (by rw [← f3.length_eq]; exact hi)
  intro e
  refine this.2.1 ?_
  have e' : G.get ⟨i, hi⟩ = [] := e
  rw [e', List.map_nil]

theorem Core.rows_length (h : Core false none X C ML reserve a G rows cs extra es L m0 R B) :
    rows.length ≤ 1 + G.flatten.length + R.length := by
  have hes : es.length = 1 + G.flatten.length := by
    rw [← h.entries.length_eq, List.length_cons, ← List.length_map (f := Prod.fst), show slotsOf false 1 G = slots 1 G from rfl, slots_fst, List.length_map]
    omega
  have hnd : (rows.map fun r => r.2.fullUrl).Nodup := by
    rw [List.nodup_iff_pairwise_ne, List.pairwise_map]
    exact h.laid.content.rep.sorted.imp fun h e => by rw [e] at h; exact absurd h (List.lt_irrefl _)
  have hsub : ∀ u ∈ rows.map (fun r => r.2.fullUrl), u ∈ es.map Entry.fullUrl ++ R.map (·.1) := by
    intro u hu
    obtain ⟨r, hr, rfl⟩ := List.mem_map.1 hu
    rcases (catalogue_iff m0 es _ _).1 ((h.lists _ _).2 ⟨r, hr, rfl, rfl⟩) with ⟨e, he, h1, h2⟩ | ⟨-, hm⟩
    · exact List.mem_append_left _ (List.mem_map.2 ⟨e, lastOnes_sub he, h1⟩)
    · obtain ⟨r', hr', e⟩ := h.only _ _ hm
      exact List.mem_append_right _ (List.mem_map.2 ⟨r', hr', e⟩)
  have := (List.subperm_of_subset hnd hsub).length_le
  simp only [List.length_append, List.length_map] at this
  omega

theorem Core.rows_ne (h : Core false none X C ML reserve a G rows cs extra es L m0 R B) : rows ≠ [] := by
  rintro rfl
  obtain ⟨e, he, -⟩ := h.listing
  rw [h.laid.content.rep.entryByFullUrl_missing fun r hr => absurd hr (by simp)] at he
  cases he

/-- the size of a list of mimetypes in the file -/
def mimesSize (ML : List Bytes) : Nat := 1 + (ML.map fun m => m.length + 1).sum

theorem Zim.MimesIn.size {m : MimeTypeList} (h : MimesIn ML m) : m.getDiskSize ≤ mimesSize ML := by
  obtain ⟨l, h1, h2⟩ := List.subperm_of_subset h.nodup h.sub
  unfold MimeTypeList.getDiskSize mimesSize
  rw [MimeTypeList.foldl_size]
  have e0 : (m.mimetypes.map (· ++ [0])).flatten.length = (m.mimetypes.map fun m : Bytes => m.length + 1).sum := by
    simp [List.length_flatten, Function.comp_def]
  have e1 := (h1.map fun m : Bytes => m.length + 1).sum_nat
  have e2 : ∀ {l l' : List Bytes}, List.Sublist l l' → (l.map fun m : Bytes => m.length + 1).sum ≤ (l'.map fun m : Bytes => m.length + 1).sum := by
    intro l l' h
    induction h with
    | slnil => exact Nat.le_refl _
    | cons _ _ ih => simp only [List.map_cons, List.sum_cons]; omega
    | cons_cons _ _ ih => simp only [List.map_cons, List.sum_cons]; omega
  have e3 := e2 h2
  omega

theorem Zim.Art.bytes {l : PointerList} {S0 : String → Prop} (h : Art l rows S0) (hl : rows.length < 2 ^ 32) : ∃ b, l.toBytes 4 = .ok b := by
  obtain ⟨b, hb, -⟩ := PointerList.C04_write_read 4 (by omega) l (by
    intro p hp
    have h0 := h.nonneg p hp
    obtain ⟨i, rfl⟩ := Int.eq_ofNat_of_zero_le h0
    obtain ⟨r, hr, -⟩ := (h.mem i).1 hp
    have := (List.getElem?_eq_some_iff.1 hr).1
    unfold FitsField
    omega)
  exact ⟨b, hb⟩

open Archive (OkOr)

/-- What the format has room for: entries, clusters, and mimetypes in the reserved space. -/
structure Limits (r : Nat) (ML : List Bytes) (n : Nat) : Prop where
  entries : 1 + n < 2 ^ 32
  mimes : mimesSize ML ≤ r

theorem Core.limits (h : Core false none X C ML reserve a G rows cs extra es L m0 R B) {r : Nat} (hl : Limits r ML (G.flatten.length + R.length)) :
    rows ≠ [] ∧ rows.length < 2 ^ 32 ∧ cs ≠ [] ∧ cs.length < 2 ^ 32 := by
  have h1 := h.rows_length
  have h2 := h.clusters_length
  have h3 := length_le_flatten h.groups
  have h4 := hl.entries
  refine ⟨h.rows_ne, by omega, ?_, by omega⟩
  rintro rfl
  simp at h2
  omega

theorem Core.flushLists_total {S : Setup D K} {md5 : Bytes → Bytes} {r : Nat} (hr : 2 ≤ r) (hS : S.Good md5 (some r))
    (h : Core false none S.X S.C ML (some r) a G rows cs extra es L m0 R B) (hz : Filled (80 + r) a.zim) (hp : a.zim.PlainHead)
    (hl : Limits r ML (G.flatten.length + R.length)) :
    OkOr (Archive.onZim (Archive.flushArticles (Creator.setListing S)) >>= fun _ =>
      Archive.restOf S.H S.short S.chunksize S.policy) a := by
  obtain ⟨l1, l2, l3, l4⟩ := h.limits hl
  obtain ⟨ext, cl, f1, f2, f3⟩ := h.first
  have hpol : S.policy = ⟨S.policy.truncate, some r⟩ := by rw [← hS.policy]
  rw [hpol]
  have hmm : a.zim.mimetypes.getDiskSize ≤ r := Nat.le_trans h.mimes.size hl.mimes
  cases hd : a.zim.articles.dirty with
  | false =>
    have e2 : Archive.onZim (Archive.flushArticles (Creator.setListing S)) a = (.ok (), a) := by
      unfold Archive.onZim Archive.flushArticles
      rw [PyM.get_bind, if_neg (by rw [hd]; simp), PyM.pure_apply]
    refine OkOr.bind (.inl ⟨a, e2⟩) fun a2 h2 => ?_
    rw [e2] at h2
    injection h2 with _ h2
    subst h2
    exact h.laid.toParts.rest_total hS.hasher hS.short hS.chunksize hr hz hp hmm l1 l2 l3 l4
  | true =>
    obtain ⟨off, hcs⟩ : ∃ off, cs[0]? = some (off, plainBytes ext [L]) := by
      cases cs with
      | nil => cases f1
      | cons c cs =>
        rw [List.map_cons] at f1
        injection f1 with f1 _
        exact ⟨c.1, by rw [← f1]; rfl⟩
    obtain ⟨b, hb⟩ := h.art.bytes l2
    obtain ⟨e, he1, he2, he3⟩ := h.listing
    have hlen := toBytes_length h.art.nodup hb
    obtain ⟨z', off', ext', s1, s2, s3⟩ := Zim.setContent_plain hS.passthrough
      (hS.plain.works.imp fun _ h => h.1) h.laid.content hcs f2 he2 he3 (by simp)
      (src := (BlobSourceObj.inMemory b).toSource) (c := b) (Blob.C52_pieces_complete (.inMemory b) trivial)
      (by simp; omega) S.kind S.calls
    have hset : Creator.setListing S b a.zim = (.ok (), z') := by
      unfold Creator.setListing
      rw [PyM.get_bind, he1, PyM.lift_ok_bind]
      exact s1
    have e2 : Archive.onZim (Archive.flushArticles (Creator.setListing S)) a =
        (.ok (), { a with zim := { z' with articles := { z'.articles with dirty := false } } }) := by
      unfold Archive.onZim Archive.flushArticles
      rw [PyM.get_bind, if_pos hd, hb, PyM.lift_ok_bind, PyM.bind_ok hset, PyM.modify_apply]
    have hw : Works (ClusterObj.ops S.X S.C) a.zim cs z' (cs.set 0 (off', plainBytes ext' [b])) :=
      .step .refl (.cluster s3)
    obtain ⟨w1, w2, -, -⟩ := h.laid.content.write s3
    obtain ⟨rows', p1, -⟩ := h.laid.toParts.works hw
    have hr' : rows' = rows := Zim.Rep.unique w1.rep p1.content.rep
    subst hr'
    have p2 := p1.articles { z'.articles with dirty := false }
    simp only at p2
    refine OkOr.bind (.inl ⟨_, e2⟩) fun a2 h2 => ?_
    have hp2 : a2.zim.PlainHead := keeps_ok (P := fun a : Archive => a.zim.PlainHead)
      (Archive.plain_onZim (Archive.plain_flushArticles fun b => by
        unfold Creator.setListing
        exact Keeps.get.bind fun z => (Keeps.lift _).bind fun e => Zim.plain_setContent _ _ _ _ _ _)) h2 hp
    rw [e2] at h2
    injection h2 with _ h2
    subst h2
    refine p2.rest_total hS.hasher hS.short hS.chunksize hr ?_ hp2 ?_ l1 l2 ?_ ?_
    · have hz' : Filled (80 + r) z' := h.laid.content.filled s3 hz
      exact hz'
    · show z'.mimetypes.getDiskSize ≤ r
      rw [w2.mimetypes]; exact hmm
    · intro e
      exact l3 (by simpa using e)
    · simpa using l4

/-- every redirect that was written leads to an entry -/
theorem Core.redirect_lt (h : Core gh mp X C ML reserve a G rows cs extra es L m0 R B) (hO : ∀ r ∈ R, Once m0 es r.1 r.2.1)
    {s : Row} (hs : s ∈ rows) {i : Nat} (hk : s.2.kind = .redirect i) : i < rows.length := by
  have hv : s.2.view.body = .redirect := by unfold Entry.view; rw [hk]
  rcases (catalogue_iff m0 es _ _).1 ((h.lists _ _).2 ⟨s, hs, rfl, rfl⟩) with ⟨e, he, h1, h2⟩ | ⟨-, hm⟩
  · obtain ⟨sl, -, hse⟩ := forall₂_mem_right h.entries (lastOnes_sub he)
    have hc := hse.location
    rw [← h2] at hv
    unfold Entry.view at hv
    rw [hc] at hv
    cases hv
  · obtain ⟨r, hr, hru⟩ := h.only _ _ hm
    obtain ⟨s', hs', e1, j, q, e2, e3, -⟩ := h.laid.content.rep.leads_iff.1 (h.leads r hr (hO r hr)).leads
    have hss : s' = s := (Zim.distinct_of_sorted h.laid.content.rep.sorted).row_eq hs' hs (by rw [e1, hru])
    rw [hss, hk] at e2
    injection e2 with e2
    subst e2
    exact (List.getElem?_eq_some_iff.1 e3).1

theorem Core.roomy {r : Nat} (h : Core gh mp X C ML (some r) a G rows cs extra es L m0 R B) (hO : ∀ r ∈ R, Once m0 es r.1 r.2.1) (h1 : rows.length < 80 + r) (h2 : 80 + r ≤ 2 ^ 32) :
    Zim.Roomy a.zim (marked (fun _ => False) es) (80 + r) := by
  refine ⟨rows, _, h.laid.content.rep, h.art, fun x hx => ?_, h1, h2, fun s hs i hk => h.redirect_lt hO hs hk⟩
  left; right
  unfold Archive.fixed Archive.mimePiece
  by_cases hx' : x < 80
  · exact ⟨(0, 80), by simp, by unfold SpaceAllocator.InBlock; omega⟩
  · exact ⟨(80, r), by simp, by unfold SpaceAllocator.InBlock; omega⟩

/-- what was written is there -/
theorem Core.has (h : Core false none X C ML reserve a G rows cs extra es L m0 R B) {u : String}
    (hu : u ∈ es.map Entry.fullUrl ∨ ∃ r ∈ R, r.1 = u) : Zim.Has a.zim u := by
  rw [h.laid.content.rep.has_iff]
  have : ∃ v, catalogue m0 es u = some v := by
    by_cases he : u ∈ es.map Entry.fullUrl
    · obtain ⟨E1, x, E2, rfl, hx, h2⟩ : ∃ E1 x E2, es = E1 ++ x :: E2 ∧ x.fullUrl = u ∧ u ∉ E2.map Entry.fullUrl := by
        clear hu h
        induction es with
        | nil => cases he
        | cons y es ih =>
          by_cases hy : u ∈ es.map Entry.fullUrl
          · obtain ⟨E1, x, E2, rfl, hx, h2⟩ := ih hy
            exact ⟨y :: E1, x, E2, rfl, hx, h2⟩
          · refine ⟨[], y, es, rfl, ?_, hy⟩
            rcases List.mem_cons.1 he with e | e
            · exact e.symm
            · exact absurd e hy
      subst hx
      exact ⟨x.view, catalogue_at m0 h2⟩
    · obtain ⟨r, hr, rfl⟩ := hu.resolve_left he
      obtain ⟨v, hv, -⟩ := h.shown r hr
      exact ⟨v, by rw [catalogue_other m0 he]; exact hv⟩
  obtain ⟨v, hv⟩ := this
  obtain ⟨r, hr, h1, -⟩ := (h.lists _ _).1 hv
  exact ⟨r, hr, h1⟩

/-- applying the buffered redirects succeeds -/
theorem Core.finalize_total {r : Nat} (h : Core false none X C ML (some r) a G rows cs extra es L m0 R B) (hn : NewSources es m0 B)
    (hO : ∀ r ∈ R, Once m0 es r.1 r.2.1) (hroom : B = [] ∨ rows.length + B.length < 80 + r ∧ 80 + r ≤ 2 ^ 32) (blob : Entry → PyM Zim Unit)
    (d : Nat) {passes : Nat} (hp : B.length + 1 ≤ passes)
    (hres : ∀ q ∈ B, Reaches (R ++ B) (fun u => u ∈ es.map Entry.fullUrl) q.2.1) :
    ∃ Z', Zim.finalizeOperations blob (d + 2) passes a.zim = (.ok (), Z') ∧ ∀ k, Filled k a.zim → Filled k Z' := by
  by_cases hB : B = []
  · exact ⟨_, Zim.finalizeOperations_nothing blob (d + 2) (by omega) (h.redirects.trans hB) h.mainpage, fun _ h => h⟩
  · obtain ⟨k1, k2⟩ := hroom.resolve_left hB
    have hrm := h.roomy hO (by omega) k2
    have hb := h.redirects
    have hr : ∀ u, Reaches (R ++ B) (fun u => u ∈ es.map Entry.fullUrl) u → Zim.Resolvable a.zim B u := by
      intro u hu
      induction hu with
      | here hu => exact .entry (h.has (.inl hu))
      | @step s t title hm _ ih =>
        rcases List.mem_append.1 hm with hm | hm
        · exact .entry (h.has (.inr ⟨_, hm, rfl⟩))
        · exact .redirect hm ih
    obtain ⟨z', res, e1, -, -, -, -, -, -, -, e3, -⟩ := Zim.C31_redirects hrm (by rw [hb]; exact hn.valid) (by rw [hb]; exact hn.nodup)
      (by
        rw [hb]
        intro q hq hh
        obtain ⟨s, hs, hsu⟩ := (h.laid.content.rep.has_iff _).1 hh
        have := (h.lists _ _).2 ⟨s, hs, hsu, rfl⟩
        rw [catalogue_other m0 (hn.entries q hq), hn.redirects q hq] at this
        cases this)
      (by rw [hb, h.laid.content.rep.len]; exact k1) d passes (by rw [hb]; exact hp)
    have hres' := e3 (by rw [hb]; exact fun q hq => hr _ (hres q hq))
    subst hres'
    have hmp : z'.bufferedMainpage = none ∧ ∀ k, Filled k a.zim → Filled k z' := by
      unfold Zim.applyRedirects at e1
      obtain ⟨⟨⟩, Z2, h3, h4⟩ := PyM.bind_ok_iff.1 e1
      obtain ⟨rows', m0', R', U, g1, -⟩ := Core.redirectLoop passes h hn h3
      rw [PyM.get_bind] at h4
      unfold PyM.require at h4
      split at h4
      · injection h4 with _ h4
        subst h4
        exact ⟨g1.mainpage, fun k hk => Zim.filled_redirectLoop _ _ _ _ _ hk h3⟩
      · cases h4
    refine ⟨z', ?_, hmp.2⟩
    unfold Zim.finalizeOperations
    rw [PyM.bind_ok e1]
    unfold Zim.applySetMainpageUrl
    rw [PyM.get_bind, hmp.1]
    rfl

/-- flushing succeeds if the buffered redirects can be applied, unless the file gets too long -/
theorem Core.flush_total {S : Setup D K} {md5 : Bytes → Bytes} {r d : Nat} (hr : 2 ≤ r) (hS : S.Good md5 (some r))
    (hd : S.depth = d + 2) (hps : B.length + 1 ≤ S.passes)
    (h : Core false none S.X S.C ML (some r) a G rows cs extra es L m0 R B) (hz : Filled (80 + r) a.zim) (hp : a.zim.PlainHead)
    (hn : NewSources es m0 B) (hO : ∀ r ∈ R, Once m0 es r.1 r.2.1)
    (hroom : B = [] ∨ rows.length + B.length < 80 + r ∧ 80 + r ≤ 2 ^ 32)
    (hres : ∀ q ∈ B, Reaches (R ++ B) (fun u => u ∈ es.map Entry.fullUrl) q.2.1)
    (hl : Limits r ML (G.flatten.length + (R ++ B).length)) :
    OkOr (Archive.flushDirty S.H S.short S.chunksize S.policy (Zim.finalizeOperations S.blob S.depth S.passes)
      (Creator.setListing S)) a := by
  rw [Archive.flushDirty_eq]
  obtain ⟨Z', e0, hz'⟩ := h.finalize_total hn hO hroom S.blob d hps hres
  rw [← hd] at e0
  have e : Archive.onZim (Zim.finalizeOperations S.blob S.depth S.passes) a = (.ok (), { a with zim := Z' }) := by
    unfold Archive.onZim
    rw [e0]
  refine OkOr.bind (.inl ⟨_, e⟩) fun a2 h2 => ?_
  have hp2 : a2.zim.PlainHead := keeps_ok (P := fun a : Archive => a.zim.PlainHead)
    (Archive.plain_onZim (Zim.plain_finalizeOperations _ _ _)) h2 hp
  rw [e] at h2
  injection h2 with _ h2
  subst h2
  obtain ⟨rows', m0', R', g1, -, g3⟩ := h.finalize hn e0
  refine g1.flushLists_total hr hS (hz' _ hz) hp2 ⟨?_, hl.mimes⟩
  have := hl.entries
  rw [List.length_append] at this ⊢
  rw [g3.length_eq]
  exact this

/-- the urls of what was written -/
theorem Core.es_urls (h : Core false none X C ML reserve a G rows cs extra es L m0 R B) :
    es.map Entry.fullUrl = URL_ARTICLES :: G.flatten.map fun p => p.1.fullUrl := by
  have hurl : ∀ {m : MimeTypeList} {l : List (Item × Nat × Nat)} {es : List Entry},
      List.Forall₂ (fun s e => EntryFor m s.1 s.2.1 s.2.2 e) l es → es.map Entry.fullUrl = (l.map Prod.fst).map Item.fullUrl := by
    intro m l es h
    induction h with
    | nil => rfl
    | cons h1 _ ih => rw [List.map_cons, List.map_cons, List.map_cons, ih, h1.fullUrl]; rfl
  rw [hurl h.entries, List.map_cons, show slotsOf false 1 G = slots 1 G from rfl, slots_fst, List.map_cons, List.map_map]
  rfl

/-- Everything that is to be in the archive fits: no url is used twice, there are not too many entries, and (if there are
redirects) the number of an entry cannot be taken for a position in the file. -/
structure Fits (r : Nat) (all : List Sourced) (rs : List Redirect) : Prop where
  urls : (all.map fun p => p.1.fullUrl).Nodup
  articles : ∀ p ∈ all, p.1.fullUrl ≠ URL_ARTICLES
  sources : ∀ q ∈ rs, q.1 ≠ URL_ARTICLES ∧ ∀ p ∈ all, p.1.fullUrl ≠ q.1
  entries : 1 + all.length + rs.length < 2 ^ 32
  redirects : rs = [] ∨ 1 + all.length + rs.length < 80 + r ∧ 80 + r ≤ 2 ^ 32

theorem Fits.fresh {r : Nat} {all : List Sourced} {rs : List Redirect} (h : Fits r all rs) (hs : List.Subperm (G.flatten ++ P) all)
    (hR : ∀ q ∈ R, q ∈ rs) : FreshUrls G P R := by
  obtain ⟨l, l1, l2⟩ := hs
  refine ⟨?_, fun p hp => h.articles p (l2.subset (l1.symm.subset (List.mem_append_right _ hp))), fun q hq =>
    ⟨(h.sources q (hR q hq)).1, fun p hp => (h.sources q (hR q hq)).2 p (l2.subset (l1.symm.subset hp))⟩⟩
  exact ((l1.map _).nodup_iff).1 (h.urls.sublist (l2.map _))

theorem Fits.room {r : Nat} {all : List Sourced} {rs : List Redirect} (h : Fits r all rs)
    (hc : Core false none X C ML (some r) a G rows cs extra es L m0 R B) (hs : List.Subperm (G.flatten ++ P) all) (hR : R.length ≤ rs.length) :
    RoomFor (some r) cs.length G P R := by
  have h1 := hs.length_le
  have h2 := hc.clusters_length
  have h3 := length_le_flatten hc.groups
  have h4 := h.entries
  rw [List.length_append] at h1
  refine ⟨by omega, by omega, ?_⟩
  rcases h.redirects with e | ⟨e1, e2⟩
  · rw [e] at hR
    exact .inl (List.length_eq_zero_iff.1 (by simpa using hR))
  · refine .inr ⟨?_, e2⟩
    show 1 + G.flatten.length + P.length + R.length ≤ 80 + r
    omega

theorem Fits.once {r : Nat} {all : List Sourced} {rs : List Redirect} (h : Fits r all rs)
    (hc : Core false none X C ML (some r) a G rows cs extra es L m0 R B) (hs : List.Subperm G.flatten all) (hB : (R ++ B).Perm rs) :
    ∀ r ∈ R, Once m0 es r.1 r.2.1 := by
  have hs' : List.Subperm (G.flatten ++ []) all := by rw [List.append_nil]; exact hs
  have hR : R.length ≤ rs.length := by rw [← hB.length_eq, List.length_append]; omega
  exact (hc.holdable (G' := []) (Wrote.refl (logOf a cs es)) (by simp) (P := []) (P' := []) (by simp)
    (h.fresh hs' fun q hq => hB.subset (List.mem_append_left _ hq)) (h.room hc hs' hR)).once

end

variable {D K : Type} {S : Setup D K} {md5 : Bytes → Bytes} {r : Nat} {c : Creator D} {ML : List Bytes} {G0 : List (List Sourced)}
  {items : List Sourced} {rs : List Redirect}

/-- flushing the archive succeeds, unless the file gets too long -/
theorem Has.flush_total (hr : 2 ≤ r) (hS : S.Good md5 (some r)) (hd : 2 ≤ S.depth) (hps : rs.length + 1 ≤ S.passes)
    (h : Has false none S ML (some r) G0 items rs c) (hh : NotHuge items) (hs : Separate rs G0 items)
    (hz : Filled (80 + r) c.arch.zim) (hp : c.PlainHead) (hm : mimesSize ML ≤ r) (hf : Fits r (G0.flatten ++ items) rs)
    (hreach : ∀ q ∈ rs, Reaches rs (fun u => ∃ p ∈ G0.flatten ++ items, p.1.fullUrl = u) q.2.1) :
    (∃ c', Creator.flush S c = (.ok (), c')) ∨ 2 ^ 64 ≤ (Creator.flush S c).2.arch.zim.file.length := by
  obtain ⟨G, P1, P2, ⟨rows, cs, extra, es, L, m0, R, B, hc, hB⟩, ⟨t, mx1, W, hw1⟩, ⟨mx2, hw2⟩, hf1, hf2, hperm, hcl⟩ := h
  obtain ⟨d, hdd⟩ : ∃ d, S.depth = d + 2 := ⟨S.depth - 2, by omega⟩
  have hflush : Creator.flush S c = (if c.arch.isDirty then (do
      Creator.onMain (Strategy.flushOn (Zim.backend S.X S.C S.depth))
      Creator.onPlain (Strategy.flushOn (Zim.backend S.X S.C S.depth))
      Creator.onArch (Archive.flushDirty S.H S.short S.chunksize S.policy
        (Zim.finalizeOperations S.blob S.depth S.passes) (Creator.setListing S))) else pure () : PyM (Creator D) Unit) c := by
    unfold Creator.flush
    rw [PyM.get_bind, PyM.bind_ok (show PyM.require (!c.arch.zim.closed) .zimFileClosed c = (.ok (), c) by
      rw [hc.laid.content.rep.isOpen]; rfl), PyM.bind_ok (show PyM.require c.arch.zim.mutable .nonMutable c = (.ok (), c) by
      rw [hc.laid.content.rep.isMutable]; rfl)]
  rw [hflush]
  cases hdt : c.arch.isDirty with
  | false => exact .inl ⟨c, by rw [if_neg (by simp)]; rfl⟩
  | true =>
  rw [if_pos rfl]
  have hn1 : NotHuge P1 := (hh.perm hperm).sublist (by rw [List.append_assoc]; exact List.sublist_append_left _ _)
  have hn2 : NotHuge P2 := (hh.perm hperm).sublist (by
    rw [List.append_assoc]
    exact (List.sublist_append_left _ _).trans (List.sublist_append_right _ _))
  have hall : ((G0 ++ G).flatten ++ (P1 ++ P2)).Perm (G0.flatten ++ items) := by
    rw [List.flatten_append, List.append_assoc]
    exact (List.perm_append_comm.trans hperm).append_left _
  have hRl : R.length ≤ rs.length := by rw [← hB.length_eq, List.length_append]; omega
  have hRs : ∀ q ∈ R, q ∈ rs := fun q hq => hB.subset (List.mem_append_left _ hq)
  -- the first strategy
  have hs1 : List.Subperm ((G0 ++ G).flatten ++ P1) (G0.flatten ++ items) :=
    ((List.sublist_append_left P1 P2).append_left _).subperm.trans hall.subperm
  obtain ⟨s1, Z1, e1⟩ := hc.flushStrategy_total W hw1 hf1 hn1 (hf.fresh hs1 hRs) (hf.room hc hs1 hRl) d
  rw [← hdd] at e1
  obtain ⟨rows1, cs1, es1, G1, g1, g2, g3, g4, g5⟩ := hc.flushStrategy W hw1 hf1 hn1
    (fun q hq => hf.articles q (hs1.subset (List.mem_append_right _ hq))) e1
  have z1 := hc.filled_flush hf1 e1 hz
  -- the second strategy
  have hs2 : List.Subperm ((G0 ++ G ++ G1).flatten ++ P2) (G0.flatten ++ items) := by
    rw [List.flatten_append, List.append_assoc]
    exact ((g4.append_right P2).append_left _).subperm.trans hall.subperm
  obtain ⟨s2, Z2, e2⟩ := g1.flushStrategy_total hS.plain (by simp only; rw [g5]; exact hw2) hf2 hn2 (hf.fresh hs2 hRs)
    (hf.room g1 hs2 hRl) d
  rw [← hdd] at e2
  obtain ⟨rows2, cs2, es2, G2, k1, k2, k3, k4, k5⟩ := g1.flushStrategy hS.plain (by simp only; rw [g5]; exact hw2) hf2 hn2
    (fun q hq => hf.articles q (hs2.subset (List.mem_append_right _ hq))) e2
  have z2 := g1.filled_flush hf2 e2 z1
  have hs3 : (G0 ++ G ++ G1 ++ G2).flatten.Perm (G0.flatten ++ items) := by
    rw [List.flatten_append, List.flatten_append, List.append_assoc]
    exact ((g4.append k4).append_left _).trans hall
  have hpm : (G ++ G1 ++ G2).flatten.Perm items := by
    simp only [List.flatten_append]
    refine List.Perm.trans ?_ hperm
    refine ((g4.append_left _).append k4).trans ?_
    rw [List.append_assoc]
    exact List.perm_append_comm
  have hk := k1
  rw [List.append_assoc G0, List.append_assoc G0] at hk
  have hn := hk.newSources hs hB fun p hp => hpm.subset hp
  have hBl : R.length + B.length = rs.length := by rw [← hB.length_eq, List.length_append]
  have hlen : (G0 ++ G ++ G1 ++ G2).flatten.length = (G0.flatten ++ items).length := hs3.length_eq
  have hent := hf.entries
  have p1 : Z1.PlainHead := by
    have := (Zim.backend_plain S.X S.C S.depth).flush (c.main, c.arch.zim) hp
    rwa [e1] at this
  have p2 : Z2.PlainHead := by
    have := (Zim.backend_plain S.X S.C S.depth).flush (c.plain, Z1) p1
    rwa [e2] at this
  have key := k1.flush_total hr hS hdd (by omega) z2 p2 hn (hf.once k1 hs3.subperm hB) (by
      rcases hf.redirects with e | ⟨q1, q2⟩
      · rw [e, List.length_nil] at hBl
        exact .inl (List.length_eq_zero_iff.1 (by omega))
      · have := k1.rows_length
        exact .inr ⟨by omega, q2⟩) (fun q hq => by
      have hq' := hreach q (hB.subset (List.mem_append_right _ hq))
      generalize q.2.1 = u at hq' ⊢
      induction hq' with
      | here hu =>
        obtain ⟨p, hp, e⟩ := hu
        refine .here ?_
        rw [k1.es_urls, ← e]
        exact List.mem_cons_of_mem _ (List.mem_map.2 ⟨p, hs3.symm.subset hp, rfl⟩)
      | step hm _ ih => exact .step (hB.symm.subset hm) ih) ⟨by
        rw [List.length_append]
        omega, hm⟩
  have f1 : Creator.onMain (Strategy.flushOn (Zim.backend S.X S.C S.depth)) c =
      (.ok (), { c with main := s1, arch := { c.arch with zim := Z1 } }) := by
    simp only [Creator.onMain, PyM.of_apply, e1]
  have f2 : Creator.onPlain (Strategy.flushOn (Zim.backend S.X S.C S.depth)) { c with main := s1, arch := { c.arch with zim := Z1 } } =
      (.ok (), { c with main := s1, plain := s2, arch := { c.arch with zim := Z2 } }) := by
    simp only [Creator.onPlain, PyM.of_apply, e2]
  rw [PyM.bind_ok f1, PyM.bind_ok f2]
  rcases key with ⟨a', e⟩ | e
  · refine .inl ⟨{ c with main := s1, plain := s2, arch := a' }, ?_⟩
    simp only [Creator.onArch, PyM.of_apply]
    rw [show ({ c.arch with zim := Z2 } : Archive) = { ({ c.arch with zim := Z1 } : Archive) with zim := Z2 } from rfl, e]
  · exact .inr e

/-- adding an item succeeds -/
theorem Has.add_total (hS : S.Good md5 (some r)) (hd : 2 ≤ S.depth)
    (h : Has false none S ML (some r) G0 items rs c) (hh : NotHuge items) (hML : ML.length < 65535) {p : Sourced} (hp : Storable p)
    (hi : p.1.Addable ML) (hf : Fits r (G0.flatten ++ (items ++ [p])) rs) (force : Bool) :
    ∃ c', Creator.addItem S p.1 force c = (.ok (), c') := by
  obtain ⟨G, P1, P2, ⟨rows, cs, extra, es, L, m0, R, B, hc, hB⟩, ⟨t, mx1, W, hw1⟩, ⟨mx2, hw2⟩, hf1, hf2, hperm, hcl⟩ := h
  obtain ⟨d, hdd⟩ : ∃ d, S.depth = d + 2 := ⟨S.depth - 2, by omega⟩
  unfold Creator.addItem
  rw [PyM.get_bind, PyM.bind_ok (show PyM.require (!c.arch.zim.closed) .zimFileClosed c = (.ok (), c) by
    rw [hc.laid.content.rep.isOpen]; rfl), PyM.bind_ok (show PyM.require c.arch.zim.mutable .nonMutable c = (.ok (), c) by
    rw [hc.laid.content.rep.isMutable]; rfl)]
  have hn1 : NotHuge P1 := (hh.perm hperm).sublist (by rw [List.append_assoc]; exact List.sublist_append_left _ _)
  have hn2 : NotHuge P2 := (hh.perm hperm).sublist (by
    rw [List.append_assoc]
    exact (List.sublist_append_left _ _).trans (List.sublist_append_right _ _))
  have hRl : R.length ≤ rs.length := by rw [← hB.length_eq, List.length_append]; omega
  have hRs : ∀ q ∈ R, q ∈ rs := fun q hq => hB.subset (List.mem_append_left _ hq)
  have hsub : ∀ P, List.Sublist P (P1 ++ P2) → List.Subperm ((G0 ++ G).flatten ++ (P ++ [p])) (G0.flatten ++ (items ++ [p])) := by
    intro P hP
    rw [List.flatten_append, List.append_assoc, ← List.append_assoc G.flatten]
    refine ((List.Sublist.refl _).append (((List.Sublist.refl G.flatten).append hP).append (List.Sublist.refl [p]))).subperm.trans ?_
    exact (((List.perm_append_comm.trans hperm).append_right [p]).append_left _).subperm
  cases force with
  | true =>
    obtain ⟨s', Z', e⟩ := hc.add_total hS.plain hw2 hf2 hn2 hML hp hi
      (hf.fresh (hsub P2 (List.sublist_append_right _ _)) hRs) (hf.room hc (hsub P2 (List.sublist_append_right _ _)) hRl) d
    rw [← hdd] at e
    have e1 : Creator.onPlain (Strategy.addItemOn S.X (Zim.backend S.X S.C S.depth) p.1) c =
        (.ok (), { c with plain := s', arch := { c.arch with zim := Z' } }) := by
      simp only [Creator.onPlain, PyM.of_apply, e]
    rw [if_pos rfl, PyM.bind_ok e1, PyM.modify_apply]
    exact ⟨_, rfl⟩
  | false =>
    obtain ⟨s', Z', e⟩ := hc.add_total W hw1 hf1 hn1 hML hp hi
      (hf.fresh (hsub P1 (List.sublist_append_left _ _)) hRs) (hf.room hc (hsub P1 (List.sublist_append_left _ _)) hRl) d
    rw [← hdd] at e
    have e1 : Creator.onMain (Strategy.addItemOn S.X (Zim.backend S.X S.C S.depth) p.1) c =
        (.ok (), { c with main := s', arch := { c.arch with zim := Z' } }) := by
      simp only [Creator.onMain, PyM.of_apply, e]
    rw [if_neg (by simp), PyM.bind_ok e1, PyM.modify_apply]
    exact ⟨_, rfl⟩

theorem Fits.left {all : List Sourced} {q : Redirect} (h : Fits r all (rs ++ [q])) : Fits r all rs := by
  refine ⟨h.urls, h.articles, fun q hq => h.sources q (List.mem_append_left _ hq), ?_, .inr ?_⟩
  · have := h.entries
    rw [List.length_append] at this
    omega
  · have := h.redirects.resolve_left (by simp)
    rw [List.length_append] at this
    exact ⟨by omega, this.2⟩

/-- adding a redirect succeeds -/
theorem Has.redirect_total (hd : 2 ≤ S.depth) (h : Has false none S ML (some r) G0 items rs c) {q : Redirect} (hs : Separate (rs ++ [q]) G0 items)
    (hf : Fits r (G0.flatten ++ items) (rs ++ [q])) :
    ∃ c', Creator.addFullUrlRedirect S q.1 q.2.1 q.2.2 c = (.ok (), c') := by
  obtain ⟨G, P1, P2, ⟨rows, cs, extra, es, L, m0, R, B, hc, hB⟩, -, -, -, -, hperm, -⟩ := h
  obtain ⟨d, hdd⟩ : ∃ d, S.depth = d + 2 := ⟨S.depth - 2, by omega⟩
  have hv : q.Valid := hs.valid q (by simp)
  have hBl : R.length + B.length = rs.length := by rw [← hB.length_eq, List.length_append]
  have hsub : List.Subperm (G0 ++ G).flatten (G0.flatten ++ items) := by
    rw [List.flatten_append]
    exact ((List.Sublist.refl _).append (List.sublist_append_right _ _)).subperm.trans (hperm.append_left _).subperm
  have hG : ∀ p ∈ G.flatten, p ∈ items := fun p hp => hperm.subset (List.mem_append_right _ hp)
  suffices ∃ Z', Zim.addFullUrlRedirect S.depth q.1 q.2.1 q.2.2 c.arch.zim = (.ok (), Z') by
    obtain ⟨Z', e⟩ := this
    exact ⟨{ c with arch := { c.arch with zim := Z' } }, by
      simp only [Creator.addFullUrlRedirect, Creator.onArch, Archive.onZim, PyM.of_apply, e]⟩
  by_cases ht : Zim.Has c.arch.zim q.2.1
  · have hm0 : m0 q.1 = none := by
      cases hm : m0 q.1 with
      | none => rfl
      | some v =>
        obtain ⟨r', hr', e⟩ := hc.only _ _ hm
        have := hs.nodup
        rw [List.map_append, List.nodup_append] at this
        exact absurd e (this.2.2 _ (List.mem_map_of_mem (hB.subset (List.mem_append_left _ hr'))) _ (by simp))
    obtain ⟨k1, k2⟩ := hf.redirects.resolve_left (by simp)
    have hrl := hc.rows_length
    have hll := hsub.length_le
    rw [show (rs ++ [q]).length = rs.length + 1 by simp] at k1
    obtain ⟨z', S', e, -⟩ := (hc.roomy (hf.left.once hc hsub hB) (by omega) k2).addRedirect hv (by
      rw [hc.laid.content.rep.len]; omega) (fun hh => by
        obtain ⟨s, hs', hsu⟩ := (hc.laid.content.rep.has_iff _).1 hh
        have := (hc.lists _ _).2 ⟨s, hs', hsu, rfl⟩
        rw [catalogue_other m0 (hc.apart hs hG (by simp)), hm0] at this
        cases this) ht d
    rw [hdd]
    exact ⟨z', e⟩
  · rw [hc.laid.content.rep.has_iff] at ht
    exact ⟨_, hc.laid.content.rep.addRedirect_missing hv ht _⟩

end Pyzim
