import Verif.Lemmas.CreatorUnredirect
import Verif.Lemmas.CreatorRename

/-!
# Archives from which entries are removed: what they have
-/

namespace Pyzim
open Zim (Row Stored Clustered Works Lists Art MimesIn Mirrored catalogue marked Redirect Leads Once catalogue_snoc
  catalogue_other)

section
variable {D K : Type} {X : Codecs D} {C : Compressors K} {a : Archive} {reserve : Option Nat} {rows : List Row} {cs : List Stored}
  {extra : Nat → Prop} {es : List Entry} {m0 : Catalogue} {R B rs : List Redirect} {L : Bytes} {G : List (List Sourced)}
  {ML : List Bytes} {S : Setup D K} {c c' : Creator D} {md5 : Bytes → Bytes} {r : Nat} {recent : List Sourced}
  {done : List (List Sourced)} {Gb : List (List (List Sourced))} {u : String} {mts : List String}

theorem Core.onceOf (h : Core true mp X C ML reserve a (Gb.flatten ++ G) rows cs extra es L m0 R B) (hG : ∀ p ∈ G.flatten, p ∈ recent)
    {Q : List Sourced} (hQ : (Q ++ G.flatten).Perm recent) (hne : ∀ p ∈ recent, p.1.fullUrl ≠ "")
    (h1 : List.Forall₂ (fun G l => (present true G).Perm l) Gb done) (hs : Separate rs Gb.flatten recent)
    (hRs : ∀ x ∈ R, x ∈ rs)
    (ho : ∀ l ∈ done ++ [recent], ∀ p ∈ l, p.1.fullUrl ≠ URL_ARTICLES) {x : Redirect} (hx : x ∈ rs)
    (hc : ((done ++ [recent]).flatten.map fun p => p.1.fullUrl).count x.2.1 ≤ 1) : Once m0 es x.1 x.2.1 := by
  refine ⟨h.apart hs hG hx, ?_, fun hm => ?_⟩
  · have hp1 : present true (Gb.flatten ++ G) = present true Gb.flatten ++ G.flatten := by
      rw [present_append, present_all (gh := true) (G := G) fun p hp => hne p (hG p hp)]
    have hcount : ((present true (Gb.flatten ++ G)).map urlOf).count x.2.1 ≤ ((done ++ [recent]).flatten.map fun p => p.1.fullUrl).count x.2.1 := by
      rw [hp1, List.flatten_append, List.map_append, List.map_append, List.count_append, List.count_append,
        ((present_flatten h1).map urlOf).count_eq]
      have e1 := (hQ.map urlOf).count_eq x.2.1
      rw [List.map_append, List.count_append] at e1
      have e2 : ([recent] : List (List Sourced)).flatten = recent := by simp
      rw [e2]
      show (done.flatten.map urlOf).count x.2.1 + _ ≤ (done.flatten.map urlOf).count x.2.1 + (recent.map urlOf).count x.2.1
      omega
    rw [h.entryUrls, List.count_cons]
    by_cases he : x.2.1 = URL_ARTICLES
    · rw [List.count_eq_zero_of_not_mem]
      · split <;> omega
      · intro hm
        obtain ⟨p, hp, hpu⟩ := List.mem_map.1 hm
        rw [hp1] at hp
        rcases List.mem_append.1 hp with hp | hp
        · obtain ⟨l, hl1, hl2⟩ := List.mem_flatten.1 ((present_flatten h1).subset hp)
          exact ho l (List.mem_append_left _ hl1) p hl2 (hpu.trans he)
        · exact ho recent (by simp) p (hG p hp) (hpu.trans he)
    · rw [if_neg (by simpa using Ne.symm he)]
      omega
  · cases hm2 : m0 x.2.1 with
    | none => exact absurd hm2 hm
    | some v =>
      obtain ⟨y, hy, hyu⟩ := h.only _ _ hm2
      rw [← hyu]
      exact h.apart hs hG (hRs y hy)

/-- which urls are marked as those of articles -/
theorem Core.markedOf (h : Core gh mp X C ML reserve a G rows cs extra es L m0 R B) (u : String) :
    marked (fun _ => False) es u ↔ ∃ p ∈ lastOnes urlOf (present gh G), p.1.fullUrl = u ∧ p.1.isArticle = true := by
  obtain ⟨le, es', hle, hlE, hF, hT⟩ := last_of h.entries h.other
  refine (marked_iff (fun e he => ?_) u).trans ?_
  · obtain ⟨s, -, hs⟩ := forall₂_mem_right h.entries he
    rw [hs.forced]; simp
  rw [hle, ← hT]
  constructor
  · rintro ⟨e, he, h1, h2⟩
    rcases List.mem_cons.1 he with rfl | he
    · rw [hlE.forced] at h2; cases h2
    · obtain ⟨t, ht, hE⟩ := forall₂_mem_right hF he
      rw [hE.forced] at h2
      exact ⟨t.1, List.mem_map_of_mem ht, hE.fullUrl.symm.trans h1, by injection h2⟩
  · rintro ⟨p, hp, h1, h2⟩
    obtain ⟨t, ht, rfl⟩ := List.mem_map.1 hp
    obtain ⟨e, he, hE⟩ := forall₂_mem_left hF ht
    exact ⟨e, List.mem_cons_of_mem _ he, hE.fullUrl.trans h1, by rw [hE.forced, h2]⟩

theorem removedGroups_append {mode : BlobMode} {G0 : List (List Sourced)} (h : ∀ p ∈ G.flatten, p.1.fullUrl ≠ u) :
    removedGroups mode u (G0 ++ G) = removedGroups mode u G0 ++ G := by
  have hG : G.any (fun l => l.any (urlIs u)) = false := any_urlIs h
  unfold removedGroups
  have hg : ghostGroups u G = G := ghostGroups_other h
  have e : ∀ A, ghostGroups u (A ++ G) = ghostGroups u A ++ G := by
    intro A
    conv_rhs => rw [← hg]
    unfold ghostGroups
    exact List.map_append
  split
  · unfold setGroups
    rw [replaceLast_append, if_neg (by rw [hG]; simp), e]
  · exact e _

theorem filter_withContent (u : String) (src : BlobSource) (content : Bytes) (l : List Sourced) :
    (l.map (withContent u src content)).filter (fun p => p.1.fullUrl ≠ u) = l.filter fun p => p.1.fullUrl ≠ u := by
  induction l with
  | nil => rfl
  | cons p l ih =>
    rw [List.map_cons, List.filter_cons, List.filter_cons, ih, withContent_url]
    by_cases h : p.1.fullUrl = u
    · simp [h]
    · unfold withContent
      simp [h]

theorem dropUrl_setContentIn (u : String) (src : BlobSource) (content : Bytes) (ls : List (List Sourced)) :
    dropUrl u (setContentIn u src content ls) = dropUrl u ls := by
  unfold setContentIn
  cases hany : ls.any fun l => l.any fun p => decide (p.1.fullUrl = u) with
  | false => rw [replaceLast_none hany]
  | true =>
    obtain ⟨l1, x, l2, e1, -, -, e4⟩ := replaceLast_at (f := fun l => l.map (withContent u src content)) hany
    rw [e4, e1]
    unfold dropUrl
    rw [List.map_append, List.map_append, List.map_cons, List.map_cons, filter_withContent]

theorem ghost_groups {ls : List (List Sourced)} (h : List.Forall₂ (fun G l => (present true G).Perm l) Gb ls) :
    List.Forall₂ (fun G l => (present true G).Perm l) (Gb.map (ghostGroups u)) (dropUrl u ls) := by
  unfold dropUrl
  induction h with
  | nil => exact .nil
  | cons h _ ih =>
    refine .cons ?_ ih
    rw [present_ghost]
    exact h.filter _

theorem removed_groups {mode : BlobMode} (hu : u ≠ "") (h : List.Forall₂ (fun G l => (present true G).Perm l) Gb done)
    (hn : ∀ l ∈ done, (l.map fun p => p.1.fullUrl).Nodup) :
    ∃ Gb', List.Forall₂ (fun G l => (present true G).Perm l) Gb' (dropUrl u done) ∧ Gb'.flatten = removedGroups mode u Gb.flatten := by
  have e : ∀ Gc : List (List (List Sourced)), (Gc.map (ghostGroups u)).flatten = ghostGroups u Gc.flatten := fun Gc => by
    unfold ghostGroups
    rw [List.map_flatten]
  unfold removedGroups
  split
  · obtain ⟨Gb1, k1, k2⟩ := setContentIn_groups (gh := true) u hu BlobSourceObj.empty.toSource [] h hn
    refine ⟨Gb1.map (ghostGroups u), ?_, by rw [e, k2]⟩
    have := ghost_groups (u := u) k1
    rwa [dropUrl_setContentIn] at this
  · exact ⟨Gb.map (ghostGroups u), ghost_groups h, e _⟩

theorem Creator.remove_ok {mode : BlobMode} (hok : Creator.remove S mode u c = (.ok (), c')) :
    ∃ z', Zim.removeEntry (Zim.treatBlob S.X S.C S.kind S.calls .empty) S.depth (Zim.treatBlob S.X S.C S.kind S.calls mode) u
      c.arch.zim = (.ok (), z') ∧ c' = { c with arch := { c.arch with zim := z' } } := by
  unfold Creator.remove Creator.onArch Archive.onZim at hok
  simp only [PyM.of_apply] at hok
  generalize hx : Zim.removeEntry (Zim.treatBlob S.X S.C S.kind S.calls .empty) S.depth (Zim.treatBlob S.X S.C S.kind S.calls mode) u
      c.arch.zim = x at hok
  obtain ⟨r, z'⟩ := x
  injection hok with h1 h2
  simp only at h1 h2
  exact ⟨z', by rw [h1], h2.symm⟩

/-- removing an item that was flushed -/
theorem Has.remove (h : Has true none S ML reserve Gb.flatten recent rs c)
    (h1 : List.Forall₂ (fun G l => (present true G).Perm l) Gb done) (hs : Separate rs Gb.flatten recent)
    (hne : ∀ p ∈ recent, p.1.fullUrl ≠ "") (hn : ∀ l ∈ done ++ [recent], (l.map fun p => p.1.fullUrl).Nodup)
    (ho : ∀ l ∈ done ++ [recent], ∀ p ∈ l, p.1.fullUrl ≠ URL_ARTICLES) (hrm : Removable u done recent rs) {mode : BlobMode}
    (hmode : mode ≠ .remove) (hrep : mode = .empty → Replaceable S.X S.C) (hok : Creator.remove S mode u c = (.ok (), c')) :
    (∃ p ∈ current done, p.1.fullUrl = u) ∧
    ∃ Gb', List.Forall₂ (fun G l => (present true G).Perm l) Gb' (dropUrl u done) ∧
      Has true none S ML reserve Gb'.flatten recent rs c' := by
  obtain ⟨G, P1, P2, ⟨rows, cs, extra, es, L, m0, R, B, hc, hB⟩, w1, w2, w3, w4, hperm, hcl⟩ := h
  obtain ⟨Z', hz, rfl⟩ := Creator.remove_ok hok
  have hGr : ∀ p ∈ G.flatten, p ∈ recent := fun p hp => hperm.subset (List.mem_append_right _ hp)
  have hGu : ∀ p ∈ G.flatten, p.1.fullUrl ≠ u := fun p hp => hrm.flushed p (hGr p hp)
  have hRs : ∀ x ∈ R, x ∈ rs := fun x hx => hB.subset (List.mem_append_left _ hx)
  have hm : m0 u = none := by
    cases hm : m0 u with
    | none => rfl
    | some v =>
      obtain ⟨x, hx, hxu⟩ := hc.only _ _ hm
      exact absurd hxu (hrm.redirects x (hRs x hx)).1
  have hcur := current_present (gh := true) h1 fun l hl => hn l (List.mem_append_left _ hl)
  have hGp : present true G = G.flatten := present_all fun p hp => hne p (hGr p hp)
  have hGn : (G.flatten.map urlOf).Nodup := by
    have := ((hperm.map urlOf).nodup_iff).2 (hn recent (by simp))
    exact this.sublist ((List.sublist_append_right _ _).map _)
  have hlast : lastOnes urlOf (present true (Gb.flatten ++ G)) =
      (lastOnes urlOf (present true Gb.flatten)).filter (fun y => G.flatten.all fun x => urlOf x ≠ urlOf y) ++ G.flatten := by
    rw [present_append, hGp, lastOnes_append urlOf _ hGn]
  have hart0 : marked (fun _ => False) es u ∨ ∀ w, marked (fun _ => False) es w → encode w ≤ encode u := by
    rcases hrm.articles with ⟨p, hp, hpu, hpa⟩ | hall
    · refine .inl ((hc.markedOf u).2 ⟨p, ?_, hpu, hpa⟩)
      rw [present_append, hGp]
      exact lastOnes_left (hcur.mem_iff.2 hp) fun q hq => by
        show q.1.fullUrl ≠ p.1.fullUrl
        rw [hpu]; exact hGu q hq
    · refine .inr fun w hw => ?_
      obtain ⟨p, hp, rfl, hpa⟩ := (hc.markedOf w).1 hw
      refine hall p ?_ hpa
      rw [hlast] at hp
      rcases List.mem_append.1 hp with hp | hp
      · exact List.mem_append_left _ (hcur.mem_iff.1 (List.mem_filter.1 hp).1)
      · exact List.mem_append_right _ (hGr p hp)
  obtain ⟨k1, rows', cs', k2, k3, k4⟩ := hc.remove hrm.other hm (fun x hx => ⟨(hrm.redirects x (hRs x hx)).2,
    hc.onceOf hGr hperm hne h1 hs hRs ho (hRs x hx) (hrm.targets x (hRs x hx))⟩) hart0 hmode hrep hz
  rw [hc.entryUrls] at k1
  obtain ⟨p, hp, hpu⟩ : ∃ p ∈ present true (Gb.flatten ++ G), p.1.fullUrl = u := by
    rcases List.mem_cons.1 k1 with k1 | k1
    · exact absurd k1 hrm.other
    · obtain ⟨p, hp, hpu⟩ := List.mem_map.1 k1
      exact ⟨p, hp, hpu⟩
  have hu0 : u ≠ "" := by
    rw [← hpu]
    exact of_decide_eq_true (List.mem_filter.1 hp).2
  obtain ⟨Gb', j1, j2⟩ := removed_groups (mode := mode) hu0 h1 fun l hl => hn l (List.mem_append_left _ hl)
  rw [removedGroups_append hGu, ← j2] at k2
  refine ⟨?_, Gb', j1, G, P1, P2, ⟨rows', cs', extra, _, L, m0, R, B, k2, hB⟩, ?_, ?_, w3, w4, hperm, ?_⟩
  · rw [present_append, hGp] at hp
    rcases List.mem_append.1 hp with hp | hp
    · obtain ⟨q, hq, hqu⟩ := lastOnes_key (key := urlOf) hp
      exact ⟨q, hcur.mem_iff.1 hq, hqu.trans hpu⟩
    · exact absurd hpu (hGu p hp)
  · simp only [k3]; exact w1
  · simp only [k3]; exact w2
  · intro hd
    exfalso
    unfold Archive.isDirty at hd
    simp [k4] at hd

theorem dropRedirect_perm (h : (R ++ B).Perm rs) (hn : (rs.map Prod.fst).Nodup) (hu : ∃ x ∈ R, x.1 = u) :
    ((R.filter fun r => r.1 ≠ u) ++ B).Perm (dropRedirect u rs) := by
  have hB : B.filter (fun r => r.1 ≠ u) = B := by
    refine List.filter_eq_self.2 fun b hb => decide_eq_true fun e => ?_
    obtain ⟨x, hx, hxu⟩ := hu
    have := ((h.map Prod.fst).nodup_iff).2 hn
    rw [List.map_append, List.nodup_append] at this
    exact this.2.2 _ (List.mem_map_of_mem hx) _ (List.mem_map_of_mem hb) (hxu.trans e.symm)
  have := h.filter fun r => decide (r.1 ≠ u)
  rw [List.filter_append, hB] at this
  exact this

/-- removing a redirect -/
theorem Has.unlink (h : Has true none S ML reserve Gb.flatten recent rs c)
    (h1 : List.Forall₂ (fun G l => (present true G).Perm l) Gb done) (hs : Separate rs Gb.flatten recent)
    (hne : ∀ p ∈ recent, p.1.fullUrl ≠ "") (hn : ∀ l ∈ done ++ [recent], (l.map fun p => p.1.fullUrl).Nodup)
    (ho : ∀ l ∈ done ++ [recent], ∀ p ∈ l, p.1.fullUrl ≠ URL_ARTICLES) (hrm : Unlinked u done recent rs) {mode : BlobMode}
    (hok : Creator.remove S mode u c = (.ok (), c')) :
    Has true none S ML reserve Gb.flatten recent (dropRedirect u rs) c' := by
  obtain ⟨G, P1, P2, ⟨rows, cs, extra, es, L, m0, R, B, hc, hB⟩, w1, w2, w3, w4, hperm, hcl⟩ := h
  obtain ⟨Z', hz, rfl⟩ := Creator.remove_ok hok
  have hGr : ∀ p ∈ G.flatten, p ∈ recent := fun p hp => hperm.subset (List.mem_append_right _ hp)
  have hRs : ∀ x ∈ R, x ∈ rs := fun x hx => hB.subset (List.mem_append_left _ hx)
  have hcur := current_present (gh := true) h1 fun l hl => hn l (List.mem_append_left _ hl)
  have hGp : present true G = G.flatten := present_all fun p hp => hne p (hGr p hp)
  have hGn : (G.flatten.map urlOf).Nodup := by
    have := ((hperm.map urlOf).nodup_iff).2 (hn recent (by simp))
    exact this.sublist ((List.sublist_append_right _ _).map _)
  have hart0 : ∀ w, marked (fun _ => False) es w → encode w ≤ encode u := by
    intro w hw
    obtain ⟨p, hp, rfl, hpa⟩ := (hc.markedOf w).1 hw
    refine hrm.articles p ?_ hpa
    rw [present_append, hGp, lastOnes_append urlOf _ hGn] at hp
    rcases List.mem_append.1 hp with hp | hp
    · exact List.mem_append_left _ (hcur.mem_iff.1 (List.mem_filter.1 hp).1)
    · exact List.mem_append_right _ (hGr p hp)
  have hw : u ∉ es.map Entry.fullUrl := by
    obtain ⟨x, hx, rfl⟩ := hrm.redirect
    exact hc.apart hs hGr hx
  obtain ⟨k1, rows', k2, k3, k4⟩ := hc.unredirected hw (fun s => hc.unused (fun x hx => ⟨hrm.unused x (hRs x hx),
    hc.onceOf hGr hperm hne h1 hs hRs ho (hRs x hx) (hrm.targets x (hRs x hx))⟩) s) (fun x hx => hrm.unused x (hRs x hx)) hart0 hz
  refine ⟨G, P1, P2, ⟨rows', cs, extra, es, L, _, _, B, k2, dropRedirect_perm hB hs.nodup k1⟩, ?_, ?_, w3, w4, hperm, ?_⟩
  · simp only [k3]; exact w1
  · simp only [k3]; exact w2
  · intro hd
    exfalso
    unfold Archive.isDirty at hd
    simp [k4] at hd

theorem Redirect.Valid.source_ne {x : Redirect} (h : Zim.Redirect.Valid x) : x.1 ≠ "" := by
  obtain ⟨c, url, e, -⟩ := h.source
  intro h0
  rw [e] at h0
  have := congrArg String.length h0
  simp at this

theorem Apart.separated (h : Apart rs (done ++ [recent])) (hv : ∀ r ∈ rs, Redirect.Valid r)
    (hG : List.Forall₂ (fun G l => (present true G).Perm l) Gb done) : Separate rs Gb.flatten recent := by
  refine ⟨hv, h.nodup, h.articles, fun r hr p hp e => ?_, fun r hr p hp => h.items r hr recent (by simp) p hp⟩
  have hp : p ∈ present true Gb.flatten :=
    List.mem_filter.2 ⟨hp, decide_eq_true (by rw [show p.1.ns ++ p.1.url = r.1 from e]; exact Redirect.Valid.source_ne (hv r hr))⟩
  obtain ⟨l, hl, hpl⟩ := List.mem_flatten.1 ((present_flatten hG).subset hp)
  exact h.items r hr l (List.mem_append_left _ hl) p hpl e

/-- what is kept of `Sound` -/
theorem Sound.sub {rs' : List Redirect} {l l' : List (List Sourced)} (h : Sound mts rs l) (h1 : rs'.Sublist rs)
    (h2 : ∀ x ∈ l', ∃ y ∈ l, x.Sublist y) : Sound mts rs' l' := by
  refine ⟨h.apart.sub h1 fun x hx p hp => ?_, fun x hx => ?_, fun x hx p hp => ?_, fun x hx p hp => ?_, fun x hx => ?_⟩ <;>
    obtain ⟨y, hy, hs⟩ := h2 x hx
  · exact ⟨y, hy, hs.subset hp⟩
  · exact (h.urls y hy).sublist (hs.map _)
  · exact h.mimetypes y hy p (hs.subset hp)
  · exact h.other y hy p (hs.subset hp)
  · exact (h.size y hy).sublist hs

theorem Sound.set {src : BlobSource} {content : Bytes} (h : Sound mts rs (done ++ [recent]))
    (hh : ∀ l ∈ setContentIn u src content done, NotHuge l) : Sound mts rs (setContentIn u src content done ++ [recent]) := by
  have hold : ∀ l ∈ setContentIn u src content done, ∃ l' ∈ done, l.map urlOf = l'.map urlOf ∧
      ∀ p ∈ l, ∃ q ∈ l', q.1.fullUrl = p.1.fullUrl ∧ q.1.mimetype = p.1.mimetype := by
    intro l hl
    rcases setContentIn_new hl with hl | ⟨l', hl', rfl⟩
    · exact ⟨l, hl, rfl, fun p hp => ⟨p, hp, rfl, rfl⟩⟩
    · refine ⟨l', hl', ?_, fun p hp => ?_⟩
      · rw [List.map_map]
        congr 1
        funext p
        exact withContent_url u src content p
      · obtain ⟨q, hq, rfl⟩ := List.mem_map.1 hp
        exact ⟨q, hq, (withContent_url u src content q).symm, (withContent_mimetype u src content q).symm⟩
  have hcase : ∀ l ∈ setContentIn u src content done ++ [recent], ∃ l' ∈ done ++ [recent], l.map urlOf = l'.map urlOf ∧
      ∀ p ∈ l, ∃ q ∈ l', q.1.fullUrl = p.1.fullUrl ∧ q.1.mimetype = p.1.mimetype := by
    intro l hl
    rcases List.mem_append.1 hl with hl | hl
    · obtain ⟨l', h1, h2⟩ := hold l hl
      exact ⟨l', List.mem_append_left _ h1, h2⟩
    · exact ⟨l, List.mem_append_right _ hl, rfl, fun p hp => ⟨p, hp, rfl, rfl⟩⟩
  refine ⟨⟨h.apart.nodup, h.apart.articles, fun x hx l hl p hp => ?_⟩, fun l hl => ?_, fun l hl p hp => ?_, fun l hl p hp => ?_,
    fun l hl => ?_⟩
  · obtain ⟨l', h1, -, h3⟩ := hcase l hl
    obtain ⟨q, hq, e, -⟩ := h3 p hp
    rw [← e]
    exact h.apart.items x hx l' h1 q hq
  · obtain ⟨l', h1, h2, -⟩ := hcase l hl
    show (l.map urlOf).Nodup
    rw [h2]
    exact h.urls l' h1
  · obtain ⟨l', h1, -, h3⟩ := hcase l hl
    obtain ⟨q, hq, -, e⟩ := h3 p hp
    rw [← e]
    exact h.mimetypes l' h1 q hq
  · obtain ⟨l', h1, -, h3⟩ := hcase l hl
    obtain ⟨q, hq, e, -⟩ := h3 p hp
    rw [← e]
    exact h.other l' h1 q hq
  · rcases List.mem_append.1 hl with hl | hl
    · exact hh l hl
    · exact h.size l (List.mem_append_right _ hl)

theorem Sound.amend {g : Item → Item} (hk : SameUrl g) (hg : ∀ it, it.mimetype ∈ mts → (g it).mimetype ∈ mts)
    (h : Sound mts rs (done ++ [recent])) : Sound mts rs (amendIn u g done ++ [recent]) := by
  have hcase : ∀ l ∈ amendIn u g done ++ [recent], ∃ l' ∈ done ++ [recent], l.map urlOf = l'.map urlOf ∧
      l.map Prod.snd = l'.map Prod.snd ∧
      ∀ p ∈ l, ∃ q ∈ l', q.1.fullUrl = p.1.fullUrl ∧ (q.1.mimetype ∈ mts → p.1.mimetype ∈ mts) := by
    intro l hl
    rcases List.mem_append.1 hl with hl | hl
    · rcases amendIn_new hl with hl | ⟨l', hl', rfl⟩
      · exact ⟨l, List.mem_append_left _ hl, rfl, rfl, fun p hp => ⟨p, hp, rfl, id⟩⟩
      · refine ⟨l', List.mem_append_left _ hl', ?_, ?_, fun p hp => ?_⟩
        · rw [List.map_map]
          congr 1
          funext p
          exact amended_url hk u p
        · rw [List.map_map]
          congr 1
          funext p
          exact amended_content u g p
        · obtain ⟨q, hq, rfl⟩ := List.mem_map.1 hp
          refine ⟨q, hq, (amended_url hk u q).symm, fun hm => ?_⟩
          unfold amended
          split
          · exact hg _ hm
          · exact hm
    · exact ⟨l, List.mem_append_right _ hl, rfl, rfl, fun p hp => ⟨p, hp, rfl, id⟩⟩
  refine ⟨⟨h.apart.nodup, h.apart.articles, fun x hx l hl p hp => ?_⟩, fun l hl => ?_, fun l hl p hp => ?_, fun l hl p hp => ?_,
    fun l hl => ?_⟩
  · obtain ⟨l', h1, -, -, h3⟩ := hcase l hl
    obtain ⟨q, hq, e, -⟩ := h3 p hp
    rw [← e]
    exact h.apart.items x hx l' h1 q hq
  · obtain ⟨l', h1, h2, -⟩ := hcase l hl
    show (l.map urlOf).Nodup
    rw [h2]
    exact h.urls l' h1
  · obtain ⟨l', h1, -, -, h3⟩ := hcase l hl
    obtain ⟨q, hq, -, e⟩ := h3 p hp
    exact e (h.mimetypes l' h1 q hq)
  · obtain ⟨l', h1, -, -, h3⟩ := hcase l hl
    obtain ⟨q, hq, e, -⟩ := h3 p hp
    rw [← e]
    exact h.other l' h1 q hq
  · obtain ⟨l', h1, -, h2, -⟩ := hcase l hl
    have := h.size l' h1
    unfold NotHuge at this ⊢
    have e1 : l.length = l'.length := by simpa using congrArg List.length h2
    have e2 : (l.map fun p => p.2.length) = l'.map fun p => p.2.length := by
      have := congrArg (List.map List.length) h2
      rwa [List.map_map, List.map_map] at this
    rw [e1, e2]
    exact this

theorem amended_renamed {u w n : String} {p : Sourced} (h : p.1.fullUrl = u → p.1.ns ++ n = w) :
    (amended u (Item.renamed n) p).1.fullUrl = if p.1.fullUrl = u then w else p.1.fullUrl := by
  unfold amended
  split
  · exact h ‹_›
  · rfl

theorem Sound.rename {w n : String} (h : Sound mts rs (done ++ [recent])) (hrn : Renamable u w n done recent rs) :
    Sound mts rs (amendIn u (Item.renamed n) done ++ [recent]) := by
  have hcase : ∀ l ∈ amendIn u (Item.renamed n) done ++ [recent], l ∈ done ++ [recent] ∨
      ∃ l' ∈ done, l = l'.map (amended u (Item.renamed n)) := by
    intro l hl
    rcases List.mem_append.1 hl with hl | hl
    · rcases amendIn_new hl with hl | hl
      · exact .inl (List.mem_append_left _ hl)
      · exact .inr hl
    · exact .inl (List.mem_append_right _ hl)
  have hurl : ∀ l ∈ done, ∀ p ∈ l, (amended u (Item.renamed n) p).1.fullUrl = if p.1.fullUrl = u then w else p.1.fullUrl :=
    fun l hl p hp => amended_renamed (hrn.named.2 l hl p hp)
  refine ⟨⟨h.apart.nodup, h.apart.articles, fun x hx l hl p hp => ?_⟩, fun l hl => ?_, fun l hl p hp => ?_, fun l hl p hp => ?_,
    fun l hl => ?_⟩
  · rcases hcase l hl with hl | ⟨l', hl', rfl⟩
    · exact h.apart.items x hx l hl p hp
    · obtain ⟨q, hq, rfl⟩ := List.mem_map.1 hp
      rw [hurl l' hl' q hq]
      split
      · exact fun e => (hrn.redirects x hx).1.2 e.symm
      · exact h.apart.items x hx l' (List.mem_append_left _ hl') q hq
  · rcases hcase l hl with hl | ⟨l', hl', rfl⟩
    · exact h.urls l hl
    · rw [List.map_map]
      have hn := h.urls l' (List.mem_append_left _ hl')
      have e : l'.map ((fun p : Sourced => p.1.fullUrl) ∘ amended u (Item.renamed n)) =
          (l'.map fun p : Sourced => p.1.fullUrl).map fun v => if v = u then w else v := by
        rw [List.map_map]
        exact List.map_congr_left fun p hp => hurl l' hl' p hp
      rw [e]
      have hwl : w ∉ l'.map fun p : Sourced => p.1.fullUrl := by
        intro hm
        obtain ⟨q, hq, hqw⟩ := List.mem_map.1 hm
        exact hrn.unused l' hl' q hq hqw
      refine List.Nodup.map_on (fun x hx y hy hxy => ?_) hn
      by_cases h1 : x = u <;> by_cases h2 : y = u
      · rw [h1, h2]
      · rw [if_pos h1, if_neg h2] at hxy
        exact absurd (by rw [hxy]; exact hy) hwl
      · rw [if_neg h1, if_pos h2] at hxy
        exact absurd (by rw [← hxy]; exact hx) hwl
      · rwa [if_neg h1, if_neg h2] at hxy
  · rcases hcase l hl with hl | ⟨l', hl', rfl⟩
    · exact h.mimetypes l hl p hp
    · obtain ⟨q, hq, rfl⟩ := List.mem_map.1 hp
      have := h.mimetypes l' (List.mem_append_left _ hl') q hq
      unfold amended
      split <;> exact this
  · rcases hcase l hl with hl | ⟨l', hl', rfl⟩
    · exact h.other l hl p hp
    · obtain ⟨q, hq, rfl⟩ := List.mem_map.1 hp
      rw [hurl l' hl' q hq]
      split
      · exact hrn.other.2
      · exact h.other l' (List.mem_append_left _ hl') q hq
  · rcases hcase l hl with hl | ⟨l', hl', rfl⟩
    · exact h.size l hl
    · have := h.size l' (List.mem_append_left _ hl')
      unfold NotHuge at this ⊢
      have e2 : ((l'.map (amended u (Item.renamed n))).map fun p => p.2.length) = l'.map fun p => p.2.length := by
        rw [List.map_map]
        refine List.map_congr_left fun p _ => ?_
        show (amended u (Item.renamed n) p).2.length = _
        rw [amended_content]
      rw [List.length_map, e2]
      exact this

theorem mem_current {ls : List (List Sourced)} {p : Sourced} (h : p ∈ current ls) : ∃ l ∈ ls, p ∈ l := by
  induction ls using snoc_induction with
  | h0 => cases h
  | h1 ls l ih =>
    rw [current_snoc] at h
    rcases List.mem_append.1 h with h | h
    · obtain ⟨l', h1, h2⟩ := ih (List.mem_filter.1 h).1
      exact ⟨l', List.mem_append_left _ h1, h2⟩
    · exact ⟨l, by simp, h⟩

/-- the items after one got another url -/
theorem current_renamed {w n : String} {ls : List (List Sourced)} (hname : ∀ l ∈ ls, ∀ p ∈ l, p.1.fullUrl = u → p.1.ns ++ n = w)
    (hw : ∀ l ∈ ls, ∀ p ∈ l, p.1.fullUrl ≠ w) (hone : (ls.flatten.map fun p => p.1.fullUrl).count u ≤ 1) :
    current (amendIn u (Item.renamed n) ls) = (current ls).map (amended u (Item.renamed n)) := by
  induction ls using snoc_induction with
  | h0 => rfl
  | h1 ls l ih =>
    have hone' : ((ls.flatten.map fun p => p.1.fullUrl).count u) + ((l.map fun p => p.1.fullUrl).count u) ≤ 1 := by
      simpa [List.flatten_append] using hone
    have ih := ih (fun x hx => hname x (List.mem_append_left _ hx)) (fun x hx => hw x (List.mem_append_left _ hx)) (by omega)
    have hcur : ∀ p ∈ current ls, ∃ x ∈ ls, p ∈ x := fun p hp => mem_current hp
    unfold amendIn at ih ⊢
    rw [replaceLast_append]
    cases hany : l.any fun p => decide (p.1.fullUrl = u) with
    | true =>
      rw [if_pos (by simpa using hany)]
      have e : replaceLast (fun l : List Sourced => l.any fun p => decide (p.1.fullUrl = u)) (fun l => l.map (amended u (Item.renamed n))) [l] =
          [l.map (amended u (Item.renamed n))] := by
        unfold replaceLast
        rw [if_neg (by simp), if_pos hany]
      rw [e, current_snoc, current_snoc, List.map_append]
      congr 1
      have hul : u ∈ l.map fun p : Sourced => p.1.fullUrl := by
        obtain ⟨q, hq, hqu⟩ := List.any_eq_true.1 hany
        exact List.mem_map.2 ⟨q, hq, of_decide_eq_true hqu⟩
      have hpos := List.count_pos_iff.2 hul
      have hu0 : u ∉ ls.flatten.map fun p : Sourced => p.1.fullUrl := List.count_eq_zero.1 (by omega)
      have hpu : ∀ p ∈ current ls, p.1.fullUrl ≠ u := by
        intro p hp e
        obtain ⟨x, hx, hpx⟩ := hcur p hp
        exact hu0 (List.mem_map.2 ⟨p, List.mem_flatten.2 ⟨x, hx, hpx⟩, e⟩)
      have e2 : (current ls).filter (fun p => (l.map (amended u (Item.renamed n))).all fun q => decide (q.1.fullUrl ≠ p.1.fullUrl)) =
          (current ls).filter fun p => l.all fun q => decide (q.1.fullUrl ≠ p.1.fullUrl) := by
        refine List.filter_congr fun p hp => ?_
        obtain ⟨x, hx, hpx⟩ := hcur p hp
        rw [List.all_map, Bool.eq_iff_iff, List.all_eq_true, List.all_eq_true]
        refine forall_congr' fun q => forall_congr' fun hq => ?_
        simp only [Function.comp_apply, decide_eq_true_eq]
        rw [amended_renamed (hname l (by simp) q hq)]
        split
        · rename_i hqu
          exact ⟨fun _ k => hpu p hp (k ▸ hqu), fun _ k => hw x (List.mem_append_left _ hx) p hpx k.symm⟩
        · exact Iff.rfl
      rw [e2]
      conv_lhs => rw [← List.map_id (List.filter _ _)]
      refine List.map_congr_left fun p hp => ?_
      unfold amended
      rw [if_neg (hpu p (List.mem_filter.1 hp).1)]
      rfl
    | false =>
      rw [if_neg (by simpa using hany), current_snoc, current_snoc, ih, List.map_append, List.filter_map]
      have hlu : ∀ q ∈ l, q.1.fullUrl ≠ u := fun q hq e => List.any_eq_false.1 hany q hq (decide_eq_true e)
      have e : l.map (amended u (Item.renamed n)) = l := by
        conv_rhs => rw [← List.map_id l]
        refine List.map_congr_left fun p hp => ?_
        unfold amended
        rw [if_neg (hlu p hp)]
        rfl
      rw [e]
      congr 2
      refine List.filter_congr fun p hp => ?_
      obtain ⟨x, hx, hpx⟩ := hcur p hp
      rw [Bool.eq_iff_iff, Function.comp_apply, List.all_eq_true, List.all_eq_true]
      refine forall_congr' fun q => forall_congr' fun hq => ?_
      simp only [decide_eq_true_eq]
      rw [amended_renamed (hname x (List.mem_append_left _ hx) p hpx)]
      split
      · rename_i hpu
        exact ⟨fun _ k => hlu q hq (k.trans hpu), fun _ => hw l (by simp) q hq⟩
      · exact Iff.rfl

theorem EditHist.sound (h : EditHist S mts c done recent rs) :
    Sound mts rs (done ++ [recent]) ∧ (∀ x ∈ rs, Redirect.Valid x) ∧ ∀ p ∈ recent, p.1.fullUrl ≠ "" := by
  induction h with
  | new =>
    refine ⟨⟨⟨by simp, by simp, by simp⟩, ?_, ?_, ?_, ?_⟩, by simp, by simp⟩ <;> simp [NotHuge]
  | add _ hp hs _ ih =>
    refine ⟨hs, ih.2.1, fun q hq => ?_⟩
    rcases List.mem_append.1 hq with hq | hq
    · exact ih.2.2 q hq
    · rw [List.mem_singleton] at hq
      subst hq
      intro h0
      have h1 := hp.1.url.1
      have := congrArg String.length h0
      unfold Item.fullUrl at this
      simp at this
      exact h1 (by rw [this.2]; rfl)
  | redirect _ hv hA _ _ ih =>
    refine ⟨⟨hA, ih.1.urls, ih.1.mimetypes, ih.1.other, ih.1.size⟩, fun x hx => ?_, ih.2.2⟩
    rcases List.mem_append.1 hx with hx | hx
    · exact ih.2.1 x hx
    · rw [List.mem_singleton] at hx; rw [hx]; exact hv
  | set _ _ _ _ _ hh _ ih => exact ⟨ih.1.set hh, ih.2⟩
  | remove _ _ _ _ _ ih =>
    refine ⟨ih.1.sub (List.Sublist.refl _) fun x hx => ?_, ih.2⟩
    rcases List.mem_append.1 hx with hx | hx
    · obtain ⟨y, hy, rfl⟩ := List.mem_map.1 hx
      exact ⟨y, List.mem_append_left _ hy, List.filter_sublist⟩
    · exact ⟨x, List.mem_append_right _ hx, List.Sublist.refl _⟩
  | unlink _ _ _ ih =>
    exact ⟨ih.1.sub List.filter_sublist fun x hx => ⟨x, hx, List.Sublist.refl _⟩, fun x hx => ih.2.1 x (List.mem_filter.1 hx).1, ih.2.2⟩
  | retype _ _ _ hm _ ih => exact ⟨ih.1.amend (sameUrl_retyped _) fun _ _ => hm, ih.2⟩
  | retitle _ _ _ _ _ ih => exact ⟨ih.1.amend (sameUrl_retitled _) fun _ h => h, ih.2⟩
  | rename _ hrn _ _ ih => exact ⟨ih.1.rename hrn, ih.2⟩
  | flush _ _ ih =>
    refine ⟨ih.1.sub (List.Sublist.refl _) fun x hx => ?_, ih.2.1, by simp⟩
    rcases List.mem_append.1 hx with hx | hx
    · exact ⟨x, hx, List.Sublist.refl _⟩
    · rw [List.mem_singleton] at hx
      subst hx
      exact ⟨_, List.mem_append_right _ (List.mem_singleton.2 rfl), List.nil_sublist _⟩
  | reopen _ _ _ _ _ _ ih => exact ih

/-- articles are in the namespace `C` -/
theorem EditHist.content (h : EditHist S mts c done recent rs) : ∀ l ∈ done ++ [recent], ∀ p ∈ l, p.1.isArticle = true → p.1.ns = "C" := by
  have ham : ∀ {done : List (List Sourced)} {recent : List Sourced} {u : String} {g : Item → Item}, (∀ it, (g it).isArticle = it.isArticle ∧ (g it).ns = it.ns) →
      (∀ l ∈ done ++ [recent], ∀ p ∈ l, p.1.isArticle = true → p.1.ns = "C") →
      ∀ l ∈ amendIn u g done ++ [recent], ∀ p ∈ l, p.1.isArticle = true → p.1.ns = "C" := by
    intro done recent u g hk ih l hl p hp ha
    rcases List.mem_append.1 hl with hl | hl
    · rcases amendIn_new hl with hl | ⟨l', hl', rfl⟩
      · exact ih l (List.mem_append_left _ hl) p hp ha
      · obtain ⟨q, hq, rfl⟩ := List.mem_map.1 hp
        have := ih l' (List.mem_append_left _ hl') q hq
        unfold amended at ha ⊢
        split at ha
        · rw [if_pos ‹_›]
          simp only at ha ⊢
          rw [(hk _).1] at ha
          rw [(hk _).2]
          exact this ha
        · rw [if_neg ‹_›]
          exact this ha
    · exact ih l (List.mem_append_right _ hl) p hp ha
  induction h with
  | new => simp
  | @add c c' done recent rs q _ _ hp _ _ ih =>
    intro l hl p hq ha
    rcases List.mem_append.1 hl with hl | hl
    · exact ih l (List.mem_append_left _ hl) p hq ha
    · rw [List.mem_singleton] at hl
      subst hl
      rcases List.mem_append.1 hq with hq | hq
      · exact ih recent (by simp) p hq ha
      · rw [List.mem_singleton] at hq
        subst hq
        exact hp.2.2 ha
  | redirect _ _ _ _ _ ih => exact ih
  | @set c c' done recent rs u src content _ _ _ _ _ _ _ ih =>
    intro l hl p hp ha
    rcases List.mem_append.1 hl with hl | hl
    · rcases setContentIn_new hl with hl | ⟨l', hl', rfl⟩
      · exact ih l (List.mem_append_left _ hl) p hp ha
      · obtain ⟨q, hq, rfl⟩ := List.mem_map.1 hp
        have := ih l' (List.mem_append_left _ hl') q hq
        unfold withContent at ha ⊢
        split at ha
        · rw [if_pos ‹_›]; exact this ha
        · rw [if_neg ‹_›]; exact this ha
    · exact ih l (List.mem_append_right _ hl) p hp ha
  | remove _ _ _ _ _ ih =>
    intro l hl p hp ha
    rcases List.mem_append.1 hl with hl | hl
    · obtain ⟨y, hy, rfl⟩ := List.mem_map.1 hl
      exact ih y (List.mem_append_left _ hy) p (List.mem_filter.1 hp).1 ha
    · exact ih l (List.mem_append_right _ hl) p hp ha
  | unlink _ _ _ ih => exact ih
  | retype _ _ _ _ _ ih => exact ham (fun _ => ⟨rfl, rfl⟩) ih
  | retitle _ _ _ _ _ ih => exact ham (fun _ => ⟨rfl, rfl⟩) ih
  | rename _ _ _ _ ih => exact ham (fun _ => ⟨rfl, rfl⟩) ih
  | flush _ _ ih =>
    intro l hl p hp ha
    rcases List.mem_append.1 hl with hl | hl
    · exact ih l hl p hp ha
    · rw [List.mem_singleton] at hl
      subst hl
      cases hp
  | reopen _ _ _ _ _ _ ih => exact ih

/-- the archive of a history has its items -/
theorem EditHist.has (hr : 2 ≤ r) (hS : S.Good md5 (some r)) (h : EditHist S mts c done recent rs)
    (hML : ML.length < 65535) (hmt : encode Creator.placeholder.mimetype ∈ ML) (hm : ∀ m ∈ mts, encode m ∈ ML) :
    ∃ Gb, List.Forall₂ (fun G l => (present true G).Perm l) Gb done ∧ Has true none S ML (some r) Gb.flatten recent rs c := by
  induction h with
  | new hu W n1 n2 hok => exact ⟨[], .nil, Has.new hr hS hu W n1 n2 hML hmt hok⟩
  | @add c c' done recent rs p _ hprev hp hs hok ih =>
    obtain ⟨Gb, h1, h2⟩ := ih
    obtain ⟨k1, -, -⟩ := hprev.sound
    exact ⟨Gb, h1, h2.add hS (k1.size recent (by simp)) hML hp.2 ⟨hp.1, hm _ (hs.mimetypes (recent ++ [p]) (by simp) p (by simp)), hp.2.2⟩
      (fun q hq => hs.other (recent ++ [p]) (by simp) q hq) hok⟩
  | @redirect c c' done recent rs x hprev hv hA hok hd ih =>
    obtain ⟨Gb, h1, h2⟩ := ih
    exact ⟨Gb, h1, h2.redirect (hA.separated (hprev.redirect hv hA hok hd).sound.2.1 h1) hok hd⟩
  | @set c c' done recent rs u src content hprev hR hu hrec hd hh hok ih =>
    obtain ⟨Gb, h1, h2⟩ := ih
    obtain ⟨k1, -, -⟩ := hprev.sound
    obtain ⟨hu0, h3⟩ := h2.set hR hd hu hrec hok
    obtain ⟨Gb', j1, j2⟩ := setContentIn_groups (gh := true) u hu0 src content h1 fun l hl => k1.urls l (List.mem_append_left _ hl)
    exact ⟨Gb', j1, by rw [j2]; exact h3⟩
  | @remove c c' done recent rs u mode hprev hrm hmode hrep hok ih =>
    obtain ⟨Gb, h1, h2⟩ := ih
    obtain ⟨k1, k2, k3⟩ := hprev.sound
    obtain ⟨-, Gb', j1, j2⟩ := h2.remove h1 (k1.apart.separated k2 h1) k3 k1.urls k1.other hrm hmode hrep hok
    exact ⟨Gb', j1, j2⟩
  | @unlink c c' done recent rs u mode hprev hrm hok ih =>
    obtain ⟨Gb, h1, h2⟩ := ih
    obtain ⟨k1, k2, k3⟩ := hprev.sound
    exact ⟨Gb, h1, h2.unlink h1 (k1.apart.separated k2 h1) k3 k1.urls k1.other hrm hok⟩
  | @retype c c' done recent rs u v b m hprev ham hb hmm hok ih =>
    obtain ⟨Gb, h1, h2⟩ := ih
    exact h2.retype h1 (fun l hl => hprev.sound.1.urls l (List.mem_append_left _ hl)) (fun l hl => hprev.content l (List.mem_append_left _ hl))
      ham hML hb (hm m hmm) hok
  | @retitle c c' done recent rs u v b t hprev ham hl hb hok ih =>
    obtain ⟨Gb, h1, h2⟩ := ih
    exact h2.retitle h1 (fun l hl => hprev.sound.1.urls l (List.mem_append_left _ hl)) (fun l hl => hprev.content l (List.mem_append_left _ hl))
      ham hl hb hok
  | @rename c c' done recent rs u w v b n hprev hrn hb hok ih =>
    obtain ⟨Gb, h1, h2⟩ := ih
    exact h2.rename h1 (fun l hl => hprev.sound.1.urls l (List.mem_append_left _ hl)) (fun l hl => hprev.content l (List.mem_append_left _ hl))
      hrn hb hok
  | @flush c c' done recent rs hprev hok ih =>
    obtain ⟨Gb, h1, h2⟩ := ih
    obtain ⟨k1, k2, k3⟩ := hprev.sound
    obtain ⟨⟨G, j1, j2⟩, -⟩ := h2.flush hS (k1.size recent (by simp)) (k1.other recent (by simp)) (k1.apart.separated k2 h1) hok
    refine ⟨Gb ++ [G], List.rel_append h1 (.cons ?_ .nil), ?_⟩
    · rw [present_all fun p hp => k3 p (j1.subset hp)]
      exact j1
    · rw [List.flatten_append]
      simpa using j2
  | reopen _ hd W n1 n2 hok ih =>
    obtain ⟨Gb, h1, h2⟩ := ih
    exact ⟨Gb, h1, (h2.reopen hS hd W n1 n2 hok).1⟩

/-- what a reader sees -/
theorem EditHist.shows (hr : 2 ≤ r) (hS : S.Good md5 (some r)) (h : EditHist S mts c done recent rs) (hd : c.arch.isDirty = false)
    (hML : ML.length < 65535) (hmt : encode Creator.placeholder.mimetype ∈ ML) (hm : ∀ m ∈ mts, encode m ∈ ML)
    (kind : ClusterKind) (calls follow : Nat) (titles : Zim → PyRes PointerList) :
    ∃ a, Creator.openArchive { S with kind := kind, calls := calls, follow := follow } titles false c.arch.zim.file = .ok a ∧
      ShowsItems S.X kind calls a.zim (current (done ++ [recent])) rs := by
  obtain ⟨Gb, h1, G, P1, P2, ⟨rows, cs, extra, es, L, m0, R, B, hc, hB⟩, -, -, -, -, hperm, hcl⟩ := h.has hr hS hML hmt hm
  obtain ⟨k1, k2, k3⟩ := h.sound
  obtain ⟨rfl, rfl, hb⟩ := hcl hd
  replace hb := hb rfl
  obtain rfl : B = [] := hc.redirects.symm.trans hb
  rw [List.append_nil] at hB
  have hG : G.flatten.Perm recent := by simpa using hperm
  refine ⟨_, hc.opens (S := { S with kind := kind, calls := calls, follow := follow }) hS.passthrough hd titles false, ?_⟩
  refine hc.shows hd ?_ hB k1.apart.nodup (fun r hr => hc.apart (k1.apart.separated k2 h1) (fun p hp => hG.subset hp) hr) kind calls
  have := current_present (gh := true) (List.rel_append h1 (.cons (show (present true G).Perm recent by
    rw [present_all fun p hp => k3 p (hG.subset hp)]; exact hG) .nil)) fun l hl => k1.urls l hl
  rw [List.flatten_append] at this
  simpa using this

/-- a url without an entry -/
theorem EditHist.missing (hr : 2 ≤ r) (hS : S.Good md5 (some r)) (h : EditHist S mts c done recent rs)
    (hML : ML.length < 65535) (hmt : encode Creator.placeholder.mimetype ∈ ML) (hm : ∀ m ∈ mts, encode m ∈ ML)
    (hu : u ≠ URL_ARTICLES) (hi : ∀ p ∈ current done ++ recent, p.1.fullUrl ≠ u) (hx : ∀ x ∈ rs, x.1 ≠ u) :
    c.arch.zim.entryByFullUrl u = .error .entryNotFound ∧
    ∀ mode, 0 < S.depth → Creator.remove S mode u c = (.error .entryNotFound, c) := by
  obtain ⟨Gb, h1, G, P1, P2, ⟨rows, cs, extra, es, L, m0, R, B, hc, hB⟩, -, -, -, -, hperm, -⟩ := h.has hr hS hML hmt hm
  obtain ⟨k1, k2, k3⟩ := h.sound
  have hGr : ∀ p ∈ G.flatten, p ∈ recent := fun p hp => hperm.subset (List.mem_append_right _ hp)
  have hrep := hc.laid.content.rep
  have hrows : ∀ q ∈ rows, q.2.fullUrl ≠ u := by
    intro q hq hqu
    have hcat := (hc.lists u q.2.view).2 ⟨q, hq, hqu, rfl⟩
    rcases (catalogue_iff m0 es u _).1 hcat with ⟨e, he, heu, -⟩ | ⟨-, h2⟩
    · have hmem : u ∈ es.map Entry.fullUrl := List.mem_map.2 ⟨e, lastOnes_sub he, heu⟩
      rw [hc.entryUrls, present_append] at hmem
      rcases List.mem_cons.1 hmem with hmem | hmem
      · exact hu hmem
      · obtain ⟨p, hp, hpu⟩ := List.mem_map.1 hmem
        rcases List.mem_append.1 hp with hp | hp
        · obtain ⟨y, hy, hyu⟩ := lastOnes_key (key := urlOf) hp
          have := (current_present (gh := true) h1 fun l hl => k1.urls l (List.mem_append_left _ hl)).mem_iff.1 hy
          exact hi y (List.mem_append_left _ this) (hyu.trans hpu)
        · exact hi p (List.mem_append_right _ (hGr p (present_sub.subset hp))) hpu
    · obtain ⟨x, hx1, hxu⟩ := hc.only _ _ h2
      exact hx x (hB.subset (List.mem_append_left _ hx1)) hxu
  refine ⟨hrep.entryByFullUrl_missing hrows, fun mode hd => ?_⟩
  obtain ⟨d, hd⟩ : ∃ d, S.depth = d + 1 := ⟨S.depth - 1, by omega⟩
  unfold Creator.remove Creator.onArch Archive.onZim
  simp only [PyM.of_apply]
  rw [hd, hrep.removeEntry_missing hrows]

/-- the entries of the items of earlier flushes, also if there are unsaved changes -/
theorem EditHist.live (hr : 2 ≤ r) (hS : S.Good md5 (some r)) (hR : Replaceable S.X S.C) (h : EditHist S mts c done recent rs)
    (hML : ML.length < 65535) (hmt : encode Creator.placeholder.mimetype ∈ ML) (hm : ∀ m ∈ mts, encode m ∈ ML) :
    c.arch.zim.mutable = true ∧
    ∀ p ∈ current done, (∀ q ∈ recent, q.1.fullUrl ≠ p.1.fullUrl) → ∃ e i off j, Core.Found S.X c.arch p e i off j := by
  obtain ⟨Gb, h1, G, P1, P2, ⟨rows, cs, extra, es, L, m0, R, B, hc, hB⟩, -, -, -, -, hperm, -⟩ := h.has hr hS hML hmt hm
  obtain ⟨k1, k2, k3⟩ := h.sound
  have hGr : ∀ p ∈ G.flatten, p ∈ recent := fun p hp => hperm.subset (List.mem_append_right _ hp)
  refine ⟨hc.laid.content.rep.isMutable, fun p hp hq => ?_⟩
  have := current_present (gh := true) h1 fun l hl => k1.urls l (List.mem_append_left _ hl)
  refine hc.live hR ?_
  rw [present_append]
  exact lastOnes_left (this.mem_iff.2 hp) fun q hq' => hq q (hGr q (present_sub.subset hq'))

/-- a flush leaves no unsaved changes -/
theorem EditHist.flushed (hr : 2 ≤ r) (hS : S.Good md5 (some r)) (h : EditHist S mts c done recent rs)
    (hML : ML.length < 65535) (hmt : encode Creator.placeholder.mimetype ∈ ML) (hm : ∀ m ∈ mts, encode m ∈ ML)
    (hok : Creator.flush S c = (.ok (), c')) : c'.arch.isDirty = false := by
  obtain ⟨Gb, h1, h2⟩ := h.has hr hS hML hmt hm
  obtain ⟨k1, k2, k3⟩ := h.sound
  exact (h2.flush hS (k1.size recent (by simp)) (k1.other recent (by simp)) (k1.apart.separated k2 h1) hok).2

/-- what is removed exists -/
theorem EditHist.existed (hr : 2 ≤ r) (hS : S.Good md5 (some r)) (h : EditHist S mts c done recent rs)
    (hML : ML.length < 65535) (hmt : encode Creator.placeholder.mimetype ∈ ML) (hm : ∀ m ∈ mts, encode m ∈ ML)
    (hrm : Removable u done recent rs) {mode : BlobMode} (hmode : mode ≠ .remove) (hrep : mode = .empty → Replaceable S.X S.C)
    (hok : Creator.remove S mode u c = (.ok (), c')) : ∃ p ∈ current done, p.1.fullUrl = u := by
  obtain ⟨Gb, h1, h2⟩ := h.has hr hS hML hmt hm
  obtain ⟨k1, k2, k3⟩ := h.sound
  exact (h2.remove h1 (k1.apart.separated k2 h1) k3 k1.urls k1.other hrm hmode hrep hok).1

theorem filter_all_filter (l m : List Sourced) (u : String) :
    (l.filter fun p => (m.filter fun p => p.1.fullUrl ≠ u).all fun q => q.1.fullUrl ≠ p.1.fullUrl).filter (fun p => p.1.fullUrl ≠ u) =
      (l.filter fun p => m.all fun q => q.1.fullUrl ≠ p.1.fullUrl).filter fun p => p.1.fullUrl ≠ u := by
  rw [List.filter_filter, List.filter_filter]
  refine List.filter_congr fun p _ => ?_
  by_cases hp : p.1.fullUrl = u
  · simp [hp]
  · congr 1
    rw [Bool.eq_iff_iff, List.all_eq_true, List.all_eq_true]
    constructor
    · intro h q hq
      by_cases hqu : q.1.fullUrl = u
      · exact decide_eq_true fun e => hp (e.symm.trans hqu)
      · exact h q (List.mem_filter.2 ⟨hq, decide_eq_true hqu⟩)
    · intro h q hq
      exact h q (List.mem_filter.1 hq).1

/-- the items that are left -/
theorem current_dropUrl (u : String) (ls : List (List Sourced)) :
    current (dropUrl u ls) = (current ls).filter fun p => p.1.fullUrl ≠ u := by
  induction ls using snoc_induction with
  | h0 => rfl
  | h1 ls l ih =>
    unfold dropUrl at ih ⊢
    rw [List.map_append, List.map_cons, List.map_nil, current_snoc, current_snoc, ih, List.filter_append, ← filter_all_filter]
    congr 1
    rw [List.filter_filter, List.filter_filter]
    exact List.filter_congr fun p _ => Bool.and_comm _ _

theorem dropUrl_append (h : ∀ p ∈ recent, p.1.fullUrl ≠ u) : dropUrl u done ++ [recent] = dropUrl u (done ++ [recent]) := by
  unfold dropUrl
  rw [List.map_append, List.map_cons, List.map_nil, List.filter_eq_self.2 fun p hp => decide_eq_true (h p hp)]

/-- a history without removals -/
theorem CreatorHist.edit (h : CreatorHist S c done recent rs) (hs : Sound mts rs (done ++ [recent])) :
    EditHist S mts c done recent rs := by
  induction h with
  | new hu W n1 n2 hok => exact .new hu W n1 n2 hok
  | add _ hp hok ih =>
    refine .add (ih (hs.sub (List.Sublist.refl _) fun x hx => ?_)) hp hs hok
    rcases List.mem_append.1 hx with hx | hx
    · exact ⟨x, List.mem_append_left _ hx, List.Sublist.refl _⟩
    · rw [List.mem_singleton] at hx
      subst hx
      exact ⟨_, List.mem_append_right _ (List.mem_singleton.2 rfl), List.sublist_append_left _ _⟩
  | redirect _ hv hok hd ih =>
    exact .redirect (ih (hs.sub (List.sublist_append_left _ _) fun x hx => ⟨x, hx, List.Sublist.refl _⟩)) hv hs.apart hok hd
  | @set c c' done recent rs u src content hprev hR hh hu hrec hd hok ih =>
    refine .set (ih ⟨hs.apart.unset, fun l hl => ?_, fun l hl p hp => ?_, fun l hl p hp => ?_, fun l hl => ?_⟩) hR hu hrec hd
      (fun l hl => hs.size l (List.mem_append_left _ hl)) hok
    · rcases List.mem_append.1 hl with hl | hl
      · rcases setContentIn_old (u := u) (src := src) (content := content) hl with hl | hl
        · exact hs.urls l (List.mem_append_left _ hl)
        · have := hs.urls _ (List.mem_append_left _ hl)
          rw [List.map_map] at this
          have e : (fun p : Sourced => p.1.fullUrl) ∘ withContent u src content = fun p => p.1.fullUrl := by
            funext p; exact withContent_url u src content p
          rwa [e] at this
      · exact hs.urls l (List.mem_append_right _ hl)
    · rcases List.mem_append.1 hl with hl | hl
      · rcases setContentIn_old (u := u) (src := src) (content := content) hl with hl | hl
        · exact hs.mimetypes l (List.mem_append_left _ hl) p hp
        · rw [← withContent_mimetype u src content p]
          exact hs.mimetypes _ (List.mem_append_left _ hl) _ (List.mem_map_of_mem hp)
      · exact hs.mimetypes l (List.mem_append_right _ hl) p hp
    · rcases List.mem_append.1 hl with hl | hl
      · rcases setContentIn_old (u := u) (src := src) (content := content) hl with hl | hl
        · exact hs.other l (List.mem_append_left _ hl) p hp
        · rw [← withContent_url u src content p]
          exact hs.other _ (List.mem_append_left _ hl) _ (List.mem_map_of_mem hp)
      · exact hs.other l (List.mem_append_right _ hl) p hp
    · rcases List.mem_append.1 hl with hl | hl
      · exact hh l hl
      · exact hs.size l (List.mem_append_right _ hl)
  | flush _ hok ih =>
    exact .flush (ih (hs.sub (List.Sublist.refl _) fun x hx => ⟨x, List.mem_append_left _ hx, List.Sublist.refl _⟩)) hok
  | reopen _ hd W n1 n2 hok ih => exact .reopen (ih hs) hd W n1 n2 hok

end

end Pyzim
