import Verif.Lemmas.CreatorLoad

/-!
# An archive filled by strategies: the archive with its strategies
-/

namespace Pyzim
open Zim (Row Stored Clustered Works Lists Art MimesIn Mirrored catalogue marked clusterAt Redirect)
open SpaceAllocator (InBlock)

variable {D K : Type} {X : Codecs D} {C : Compressors K} {ML : List Bytes} {reserve : Option Nat} {a a' : Archive}
  {G G' : List (List Sourced)} {rows : List Row} {cs : List Stored} {extra : Nat → Prop} {es : List Entry} {L : Bytes}
  {m0 : Catalogue} {R B : List Redirect}

theorem Core.dirty (h : Core gh mp X C ML reserve a G rows cs extra es L m0 R B) (d : Bool) :
    Core gh mp X C ML reserve { a with dirty := d } G rows cs extra es L m0 R B :=
  ⟨h.laid.dirty d, h.first, h.entries, h.other, h.lists, h.art, h.mimes, h.redirects, h.mainpage, h.listed, h.shown, h.only,
    fun r hr hO => ⟨(h.leads r hr hO).leads, (h.leads r hr hO).title⟩⟩

theorem Zim.Mirrored.mimetypes {Z0 Z : Zim} {cs0 : List Stored} {n0 : Nat} {rest : Nat → Prop} {m0 : Catalogue} {S0 : String → Prop}
    {z : ZimLog} (h : Mirrored X C ML Z0 cs0 n0 rest m0 S0 z Z) : Z.mimetypes = z.mts := by
  obtain ⟨cs, rows, h⟩ := h
  exact h.mts

/-- adding an item to a strategy -/
theorem Core.add {t : CompressionType} {mx : Int} {P : List Sourced} {s s' : Strategy D} {Z' : Zim} {depth : Nat}
    (W : Working X C t) (h : Core gh mp X C ML reserve a G rows cs extra es L m0 R B) (hw : s.Waits X t mx a.zim.mimetypes P) (hf : s.Fit)
    (hh : NotHuge P) (hML : ML.length < 65535) {p : Sourced} (hp : Storable p) (hi : p.1.Addable ML)
    (ho : ∀ q ∈ P ++ [p], q.1.fullUrl ≠ URL_ARTICLES)
    (hok : Strategy.addItemOn X (Zim.backend X C depth) p.1 (s, a.zim) = (.ok (), (s', Z'))) :
    ∃ rows' cs' es' G' P', Core gh mp X C ML reserve { a with zim := Z' } (G ++ G') rows' cs' extra es' L m0 R B ∧
      s'.Waits X t mx Z'.mimetypes P' ∧ s'.Fit ∧ (P' ++ G'.flatten).Perm (P ++ [p]) ∧
      a.zim.mimetypes.mimetypes <+: Z'.mimetypes.mimetypes ∧
      Onward reserve (fun _ => False) a rows cs extra es { a with zim := Z' } rows' cs' es' := by
  obtain ⟨z', h1, h2, h3⟩ := Mirrored.add (h.mirrored (C := C)) hf hML hi hok
  obtain ⟨s'', z'', P', G', g1, g2, g3, g4, g5, g6, -⟩ := Strategy.Waits.addItem (z := logOf a cs es) W hw hh h.mimes.mutable p hp
  rw [h1] at g1
  injection g1 with _ g1
  injection g1 with g1 g1'
  subst g1 g1'
  obtain ⟨rows', cs', hc, ho⟩ := h.step h2 g4 g3 (fun q hq => ho q (g6.subset (List.mem_append_right _ hq)))
  exact ⟨rows', cs', _, G', P', hc, by rw [h2.mimetypes]; exact g5, h3, g6, by rw [h2.mimetypes]; exact g3, ho⟩

/-- flushing a strategy -/
theorem Core.flushStrategy {t : CompressionType} {mx : Int} {P : List Sourced} {s s' : Strategy D} {Z' : Zim} {depth : Nat}
    (W : Working X C t) (h : Core gh mp X C ML reserve a G rows cs extra es L m0 R B) (hw : s.Waits X t mx a.zim.mimetypes P) (hf : s.Fit)
    (hh : NotHuge P) (ho : ∀ q ∈ P, q.1.fullUrl ≠ URL_ARTICLES)
    (hok : Strategy.flushOn (Zim.backend X C depth) (s, a.zim) = (.ok (), (s', Z'))) :
    ∃ rows' cs' es' G', Core gh mp X C ML reserve { a with zim := Z' } (G ++ G') rows' cs' extra es' L m0 R B ∧
      s'.Waits X t mx Z'.mimetypes [] ∧ s'.Fit ∧ G'.flatten.Perm P ∧ Z'.mimetypes = a.zim.mimetypes := by
  obtain ⟨z', h1, h2, h3⟩ := Mirrored.flush (h.mirrored (C := C)) hf hok
  obtain ⟨s'', z'', G', g1, g2, g4, g5, g6, -⟩ := Strategy.Waits.flush (z := logOf a cs es) W hw hh
  rw [h1] at g1
  injection g1 with _ g1
  injection g1 with g1 g1'
  subst g1 g1'
  obtain ⟨rows', cs', hc, -⟩ := h.step h2 g4 (by rw [g2]; exact List.prefix_rfl) (fun q hq => ho q (g6.subset hq))
  exact ⟨rows', cs', _, G', hc, by rw [h2.mimetypes]; exact g5, h3, g6, by rw [h2.mimetypes, g2]; rfl⟩

/-- The archive and its strategies have the items: some wait in the strategies, the others are in clusters of the archive,
behind those in `G0`. It has the redirects `rs`, some of which may be buffered. -/
structure HasAt (gh : Bool) (mp : Option (Option String)) (S : Setup D K) (ML : List Bytes) (reserve : Option Nat) (G0 : List (List Sourced)) (items : List Sourced)
    (rs : List Redirect) (c : Creator D) (G : List (List Sourced)) (P1 P2 : List Sourced) : Prop where
  core : ∃ rows cs extra es L m0 R B, Core gh mp S.X S.C ML reserve c.arch (G0 ++ G) rows cs extra es L m0 R B ∧ (R ++ B).Perm rs
  main : ∃ t mx, Working S.X S.C t ∧ c.main.Waits S.X t mx c.arch.zim.mimetypes P1
  plain : ∃ mx, c.plain.Waits S.X .none mx c.arch.zim.mimetypes P2
  fitMain : c.main.Fit
  fitPlain : c.plain.Fit
  perm : (P1 ++ P2 ++ G.flatten).Perm items
  clean : c.arch.isDirty = false → P1 = [] ∧ P2 = [] ∧ (mp = none → c.arch.zim.bufferedRedirects = [])

def Has (gh : Bool) (mp : Option (Option String)) (S : Setup D K) (ML : List Bytes) (reserve : Option Nat) (G0 : List (List Sourced)) (items : List Sourced)
    (rs : List Redirect) (c : Creator D) : Prop := ∃ G P1 P2, HasAt gh mp S ML reserve G0 items rs c G P1 P2

variable {S : Setup D K} {G0 : List (List Sourced)} {items : List Sourced} {rs : List Redirect}
  {c c' : Creator D}

theorem HasAt.add {md5 : Bytes → Bytes} (hS : S.Good md5 reserve) {P1 P2 : List Sourced} (h : HasAt gh mp S ML reserve G0 items rs c G P1 P2)
    (hc : Core gh mp S.X S.C ML reserve c.arch (G0 ++ G) rows cs extra es L m0 R B) (hB : (R ++ B).Perm rs) (hh : NotHuge items)
    (hML : ML.length < 65535) {p : Sourced} (hp : Storable p) (hi : p.1.Addable ML)
    (ho : ∀ q ∈ items ++ [p], q.1.fullUrl ≠ URL_ARTICLES) {force : Bool}
    (hok : Creator.addItem S p.1 force c = (.ok (), c')) :
    ∃ G' P1' P2' rows' cs' es', HasAt gh mp S ML reserve G0 (items ++ [p]) rs c' (G ++ G') P1' P2' ∧
      Core gh mp S.X S.C ML reserve c'.arch (G0 ++ (G ++ G')) rows' cs' extra es' L m0 R B ∧
      Onward reserve (fun _ => False) c.arch rows cs extra es c'.arch rows' cs' es' := by
  obtain ⟨-, ⟨t, mx1, W, hw1⟩, ⟨mx2, hw2⟩, hf1, hf2, hperm, -⟩ := h
  unfold Creator.addItem at hok
  rw [PyM.get_bind, PyM.bind_ok (show PyM.require (!c.arch.zim.closed) .zimFileClosed c = (.ok (), c) by
    rw [hc.laid.content.rep.isOpen]; rfl), PyM.bind_ok (show PyM.require c.arch.zim.mutable .nonMutable c = (.ok (), c) by
    rw [hc.laid.content.rep.isMutable]; rfl)] at hok
  obtain ⟨⟨⟩, c1, h1, hokA⟩ := PyM.bind_ok_iff.1 hok
  clear hok
  rw [PyM.modify_apply] at hokA
  injection hokA with _ hokA
  have hn1 : NotHuge P1 := (hh.perm hperm).sublist (by rw [List.append_assoc]; exact List.sublist_append_left _ _)
  have hn2 : NotHuge P2 := (hh.perm hperm).sublist (by
    rw [List.append_assoc]
    exact (List.sublist_append_left _ _).trans (List.sublist_append_right _ _))
  have ho1 : ∀ q ∈ P1 ++ [p], q.1.fullUrl ≠ URL_ARTICLES := by
    intro q hq
    refine ho q ?_
    rcases List.mem_append.1 hq with hq | hq
    · exact List.mem_append_left _ (hperm.subset (by simp [hq]))
    · exact List.mem_append_right _ hq
  have ho2 : ∀ q ∈ P2 ++ [p], q.1.fullUrl ≠ URL_ARTICLES := by
    intro q hq
    refine ho q ?_
    rcases List.mem_append.1 hq with hq | hq
    · exact List.mem_append_left _ (hperm.subset (by simp [hq]))
    · exact List.mem_append_right _ hq
  cases force with
  | true =>
    simp only [if_true, Creator.onPlain, PyM.of_apply] at h1
    cases hr : Strategy.addItemOn S.X (Zim.backend S.X S.C S.depth) p.1 (c.plain, c.arch.zim) with
    | mk r q =>
      obtain ⟨s', Z'⟩ := q
      rw [hr] at h1
      injection h1 with h1 h1'
      simp only at h1
      subst h1
      obtain ⟨rows', cs', es', G', P', g1, g2, g3, g4, g5, g6⟩ := hc.add hS.plain hw2 hf2 hn2 hML hp hi ho2 hr
      have gc : Core gh mp S.X S.C ML reserve { c.arch with zim := Z', dirty := true } (G0 ++ (G ++ G')) rows' cs' extra es' L m0 R B := by
        rw [← List.append_assoc]; exact g1.dirty true
      refine ⟨G', P1, P', rows', cs', es', ?_⟩
      rw [← hokA, ← h1']
      refine ⟨?_, gc, g6.entries, g6.before, g6.stays, g6.bytes, g6.rest, g6.longer, g6.mimes⟩
      refine ⟨⟨_, _, _, _, _, _, _, _, gc, hB⟩, ⟨t, mx1, W, hw1.mono g5⟩, ⟨mx2, g2⟩, hf1, g3, ?_, ?_⟩
      · rw [List.flatten_append]
        have e : (P1 ++ P' ++ (G.flatten ++ G'.flatten)).Perm (P1 ++ G.flatten ++ (P' ++ G'.flatten)) := by
          simp only [List.append_assoc]
          refine List.Perm.append_left _ ?_
          rw [← List.append_assoc, ← List.append_assoc]
          exact List.perm_append_comm.append_right _
        refine e.trans ((g4.append_left _).trans ?_)
        rw [← List.append_assoc]
        refine List.Perm.append_right _ (List.Perm.trans ?_ hperm)
        simp only [List.append_assoc]
        exact List.Perm.append_left _ List.perm_append_comm
      · intro hd
        unfold Archive.isDirty at hd
        simp at hd
  | false =>
    simp only [Bool.false_eq_true, if_false, Creator.onMain, PyM.of_apply] at h1
    cases hr : Strategy.addItemOn S.X (Zim.backend S.X S.C S.depth) p.1 (c.main, c.arch.zim) with
    | mk r q =>
      obtain ⟨s', Z'⟩ := q
      rw [hr] at h1
      injection h1 with h1 h1'
      simp only at h1
      subst h1
      obtain ⟨rows', cs', es', G', P', g1, g2, g3, g4, g5, g6⟩ := hc.add W hw1 hf1 hn1 hML hp hi ho1 hr
      have gc : Core gh mp S.X S.C ML reserve { c.arch with zim := Z', dirty := true } (G0 ++ (G ++ G')) rows' cs' extra es' L m0 R B := by
        rw [← List.append_assoc]; exact g1.dirty true
      refine ⟨G', P', P2, rows', cs', es', ?_⟩
      rw [← hokA, ← h1']
      refine ⟨?_, gc, g6.entries, g6.before, g6.stays, g6.bytes, g6.rest, g6.longer, g6.mimes⟩
      refine ⟨⟨_, _, _, _, _, _, _, _, gc, hB⟩, ⟨t, mx1, W, g2⟩, ⟨mx2, hw2.mono g5⟩, g3, hf2, ?_, ?_⟩
      · rw [List.flatten_append]
        have e : (P' ++ P2 ++ (G.flatten ++ G'.flatten)).Perm (P2 ++ G.flatten ++ (P' ++ G'.flatten)) := by
          refine (List.perm_append_comm.append_right _).trans ?_
          simp only [List.append_assoc]
          refine List.Perm.append_left _ ?_
          rw [← List.append_assoc, ← List.append_assoc]
          exact List.perm_append_comm.append_right _
        refine e.trans ((g4.append_left _).trans ?_)
        rw [← List.append_assoc]
        refine List.Perm.append_right _ (List.Perm.trans ?_ hperm)
        rw [List.append_assoc P1]
        exact List.perm_append_comm
      · intro hd
        unfold Archive.isDirty at hd
        simp at hd

theorem Has.add {md5 : Bytes → Bytes} (hS : S.Good md5 reserve) (h : Has gh mp S ML reserve G0 items rs c) (hh : NotHuge items)
    (hML : ML.length < 65535) {p : Sourced} (hp : Storable p) (hi : p.1.Addable ML)
    (ho : ∀ q ∈ items ++ [p], q.1.fullUrl ≠ URL_ARTICLES) {force : Bool}
    (hok : Creator.addItem S p.1 force c = (.ok (), c')) : Has gh mp S ML reserve G0 (items ++ [p]) rs c' := by
  obtain ⟨G, P1, P2, h⟩ := h
  obtain ⟨rows, cs, extra, es, L, m0, R, B, hc, hB⟩ := h.core
  obtain ⟨G', P1', P2', -, -, -, h', -⟩ := h.add hS hc hB hh hML hp hi ho hok
  exact ⟨_, P1', P2', h'⟩

/-- The sources of the redirects differ from each other and from the urls of all other entries. -/
structure Separate (rs : List Redirect) (G0 : List (List Sourced)) (items : List Sourced) : Prop where
  valid : ∀ r ∈ rs, Redirect.Valid r
  nodup : (rs.map (·.1)).Nodup
  articles : ∀ r ∈ rs, r.1 ≠ URL_ARTICLES
  old : ∀ r ∈ rs, ∀ p ∈ G0.flatten, p.1.fullUrl ≠ r.1
  new : ∀ r ∈ rs, ∀ p ∈ items, p.1.fullUrl ≠ r.1

theorem Core.urls (h : Core gh mp X C ML reserve a G rows cs extra es L m0 R B) {u : String} (hu : u ∈ es.map Entry.fullUrl) :
    u = URL_ARTICLES ∨ ∃ p ∈ G.flatten, p.1.fullUrl = u := by
  obtain ⟨e, he, rfl⟩ := List.mem_map.1 hu
  obtain ⟨s, hs, hse⟩ := forall₂_mem_right h.entries he
  rcases List.mem_cons.1 hs with rfl | hs
  · exact .inl hse.fullUrl
  · obtain ⟨p, hp, hpe⟩ := slots_item (slotsOf_sub.subset hs)
    exact .inr ⟨p, hp, by rw [hpe]; exact hse.fullUrl.symm⟩

theorem Core.apart (h : Core gh mp X C ML reserve a (G0 ++ G) rows cs extra es L m0 R B) (hs : Separate rs G0 items)
    (hG : ∀ p ∈ G.flatten, p ∈ items) {r : Redirect} (hr : r ∈ rs) : r.1 ∉ es.map Entry.fullUrl := by
  intro hu
  rcases h.urls hu with e | ⟨p, hp, e⟩
  · exact hs.articles r hr e
  · rw [List.flatten_append] at hp
    rcases List.mem_append.1 hp with hp | hp
    · exact hs.old r hr p hp e
    · exact hs.new r hr p (hG p hp) e

theorem Core.notWritten (h : Core gh mp X C ML reserve a G rows cs extra es L m0 R B) (hB : (R ++ B).Perm rs)
    (hn : (rs.map (·.1)).Nodup) {r : Redirect} (hr : r ∈ B) : m0 r.1 = none := by
  cases hm : m0 r.1 with
  | none => rfl
  | some v =>
    obtain ⟨r', hr', e⟩ := h.only _ _ hm
    have := (hB.map (·.1)).nodup_iff.2 hn
    rw [List.map_append, List.nodup_append] at this
    exact absurd e (this.2.2 _ (List.mem_map_of_mem hr') _ (List.mem_map_of_mem hr))

theorem Core.newSources (h : Core gh mp X C ML reserve a (G0 ++ G) rows cs extra es L m0 R B) (hs : Separate rs G0 items)
    (hB : (R ++ B).Perm rs) (hG : ∀ p ∈ G.flatten, p ∈ items) : NewSources es m0 B := by
  have hsub : ∀ r ∈ B, r ∈ rs := fun r hr => hB.subset (List.mem_append_right _ hr)
  refine ⟨fun r hr => hs.valid r (hsub r hr), ?_, fun r hr => h.apart hs hG (hsub r hr), fun r hr => h.notWritten hB hs.nodup hr⟩
  have := (hB.map (·.1)).nodup_iff.2 hs.nodup
  rw [List.map_append, List.nodup_append] at this
  exact this.2.1

theorem HasAt.redirect {P1 P2 : List Sourced} (h : HasAt gh mp S ML reserve G0 items rs c G P1 P2)
    (hc : Core gh mp S.X S.C ML reserve c.arch (G0 ++ G) rows cs extra es L m0 R B) (hB : (R ++ B).Perm rs) {r : Redirect} (hs : Separate (rs ++ [r]) G0 items)
    (hok : Creator.addFullUrlRedirect S r.1 r.2.1 r.2.2 c = (.ok (), c')) (hd : c'.arch.isDirty = true) :
    ∃ rows' m0' R' B', HasAt gh mp S ML reserve G0 items (rs ++ [r]) c' G P1 P2 ∧
      Core gh mp S.X S.C ML reserve c'.arch (G0 ++ G) rows' cs extra es L m0' R' B' ∧ (R' ++ B').Perm (rs ++ [r]) ∧
      Onward reserve (· = r.1) c.arch rows cs extra es c'.arch rows' cs es := by
  obtain ⟨-, ⟨t, mx1, W, hw1⟩, ⟨mx2, hw2⟩, hf1, hf2, hperm, -⟩ := h
  simp only [Creator.addFullUrlRedirect, Creator.onArch, Archive.onZim, PyM.of_apply] at hok
  cases hr : Zim.addFullUrlRedirect S.depth r.1 r.2.1 r.2.2 c.arch.zim with
  | mk res Z' =>
  rw [hr] at hok
  injection hok with hok hok'
  simp only at hok
  subst hok
  have hG : ∀ p ∈ G.flatten, p ∈ items := fun p hp => hperm.subset (List.mem_append_right _ hp)
  have hm0 : m0 r.1 = none := by
    cases hm : m0 r.1 with
    | none => rfl
    | some v =>
      obtain ⟨r', hr', e⟩ := hc.only _ _ hm
      have := hs.nodup
      rw [List.map_append, List.nodup_append] at this
      exact absurd e (this.2.2 _ (List.mem_map_of_mem (hB.subset (List.mem_append_left _ hr'))) _ (by simp))
  have hfin : ∀ R' B' m0' rows', Core gh mp S.X S.C ML reserve { c.arch with zim := Z' } (G0 ++ G) rows' cs extra es L m0' R' B' →
      (R' ++ B').Perm (rs ++ [r]) → Z'.mimetypes = c.arch.zim.mimetypes →
      Onward reserve (· = r.1) c.arch rows cs extra es { c.arch with zim := Z' } rows' cs es →
      ∃ rows' m0' R' B', HasAt gh mp S ML reserve G0 items (rs ++ [r]) c' G P1 P2 ∧
      Core gh mp S.X S.C ML reserve c'.arch (G0 ++ G) rows' cs extra es L m0' R' B' ∧ (R' ++ B').Perm (rs ++ [r]) ∧
      Onward reserve (· = r.1) c.arch rows cs extra es c'.arch rows' cs es := by
    intro R' B' m0' rows' k1 k2 k3 k4
    refine ⟨rows', m0', R', B', ?_⟩
    have hcl : ¬ c'.arch.isDirty = false := by rw [hd]; simp
    rw [← hok'] at hcl ⊢
    refine ⟨?_, k1, k2, k4⟩
    refine ⟨⟨rows', cs, extra, es, L, m0', R', B', k1, k2⟩, ⟨t, mx1, W, ?_⟩, ⟨mx2, ?_⟩, hf1, hf2, hperm, fun h => absurd h hcl⟩
    · show c.main.Waits S.X t mx1 Z'.mimetypes P1
      rw [k3]; exact hw1
    · show c.plain.Waits S.X .none mx2 Z'.mimetypes P2
      rw [k3]; exact hw2
  rcases hc.redirect (hs.valid r (by simp)) (hc.apart hs hG (by simp)) hm0 hr with ⟨k1, k2, k4⟩ | ⟨rows', m0', k1, k2, -, k4⟩
  · refine hfin R (B ++ [r]) m0 rows k1 ?_ k2 k4
    rw [← List.append_assoc]
    exact hB.append_right _
  · refine hfin (R ++ [r]) B m0' rows' k1 ?_ k2 k4
    have : (R ++ [r] ++ B).Perm (R ++ B ++ [r]) := by
      rw [List.append_assoc, List.append_assoc]
      exact List.perm_append_comm.append_left _
    exact this.trans (hB.append_right _)

theorem Has.redirect (h : Has gh mp S ML reserve G0 items rs c) {r : Redirect} (hs : Separate (rs ++ [r]) G0 items)
    (hok : Creator.addFullUrlRedirect S r.1 r.2.1 r.2.2 c = (.ok (), c')) (hd : c'.arch.isDirty = true) :
    Has gh mp S ML reserve G0 items (rs ++ [r]) c' := by
  obtain ⟨G, P1, P2, h⟩ := h
  obtain ⟨rows, cs, extra, es, L, m0, R, B, hc, hB⟩ := h.core
  obtain ⟨-, -, -, -, h', -⟩ := h.redirect hc hB hs hok hd
  exact ⟨G, P1, P2, h'⟩

/-- flushing, up to the buffered operations: everything that was added is in clusters -/
theorem HasAt.strategies {md5 : Bytes → Bytes} (hS : S.Good md5 reserve) {P1 P2 : List Sourced}
    (h : HasAt gh mp S ML reserve G0 items rs c G P1 P2) (hh : NotHuge items)
    (ho : ∀ q ∈ items, q.1.fullUrl ≠ URL_ARTICLES) (hd : c.arch.isDirty = true) (hok : Creator.flush S c = (.ok (), c')) :
    ∃ G' a2 rows cs extra es L m0 R B, Core gh mp S.X S.C ML reserve a2 (G0 ++ G') rows cs extra es L m0 R B ∧
      (R ++ B).Perm rs ∧ G'.flatten.Perm items ∧
      Archive.flushDirty S.H S.short S.chunksize S.policy (Zim.finalizeOperations S.blob S.depth S.passes)
        (Creator.setListing S) a2 = (.ok (), c'.arch) ∧
      (∃ t mx, Working S.X S.C t ∧ c'.main.Waits S.X t mx a2.zim.mimetypes []) ∧
      (∃ mx, c'.plain.Waits S.X .none mx a2.zim.mimetypes []) ∧ c'.main.Fit ∧ c'.plain.Fit := by
  obtain ⟨⟨rows, cs, extra, es, L, m0, R, B, hc, hB⟩, ⟨t, mx1, W, hw1⟩, ⟨mx2, hw2⟩, hf1, hf2, hperm, hcl⟩ := h
  unfold Creator.flush at hok
  rw [PyM.get_bind, PyM.bind_ok (show PyM.require (!c.arch.zim.closed) .zimFileClosed c = (.ok (), c) by
    rw [hc.laid.content.rep.isOpen]; rfl), PyM.bind_ok (show PyM.require c.arch.zim.mutable .nonMutable c = (.ok (), c) by
    rw [hc.laid.content.rep.isMutable]; rfl)] at hok
  have hn1 : NotHuge P1 := (hh.perm hperm).sublist (by rw [List.append_assoc]; exact List.sublist_append_left _ _)
  have hn2 : NotHuge P2 := (hh.perm hperm).sublist (by
    rw [List.append_assoc]
    exact (List.sublist_append_left _ _).trans (List.sublist_append_right _ _))
  rw [if_pos hd] at hok
  obtain ⟨⟨⟩, c1, h1, hokA⟩ := PyM.bind_ok_iff.1 hok
  clear hok
  simp only [Creator.onMain, PyM.of_apply] at h1
  cases hr : Strategy.flushOn (Zim.backend S.X S.C S.depth) (c.main, c.arch.zim) with
  | mk r q =>
  obtain ⟨s1, Z1⟩ := q
  rw [hr] at h1
  injection h1 with h1 h1'
  simp only at h1
  subst h1
  obtain ⟨rows1, cs1, es1, G1, g1, g2, g3, g4, g5⟩ := hc.flushStrategy W hw1 hf1 hn1
    (fun q hq => ho q (hperm.subset (by simp [hq]))) hr
  obtain ⟨⟨⟩, c2, h2, hokB⟩ := PyM.bind_ok_iff.1 hokA
  clear hokA
  rw [← h1'] at h2
  simp only [Creator.onPlain, PyM.of_apply] at h2
  cases hr2 : Strategy.flushOn (Zim.backend S.X S.C S.depth) (c.plain, Z1) with
  | mk r q =>
  obtain ⟨s2, Z2⟩ := q
  rw [hr2] at h2
  injection h2 with h2 h2'
  simp only at h2
  subst h2
  obtain ⟨rows2, cs2, es2, G2, k1, k2, k3, k4, k5⟩ := g1.flushStrategy hS.plain (by simp only; rw [g5]; exact hw2) hf2 hn2
    (fun q hq => ho q (hperm.subset (by simp [hq]))) hr2
  rw [← h2'] at hokB
  simp only [Creator.onArch, PyM.of_apply] at hokB
  injection hokB with e1 e2
  have hpm : (G ++ G1 ++ G2).flatten.Perm items := by
    simp only [List.flatten_append]
    refine List.Perm.trans ?_ hperm
    refine ((g4.append_left _).append k4).trans ?_
    rw [List.append_assoc]
    exact List.perm_append_comm
  rw [List.append_assoc G0, List.append_assoc G0] at k1
  have hmm : c'.main = s1 ∧ c'.plain = s2 := by rw [← e2]; exact ⟨rfl, rfl⟩
  refine ⟨G ++ G1 ++ G2, _, _, _, _, _, _, _, _, _, k1, hB, hpm, by rw [← e2]; exact Prod.ext e1 rfl, ⟨t, mx1, W, ?_⟩,
    ⟨mx2, ?_⟩, ?_, ?_⟩
  · rw [hmm.1]
    refine g2.mono ?_
    simp only [k5]
    exact List.prefix_rfl
  · rw [hmm.2]; exact k2
  · rw [hmm.1]; exact g3
  · rw [hmm.2]; exact k3

theorem Has.flush {md5 : Bytes → Bytes} (hS : S.Good md5 reserve) (h : Has gh none S ML reserve G0 items rs c) (hh : NotHuge items)
    (ho : ∀ q ∈ items, q.1.fullUrl ≠ URL_ARTICLES) (hs : Separate rs G0 items) (hok : Creator.flush S c = (.ok (), c')) :
    (∃ G, G.flatten.Perm items ∧ Has gh none S ML reserve (G0 ++ G) [] rs c') ∧ c'.arch.isDirty = false := by
  obtain ⟨G, P1, P2, hat⟩ := h
  cases hd : c.arch.isDirty with
  | false =>
    obtain ⟨⟨rows, cs, extra, es, L, m0, R, B, hc, hB⟩, ⟨t, mx1, W, hw1⟩, ⟨mx2, hw2⟩, hf1, hf2, hperm, hcl⟩ := hat
    unfold Creator.flush at hok
    rw [PyM.get_bind, PyM.bind_ok (show PyM.require (!c.arch.zim.closed) .zimFileClosed c = (.ok (), c) by
      rw [hc.laid.content.rep.isOpen]; rfl), PyM.bind_ok (show PyM.require c.arch.zim.mutable .nonMutable c = (.ok (), c) by
      rw [hc.laid.content.rep.isMutable]; rfl)] at hok
    rw [if_neg (by rw [hd]; simp), PyM.pure_apply] at hok
    injection hok with _ hok
    subst hok
    obtain ⟨rfl, rfl, hb⟩ := hcl hd
    exact ⟨⟨G, by simpa using hperm, [], [], [], ⟨_, _, _, _, _, _, _, _, by rw [List.append_nil]; exact hc, hB⟩, ⟨t, mx1, W, hw1⟩,
      ⟨mx2, hw2⟩, hf1, hf2, .nil, fun _ => ⟨rfl, rfl, hb⟩⟩, hd⟩
  | true =>
    obtain ⟨G', a2, rows, cs, extra, es, L, m0, R, B, k1, hB, hpm, e1, ⟨t, mx1, W, g2⟩, ⟨mx2, k2⟩, g3, k3⟩ :=
      hat.strategies hS hh ho hd hok
    obtain ⟨rows3, cs3, L', m3, R3, m1, m2, m3, m4⟩ := k1.flush hS (a' := c'.arch)
      (k1.newSources hs hB fun p hp => hpm.subset hp) e1
    refine ⟨⟨G', hpm, [], [], [], ⟨_, _, _, _, _, _, _, _, by rw [List.append_nil]; exact m1, ?_⟩, ⟨t, mx1, W, ?_⟩,
      ⟨mx2, ?_⟩, g3, k3, .nil, fun _ => ⟨rfl, rfl, fun _ => m1.redirects⟩⟩, m2⟩
    · rw [List.append_nil]
      exact (m4.append_left _).trans hB
    · refine g2.mono ?_
      rw [m3]
      exact List.prefix_rfl
    · refine k2.mono ?_
      rw [m3]
      exact List.prefix_rfl

end Pyzim
