import Verif.Lemmas.MainTwice
import Verif.Spec.MainLast

/-!
# Setting the main page again and again while an archive is being filled
-/

namespace Pyzim
open Zim Creator

variable {D K : Type} {X : Codecs D} {C : Compressors K} {ML : List Bytes} {reserve : Option Nat} {a a' : Archive} {G : List (List Sourced)} {rows : List Row} {cs : List Stored}
  {extra : Nat → Prop} {es : List Entry} {L : Bytes} {m0 : Catalogue} {R B rs l : List Redirect} {r : Redirect} {Z' : Zim} {w : String}
variable {S : Setup D K} {md5 : Bytes → Bytes} {items : List Sourced} {c c' : Creator D} {d : Nat} {u : String} {v : Option String}

/-- What a call of `set_mainpage_url` with `None` does. -/
theorem Core.setNone (h : Core gh mp X C ML reserve a G rows cs extra es L m0 R B)
    (hes : Zim.URL_MAINPAGE_REDIRECT ∉ es.map Entry.fullUrl) (hlead : m0 Zim.URL_MAINPAGE_REDIRECT ≠ none → LeadsBefore rows Zim.URL_MAINPAGE_REDIRECT)
    {blob : Entry → PyM Zim Unit} (hok : Zim.setMainpageUrl blob (d + 2) none a.zim = (.ok (), Z')) :
    Z'.mimetypes = a.zim.mimetypes ∧ Z'.header.mainPageRaw = 0xffffffff ∧
    ∃ rows' m0', Core gh (some none) X C ML reserve { a with zim := Z' } G rows' cs extra es L m0'
        (R.filter (·.1 ≠ Zim.URL_MAINPAGE_REDIRECT)) B := by
  have hrep := h.laid.content.rep
  rw [Zim.setMainpageUrl_none _ _ hrep.isOpen hrep.isMutable] at hok
  obtain ⟨⟨⟩, Z1, h1, hok⟩ := PyM.bind_ok_iff.1 hok
  obtain ⟨rows1, m1, k1, k2, k3, k4, k5⟩ := h.removeMain hes hlead h1
  obtain ⟨⟨⟩, Z2, h2, hok⟩ := PyM.bind_ok_iff.1 hok
  have hrep1 := k1.laid.content.rep
  have hmut : Z1.header.mutable = true := hrep1.headerMutable
  have hraw : Z2.header.mainPageRaw = 0xffffffff ∧ Z2 = Z1.setHeader Z2.header ∧ Z2.header.mutable = true := by
    have h3 := h2
    rw [Zim.onHeader_setHeader] at h3
    have hZ := congrArg Prod.snd h3
    simp only at hZ
    rw [← hZ]
    refine ⟨?_, rfl, ?_⟩
    · show (Z1.header.setMainPage none).2.mainPageRaw = 0xffffffff
      unfold Header.setMainPage
      simp only [hmut, Bool.not_true, Bool.false_eq_true, if_false]
      split
      · rfl
      · rename_i hh
        exact (by simpa using hh : _ = _).symm
    · show (Z1.header.setMainPage none).2.mutable = true
      unfold Header.setMainPage
      simp only [hmut, Bool.not_true, Bool.false_eq_true, if_false]
      split
      · rfl
      · exact hmut
  obtain ⟨rows3, hl⟩ := k1.laid.works (O := ClusterObj.ops X C) (.step .refl (.mainPage h2))
  have hr : rows3 = rows1 := Zim.Rep.unique (z := Z2) (by rw [hraw.2.1]; exact hrep1.setHeader hraw.2.2) hl.content.rep
  subst hr
  have hz := hraw.2.1
  have hc2 : Core gh mp X C ML reserve { a with zim := Z2 } G rows3 cs extra es L m1 (R.filter (·.1 ≠ Zim.URL_MAINPAGE_REDIRECT)) B := by
    generalize Z2.header = H at hz hraw
    subst hz
    exact ⟨hl, k1.first, k1.entries, k1.other, k1.lists, k1.art, k1.mimes, k1.redirects, k1.mainpage, k1.listed, k1.shown,
      k1.only, fun r hr hO => ⟨hl.content.rep.leads_iff.2 (hrep1.leads_iff.1 (k1.leads r hr hO).leads), (k1.leads r hr hO).title⟩⟩
  have hZ : _ = Z' := congrArg Prod.snd hok
  subst hZ
  refine ⟨?_, hraw.1, rows3, m1, hc2.bufferMain (some none)⟩
  show Z2.mimetypes = a.zim.mimetypes
  rw [hz]
  exact k3

/-- the end of a flush, if the main page was unset -/
theorem Core.finalizeNone (h : Core gh (some none) X C ML reserve a G rows cs extra es L m0 R B)
    (hn : Replacing Zim.URL_MAINPAGE_REDIRECT es l) (hrs : UpTo Zim.URL_MAINPAGE_REDIRECT (R ++ B) l)
    (ht : Targets l es Zim.URL_MAINPAGE_REDIRECT) (hW : Zim.URL_MAINPAGE_REDIRECT ∉ es.map Entry.fullUrl)
    {blob : Entry → PyM Zim Unit} {passes : Nat} (hok : Zim.finalizeOperations blob (d + 2) passes a.zim = (.ok (), Z')) :
    ∃ rows' m0' R', Core gh (some none) X C ML reserve { a with zim := Z' } G rows' cs extra es L m0' R' [] ∧
      Z'.mimetypes = a.zim.mimetypes ∧ R'.Perm (apartFrom Zim.URL_MAINPAGE_REDIRECT l) ∧ Z'.header.mainPageRaw = 0xffffffff := by
  unfold Zim.finalizeOperations at hok
  obtain ⟨⟨⟩, Z1, h1, h2⟩ := PyM.bind_ok_iff.1 hok
  unfold Zim.applyRedirects at h1
  obtain ⟨⟨⟩, Z2, h3, h4⟩ := PyM.bind_ok_iff.1 h1
  rw [PyM.get_bind] at h4
  obtain ⟨rows', m0', R', U, g1, g2, g3⟩ := Core.redirectLoopUpTo passes h (hn.upTo hrs) h3
  have hU : Z2.bufferedRedirects = U := g1.redirects
  unfold PyM.require at h4
  split at h4
  · rename_i hlen
    rw [hU, decide_eq_true_eq, List.length_eq_zero_iff] at hlen
    have e12 : Z2 = Z1 := congrArg Prod.snd h4
    subst e12
    subst hlen
    rw [List.append_nil] at g3
    have hR := g3.trans hrs
    unfold Zim.applySetMainpageUrl at h2
    rw [PyM.get_bind, show Z2.bufferedMainpage = some none from g1.mainpage] at h2
    simp only at h2
    rw [PyM.modify_bind] at h2
    obtain ⟨⟨⟩, Z3, h5, h6⟩ := PyM.bind_ok_iff.1 h2
    have gm := g1.bufferMain none
    obtain ⟨k1, k2, rows3, m3, k3⟩ := gm.setNone hW (fun _ => ht.leadsBefore gm fun r hr => hR.sub r hr) h5
    rw [PyM.get_bind] at h6
    have e3 : Z3 = Z' := by
      unfold PyM.require at h6
      split at h6
      · exact congrArg Prod.snd h6
      · cases h6
    subst e3
    exact ⟨rows3, m3, _, k3, k1.trans g2, hR.perm, k2⟩
  · cases h4

/-- the redirects of an archive whose items are partly waiting -/
theorem Core.targetsNow {done : List (List Sourced)} {Gb : List (List (List Sourced))} {P : List Sourced}
    (h : Core false mp X C ML reserve a (Gb.flatten ++ G) rows cs extra es L m0 R B) (hG : (P ++ G.flatten).Perm items)
    (h1 : List.Forall₂ (fun G l => G.flatten.Perm l) Gb done) (hs : ∀ r ∈ l, Separate [r] Gb.flatten items)
    (ho : ∀ l ∈ done ++ [items], ∀ p ∈ l, p.1.fullUrl ≠ URL_ARTICLES)
    (hc : ∀ r ∈ l, ((done ++ [items]).flatten.map fun p => p.1.fullUrl).count r.2.1 ≤ 1 ∧ encode r.2.1 < encode w) :
    Targets l es w := by
  have hGi : ∀ p ∈ G.flatten, p ∈ items := fun p hp => hG.subset (List.mem_append_right _ hp)
  have this : ∀ r ∈ l, Targets [r] es w := fun r hr => by
    refine h.targets (recent := G.flatten) (.refl _) h1 ((hs r hr).sub (.refl _) hGi) ?_ ?_
    · intro x hx p hp
      rcases List.mem_append.1 hx with hx | hx
      · exact ho x (List.mem_append_left _ hx) p hp
      · rw [List.mem_singleton] at hx
        exact ho items (by simp) p (hGi p (hx ▸ hp))
    · intro x hx
      rw [List.mem_singleton] at hx
      rw [hx]
      refine ⟨Nat.le_trans ?_ (hc r hr).1, (hc r hr).2⟩
      have hcount := (hG.map fun p => p.1.fullUrl).count_eq r.2.1
      simp only [List.flatten_append, List.map_append, List.count_append, List.flatten_singleton] at hcount ⊢
      omega
  exact ⟨fun r hr => (this r hr).source r (by simp), fun r hr => (this r hr).once r (by simp), fun r hr => (this r hr).before r (by simp)⟩

/-- Setting or unsetting the main page of an archive. -/
theorem HasAt.setUpTo {done : List (List Sourced)} {Gb : List (List (List Sourced))} {l' : List Redirect}
    (h : HasAt false mp S ML reserve Gb.flatten items rs c G P1 P2) (hu : UpTo Zim.URL_MAINPAGE_REDIRECT rs l) (hdep : 2 ≤ S.depth)
    (h1 : List.Forall₂ (fun G l => G.flatten.Perm l) Gb done) (hl' : l' = l ++ (v.toList.map mainRedirect))
    (hs : ∀ r ∈ l', Separate [r] Gb.flatten items) (hW : Separate [mainRedirect ""] Gb.flatten items)
    (ho : ∀ l ∈ done ++ [items], ∀ p ∈ l, p.1.fullUrl ≠ URL_ARTICLES)
    (hc : ∀ r ∈ l', ((done ++ [items]).flatten.map fun p => p.1.fullUrl).count r.2.1 ≤ 1 ∧
      encode r.2.1 < encode Zim.URL_MAINPAGE_REDIRECT)
    (hok : Creator.setMainpage S v c = (.ok (), c')) (hd : c'.arch.isDirty = true) :
    ∃ mp' rs', HasAt false mp' S ML reserve Gb.flatten items rs' c' G P1 P2 ∧ UpTo Zim.URL_MAINPAGE_REDIRECT rs' l' ∧
      ((∀ u, v = some u → c.arch.zim.hasEntry ("C" ++ u) = .ok false) → mp' = some v) := by
  obtain ⟨⟨rows, cs, extra, es, L, m0, R, B, hc0, hB⟩, hw1, hw2, hf1, hf2, hperm, hcl⟩ := h
  obtain ⟨e, hde⟩ : ∃ e, S.depth = e + 2 := ⟨S.depth - 2, by omega⟩
  unfold Creator.setMainpage Creator.onArch Archive.onZim at hok
  simp only [PyM.of_apply] at hok
  cases hfin : Zim.setMainpageUrl S.blob S.depth v c.arch.zim with
  | mk res Z1 =>
  rw [hfin] at hok
  obtain rfl : res = .ok () := congrArg Prod.fst hok
  have hc' : _ = c' := congrArg Prod.snd hok
  simp only at hc'
  rw [hde] at hfin
  have hGi : ∀ p ∈ G.flatten, p ∈ items := fun p hp => hperm.subset (List.mem_append_right _ hp)
  have hes : Zim.URL_MAINPAGE_REDIRECT ∉ es.map Entry.fullUrl := hc0.apart hW hGi (r := mainRedirect "") (by simp)
  have ht' := hc0.targetsNow hperm h1 hs ho hc
  have hsub : ∀ r ∈ l, r ∈ l' := fun r hr => by rw [hl']; exact List.mem_append_left _ hr
  have ht : Targets l es Zim.URL_MAINPAGE_REDIRECT := ⟨fun r hr => ht'.source r (hsub r hr), fun r hr => ht'.once r (hsub r hr),
    fun r hr => ht'.before r (hsub r hr)⟩
  have hRl : UpTo Zim.URL_MAINPAGE_REDIRECT (R ++ B) l := (UpTo.of_perm hB).trans hu
  have hlead := ht.leadsBefore hc0 fun r hr => hRl.sub r (List.mem_append_left _ hr)
  have hclean : ∀ {mp' : Option (Option String)}, c'.arch.isDirty = false → P1 = [] ∧ P2 = [] ∧ (mp' = none → c'.arch.zim.bufferedRedirects = []) :=
    fun {mp'} h => by rw [hd] at h; cases h
  have hfilter : ∀ T : List Redirect, (∀ r ∈ T, r ∈ R.filter (·.1 ≠ Zim.URL_MAINPAGE_REDIRECT) ++ B ∨ ∃ x, v = some x ∧ r = mainRedirect x) →
      (apartFrom Zim.URL_MAINPAGE_REDIRECT T).Perm (apartFrom Zim.URL_MAINPAGE_REDIRECT (R ++ B)) → UpTo Zim.URL_MAINPAGE_REDIRECT T l' := by
    intro T hT hp
    refine ⟨fun r hr => ?_, (hp.trans hRl.perm).trans ?_⟩
    · rcases hT r hr with h | ⟨x, h, h'⟩
      · refine hsub r (hRl.sub r ?_)
        rcases List.mem_append.1 h with h | h
        · exact List.mem_append_left _ (List.mem_of_mem_filter h)
        · exact List.mem_append_right _ h
      · rw [hl', h, h']
        simp
    · rw [hl']
      unfold apartFrom
      rw [List.filter_append]
      cases v with
      | none => simp
      | some x => simp [mainRedirect]
  cases v with
  | none =>
    obtain ⟨k1, -, rows', m0', k2⟩ := hc0.setNone hes (fun _ => hlead) hfin
    subst hc'
    refine ⟨some none, _, ⟨⟨_, _, _, _, _, _, _, _, k2, .refl _⟩, ?_, ?_, hf1, hf2, hperm, hclean⟩, ?_, fun _ => rfl⟩
    · simpa only [k1] using hw1
    · simpa only [k1] using hw2
    · refine hfilter _ (fun r hr => .inl hr) ?_
      unfold apartFrom
      rw [List.filter_append, List.filter_append, List.filter_filter]
      simp
  | some u =>
    obtain ⟨k1, k2⟩ := hc0.setMain hes (fun _ => hlead) hfin
    subst hc'
    rcases k2 with ⟨-, rows', m0', k2, -⟩ | ⟨hex, rows', m0', i, q, k2, -⟩
    · refine ⟨some (some u), _, ⟨⟨_, _, _, _, _, _, _, _, k2, .refl _⟩, ?_, ?_, hf1, hf2, hperm, hclean⟩, ?_, fun _ => rfl⟩
      · simpa only [k1] using hw1
      · simpa only [k1] using hw2
      · refine hfilter _ (fun r hr => ?_) ?_
        · rcases List.mem_append.1 hr with hr | hr
          · exact .inl (List.mem_append_left _ hr)
          · rcases List.mem_append.1 hr with hr | hr
            · exact .inl (List.mem_append_right _ hr)
            · rw [List.mem_singleton] at hr
              exact .inr ⟨u, rfl, hr⟩
        · unfold apartFrom
          rw [List.filter_append, List.filter_append, List.filter_append, List.filter_filter]
          simp [mainRedirect]
    · refine ⟨mp, _, ⟨⟨_, _, _, _, _, _, _, _, k2, .refl _⟩, ?_, ?_, hf1, hf2, hperm, hclean⟩, ?_, fun hno => ?_⟩
      · simpa only [k1] using hw1
      · simpa only [k1] using hw2
      · refine hfilter _ (fun r hr => ?_) ?_
        · rcases List.mem_append.1 hr with hr | hr
          · rcases List.mem_append.1 hr with hr | hr
            · exact .inl (List.mem_append_left _ hr)
            · rw [List.mem_singleton] at hr
              exact .inr ⟨u, rfl, hr⟩
          · exact .inl (List.mem_append_right _ hr)
        · unfold apartFrom
          rw [List.filter_append, List.filter_append, List.filter_append, List.filter_filter]
          simp [mainRedirect]
      · exfalso
        have := (hc0.hasUrl_iff (u := "C" ++ u)).2 hex
        obtain ⟨b, hb, hbu⟩ := hc0.laid.content.rep.hasEntry ("C" ++ u)
        rw [hno u rfl] at hb
        injection hb with hb
        subst hb
        exact absurd (hbu.2 this) (by simp)

/-- an archive that was flushed, with its main page -/
structure SavedWith (S : Setup D K) (ML : List Bytes) (reserve : Option Nat) (v : Option String) (a : Archive) (Gb : List (List (List Sourced)))
    (recent : List Sourced) (rs : List Redirect) : Prop where
  clean : a.isDirty = false
  core : ∃ mp G rows cs extra es L m0 R, Core false mp S.X S.C ML reserve a (Gb.flatten ++ G) rows cs extra es L m0 R [] ∧
    G.flatten.Perm recent ∧ R.Perm rs
  main : ShowsMain a.zim v

/-- flushing an archive whose main page was unset -/
theorem HasAt.flushNone (hS : S.Good md5 reserve) {done : List (List Sourced)} {Gb : List (List (List Sourced))}
    (h : HasAt false (some none) S ML reserve Gb.flatten items rs c G P1 P2) (hu : UpTo Zim.URL_MAINPAGE_REDIRECT rs l)
    (hdep : 2 ≤ S.depth) (hh : NotHuge items) (h1 : List.Forall₂ (fun G l => G.flatten.Perm l) Gb done)
    (hs : ∀ r ∈ l, Separate [r] Gb.flatten items) (hW : Separate [mainRedirect ""] Gb.flatten items)
    (hn : ((apartFrom Zim.URL_MAINPAGE_REDIRECT l).map (·.1)).Nodup)
    (ho : ∀ l ∈ done ++ [items], ∀ p ∈ l, p.1.fullUrl ≠ URL_ARTICLES)
    (hc : ∀ r ∈ l, ((done ++ [items]).flatten.map fun p => p.1.fullUrl).count r.2.1 ≤ 1 ∧
      encode r.2.1 < encode Zim.URL_MAINPAGE_REDIRECT)
    (hd : c.arch.isDirty = true) (hok : Creator.flush S c = (.ok (), c')) :
    SavedWith S ML reserve none c'.arch Gb items (apartFrom Zim.URL_MAINPAGE_REDIRECT l) := by
  obtain ⟨G', a2, rows, cs, extra, es, L, m0, R, B, k1, hB, hpm, e1, -⟩ := h.strategies hS hh (ho items (by simp)) hd hok
  have ht : Targets l es Zim.URL_MAINPAGE_REDIRECT := k1.targetsNow (P := []) hpm h1 hs ho hc
  have hes : Zim.URL_MAINPAGE_REDIRECT ∉ es.map Entry.fullUrl :=
    k1.apart hW (fun p hp => hpm.subset hp) (r := mainRedirect "") (by simp)
  have hrep : Replacing Zim.URL_MAINPAGE_REDIRECT es l :=
    ⟨fun r hr => (hs r hr).valid r (by simp), ht.source, ht.before, hn⟩
  rw [Archive.flushDirty_eq] at e1
  obtain ⟨⟨⟩, a3, h3, e2⟩ := PyM.bind_ok_iff.1 e1
  unfold Archive.onZim at h3
  cases hfin : Zim.finalizeOperations S.blob S.depth S.passes a2.zim with
  | mk res Z1 =>
  rw [hfin] at h3
  injection h3 with h3 h3'
  simp only at h3
  subst h3
  obtain ⟨e, hde⟩ : ∃ e, S.depth = e + 2 := ⟨S.depth - 2, by omega⟩
  rw [hde] at hfin
  obtain ⟨rows1, m1, R1, g1, -, g2, g3⟩ := k1.finalizeNone hrep ((UpTo.of_perm hB).trans hu) ht hes hfin
  rw [show ({ a2 with zim := Z1 } : Archive) = a3 from h3'] at g1
  obtain ⟨cs', L', j1, j2, -, j3⟩ := g1.flushLists hS e2
  refine ⟨j2, ⟨_, _, _, _, _, _, _, _, _, j1, hpm, g2⟩, ?_⟩
  have hraw : c'.arch.zim.header.mainPageRaw = 0xffffffff := by
    rw [j3, ← h3']
    exact g3
  show c'.arch.zim.mainpageEntry = _
  unfold Zim.mainpageEntry Header.mainPage
  rw [hraw]
  rfl

/-- the redirects that are assumed to exist, in an archive with fewer items -/
theorem counts_mono {done : List (List Sourced)} {items more : List Sourced} {x : String} (h : ((done ++ [items ++ more]).flatten.map fun p => p.1.fullUrl).count x ≤ 1) :
    ((done ++ [items]).flatten.map fun p => p.1.fullUrl).count x ≤ 1 := by
  simp only [List.flatten_append, List.map_append, List.count_append, List.flatten_singleton] at h ⊢
  omega

theorem others_mono {done : List (List Sourced)} {items more : List Sourced} (h : ∀ l ∈ done ++ [items ++ more], ∀ p ∈ l, p.1.fullUrl ≠ URL_ARTICLES) :
    ∀ l ∈ done ++ [items], ∀ p ∈ l, p.1.fullUrl ≠ URL_ARTICLES := by
  intro l hl p hp
  rcases List.mem_append.1 hl with hl | hl
  · exact h l (List.mem_append_left _ hl) p hp
  · rw [List.mem_singleton] at hl
    exact h _ (List.mem_append_right _ (List.mem_singleton.2 rfl)) p (List.mem_append_left _ (hl ▸ hp))

/-- a history in which the main page is set -/
theorem MainRun.onward (hS : S.Good md5 reserve) (hdep : 2 ≤ S.depth) {done : List (List Sourced)} {Gb : List (List (List Sourced))} {c0 : Creator D}
    {items0 : List Sourced} {l0 rs' : List Redirect}
    (h0 : HasAt false mp S ML reserve Gb.flatten items0 rs c0 G P1 P2) (hu0 : UpTo Zim.URL_MAINPAGE_REDIRECT rs l0) (h : MainRun S c0 c items rs')
    (h1 : List.Forall₂ (fun G l => G.flatten.Perm l) Gb done) (hML : ML.length < 65535)
    (hh : NotHuge (items0 ++ items)) (hm : ∀ q ∈ items0 ++ items, encode q.1.mimetype ∈ ML)
    (ho : ∀ l ∈ done ++ [items0 ++ items], ∀ p ∈ l, p.1.fullUrl ≠ URL_ARTICLES)
    (hs : ∀ r ∈ l0 ++ rs', Separate [r] Gb.flatten (items0 ++ items)) (hW : Separate [mainRedirect ""] Gb.flatten (items0 ++ items))
    (hc : ∀ r ∈ l0 ++ rs', ((done ++ [items0 ++ items]).flatten.map fun p => p.1.fullUrl).count r.2.1 ≤ 1 ∧
      encode r.2.1 < encode Zim.URL_MAINPAGE_REDIRECT)
    (hn : ((apartFrom Zim.URL_MAINPAGE_REDIRECT (l0 ++ rs')).map (·.1)).Nodup) :
    ∃ mp' G' P1' P2' rs2, HasAt false mp' S ML reserve Gb.flatten (items0 ++ items) rs2 c G' P1' P2' ∧
      UpTo Zim.URL_MAINPAGE_REDIRECT rs2 (l0 ++ rs') := by
  induction h with
  | start => exact ⟨mp, G, P1, P2, rs, by simpa using h0, by simpa using hu0⟩
  | @add c c' items rs' p force _ hp hok ih =>
    rw [← List.append_assoc] at hh hm ho hs hc hW ⊢
    obtain ⟨mp', G', P1', P2', rs2, k1, k2⟩ := ih (hh.sublist (List.sublist_append_left _ _))
      (fun q hq => hm q (List.mem_append_left _ hq)) (others_mono ho)
      (fun r hr => (hs r hr).sub (.refl _) (fun q hq => List.mem_append_left _ hq))
      (hW.sub (.refl _) (fun q hq => List.mem_append_left _ hq)) (fun r hr => ⟨counts_mono (hc r hr).1, (hc r hr).2⟩) hn
    obtain ⟨rows, cs, extra, es, L, m0, R, B, hc, hB⟩ := k1.core
    obtain ⟨Gn, Q1, Q2, rows2, cs2, es2, l1, l2, l3⟩ := k1.add hS hc hB (hh.sublist (List.sublist_append_left _ _)) hML hp.2
      ⟨hp.1, hm p (by simp), hp.2.2⟩ (fun q hq => ho _ (List.mem_append_right _ (List.mem_singleton.2 rfl)) q hq) hok
    exact ⟨mp', G' ++ Gn, Q1, Q2, rs2, l1, k2⟩
  | @redirect c c' items rs' r _ hv hok hd ih =>
    have hsub : ∀ x ∈ l0 ++ rs', x ∈ l0 ++ (rs' ++ [r]) := fun x hx => by rw [← List.append_assoc]; exact List.mem_append_left _ hx
    obtain ⟨mp', G', P1', P2', rs2, k1, k2⟩ := ih hh hm ho (fun x hx => hs x (hsub x hx)) hW (fun x hx => hc x (hsub x hx))
      (hn.sublist ((List.Sublist.filter _ (by rw [← List.append_assoc]; exact List.sublist_append_left _ _)).map _))
    obtain ⟨G2, Q1, Q2, rs3, l1, l2⟩ := AddedTo.onwardUpTo (w := Zim.URL_MAINPAGE_REDIRECT) hS k1 k2 (.redirect .start hv hok hd) hML
      (by simpa using hh) (fun q hq => ⟨hm q (by simpa using hq), ho _ (List.mem_append_right _ (List.mem_singleton.2 rfl)) q (by simpa using hq)⟩)
      (fun x hx => by
        rw [List.append_assoc] at hx
        rw [List.append_nil]
        exact ⟨hs x (by simpa using hx), (hc x (by simpa using hx)).2⟩) (by simpa using hn)
    exact ⟨mp', G2, Q1, Q2, rs3, by simpa using l1, by simpa using l2⟩
  | @set c c' items rs' u _ hok hd ih =>
    have hsub : ∀ x ∈ l0 ++ rs', x ∈ l0 ++ (rs' ++ [mainRedirect u]) := fun x hx => by rw [← List.append_assoc]; exact List.mem_append_left _ hx
    obtain ⟨mp', G', P1', P2', rs2, k1, k2⟩ := ih hh hm ho (fun x hx => hs x (hsub x hx)) hW (fun x hx => hc x (hsub x hx))
      (hn.sublist ((List.Sublist.filter _ (by rw [← List.append_assoc]; exact List.sublist_append_left _ _)).map _))
    obtain ⟨mp2, rs3, l1, l2, -⟩ := k1.setUpTo k2 hdep h1 (l' := l0 ++ (rs' ++ [mainRedirect u])) (v := some u) (by simp) hs hW ho hc hok hd
    exact ⟨mp2, G', P1', P2', rs3, l1, l2⟩
  | @unset c c' items rs' _ hok hd ih =>
    obtain ⟨mp', G', P1', P2', rs2, k1, k2⟩ := ih hh hm ho hs hW hc hn
    obtain ⟨mp2, rs3, l1, l2, -⟩ := k1.setUpTo k2 hdep h1 (l' := l0 ++ rs') (v := none) (by simp) hs hW ho hc hok hd
    exact ⟨mp2, G', P1', P2', rs3, l1, l2⟩

end Pyzim
