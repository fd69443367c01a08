import Verif.Lemmas.CreatorMain
import Verif.Model.SetMain
import Verif.Props.MainPage

/-!
# The main page of an archive that is being filled
-/

namespace Pyzim
open Zim Creator

variable {D K : Type} {ML : List Bytes} {reserve : Option Nat} {a a' : Archive} {G : List (List Sourced)} {rows : List Row} {cs : List Stored}
  {extra : Nat → Prop} {es : List Entry} {L : Bytes} {m0 : Catalogue} {R B rs : List Redirect}
variable {S : Setup D K} {md5 : Bytes → Bytes} {items : List Sourced} {c c' : Creator D} {d : Nat} {u : String}

theorem encode_C (v : String) : "C" ++ v ≠ "" := by
  intro h
  have := congrArg String.length h
  rw [String.length_append] at this
  simp at this

theorem mainRedirect_valid (u : String) : Redirect.Valid (mainRedirect u) := by
  refine ⟨⟨'W', "mainPage", rfl, by decide, by decide +kernel⟩, encode_C u, (fun t h => by cases h), fun h => ?_⟩
  have h1 : Zim.URL_MAINPAGE_REDIRECT = "C" ++ u := h
  have := congrArg String.toList h1
  rw [String.toList_append] at this
  have h2 : Zim.URL_MAINPAGE_REDIRECT.toList = 'W' :: "mainPage".toList := by decide +kernel
  rw [h2, show "C".toList = ['C'] by decide +kernel] at this
  simp at this

/-- an archive without unsaved changes has fewer entries than the largest number of 32 bits -/
theorem Core.entries_fit (h : Core false mp X C ML reserve a G rows cs extra es L m0 R B) (hd : a.isDirty = false) : rows.length < 2 ^ 32 := by
  obtain ⟨d1, d2, d3, d4, d5⟩ := Archive.notDirty_of hd
  obtain ⟨b, hb, -⟩ := h.laid.header (by first | exact d1 | exact d2 | exact d3 | exact d4)
  obtain ⟨b', -, -, hcount, -⟩ := h.laid.urls (by first | exact d3 | exact d2 | exact d1 | exact d4)
  have hf := Fmt.pack_fits hb
  simp only [Header.format, Header.toVals, Fmt.FitsAll, Fmt.Fits] at hf
  have h1 := hf.2.2.2.2.1.2
  have h2 : a.zim.urls.len = rows.length := h.laid.content.rep.len
  rw [hcount, h2] at h1
  omega

/-- the main page of a flushed archive -/
theorem Core.showsMain {i : Nat} {q : Row} (h : Core false none X C ML reserve a G rows cs extra es L m0 R []) (hd : a.isDirty = false)
    (hR : R.Perm rs) (ht : Targets rs es Zim.URL_MAINPAGE_REDIRECT) (hmr : mainRedirect u ∈ rs) (hi : rows[i]? = some q)
    (hq : q.2.fullUrl = Zim.URL_MAINPAGE_REDIRECT) (hm : a.zim.header.mainPageRaw = i) : ShowsMain a.zim (some u) := by
  have hrep := h.laid.content.rep
  refine ⟨hrep.mainPage_iff.2 ⟨i, q, ?_, hi, hq⟩, ?_⟩
  · have hil : i < rows.length := (List.getElem?_eq_some_iff.1 hi).1
    have := h.entries_fit hd
    unfold Header.mainPage
    rw [hm, if_neg]
    intro he
    omega
  · exact (h.leads _ (hR.mem_iff.2 hmr) (ht.once' h (fun r hr => hR.subset hr) hmr)).leads

theorem Core.targets {done : List (List Sourced)} {recent : List Sourced} {Gb : List (List (List Sourced))}
    (h : Core false mp X C ML reserve a (Gb.flatten ++ G) rows cs extra es L m0 R B) (hG : G.flatten.Perm recent)
    (h1 : List.Forall₂ (fun G l => G.flatten.Perm l) Gb done) (hs : Separate rs Gb.flatten recent)
    (ho : ∀ l ∈ done ++ [recent], ∀ p ∈ l, p.1.fullUrl ≠ URL_ARTICLES)
    (hc : ∀ r ∈ rs, ((done ++ [recent]).flatten.map fun p => p.1.fullUrl).count r.2.1 ≤ 1 ∧ encode r.2.1 < encode w) :
    Targets rs es w := by
  have hflat : ((Gb.flatten ++ G).flatten).Perm (done ++ [recent]).flatten := by
    rw [List.flatten_append, List.flatten_append]
    refine List.Perm.append ?_ (by simpa using hG)
    clear h hs hc hG ho
    induction h1 with
    | nil => exact .refl _
    | cons h _ ih =>
      rw [List.flatten_cons, List.flatten_append, List.flatten_cons]
      exact h.append ih
  have hurls : es.map Entry.fullUrl = URL_ARTICLES :: (Gb.flatten ++ G).flatten.map fun p => p.1.fullUrl := by
    rw [entryFor_urls h.entries, List.map_cons, show slotsOf false 1 (Gb.flatten ++ G) = slots 1 (Gb.flatten ++ G) from rfl, slots_urls]
    congr 1
  refine ⟨fun r hr => h.apart hs (fun p hp => hG.subset hp) hr, fun r hr => ?_, fun r hr => (hc r hr).2⟩
  have ht := (hc r hr).1
  rw [hurls, List.count_cons, (hflat.map _).count_eq]
  by_cases he : r.2.1 = URL_ARTICLES
  · rw [List.count_eq_zero_of_not_mem]
    · split <;> omega
    · intro hm
      obtain ⟨p, hp, hpu⟩ := List.mem_map.1 hm
      obtain ⟨l, hl1, hl2⟩ := List.mem_flatten.1 hp
      exact ho l hl1 p hl2 (hpu.trans he)
  · rw [if_neg (by simpa using Ne.symm he)]
    exact ht

/-- an archive that was flushed, with its main page -/
structure Saved (S : Setup D K) (ML : List Bytes) (reserve : Option Nat) (u : String) (a : Archive) (Gb : List (List (List Sourced)))
    (recent : List Sourced) (rs : List Redirect) : Prop where
  clean : a.isDirty = false
  core : ∃ G rows cs extra es L m0 R, Core false none S.X S.C ML reserve a (Gb.flatten ++ G) rows cs extra es L m0 R [] ∧
    G.flatten.Perm recent ∧ R.Perm rs
  main : ShowsMain a.zim (some u)

/-- flushing an archive with a buffered main page -/
theorem HasAt.flushMain (hS : S.Good md5 reserve) {done : List (List Sourced)} {Gb : List (List (List Sourced))}
    (h : HasAt false (some (some u)) S ML reserve Gb.flatten items rs c G P1 P2) (hdep : 2 ≤ S.depth) (hh : NotHuge items)
    (h1 : List.Forall₂ (fun G l => G.flatten.Perm l) Gb done) (hs : Separate rs Gb.flatten items) (hmr : mainRedirect u ∈ rs)
    (ho : ∀ l ∈ done ++ [items], ∀ p ∈ l, p.1.fullUrl ≠ URL_ARTICLES)
    (hc : ∀ r ∈ rs, ((done ++ [items]).flatten.map fun p => p.1.fullUrl).count r.2.1 ≤ 1 ∧
      encode r.2.1 < encode Zim.URL_MAINPAGE_REDIRECT)
    (hd : c.arch.isDirty = true) (hok : Creator.flush S c = (.ok (), c')) : Saved S ML reserve u c'.arch Gb items rs := by
  obtain ⟨G', a2, rows, cs, extra, es, L, m0, R, B, k1, hB, hpm, e1, -⟩ := h.strategies hS hh (ho items (by simp)) hd hok
  have ht := k1.targets hpm h1 hs ho hc
  rw [Archive.flushDirty_eq] at e1
  obtain ⟨⟨⟩, a3, h3, e2⟩ := PyM.bind_ok_iff.1 e1
  unfold Archive.onZim at h3
  cases hfin : Zim.finalizeOperations S.blob S.depth S.passes a2.zim with
  | mk res Z1 =>
  rw [hfin] at h3
  injection h3 with h3 h3'
  simp only at h3
  subst h3
  obtain ⟨e, hde⟩ : ∃ e, S.depth = e + 2 := ⟨S.depth - 2, by omega⟩
  rw [hde] at hfin
  obtain ⟨rows1, m1, R1, i, q, g1, -, g2, g3, g4, g5⟩ := k1.finalizeMain (k1.newSources hs hB fun p hp => hpm.subset hp) hB ht
    hs.nodup hmr hfin
  rw [show ({ a2 with zim := Z1 } : Archive) = a3 from h3'] at g1
  obtain ⟨cs', L', j1, j2, -, j3⟩ := g1.flushLists hS e2
  refine ⟨j2, ⟨_, _, _, _, _, _, _, _, j1, hpm, g2⟩, j1.showsMain j2 g2 ht hmr g3 g4 ?_⟩
  rw [j3, ← h3']
  exact g5

/-- setting the main page to a page that is not there yet -/
theorem HasAt.setMain {G0 : List (List Sourced)} (h : HasAt false none S ML reserve G0 items rs c G P1 P2)
    (hdep : 2 ≤ S.depth) (hs : Separate (rs ++ [mainRedirect u]) G0 items) (hno : c.arch.zim.hasEntry ("C" ++ u) = .ok false)
    (hok : Creator.setMainpage S (some u) c = (.ok (), c')) :
    HasAt false (some (some u)) S ML reserve G0 items (rs ++ [mainRedirect u]) c' G P1 P2 := by
  obtain ⟨⟨rows, cs, extra, es, L, m0, R, B, hc, hB⟩, hw1, hw2, hf1, hf2, hperm, hcl⟩ := h
  obtain ⟨e, hde⟩ : ∃ e, S.depth = e + 2 := ⟨S.depth - 2, by omega⟩
  unfold Creator.setMainpage Creator.onArch Archive.onZim at hok
  simp only [PyM.of_apply] at hok
  cases hfin : Zim.setMainpageUrl S.blob S.depth (some u) c.arch.zim with
  | mk res Z1 =>
  rw [hfin] at hok
  obtain rfl : res = .ok () := congrArg Prod.fst hok
  have hc' : _ = c' := congrArg Prod.snd hok
  simp only at hc'
  rw [hde] at hfin
  have hGi : ∀ p ∈ G.flatten, p ∈ items := fun p hp => hperm.subset (List.mem_append_right _ hp)
  have hW : m0 Zim.URL_MAINPAGE_REDIRECT = none := by
    cases hm : m0 Zim.URL_MAINPAGE_REDIRECT with
    | none => rfl
    | some v =>
      exfalso
      obtain ⟨r, hr, hru⟩ := hc.only _ _ hm
      have hn := hs.nodup
      rw [List.map_append, List.nodup_append] at hn
      exact hn.2.2 r.1 (List.mem_map_of_mem (f := (·.1)) (hB.subset (List.mem_append_left _ hr))) _ (by simp; rfl) hru
  obtain ⟨k1, k2⟩ := hc.setMain (hc.apart hs hGi (r := mainRedirect u) (by simp)) (fun h => absurd hW h) hfin
  rcases k2 with ⟨-, rows', m0', k2, k3⟩ | ⟨hex, -⟩
  · have hZ := k3 hW
    subst hc'
    refine ⟨⟨_, _, _, _, _, _, _, _, k2, ?_⟩, ?_, ?_, hf1, hf2, hperm, fun hd => ?_⟩
    · rw [List.filter_eq_self.2, ← List.append_assoc]
      · exact hB.append_right _
      · intro r hr
        simp only [decide_eq_true_eq]
        intro he
        have hn := hs.nodup
        rw [List.map_append, List.nodup_append] at hn
        exact hn.2.2 r.1 (List.mem_map_of_mem (f := (·.1)) (hB.subset (List.mem_append_left _ hr))) _ (by simp; rfl) he
    · simpa only [k1] using hw1
    · simpa only [k1] using hw2
    · have : c.arch.isDirty = false := by
        rw [← hd]
        simp only
        rw [hZ]
        rfl
      exact ⟨(hcl this).1, (hcl this).2.1, fun hn => by cases hn⟩
  · exfalso
    have := (hc.hasUrl_iff (u := "C" ++ u)).2 hex
    obtain ⟨b, hb, hbu⟩ := hc.laid.content.rep.hasEntry ("C" ++ u)
    rw [hno] at hb
    injection hb with hb
    subst hb
    exact absurd (hbu.2 this) (by simp)

/-! ### A strategy with nothing to flush -/

theorem Simple.flushOn_nil {σ : Type} {X : Codecs D} {Bk : Backend σ D} {t : CompressionType} {mx : Int} {mts : MimeTypeList}
    {s : Simple D} (h : Simple.Pending X t mx mts [] s) (z : σ) : Simple.flushOn Bk (s, z) = (.ok (), (s, z)) := by
  have he : s.entries = [] := by
    have := h.entries
    cases he : s.entries with
    | nil => rfl
    | cons e l => rw [he] at this; cases this
  unfold Simple.flushOn
  rw [PyM.get_bind]
  simp only [he, List.isEmpty_nil, if_true]
  rfl

theorem ByMimetype.flushAllOn_nil {σ : Type} {X : Codecs D} {Bk : Backend σ D} {t : CompressionType} {mx : Int} {mts : MimeTypeList} (z : σ)
    {l : List (String × Simple D)} (h : ∀ q ∈ l, Simple.Pending X t mx mts [] q.2) : ByMimetype.flushAllOn Bk l z = (.ok (), l, z) := by
  induction l with
  | nil => rfl
  | cons q l ih =>
    obtain ⟨k, s⟩ := q
    unfold ByMimetype.flushAllOn
    rw [Simple.flushOn_nil (h (k, s) List.mem_cons_self)]
    simp only [ih fun q hq => h q (List.mem_cons_of_mem _ hq)]

theorem Strategy.Waits.flushOn_nil {σ : Type} {X : Codecs D} {Bk : Backend σ D} {t : CompressionType} {mx : Int} {mts : MimeTypeList}
    {s : Strategy D} (h : s.Waits X t mx mts []) (z : σ) : Strategy.flushOn Bk (s, z) = (.ok (), (s, z)) := by
  cases s with
  | simple s =>
    show ((Simple.flushOn Bk (s, z)).1, (Strategy.simple (Simple.flushOn Bk (s, z)).2.1, (Simple.flushOn Bk (s, z)).2.2)) = _
    rw [Simple.flushOn_nil h]
  | byMimetype s =>
    obtain ⟨-, -, -, cur, h1, -, h3⟩ := h
    have h4 : ∀ q ∈ s.strategies, Simple.Pending X t mx mts [] q.2 := by
      intro q hq
      have h5 := h1 q hq
      have : cur q.1 = [] := by
        have := h3.eq_nil
        rw [List.flatMap_eq_nil_iff] at this
        exact this q.1 (List.mem_map_of_mem hq)
      rwa [this] at h5
    show ((ByMimetype.flushAllOn Bk s.strategies z).1, (Strategy.byMimetype { s with strategies := (ByMimetype.flushAllOn Bk s.strategies z).2.1 },
      (ByMimetype.flushAllOn Bk s.strategies z).2.2)) = _
    rw [ByMimetype.flushAllOn_nil z h4]

/-- flushing an archive without anything that waits -/
theorem Core.flush_now {t : CompressionType} {mx mx' : Int} {mts mts' : MimeTypeList} (hS : S.Good md5 reserve)
    (h : Core false none S.X S.C ML reserve c.arch G rows cs extra es L m0 R []) (hw1 : c.main.Waits S.X t mx mts [])
    (hw2 : c.plain.Waits S.X .none mx' mts' []) (hok : Creator.flush S c = (.ok (), c')) :
    ∃ cs' L', Core false none S.X S.C ML reserve c'.arch G rows cs' extra es L' m0 R [] ∧ c'.arch.isDirty = false ∧
      c'.arch.zim.header.mainPageRaw = c.arch.zim.header.mainPageRaw := by
  unfold Creator.flush at hok
  rw [PyM.get_bind, PyM.bind_ok (show PyM.require (!c.arch.zim.closed) .zimFileClosed c = (.ok (), c) by
    rw [h.laid.content.rep.isOpen]; rfl), PyM.bind_ok (show PyM.require c.arch.zim.mutable .nonMutable c = (.ok (), c) by
    rw [h.laid.content.rep.isMutable]; rfl)] at hok
  cases hd : c.arch.isDirty with
  | false =>
    rw [if_neg (by rw [hd]; simp), PyM.pure_apply] at hok
    have : c = c' := congrArg Prod.snd hok
    subst this
    exact ⟨cs, L, h, hd, rfl⟩
  | true =>
    rw [if_pos hd, PyM.bind_ok (show Creator.onMain (Strategy.flushOn (Zim.backend S.X S.C S.depth)) c = (.ok (), c) by
      unfold Creator.onMain
      rw [PyM.of_apply, hw1.flushOn_nil]), PyM.bind_ok (show Creator.onPlain (Strategy.flushOn (Zim.backend S.X S.C S.depth)) c = (.ok (), c) by
      unfold Creator.onPlain
      rw [PyM.of_apply, hw2.flushOn_nil])] at hok
    unfold Creator.onArch at hok
    rw [PyM.of_apply, Archive.flushDirty_eq] at hok
    have hfin : Archive.onZim (Zim.finalizeOperations S.blob S.depth S.passes) c.arch = (.ok (), c.arch) := by
      cases hp : S.passes with
      | zero =>
        exfalso
        rw [hp] at hok
        have h1 := congrArg Prod.fst hok
        simp only at h1
        rw [PyM.bind_err (show Archive.onZim (Zim.finalizeOperations S.blob S.depth 0) c.arch = (.error .hang, c.arch) from rfl)] at h1
        cases h1
      | succ n =>
        unfold Archive.onZim Zim.finalizeOperations
        rw [PyM.bind_ok (Zim.applyRedirects_nil S.depth n h.redirects), Zim.applySetMainpageUrl_none _ _ h.mainpage]
    rw [PyM.bind_ok hfin] at hok
    cases hrest : (Archive.onZim (Archive.flushArticles (Creator.setListing S)) >>= fun _ =>
      Archive.restOf S.H S.short S.chunksize S.policy) c.arch with
    | mk res a1 =>
    rw [hrest] at hok
    obtain rfl : res = .ok () := congrArg Prod.fst hok
    have hc' : _ = c' := congrArg Prod.snd hok
    subst hc'
    obtain ⟨cs', L', k1, k2, -, k3⟩ := h.flushLists hS hrest
    exact ⟨cs', L', k1, k2, k3⟩

/-- setting the main page of an archive without unsaved changes to a page that is there, and flushing it -/
theorem HasAt.setMainNow {c1 : Creator D} {done : List (List Sourced)} {Gb : List (List (List Sourced))} (hS : S.Good md5 reserve)
    (h : HasAt false none S ML reserve Gb.flatten items rs c G P1 P2)
    (hdep : 2 ≤ S.depth) (h1 : List.Forall₂ (fun G l => G.flatten.Perm l) Gb done)
    (hs : Separate (rs.filter (·.1 ≠ Zim.URL_MAINPAGE_REDIRECT) ++ [mainRedirect u]) Gb.flatten items) (hs0 : Separate rs Gb.flatten items)
    (ho : ∀ l ∈ done ++ [items], ∀ p ∈ l, p.1.fullUrl ≠ URL_ARTICLES)
    (hct : ∀ r ∈ rs ++ [mainRedirect u], ((done ++ [items]).flatten.map fun p => p.1.fullUrl).count r.2.1 ≤ 1 ∧
      encode r.2.1 < encode Zim.URL_MAINPAGE_REDIRECT)
    (hd : c.arch.isDirty = false) (hyes : c.arch.zim.hasEntry ("C" ++ u) = .ok true)
    (hok : Creator.setMainpage S (some u) c = (.ok (), c1)) (hfl : Creator.flush S c1 = (.ok (), c')) :
    Saved S ML reserve u c'.arch Gb items (rs.filter (·.1 ≠ Zim.URL_MAINPAGE_REDIRECT) ++ [mainRedirect u]) := by
  obtain ⟨⟨rows, cs, extra, es, L, m0, R, B, hc, hB⟩, ⟨t, mx1, -, hw1⟩, ⟨mx2, hw2⟩, -, -, hperm, hcl⟩ := h
  obtain ⟨rfl, rfl, hb⟩ := hcl hd
  replace hb := hb rfl
  obtain rfl : B = [] := hc.redirects.symm.trans hb
  rw [List.append_nil] at hB
  replace hperm : G.flatten.Perm items := by simpa using hperm
  obtain ⟨e, hde⟩ : ∃ e, S.depth = e + 2 := ⟨S.depth - 2, by omega⟩
  unfold Creator.setMainpage Creator.onArch Archive.onZim at hok
  simp only [PyM.of_apply] at hok
  cases hfin : Zim.setMainpageUrl S.blob S.depth (some u) c.arch.zim with
  | mk res Z1 =>
  rw [hfin] at hok
  obtain rfl : res = .ok () := congrArg Prod.fst hok
  have hc' : _ = c1 := congrArg Prod.snd hok
  simp only at hc'
  rw [hde] at hfin
  have hGi : ∀ p ∈ G.flatten, p ∈ items := fun p hp => hperm.subset hp
  have ht0 := hc.targets hperm h1 hs0 ho fun r hr => hct r (List.mem_append_left _ hr)
  obtain ⟨-, k2⟩ := hc.setMain (hc.apart hs hGi (r := mainRedirect u) (by simp))
    (fun _ => ht0.leadsBefore hc fun r hr => hB.subset hr) hfin
  rcases k2 with ⟨hnex, -⟩ | ⟨-, rows', m0', i, q, k2, k3, k4, k5⟩
  · exfalso
    obtain ⟨b, hb, hbu⟩ := hc.laid.content.rep.hasEntry ("C" ++ u)
    rw [hyes] at hb
    injection hb with hb
    exact (hc.hasUrl_iff (u := "C" ++ u)).1 (hbu.1 hb.symm) hnex
  · subst hc'
    obtain ⟨cs', L', j1, j2, j3⟩ := Core.flush_now (c := { c with arch := { c.arch with zim := Z1 } }) hS k2 hw1 hw2 hfl
    have hR := (hB.filter (·.1 ≠ Zim.URL_MAINPAGE_REDIRECT)).append_right [mainRedirect u]
    refine ⟨j2, ⟨_, _, _, _, _, _, _, _, j1, hperm, hR⟩, ?_⟩
    have ht := j1.targets (w := Zim.URL_MAINPAGE_REDIRECT) hperm h1 hs ho fun r hr => hct r (by
      rcases List.mem_append.1 hr with hr | hr
      · exact List.mem_append_left _ (List.mem_of_mem_filter hr)
      · exact List.mem_append_right _ hr)
    exact j1.showsMain j2 hR ht (by simp) k3 k4 (j3.trans k5)

theorem AddedTo.valid {c0 : Creator D} (h : AddedTo S c0 c items rs) : ∀ x ∈ rs, x.Valid := by
  induction h with
  | start => intro x hx; cases hx
  | add _ _ _ ih => exact ih
  | redirect _ hv _ _ ih =>
    intro x hx
    rcases List.mem_append.1 hx with hx | hx
    · exact ih x hx
    · rw [List.mem_singleton] at hx
      rw [hx]
      exact hv

end Pyzim
