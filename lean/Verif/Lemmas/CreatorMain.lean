import Verif.Lemmas.CreatorCrash
import Verif.Lemmas.MainPage

/-!
# An archive filled by strategies: its main page
-/

namespace Pyzim
namespace Zim

variable {A : PointerList}

theorem keeps_removeTail (d k o : Nat) (e0 : Entry) (u : String) : Keeps (ArtsKept A) (Zim.removeTail d k o e0 u) := by
  unfold Zim.removeTail
  refine Keeps.get.bind fun z => (Keeps.lift _).bind fun us => (Keeps.lift _).bind fun b => Keeps.bind ?_ fun _ =>
    Keeps.bind ?_ fun _ => (keeps_onUrls _).bind fun _ => Keeps.bind ?_ fun _ =>
    (keeps_updateUrlPointers (fun e => keeps_writeEntry _ _ e _ _) _ _ _ _).bind fun _ => (keeps_markFree _ _).bind fun _ => Keeps.pure _
  · split
    · unfold removeArticle
      refine Keeps.get.bind fun z => (Keeps.lift _).bind fun i => keeps_onArticles fun l => removeByIndex_kept l _
    · exact Keeps.pure _
  · unfold removeTitle
    intro z hz
    beta_reduce
    repeat' split
    all_goals first | exact hz | exact keeps_onTitles _ z hz
  · unfold clearMainPage
    refine Keeps.get.bind fun z => ?_
    split
    · exact keeps_onHeader _
    · exact Keeps.pure _

end Zim

open Zim (Row Stored Clustered Works Lists Art MimesIn Mirrored catalogue marked Redirect Leads Once catalogue_snoc
  catalogue_other)
open SpaceAllocator (InBlock)

variable {D K : Type} {X : Codecs D} {C : Compressors K} {ML : List Bytes} {reserve : Option Nat} {a a' : Archive}
  {G G' : List (List Sourced)} {rows : List Row} {cs : List Stored} {extra : Nat → Prop} {es : List Entry} {L : Bytes}
  {m0 : Catalogue} {R B : List Redirect} {r : Redirect} {d : Nat} {Z' : Zim}

/-- the catalogue without one of its entries -/
def Catalogue.drop (m : Catalogue) (w : String) : Catalogue := fun u => if u = w then none else m u

theorem catalogue_drop (m0 : Catalogue) {es : List Entry} {w : String} (hu : w ∉ es.map Entry.fullUrl) :
    catalogue (m0.drop w) es = (catalogue m0 es).drop w := by
  induction es using snoc_induction with
  | h0 => rfl
  | h1 es x ih =>
    rw [List.map_append, List.mem_append, not_or] at hu
    have hx : ¬ w = x.fullUrl := by simpa using hu.2
    rw [catalogue_snoc, catalogue_snoc, ih hu.1]
    funext u
    unfold Catalogue.write Catalogue.drop
    by_cases h1 : u = x.fullUrl
    · have h2 : ¬ u = w := fun h => hx (h.symm.trans h1)
      simp only [if_pos h1, if_neg h2]
    · by_cases h2 : u = w
      · simp only [if_neg h1, if_pos h2, Option.some.injEq]
      · simp only [if_neg h1, if_neg h2, Option.some.injEq]

theorem catalogue_congr {m0 m1 : Catalogue} {es : List Entry} {u : String} (h : m1 u = m0 u) :
    catalogue m1 es u = catalogue m0 es u := by
  apply Option.ext
  intro v
  rw [catalogue_iff, catalogue_iff, h]

/-- removing a redirect that no other one leads to and that all articles precede -/
theorem Core.unredirect (h : Core gh mp X C ML reserve a G rows cs extra es L m0 R B) {w : String} {v : View}
    (hm : m0 w = some v) (hes : w ∉ es.map Entry.fullUrl) (hno : ∀ s, ¬ Leads a.zim s w)
    (hlast : ∀ u, marked (fun _ => False) es u → encode u < encode w) {bd blob : Entry → PyM Zim Unit}
    (hok : Zim.removeEntry bd d blob w a.zim = (.ok (), Z')) :
    ∃ rows', Core gh mp X C ML reserve { a with zim := Z' } G rows' cs extra es L (m0.drop w) (R.filter (·.1 ≠ w)) B ∧
      Z'.mimetypes = a.zim.mimetypes := by
  have hrep := h.laid.content.rep
  have hdist := Zim.distinct_of_sorted hrep.sorted
  obtain ⟨r0, hr0, hr0u⟩ := h.only _ _ hm
  obtain ⟨v', hv', hsh⟩ := h.shown r0 hr0
  rw [hr0u, hm] at hv'
  injection hv' with hv'
  subst hv'
  obtain ⟨⟨o, e0⟩, hq, hqu, hqv⟩ := (h.lists w v).1 (by rw [catalogue_other m0 hes]; exact hm)
  simp only at hqu hqv
  have hred : e0.isRedirect = true := by
    refine (hrep.store.clean _ hq).isRedirect.2 ?_
    have hb := hsh.body
    rw [← hqv] at hb
    unfold Entry.view at hb
    simp only at hb ⊢
    cases hk : e0.kind with
    | redirect i => exact ⟨i, rfl⟩
    | content c b => rw [hk] at hb; cases hb
  obtain ⟨k, hk⟩ := List.getElem?_of_mem hq
  cases d with
  | zero => cases hok
  | succ d =>
  have hok0 := hok
  rw [← hqu, hrep.removeEntry_eq hk, hred] at hok
  simp only [if_true, PyM.pure_bind_fn] at hok
  obtain ⟨us, Z1, h1, h2⟩ := PyM.bind_ok_iff.1 hok
  obtain ⟨hus, hrep', hfr, -, hrange, hart⟩ := hrep.removeTail_ok hk d h1
  have hnil : us = [] := by
    rw [List.eq_nil_iff_forall_not_mem]
    intro u hu
    obtain ⟨-, q, hq1, hq2, hq3⟩ := (hus u).1 hu
    refine hno u (hrep.leads_iff.2 ⟨q, hq1, hq2, k, _, hq3, hk, hqu⟩)
  subst hnil
  have e1 : Z1 = Z' := by
    have : Zim.removeAll (Zim.removeEntry bd d bd) [] Z1 = (.ok (), Z1) := rfl
    rw [this] at h2
    exact congrArg Prod.snd h2
  subst e1
  have hcut := Zim.cut_erased hdist hk (D := (· = w)) hqu hrange
  have hgone := Zim.not_mem_erased hdist hk
  obtain ⟨rows', hl⟩ := h.laid.works (O := ClusterObj.ops X C) (.step .refl (.remove (bd := bd) (blob := blob) (fun e z1 he hr _ => by
    rw [← hqu, hrep.entryByFullUrl hq] at he
    injection he with he
    rw [← he, hred] at hr
    cases hr) hok0))
  have hr : rows' = Zim.erased rows k := Zim.Rep.unique hrep' hl.content.rep
  subst hr
  have hcat : catalogue (m0.drop w) es = (catalogue m0 es).drop w := catalogue_drop m0 hes
  have hother : ∀ u, u ≠ w → catalogue (m0.drop w) es u = catalogue m0 es u := by
    intro u hu
    rw [hcat]; unfold Catalogue.drop; rw [if_neg hu]
  refine ⟨Zim.erased rows k, ⟨hl, h.first, ?_, h.other, ?_, ?_, ?_, hfr.redirects.trans h.redirects,
    hfr.mainpage.trans h.mainpage, ?_, ?_, ?_, ?_⟩, hfr.mimetypes⟩
  · show List.Forall₂ (fun (s : Item × Nat × Nat) e => EntryFor Z1.mimetypes s.1 s.2.1 s.2.2 e) _ _
    rw [hfr.mimetypes]; exact h.entries
  · intro u v1
    by_cases hu : u = w
    · rw [hcat]
      unfold Catalogue.drop
      rw [if_pos hu]
      constructor
      · intro hh; cases hh
      · rintro ⟨q, hq1, hq2, -⟩
        exact absurd (hq2.trans hu) (by rw [← hqu]; exact hgone q hq1)
    · rw [hother u hu, h.lists u v1]
      constructor
      · rintro ⟨q, hq1, hq2, hq3⟩
        obtain ⟨q', hq1', hq2'⟩ := hcut.keep q hq1 (by rw [hq2]; exact hu)
        obtain ⟨q0, h01, -, h03⟩ := hcut.sub q' hq1'
        have := hdist.row_eq h01 hq1 (by rw [Entry.blank_fullUrl h03, hq2'])
        subst this
        exact ⟨q', hq1', by rw [hq2', hq2], by rw [← hq3]; exact Entry.view_of_blank h03.symm⟩
      · rintro ⟨q', hq1', hq2', hq3'⟩
        obtain ⟨q0, h01, -, h03⟩ := hcut.sub q' hq1'
        exact ⟨q0, h01, by rw [Entry.blank_fullUrl h03, hq2'], by rw [← hq3']; exact Entry.view_of_blank h03⟩
  · have := hart _ h.art (Or.inr fun i s hi hs hS => by
      have h1 := hlast _ hS
      obtain ⟨hki, hrk⟩ := List.getElem?_eq_some_iff.1 hk
      obtain ⟨hii, hri⟩ := List.getElem?_eq_some_iff.1 hs
      have h2 := List.pairwise_iff_getElem.1 hrep.sorted k i hki hii hi
      rw [hrk, hri] at h2
      simp only [hqu] at h2
      exact Std.lt_irrefl (Std.lt_trans h1 h2))
    refine this.congr fun u => ⟨fun hh => hh.1, fun hh => ⟨hh, ?_⟩⟩
    rw [hqu]
    rintro rfl
    exact marked_other hes hh
  · show MimesIn ML Z1.mimetypes
    rw [hfr.mimetypes]; exact h.mimes
  · intro hd
    have := Zim.keeps_removeTail d k o e0 e0.fullUrl a.zim (A := a.zim.articles) (Or.inl rfl)
    rw [h1] at this
    rcases this with e | e
    · simp only at hd e ⊢
      rw [e] at hd ⊢
      exact h.listed hd
    · simp only at hd e
      rw [e] at hd; cases hd
  · intro r' hr'
    rw [List.mem_filter, decide_eq_true_eq] at hr'
    obtain ⟨v1, k1, k2⟩ := h.shown r' hr'.1
    exact ⟨v1, by unfold Catalogue.drop; rw [if_neg hr'.2]; exact k1, k2⟩
  · intro u v1 huv
    unfold Catalogue.drop at huv
    split at huv
    · cases huv
    · rename_i hu
      obtain ⟨r', hr', e⟩ := h.only u v1 huv
      exact ⟨r', List.mem_filter.2 ⟨hr', by rw [e]; simpa using hu⟩, e⟩
  · intro r' hr' hO
    rw [List.mem_filter, decide_eq_true_eq] at hr'
    have hO' : Once m0 es r'.1 r'.2.1 := ⟨hO.source, hO.target, fun hne => by
      by_cases he : r'.2.1 = w
      · rw [he]; exact hes
      · exact hO.new (by unfold Catalogue.drop; rw [if_neg he]; exact hne)⟩
    have hl1 := h.leads r' hr'.1 hO'
    have h3 : r'.2.1 ≠ w := fun he => hno r'.1 (by rw [← he]; exact hl1.leads)
    have hR := hrep.leads_iff.1 hl1.leads
    refine ⟨hrep'.leads_iff.2 (hcut.leads _ _ ?_ ?_ hR), fun hn => ?_⟩
    · obtain ⟨q, hq1, hq2, -⟩ := hR
      rw [← hq2]
      exact hcut.keep q hq1 (by rw [hq2]; exact hr'.2)
    · obtain ⟨_, _, _, _, q, _, hq1, hq2⟩ := hR
      rw [← hq2]
      exact hcut.keep q (List.mem_of_getElem? hq1) (by rw [hq2]; exact h3)
    · obtain ⟨v1, v2, k1, k2, k3⟩ := hl1.title hn
      exact ⟨v1, v2, by rw [hother _ hr'.2]; exact k1, by rw [hother _ h3]; exact k2, k3⟩

/-- every redirect leads to an entry before `w` -/
def LeadsBefore (rows : List Row) (w : String) : Prop :=
  ∀ q ∈ rows, ∀ i, q.2.kind = .redirect i → ∃ p, rows[i]? = some p ∧ encode p.2.fullUrl < encode w

theorem LeadsBefore.unused (h : LeadsBefore rows w) {z : Zim} {other : Nat → Prop} (hrep : Zim.Rep z rows other) (s : String) :
    ¬ Leads z s w := by
  intro hl
  obtain ⟨q, hq, -, i, p, hi, hp, hpu⟩ := hrep.leads_iff.1 hl
  obtain ⟨p', hp', hlt⟩ := h q hq i hi
  rw [hp] at hp'
  injection hp' with hp'
  subst hp'
  rw [hpu] at hlt
  exact Std.lt_irrefl hlt

/-- the redirect can be removed -/
theorem Core.unredirect_total (h : Core gh mp X C ML reserve a G rows cs extra es L m0 R B) {w : String} {v : View}
    (hm : m0 w = some v) (hes : w ∉ es.map Entry.fullUrl) (hlead : LeadsBefore rows w)
    (hlast : ∀ u, marked (fun _ => False) es u → encode u < encode w) (bd blob : Entry → PyM Zim Unit) (d : Nat) :
    ∃ Z', Zim.removeEntry bd (d + 2) blob w a.zim = (.ok (), Z') := by
  have hrep := h.laid.content.rep
  obtain ⟨r0, hr0, hr0u⟩ := h.only _ _ hm
  obtain ⟨v', hv', hsh⟩ := h.shown r0 hr0
  rw [hr0u, hm] at hv'
  injection hv' with hv'
  subst hv'
  obtain ⟨⟨o, e0⟩, hq, hqu, hqv⟩ := (h.lists w v).1 (by rw [catalogue_other m0 hes]; exact hm)
  simp only at hqu hqv
  have hred : e0.isRedirect = true := by
    refine (hrep.store.clean _ hq).isRedirect.2 ?_
    have hb := hsh.body
    rw [← hqv] at hb
    unfold Entry.view at hb
    simp only at hb ⊢
    cases hk : e0.kind with
    | redirect i => exact ⟨i, rfl⟩
    | content c b => rw [hk] at hb; cases hb
  obtain ⟨k, hk⟩ := List.getElem?_of_mem hq
  obtain ⟨hki, hrk⟩ := List.getElem?_eq_some_iff.1 hk
  obtain ⟨res, Z1, h1, h2, h3⟩ := hrep.removeTail hk d
  have hafter : ∀ i s, k < i → rows[i]? = some s → encode w < encode s.2.fullUrl := by
    intro i s hi hs
    obtain ⟨hii, hri⟩ := List.getElem?_eq_some_iff.1 hs
    have h2 := List.pairwise_iff_getElem.1 hrep.sorted k i hki hii hi
    rw [hrk, hri] at h2
    simp only [hqu] at h2
    exact h2
  obtain ⟨us, rfl⟩ := h3 _ h.art (Or.inr fun i s hi hs hS => Std.lt_irrefl (Std.lt_trans (hlast _ hS) (hafter i s hi hs)))
    (by
      rintro s v1 hs ⟨i, hi, -, hki', -⟩
      exfalso
      obtain ⟨p, hp, hlt⟩ := hlead s (List.mem_of_mem_eraseIdx hs) i hi
      rcases Nat.lt_or_eq_of_le hki' with h' | h'
      · exact Std.lt_irrefl (Std.lt_trans hlt (hafter i p h' hp))
      · rw [← h', hk] at hp
        injection hp with hp
        rw [← hp] at hlt
        simp only [hqu] at hlt
        exact Std.lt_irrefl hlt)
  have hnil : us = [] := by
    rw [List.eq_nil_iff_forall_not_mem]
    intro u hu
    obtain ⟨-, q, hq1, hq2, hq3⟩ := ((h2 us rfl).1 u).1 hu
    exact hlead.unused hrep u (hrep.leads_iff.2 ⟨q, hq1, hq2, k, _, hq3, hk, hqu⟩)
  subst hnil
  refine ⟨Z1, ?_⟩
  rw [← hqu, hrep.removeEntry_eq hk, hred]
  simp only [if_true, PyM.pure_bind_fn]
  rw [PyM.bind_ok h1]
  rfl

/-- the redirect to the main page -/
def mainRedirect (u : String) : Redirect := (Zim.URL_MAINPAGE_REDIRECT, "C" ++ u, none)

theorem Core.marked_before (h : Core gh mp X C ML reserve a G rows cs extra es L m0 R B) (u : String)
    (hu : marked (fun _ => False) es u) : encode u < encode Zim.URL_MAINPAGE_REDIRECT :=
  Zim.Art.before_main h.laid.content.rep h.art u hu

theorem Core.hasUrl_iff (h : Core gh mp X C ML reserve a G rows cs extra es L m0 R B) (u : String) :
    Zim.HasUrl rows u ↔ catalogue m0 es u ≠ none := by
  constructor
  · rintro ⟨q, hq, hqu⟩ hn
    have := (h.lists u q.2.view).2 ⟨q, hq, hqu, rfl⟩
    rw [hn] at this
    cases this
  · intro hn
    cases hv : catalogue m0 es u with
    | none => exact absurd hv hn
    | some v =>
      obtain ⟨q, hq, hqu, -⟩ := (h.lists u v).1 hv
      exact ⟨q, hq, hqu⟩

/-- removing the redirect to the old main page -/
theorem Core.removeMain (h : Core gh mp X C ML reserve a G rows cs extra es L m0 R B)
    (hes : Zim.URL_MAINPAGE_REDIRECT ∉ es.map Entry.fullUrl) (hlead : m0 Zim.URL_MAINPAGE_REDIRECT ≠ none → LeadsBefore rows Zim.URL_MAINPAGE_REDIRECT)
    {blob : Entry → PyM Zim Unit}
    (hok : Zim.removeMainpageRedirect blob (d + 2) a.zim = (.ok (), Z')) :
    ∃ rows' m0', Core gh mp X C ML reserve { a with zim := Z' } G rows' cs extra es L m0'
        (R.filter (·.1 ≠ Zim.URL_MAINPAGE_REDIRECT)) B ∧
      m0' Zim.URL_MAINPAGE_REDIRECT = none ∧ Z'.mimetypes = a.zim.mimetypes ∧
      (∀ u, u ≠ Zim.URL_MAINPAGE_REDIRECT → m0' u = m0 u) ∧ (m0 Zim.URL_MAINPAGE_REDIRECT = none → Z' = a.zim) := by
  cases hm : m0 Zim.URL_MAINPAGE_REDIRECT with
  | none =>
    have hno : ∀ r ∈ rows, r.2.fullUrl ≠ Zim.URL_MAINPAGE_REDIRECT := by
      intro q hq he
      exact (h.hasUrl_iff _).1 ⟨q, hq, he⟩ (by rw [catalogue_other m0 hes]; exact hm)
    unfold Zim.removeMainpageRedirect at hok
    rw [h.laid.content.rep.removeEntry_missing hno] at hok
    have e : a.zim = Z' := congrArg Prod.snd hok
    subst e
    have hR : R.filter (·.1 ≠ Zim.URL_MAINPAGE_REDIRECT) = R := by
      rw [List.filter_eq_self]
      intro r' hr'
      obtain ⟨v, hv, -⟩ := h.shown r' hr'
      simp only [decide_eq_true_eq]
      intro he
      rw [he, hm] at hv
      cases hv
    refine ⟨rows, m0, ?_, hm, rfl, fun _ _ => rfl, fun _ => rfl⟩
    rw [hR]
    exact h
  | some v =>
    replace hlead := hlead (by rw [hm]; simp)
    obtain ⟨Z1, h1⟩ := h.unredirect_total hm hes hlead h.marked_before blob blob d
    unfold Zim.removeMainpageRedirect at hok
    rw [h1] at hok
    have e : Z1 = Z' := congrArg Prod.snd hok
    subst e
    obtain ⟨rows', k1, k2⟩ := h.unredirect hm hes (hlead.unused h.laid.content.rep) h.marked_before h1
    exact ⟨rows', _, k1, by simp [Catalogue.drop], k2, fun u hu => by unfold Catalogue.drop; rw [if_neg hu],
      fun hn => by cases hn⟩

/-- What a call of `set_mainpage_url` does: the main page is set or buffered. -/
theorem Core.setMain (h : Core gh mp X C ML reserve a G rows cs extra es L m0 R B) {u : String}
    (hes : Zim.URL_MAINPAGE_REDIRECT ∉ es.map Entry.fullUrl) (hlead : m0 Zim.URL_MAINPAGE_REDIRECT ≠ none → LeadsBefore rows Zim.URL_MAINPAGE_REDIRECT)
    {blob : Entry → PyM Zim Unit} (hok : Zim.setMainpageUrl blob (d + 2) (some u) a.zim = (.ok (), Z')) :
    Z'.mimetypes = a.zim.mimetypes ∧
    ((catalogue m0 es ("C" ++ u) = none ∧ ∃ rows' m0', Core gh (some (some u)) X C ML reserve { a with zim := Z' } G rows' cs extra es L m0'
        (R.filter (·.1 ≠ Zim.URL_MAINPAGE_REDIRECT)) (B ++ [mainRedirect u]) ∧
        (m0 Zim.URL_MAINPAGE_REDIRECT = none →
          Z' = { a.zim with bufferedRedirects := a.zim.bufferedRedirects ++ [mainRedirect u], bufferedMainpage := some (some u) })) ∨
    (catalogue m0 es ("C" ++ u) ≠ none ∧ ∃ rows' m0' i q, Core gh mp X C ML reserve { a with zim := Z' } G rows' cs extra es L m0'
        (R.filter (·.1 ≠ Zim.URL_MAINPAGE_REDIRECT) ++ [mainRedirect u]) B ∧
      rows'[i]? = some q ∧ q.2.fullUrl = Zim.URL_MAINPAGE_REDIRECT ∧ Z'.header.mainPageRaw = i)) := by
  have hrep := h.laid.content.rep
  rw [Zim.setMainpageUrl_some _ _ _ hrep.isOpen hrep.isMutable] at hok
  obtain ⟨⟨⟩, Z1, h1, hok⟩ := PyM.bind_ok_iff.1 hok
  obtain ⟨rows1, m1, k1, k2, k3, k4, k5⟩ := h.removeMain hes hlead h1
  obtain ⟨⟨⟩, Z2, h2, hok⟩ := PyM.bind_ok_iff.1 hok
  have hcat : catalogue m1 es ("C" ++ u) = catalogue m0 es ("C" ++ u) := catalogue_congr (k4 _ (Zim.page_ne_main u))
  rw [PyM.get_bind] at hok
  by_cases ht : Zim.HasUrl rows1 ("C" ++ u)
  · obtain ⟨rows2, m2, g1, g2, -, -⟩ := k1.redirect_found (r := mainRedirect u) (Zim.main_valid u) hes k2 ht h2
    have hrep2 := g1.laid.content.rep
    obtain ⟨v, hv, -⟩ := g1.shown (mainRedirect u) (by simp)
    obtain ⟨q, hq, hqu⟩ := (g1.hasUrl_iff Zim.URL_MAINPAGE_REDIRECT).2 (by
      rw [catalogue_other _ hes, show m2 Zim.URL_MAINPAGE_REDIRECT = some v from hv]; simp)
    obtain ⟨i, hi⟩ := List.getElem?_of_mem hq
    have hui := hrep2.urlIndex hi
    rw [hqu] at hui
    simp only at hui
    rw [hui] at hok
    simp only at hok
    have hraw : Z'.header.mainPageRaw = i ∧ Z' = Z2.setHeader Z'.header ∧ Z'.header.mutable = true := by
      have hmut : Z2.header.mutable = true := hrep2.headerMutable
      rw [Zim.onHeader_setHeader] at hok
      have hZ := congrArg Prod.snd hok
      simp only at hZ
      rw [← hZ]
      refine ⟨?_, rfl, ?_⟩
      · show (Z2.header.setMainPage (some (i : Int))).2.mainPageRaw = i
        unfold Header.setMainPage
        simp only [hmut, Bool.not_true, Bool.false_eq_true, if_false, Int.toNat_natCast]
        rw [if_neg (by omega)]
        split
        · rfl
        · rename_i hh
          exact (by simpa using hh : i = _).symm
      · show (Z2.header.setMainPage (some (i : Int))).2.mutable = true
        unfold Header.setMainPage
        simp only [hmut, Bool.not_true, Bool.false_eq_true, if_false, Int.toNat_natCast]
        rw [if_neg (by omega)]
        split
        · rfl
        · exact hmut
    obtain ⟨rows3, hl⟩ := g1.laid.works (O := ClusterObj.ops X C) (.step .refl (.mainPage hok))
    have hr : rows3 = rows2 := Zim.Rep.unique (z := Z') (by rw [hraw.2.1]; exact hrep2.setHeader hraw.2.2) hl.content.rep
    subst hr
    have hz := hraw.2.1
    refine ⟨by rw [hz]; exact g2.trans k3, .inr ⟨?_, rows3, m2, i, q, ?_, hi, hqu, hraw.1⟩⟩
    · rw [← hcat]; exact (k1.hasUrl_iff _).1 ht
    · generalize Z'.header = H at hz hraw
      subst hz
      exact ⟨hl, g1.first, g1.entries, g1.other, g1.lists, g1.art, g1.mimes, g1.redirects, g1.mainpage, g1.listed, g1.shown,
        g1.only, fun r hr hO => ⟨hl.content.rep.leads_iff.2 (hrep2.leads_iff.1 (g1.leads r hr hO).leads), (g1.leads r hr hO).title⟩⟩
  · have hrep1 := k1.laid.content.rep
    have hadd : Zim.addFullUrlRedirect (d + 2) Zim.URL_MAINPAGE_REDIRECT ("C" ++ u) none Z1 =
        (.ok (), Z1.withBuffer (Z1.bufferedRedirects ++ [mainRedirect u])) :=
      hrep1.addRedirect_missing (r := mainRedirect u) (Zim.main_valid u) ht (d + 2)
    have hZ := congrArg Prod.snd (hadd.symm.trans h2)
    simp only at hZ
    subst hZ
    have hno : ∀ r ∈ rows1, r.2.fullUrl ≠ Zim.URL_MAINPAGE_REDIRECT := by
      intro q hq he
      exact (k1.hasUrl_iff _).1 ⟨q, hq, he⟩ (by rw [catalogue_other _ hes]; exact k2)
    rw [(hrep1.withBuffer _).urlIndex_missing hno] at hok
    simp only at hok
    have hZ : _ = Z' := congrArg Prod.snd hok
    have hb := (k1.buffer (B ++ [mainRedirect u])).bufferMain (some (some u))
    refine ⟨by rw [← hZ]; exact k3, .inl ⟨?_, rows1, m1, ?_, fun hn => by rw [← hZ, ← k5 hn]; rfl⟩⟩
    · rw [← hcat]
      cases hc : catalogue m1 es ("C" ++ u) with
      | none => rfl
      | some v => exact absurd ((k1.hasUrl_iff _).2 (by rw [hc]; simp)) ht
    · rw [← hZ]
      have := k1.redirects
      simp only at this
      rw [← this] at hb
      rw [← this]
      exact hb

/-- redirects lead to entries before `w` if their targets are before `w` -/
theorem Core.leadsBefore (h : Core gh mp X C ML reserve a G rows cs extra es L m0 R B) {w : String}
    (hR : ∀ r ∈ R, Once m0 es r.1 r.2.1 ∧ encode r.2.1 < encode w) : LeadsBefore rows w := by
  intro q hq i hi
  have hrep := h.laid.content.rep
  have hc := (h.lists _ _).2 ⟨q, hq, rfl, rfl⟩
  rcases (catalogue_iff _ _ _ _).1 hc with ⟨e, he, -, hev⟩ | ⟨-, hm⟩
  · exfalso
    obtain ⟨s, -, hse⟩ := forall₂_mem_right h.entries (lastOnes_sub he)
    have hb : e.view.body = q.2.view.body := by rw [hev]
    unfold Entry.view at hb
    rw [hse.location, hi] at hb
    cases hb
  · obtain ⟨r, hr, hru⟩ := h.only _ _ hm
    obtain ⟨hO, hlt⟩ := hR r hr
    obtain ⟨q', hq', hqu', j, p, hj, hp, hpu⟩ := hrep.leads_iff.1 (h.leads r hr hO).leads
    have := (Zim.distinct_of_sorted hrep.sorted).row_eq hq' hq (by rw [hqu', hru])
    subst this
    rw [hi] at hj
    injection hj with hj
    subst hj
    exact ⟨p, hp, by rw [hpu]; exact hlt⟩

/-- What is asked of the redirects of an archive: their sources are no items, items with the url of a target were added at most once, and
the targets are before `w`. -/
structure Targets (rs : List Redirect) (es : List Entry) (w : String) : Prop where
  source : ∀ r ∈ rs, r.1 ∉ es.map Entry.fullUrl
  once : ∀ r ∈ rs, (es.map Entry.fullUrl).count r.2.1 ≤ 1
  before : ∀ r ∈ rs, encode r.2.1 < encode w

theorem Targets.once' (ht : Targets rs es w) (h : Core gh mp X C ML reserve a G rows cs extra es L m0 R B) (hR : ∀ r ∈ R, r ∈ rs)
    (hr : r ∈ rs) : Once m0 es r.1 r.2.1 := by
  refine ⟨ht.source r hr, ht.once r hr, fun hm => ?_⟩
  cases hv : m0 r.2.1 with
  | none => exact absurd hv hm
  | some v =>
    obtain ⟨r', hr', he⟩ := h.only _ _ hv
    rw [← he]
    exact ht.source r' (hR r' hr')

theorem Targets.leadsBefore (ht : Targets rs es w) (h : Core gh mp X C ML reserve a G rows cs extra es L m0 R B) (hR : ∀ r ∈ R, r ∈ rs) :
    LeadsBefore rows w :=
  h.leadsBefore fun r hr => ⟨ht.once' h hR (hR r hr), ht.before r (hR r hr)⟩

/-- without the main page, and with it again -/
theorem filter_main_perm {u : String} (hn : (R.map (·.1)).Nodup) (hm : mainRedirect u ∈ R) :
    (R.filter (·.1 ≠ Zim.URL_MAINPAGE_REDIRECT) ++ [mainRedirect u]).Perm R := by
  induction R with
  | nil => cases hm
  | cons r R ih =>
    rw [List.map_cons, List.nodup_cons] at hn
    by_cases hr : r = mainRedirect u
    · subst hr
      have : R.filter (·.1 ≠ Zim.URL_MAINPAGE_REDIRECT) = R := by
        rw [List.filter_eq_self]
        intro r' hr'
        simp only [decide_eq_true_eq]
        intro he
        exact hn.1 (by rw [show (mainRedirect u).1 = r'.1 from he.symm]; exact List.mem_map_of_mem hr')
      rw [List.filter_cons_of_neg (by simp [mainRedirect]), this]
      exact List.perm_append_comm
    · have hm' : mainRedirect u ∈ R := (List.mem_cons.1 hm).resolve_left (Ne.symm hr)
      rw [List.filter_cons_of_pos, List.cons_append]
      · exact (ih hn.2 hm').cons _
      · simp only [decide_eq_true_eq]
        intro he
        exact hn.1 (by rw [he]; exact List.mem_map_of_mem (f := (·.1)) hm')

/-- the buffered operations are executed -/
theorem Core.finalizeMain {u : String} (h : Core gh (some (some u)) X C ML reserve a G rows cs extra es L m0 R B) (hn : NewSources es m0 B)
    (hrs : (R ++ B).Perm rs) (ht : Targets rs es Zim.URL_MAINPAGE_REDIRECT) (hnd : (rs.map (·.1)).Nodup) (hmr : mainRedirect u ∈ rs)
    {blob : Entry → PyM Zim Unit} {passes : Nat} (hok : Zim.finalizeOperations blob (d + 2) passes a.zim = (.ok (), Z')) :
    ∃ rows' m0' R' i q, Core gh none X C ML reserve { a with zim := Z' } G rows' cs extra es L m0' R' [] ∧
      Z'.mimetypes = a.zim.mimetypes ∧ R'.Perm rs ∧
      rows'[i]? = some q ∧ q.2.fullUrl = Zim.URL_MAINPAGE_REDIRECT ∧ Z'.header.mainPageRaw = i := by
  unfold Zim.finalizeOperations at hok
  obtain ⟨⟨⟩, Z1, h1, h2⟩ := PyM.bind_ok_iff.1 hok
  unfold Zim.applyRedirects at h1
  obtain ⟨⟨⟩, Z2, h3, h4⟩ := PyM.bind_ok_iff.1 h1
  rw [PyM.get_bind] at h4
  obtain ⟨rows', m0', R', U, g1, g2, g3⟩ := Core.redirectLoop passes h hn h3
  have hU : Z2.bufferedRedirects = U := g1.redirects
  unfold PyM.require at h4
  split at h4
  · rename_i hlen
    rw [hU, decide_eq_true_eq, List.length_eq_zero_iff] at hlen
    have e12 : Z2 = Z1 := congrArg Prod.snd h4
    subst e12
    subst hlen
    rw [List.append_nil] at g3
    have hR : (R ++ R').Perm rs := (g3.append_left _).trans hrs
    unfold Zim.applySetMainpageUrl at h2
    rw [PyM.get_bind, show Z2.bufferedMainpage = some (some u) from g1.mainpage] at h2
    simp only at h2
    rw [PyM.modify_bind] at h2
    obtain ⟨⟨⟩, Z3, h5, h6⟩ := PyM.bind_ok_iff.1 h2
    have gm := g1.bufferMain none
    have hWes : Zim.URL_MAINPAGE_REDIRECT ∉ es.map Entry.fullUrl := ht.source _ hmr
    obtain ⟨k1, k2⟩ := gm.setMain hWes (fun _ => ht.leadsBefore gm fun r hr => hR.subset hr) h5
    rw [PyM.get_bind] at h6
    rcases k2 with ⟨-, rows3, m3, k2, -⟩ | ⟨-, rows3, m3, i, q, k2, k3, k4, k5⟩
    · exfalso
      have := k2.mainpage
      simp only at this
      rw [this] at h6
      simp [PyM.require] at h6
    · have hm3 := k2.mainpage
      simp only at hm3
      rw [hm3] at h6
      have e3 : Z3 = Z' := by
        unfold PyM.require at h6
        simp at h6
        exact h6
      subst e3
      refine ⟨rows3, m3, _, i, q, k2, k1.trans g2, ?_, k3, k4, k5⟩
      exact (filter_main_perm ((hR.map (·.1)).nodup_iff.2 hnd) (hR.mem_iff.2 hmr)).trans hR
  · cases h4

end Pyzim
