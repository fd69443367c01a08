import Verif.Lemmas.Translated
import Verif.Props.MainKept

/-!
# C89: a translated archive, in the file that is written
-/

namespace Pyzim
namespace TransInput
open Zim (Redirect ShowsMain)
open Creator (openArchive toMain RedirectWorks timesAdded)

variable {D K : Type} {S : Setup D K} {md5 : Bytes → Bytes} {r : Nat} {inp : TransInput} {content : Entry → Bytes} {c0 c : Creator D}
  {main plain : Strategy D} {t : CompressionType} {p : Entry}

/-- an entry has a title -/
theorem title_ne {e : Entry} (h : e.url.length ≠ 0) : e.title ≠ "" := by
  intro h0
  unfold Entry.title at h0
  split at h0
  · apply h; rw [h0]; rfl
  · split at h0
    · apply h; rw [h0]; rfl
    · next hne => exact hne h0

/-- pyzim creates no pages -/
theorem not_created {u : String} : "C" ++ u ∉ ["Xlisting/titleOrdered/v0", "Xlisting/titleOrdered/v1", "MCounter"] := by
  intro hx
  simp only [List.mem_cons, List.not_mem_nil, or_false] at hx
  rcases hx with hx | hx | hx
  · have := (append_inj_of_one_byte (a := "C") (b := "X") (t := "listing/titleOrdered/v0") (by decide) (by decide) hx).1
    revert this; decide
  · have := (append_inj_of_one_byte (a := "C") (b := "X") (t := "listing/titleOrdered/v1") (by decide) (by decide) hx).1
    revert this; decide
  · have := (append_inj_of_one_byte (a := "C") (b := "M") (t := "Counter") (by decide) (by decide) hx).1
    revert this; decide

/-- a new archive has no pages -/
theorem new_has_no_page {uuid : Bytes} (hr : 2 ≤ r) (hS : S.Good md5 (some r)) (hu : uuid.length = 16) (W : Working S.X S.C t)
    (hm : main.IsNew t) (hp : plain.IsNew .none) (hnew : Creator.new S uuid main plain = .ok c0) (u : String) :
    c0.arch.zim.hasEntry ("C" ++ u) = .ok false := by
  obtain ⟨G, P1, P2, ⟨rows, cs, extra, es, L, m0, R, B, hc, hB⟩, -, -, -, -, hperm, -⟩ :=
    Has.new (ML := [encode Creator.placeholder.mimetype]) hr hS hu W hm hp (by simp) (by simp) hnew
  obtain ⟨b, hb, hbu⟩ := hc.laid.content.rep.hasEntry ("C" ++ u)
  cases b with
  | false => exact hb
  | true =>
    exfalso
    have hG : G.flatten = [] := by
      have := hperm.length_eq
      simp only [List.length_append, List.length_nil] at this
      exact List.eq_nil_of_length_eq_zero (by omega)
    have hR : R = [] := by
      have := hB.length_eq
      simp only [List.length_append, List.length_nil] at this
      exact List.eq_nil_of_length_eq_zero (by omega)
    have hurls : es.map Entry.fullUrl = URL_ARTICLES :: ([] ++ G).flatten.map fun (q : Sourced) => q.1.fullUrl := by
      rw [Creator.entryFor_urls hc.entries, List.map_cons, show slotsOf false 1 ([] ++ G) = slots 1 ([] ++ G) from rfl, Creator.slots_urls]
      congr 1
    rw [List.nil_append, hG, List.map_nil] at hurls
    have hne : "C" ++ u ∉ es.map Entry.fullUrl := by
      rw [hurls, List.mem_singleton]
      intro he
      have := (append_inj_of_one_byte (a := "C") (b := "X") (t := "listing/titleOrdered/v1") (by decide) (by decide) he).1
      revert this
      decide
    have := (hc.hasUrl_iff _).1 (hbu.1 rfl)
    rw [Zim.catalogue_other m0 hne] at this
    cases hm0 : m0 ("C" ++ u) with
    | none => exact this hm0
    | some v =>
      obtain ⟨x, hx, -⟩ := hc.only _ _ hm0
      rw [hR] at hx
      cases hx

/-- **C89, in full.** Translating an archive into a new one yields a file that shows the same: the main page, the items, the
redirects with their titles, and nothing else. -/
def C89Full (D K : Type) : Prop := ∀ (S : Setup D K) (md5 : Bytes → Bytes) (r : Nat) (inp : TransInput) (content : Entry → Bytes)
  (c0 c : Creator D) (main plain : Strategy D) (t : CompressionType) (p : Entry) (uuid : Bytes), 2 ≤ r → S.Good md5 (some r) →
  2 ≤ S.depth → uuid.length = 16 → Working S.X S.C t → main.IsNew t → plain.IsNew .none → Creator.new S uuid main plain = .ok c0 →
  inp.Copyable content → inp.MainPage p → p.ns = "C" → inp.translateInto S handleItem c0 = (.ok (), c) →
  ∀ (kind : ClusterKind) (calls follow : Nat) (titles : Zim → PyRes PointerList),
    ∃ a, openArchive { S with kind := kind, calls := calls, follow := follow } titles false c.arch.zim.file = .ok a ∧
      ShowsMain a.zim (some p.url) ∧ IsCopy S.X kind calls inp content a.zim ∧ SameTitles inp a.zim

/-- **C89, partial.** If an archive is translated into a new archive, and this ends without an exception, then everybody who
opens the written file finds the main page, every entry that pyzim does not create itself, with its values and content, or
leading to its target, and nothing else; the titles of redirects are the same unless they are those that entries have without
a title. The output is closed. -/
theorem C89_copy_partial {uuid : Bytes} (hr : 2 ≤ r) (hS : S.Good md5 (some r)) (hdep : 2 ≤ S.depth) (hu : uuid.length = 16)
    (W : Working S.X S.C t) (hm : main.IsNew t) (hpl : plain.IsNew .none) (hnew : Creator.new S uuid main plain = .ok c0)
    (hC : inp.Copyable content) (hp : inp.MainPage p) (hns : p.ns = "C") (hrun : inp.translateInto S handleItem c0 = (.ok (), c))
    (kind : ClusterKind) (calls follow : Nat) (titles : Zim → PyRes PointerList) :
    c.arch.zim.closed = true ∧
    ∃ a, openArchive { S with kind := kind, calls := calls, follow := follow } titles false c.arch.zim.file = .ok a ∧
      ShowsMain a.zim (some p.url) ∧ IsCopy S.X kind calls inp content a.zim ∧
      ∀ e ∈ inp.entries, ∀ i, e.kind = .redirect i → e.ns ++ e.url ≠ "WmainPage" → e.title ≠ e.url →
        ∃ e', a.zim.entryByFullUrl (e.ns ++ e.url) = .ok e' ∧ e'.title = e.title := by
  have hw := hC.wellFormed
  obtain ⟨body, kept, hcalls, hnd, hkept, hlast, hf⟩ := C69_translate inp hw p hp hC.redirects
  have hrun' : TransCall.runAll S ([.setMainpage p.url] ++ body ++ [.flushOut, .closeIn, .closeOut]) c0 = (.ok (), c) := by
    unfold translateInto at hrun
    rw [hcalls, PyM.of_apply] at hrun
    split at hrun
    next x c' hx => cases congrArg Prod.fst hrun
    next c' hx => rw [hx]; exact hrun
  obtain ⟨c2, h12, h3⟩ := runAll_append hrun'
  obtain ⟨c1, h1, h2⟩ := runAll_append h12
  obtain ⟨d1, h1, h1'⟩ := runAll_cons h1
  have hd1 : d1 = c1 := congrArg Prod.snd h1'
  rw [hd1] at h1
  obtain ⟨c3, h3, h4⟩ := runAll_cons h3
  obtain ⟨d3, h4', h4⟩ := runAll_cons h4
  have hd3 : c3 = d3 := congrArg Prod.snd h4'
  rw [← hd3] at h4
  obtain ⟨d4, h4, h5⟩ := runAll_cons h4
  have hd4 : d4 = c := congrArg Prod.snd h5
  rw [hd4] at h4
  -- the main page is among the entries
  have hpk : p ∈ inp.entries ∧ ∃ k b, p.kind = .content k b := by
    obtain ⟨i, m, n, -, k2, -, k4, k5⟩ := hp
    refine ⟨?_, k5⟩
    have hm := List.mem_of_getElem? k2
    clear k2
    induction n generalizing m with
    | zero => cases k4; exact hm
    | succ n ih =>
      obtain ⟨j, q, -, q2, q3⟩ := k4
      exact ih q q3 (List.mem_of_getElem? q2)
  have hpkept : p ∈ kept := by
    refine (hkept p).2 ⟨hpk.1, ?_⟩
    rintro ⟨hx, -⟩
    rw [hns] at hx
    exact not_created hx
  have hhead : ∃ e es, kept = e :: es ∧ ∃ k b, e.kind = .content k b := by
    cases hk : kept with
    | nil => rw [hk] at hpkept; cases hpkept
    | cons e es =>
      refine ⟨e, es, rfl, ?_⟩
      cases hek : e.kind with
      | content k b => exact ⟨k, b, rfl⟩
      | redirect i =>
        exfalso
        rw [hk] at hpkept hlast
        obtain ⟨k, b, hkb⟩ := hpk.2
        rcases List.mem_cons.1 hpkept with rfl | hm
        · rw [hek] at hkb; cases hkb
        · obtain ⟨j, hj⟩ := (List.pairwise_cons.1 hlast).1 p hm ⟨i, hek⟩
          rw [hj] at hkb; cases hkb
  obtain ⟨its, reds, hadd, hdirty, hits, hreds⟩ := added_calls hC hf (c0 := _) (fun e he => ((hkept e).1 he).1) (.inr hhead) .start h2
  rw [List.nil_append, List.nil_append] at hadd
  -- the urls
  have hurls : (its.map fun q => q.1.fullUrl) = (kept.filter fun e => !e.isRedirect).map fun e => e.ns ++ e.url :=
    forall₂_map_eq hits fun e q hq => by
      show q.1.ns ++ q.1.url = _
      rw [hq.1.ns, hq.1.url]
  have hsrcs : (reds.map fun x => x.1) = (kept.filter fun e => e.isRedirect).map fun e => e.ns ++ e.url :=
    forall₂_map_eq hreds fun e x hx => hx.1
  have hkin : ∀ e ∈ kept, e ∈ inp.entries := fun e he => ((hkept e).1 he).1
  have hinj : ∀ e ∈ kept, ∀ e' ∈ kept, e.ns ++ e.url = e'.ns ++ e'.url → e = e' := fun e he e' he' h =>
    List.inj_on_of_nodup_map hw.urls (hkin e he) (hkin e' he') h
  have hndk : (kept.map fun e => e.ns ++ e.url).Nodup := hnd.map_on hinj
  have hart : ∀ q ∈ its, q.1.fullUrl ≠ URL_ARTICLES := by
    intro q hq he
    obtain ⟨e, hek, h⟩ := forall₂_mem_right hits hq
    have hek' := List.mem_filter.1 hek
    have hein := (hkept e).1 hek'.1
    apply hein.2
    refine ⟨?_, ?_⟩
    · have : e.ns ++ e.url = "Xlisting/titleOrdered/v1" := by
        rw [← h.1.ns, ← h.1.url]; exact he
      rw [this]; simp
    · have h1 := hek'.2
      have := hw.kind e hein.1
      cases hk : e.kind with
      | content k b => exact ⟨k, b, rfl⟩
      | redirect i => rw [hk] at this; rw [this] at h1; cases h1
  have hredk : ∀ x ∈ reds, ∃ e ∈ inp.entries, e ∈ kept ∧ e.isRedirect = true ∧ RedirectOf inp e x := by
    intro x hx
    obtain ⟨e, hek, h⟩ := forall₂_mem_right hreds hx
    have := List.mem_filter.1 hek
    exact ⟨e, hkin e this.1, this.1, this.2, h⟩
  have hA : Apart ([] ++ [toMain p.url] ++ reds.filter (·.1 ≠ "WmainPage")) ([] ++ [[] ++ its]) := by
    refine ⟨?_, ?_, ?_⟩
    · rw [List.nil_append, List.singleton_append, List.map_cons, List.nodup_cons]
      refine ⟨?_, ?_⟩
      · intro hm
        obtain ⟨x, hx, hxe⟩ := List.mem_map.1 hm
        have := (List.mem_filter.1 hx).2
        rw [show x.1 = "WmainPage" from hxe] at this
        simp at this
      · have : (reds.map fun x => x.1).Nodup := by
          rw [hsrcs]
          exact hndk.sublist (List.filter_sublist.map _)
        exact this.sublist (List.filter_sublist.map _)
    · intro x hx
      rw [List.nil_append, List.singleton_append, List.mem_cons] at hx
      rcases hx with rfl | hx
      · show "WmainPage" ≠ "Xlisting/titleOrdered/v1"
        decide
      · obtain ⟨e, hein, -, -, h⟩ := hredk x (List.mem_of_mem_filter hx)
        obtain ⟨i, q, hk, -, -⟩ := h.2.1
        rw [h.1]
        exact hC.listing e hein i hk
    · intro x hx l hl q hq he
      rw [List.nil_append, List.mem_singleton, List.nil_append] at hl
      rw [hl] at hq
      obtain ⟨e, hek, h⟩ := forall₂_mem_right hits hq
      have hek' := List.mem_filter.1 hek
      have hqe : q.1.fullUrl = e.ns ++ e.url := by
        show q.1.ns ++ q.1.url = _
        rw [h.1.ns, h.1.url]
      rw [List.nil_append, List.singleton_append, List.mem_cons] at hx
      rcases hx with rfl | hx
      · obtain ⟨i, hi⟩ := hC.mainRedirect e (hkin e hek'.1) (hqe.symm.trans he)
        have := hw.kind e (hkin e hek'.1)
        rw [hi] at this
        rw [this] at hek'
        cases hek'.2
      · obtain ⟨e', -, hek2, hred, h'⟩ := hredk x (List.mem_of_mem_filter hx)
        have := hinj e hek'.1 e' hek2 (hqe.symm.trans (he.trans h'.1))
        rw [this, hred] at hek'
        cases hek'.2
  -- the mimetypes
  have hmts : ∃ mts : List String, mts.length < 65534 ∧ ∀ q ∈ its, q.1.mimetype ∈ mts := by
    refine ⟨inp.mimetypes.mimetypes.filterMap fun b => match decode b with | .ok s => some s | .error _ => none, ?_, ?_⟩
    · exact Nat.lt_of_le_of_lt (List.length_filterMap_le _ _) hC.mimetypes
    · intro q hq
      obtain ⟨e, -, h⟩ := forall₂_mem_right hits hq
      rw [List.mem_filterMap]
      exact ⟨_, List.mem_of_getElem? h.1.mimetype, by rw [decode_encode]⟩
  obtain ⟨mts, hmts1, hmts2⟩ := hmts
  have hndits : (its.map fun q => q.1.fullUrl).Nodup := by
    rw [hurls]
    exact hndk.sublist (List.filter_sublist.map _)
  have hbatch : ∀ l ∈ [] ++ [[] ++ its], Creator.Batch mts l := by
    intro l hl
    rw [List.nil_append, List.mem_singleton, List.nil_append] at hl
    rw [hl]
    refine ⟨hndits, hmts2, hart, ?_⟩
    have hlen : its.length = (kept.filter fun e => !e.isRedirect).length := hits.length_eq.symm
    have hsum : its.map (fun q => q.2.length) = (kept.filter fun e => !e.isRedirect).map fun e => (content e).length :=
      forall₂_map_eq hits fun e q hq => by rw [hq.2]
    obtain ⟨k1, k2⟩ := sum_le_of_subset (fun e => (content e).length) (hnd.sublist (List.filter_sublist (p := fun e => !e.isRedirect)))
      (fun e he => hkin e (List.mem_of_mem_filter he))
    have := hC.size
    unfold NotHuge
    rw [hsum, hlen]
    omega
  have hone : ∀ x ∈ [] ++ [toMain p.url] ++ reds, timesAdded ([] ++ [[] ++ its]) x.2.1 ≤ 1 ∧ encode x.2.1 < encode "WmainPage" := by
    intro x hx
    refine ⟨?_, ?_⟩
    · unfold timesAdded
      rw [List.nil_append, List.nil_append, List.flatten_singleton]
      exact List.nodup_iff_count_le_one.1 hndits _
    · rw [List.nil_append, List.singleton_append, List.mem_cons] at hx
      rcases hx with rfl | hx
      · show encode ("C" ++ p.url) < encode "WmainPage"
        rw [encode_append]
        exact List.Lex.rel (by decide)
      · obtain ⟨e, hein, -, -, h⟩ := hredk x hx
        obtain ⟨i, q, hk, hq, ht⟩ := h.2.1
        rw [ht]
        exact (hC.targets e hein i q hk hq).2
  have hd2 : c2.arch.isDirty = true := by unfold Archive.isDirty; rw [hdirty]; rfl
  have h0 : CreatorHist S c0 [] [] [] := .new hu W hm hpl hnew
  obtain ⟨hclean, a, g1, g2, g3, g4⟩ := Creator.C85_kept_partial hr hS hdep h0 (new_has_no_page hr hS hu W hm hpl hnew p.url) h1 hadd hd2 h3
    hA hmts1 hbatch hone kind calls follow titles
  obtain ⟨c5, h6, h7⟩ := Creator.close_ok (c' := c) h4
  have h8 : c5 = c3 := by
    rcases h6 with ⟨-, h⟩ | ⟨h, -⟩
    · exact h
    · rw [hclean] at h; cases h
  rw [h8] at h7
  rw [h7]
  have hcur : current ([] ++ [[] ++ its]) = its := by simp [current]
  rw [hcur] at g3
  -- what becomes of each entry
  have hred : ∀ e ∈ inp.entries, ∀ i, e.kind = .redirect i → ∃ x ∈ reds, RedirectOf inp e x := by
    intro e he i hk
    refine forall₂_mem_left hreds (List.mem_filter.2 ⟨(hkept e).2 ⟨he, ?_⟩, ?_⟩)
    · rintro ⟨-, k, b, hkb⟩
      rw [hk] at hkb; cases hkb
    · rw [hw.kind e he, hk]
  have hcon : ∀ e ∈ inp.entries, ∀ k b, e.kind = .content k b → ¬ CreatedByPyzim e → ∃ q ∈ its, ItemOf inp content e q := by
    intro e he k b hk hn
    refine forall₂_mem_left hits (List.mem_filter.2 ⟨(hkept e).2 ⟨he, hn⟩, ?_⟩)
    rw [hw.kind e he, hk]
    rfl
  have hurl : ∀ {e : Entry} {q : Sourced}, ItemOf inp content e q → q.1.fullUrl = e.ns ++ e.url := fun {e q} h => by
    show q.1.ns ++ q.1.url = _
    rw [h.1.ns, h.1.url]
  have hin2 : ∀ (e : Entry) (x : Redirect), x ∈ reds → RedirectOf inp e x → e.ns ++ e.url ≠ "WmainPage" →
      x ∈ [] ++ [toMain p.url] ++ reds.filter (·.1 ≠ "WmainPage") := fun e x hx h hm =>
    List.mem_append_right _ (List.mem_filter.2 ⟨hx, by rw [h.1]; simpa using hm⟩)
  refine ⟨rfl, a, g1, g2, ⟨?_, ?_, ?_, ?_⟩, ?_⟩
  · intro e he k b hk hn
    obtain ⟨q, hq, h⟩ := hcon e he k b hk hn
    obtain ⟨e', f1, f2, f3, f4, f5, f6, f7⟩ := g3.item q hq
    rw [hurl h] at f1
    refine ⟨e', _, f1, f2.trans h.1.ns, f3.trans h.1.url, ?_, h.1.mimetype, f5, ?_, ?_⟩
    · rw [f4, h.1.title, h.1.url]
      exact ite_eq_right_iff.2 fun h0 => absurd h0 (title_ne (hw.url e he).1)
    · rw [← h.2]; exact f6
    · rw [← h.2]; exact f7
  · intro e he i q hk hq hmain
    obtain ⟨x, hx, h⟩ := hred e he i hk
    obtain ⟨e', j, t', f1, f2, f3, f4, -, f6, -⟩ := g4 x (hin2 e x hx h hmain)
    obtain ⟨i', q', hk', hq', ht⟩ := h.2.1
    rw [hk] at hk'
    injection hk' with hk'
    subst hk'
    rw [hq] at hq'
    injection hq' with hq'
    subst hq'
    rw [h.1] at f1
    exact ⟨e', j, t', f1, f2, f3, f4, f6.trans ht⟩
  · intro u h1 h2 h3
    refine g3.missing u h1 ?_ ?_
    · intro q hq hqu
      obtain ⟨e, hek, h⟩ := forall₂_mem_right hits hq
      have := (hkept e).1 (List.mem_of_mem_filter hek)
      exact this.2 (h3 e this.1 ((hurl h).symm.trans hqu))
    · intro x hx hxu
      rw [List.nil_append, List.singleton_append, List.mem_cons] at hx
      rcases hx with rfl | hx
      · exact h2 hxu.symm
      · obtain ⟨e, hein, hek, -, h⟩ := hredk x (List.mem_of_mem_filter hx)
        exact ((hkept e).1 hek).2 (h3 e hein (h.1.symm.trans hxu))
  · obtain ⟨es, f1, f2, -⟩ := g3.articles
    refine ⟨es, f1, f2.trans ?_⟩
    rw [forall₂_filter_map hits (f := fun e => e.ns ++ e.url) (p := fun e => e.ns = "C" && inp.article e.oldFullUrl)
      (fun e q h => hurl h) (fun e q h => h.1.article)]
    refine List.Perm.map _ ?_
    rw [List.filter_filter]
    refine (List.perm_ext_iff_of_nodup (hnd.filter _) ((List.Nodup.of_map _ hw.urls).filter _)).2 fun e => ?_
    rw [List.mem_filter, List.mem_filter]
    constructor
    · rintro ⟨k1, k2⟩
      refine ⟨hkin e k1, ?_⟩
      simp only [Bool.and_eq_true] at k2 ⊢
      exact ⟨⟨k2.2, k2.1.1⟩, k2.1.2⟩
    · rintro ⟨k1, k2⟩
      simp only [Bool.and_eq_true] at k2
      refine ⟨(hkept e).2 ⟨k1, ?_⟩, ?_⟩
      · rintro ⟨hx, -⟩
        have hC : e.ns = "C" := by simpa using k2.1.2
        rw [hC] at hx
        exact not_created hx
      · simp only [Bool.and_eq_true]
        exact ⟨⟨k2.1.2, k2.2⟩, k2.1.1⟩
  · intro e he i hk hmain hne
    obtain ⟨x, hx, h⟩ := hred e he i hk
    obtain ⟨e', f1, -, f3, f4⟩ := g3.redirect x (hin2 e x hx h hmain)
    rw [h.1] at f1
    refine ⟨e', f1, ?_⟩
    cases ht : x.2.2 with
    | none =>
      have := h.2.2
      rw [ht] at this
      exact absurd this.symm hne
    | some t =>
      have h2 := h.2.2
      rw [ht] at h2
      have h3 : t = e.title := h2
      rw [f4 t ht, h3]
      exact ite_eq_right_iff.2 fun h0 => absurd h0 (title_ne (hw.url e he).1)

/-! ### A concrete archive -/

/-- An archive with a page, two redirects to it (one with the title that entries have without a title), metadata, the redirect
to the main page, and the list of articles. -/
def small : TransInput where
  entries :=
    [{ mimetypeId := 0, ns := "C", url := "a", titleRaw := some "Ä", kind := .content 1 0, oldFullUrl := some "Ca" },
     { mimetypeId := 0xffff, ns := "C", url := "b", titleRaw := none, kind := .redirect 0, oldFullUrl := some "Cb" },
     { mimetypeId := 0xffff, ns := "C", url := "r", titleRaw := some "R", kind := .redirect 1, oldFullUrl := some "Cr" },
     { mimetypeId := 1, ns := "M", url := "Title", titleRaw := none, kind := .content 0 0, oldFullUrl := some "MTitle" },
     { mimetypeId := 0xffff, ns := "W", url := "mainPage", titleRaw := none, kind := .redirect 0, oldFullUrl := some "WmainPage" },
     { mimetypeId := 1, ns := "X", url := "listing/titleOrdered/v1", titleRaw := none, kind := .content 0 1
       oldFullUrl := some "Xlisting/titleOrdered/v1" }]
  mainPage := some 4
  mimetypes := { mimetypes := [encode "text/html", encode "text/plain"] }
  article u := u = some "Ca"
  source e := MCluster.mem (if e.ns = "C" then [1, 2, 3] else [7])

/-- its contents -/
def smallContent (e : Entry) : Bytes := if e.ns = "C" then [1, 2, 3] else [7]

theorem small_run : IterByCluster.run small.entries =
    ([["MTitle", "Xlisting/titleOrdered/v1"], ["Ca"], ["Cb", "Cr", "WmainPage"]], .ok ()) := by
  have h : IterByCluster.collect [] small.entries = .ok [(1, [(0, "Ca")]), (-1, [(-1, "Cb"), (-1, "Cr"), (-1, "WmainPage")]),
    (0, [(0, "MTitle"), (1, "Xlisting/titleOrdered/v1")])] := by decide +kernel
  have h0 : List.lookup (0 : Int) [(1, [((0 : Int), "Ca")]), (-1, [(-1, "Cb"), (-1, "Cr"), (-1, "WmainPage")]),
    (0, [(0, "MTitle"), (1, "Xlisting/titleOrdered/v1")])] = some [(0, "MTitle"), (1, "Xlisting/titleOrdered/v1")] := by decide +kernel
  have h1 : List.lookup (-1 : Int) [(1, [((0 : Int), "Ca")]), (-1, [(-1, "Cb"), (-1, "Cr"), (-1, "WmainPage")]),
    (0, [(0, "MTitle"), (1, "Xlisting/titleOrdered/v1")])] = some [(-1, "Cb"), (-1, "Cr"), (-1, "WmainPage")] := by decide +kernel
  unfold IterByCluster.run
  rw [h]
  simp [List.mergeSort, List.merge, List.MergeSort.Internal.splitInTwo, IterByCluster.tupleLE, h0, h1]

/-- the calls that translating it makes -/
def smallCalls : List TransCall :=
  [.setMainpage "a",
   .addItem { ns := "M", url := "Title", mimetype := "text/plain", source := MCluster.mem [7], titleRaw := some "Title", isArticle := false },
   .addItem { ns := "C", url := "a", mimetype := "text/html", source := MCluster.mem [1, 2, 3], titleRaw := some "Ä", isArticle := true },
   .addRedirect "Cb" "Ca" none, .addRedirect "Cr" "Cb" (some "R"), .addRedirect "WmainPage" "Ca" none, .flushOut, .closeIn, .closeOut]

theorem small_calls : small.translate handleItem [] = (.ok (), smallCalls) := by
  unfold translate
  rw [small_run]
  rfl

theorem small_wellFormed : small.WellFormed where
  urls := by decide +kernel
  kind := by decide +kernel
  ns := by decide +kernel
  url := by decide +kernel
  title := by decide +kernel
  read := by decide +kernel
  mimetype := by
    intro e he c b hk
    simp only [small, List.mem_cons, List.not_mem_nil, or_false] at he
    rcases he with rfl | rfl | rfl | rfl | rfl | rfl
    · exact ⟨"text/html", by decide, by decide +kernel, rfl⟩
    · cases hk
    · cases hk
    · exact ⟨"text/plain", by decide, by decide +kernel, rfl⟩
    · cases hk
    · exact ⟨"text/plain", by decide, by decide +kernel, rfl⟩
  target := by
    intro e he i hk
    simp only [small, List.mem_cons, List.not_mem_nil, or_false] at he
    rcases he with rfl | rfl | rfl | rfl | rfl | rfl <;> cases hk <;> exact ⟨_, rfl⟩

theorem small_copyable : small.Copyable smallContent where
  wellFormed := small_wellFormed
  delivers := fun e _ _ _ _ => MCluster.mem_delivers _
  redirects := ⟨_, .tail _ (.head _), 0, rfl⟩
  mainRedirect := by
    intro e he hm
    simp only [small, List.mem_cons, List.not_mem_nil, or_false] at he
    rcases he with rfl | rfl | rfl | rfl | rfl | rfl
    · exact absurd hm (by decide)
    · exact absurd hm (by decide)
    · exact absurd hm (by decide)
    · exact absurd hm (by decide)
    · exact ⟨0, rfl⟩
    · exact absurd hm (by decide)
  listing := by
    intro e he i hk
    simp only [small, List.mem_cons, List.not_mem_nil, or_false] at he
    rcases he with rfl | rfl | rfl | rfl | rfl | rfl
    · cases hk
    · decide +kernel
    · decide +kernel
    · cases hk
    · decide +kernel
    · cases hk
  targets := by
    intro e he i t hk ht
    simp only [small, List.mem_cons, List.not_mem_nil, or_false] at he
    rcases he with rfl | rfl | rfl | rfl | rfl | rfl
    · cases hk
    · cases hk; cases ht; exact ⟨by decide +kernel, by decide +kernel⟩
    · cases hk; cases ht; exact ⟨by decide +kernel, by decide +kernel⟩
    · cases hk
    · cases hk; cases ht; exact ⟨by decide +kernel, by decide +kernel⟩
    · cases hk
  mimetypes := by decide
  size := by decide +kernel

/-- its page -/
def smallPage : Entry :=
  { mimetypeId := 0, ns := "C", url := "a", titleRaw := some "Ä", kind := .content 1 0, oldFullUrl := some "Ca" }

theorem small_mainPage : small.MainPage smallPage := ⟨4, _, 1, rfl, rfl, by decide, ⟨0, _, rfl, rfl, rfl⟩, 1, 0, rfl⟩

open Creator (demoA demoSetup demoSetup_good)

/-- The translation of the archive, … -/
def smallOut : Creator Bytes := Creator.step (TransCall.runAll demoSetup smallCalls) demoA

/-- the title that is found by a full url -/
def titleAt (a : PyRes Archive) (u : String) : PyRes String :=
  match a with
  | .ok a => (a.zim.entryByFullUrl u).map Entry.title
  | .error x => .error x

/-- and the title of the redirect without a title in the file. -/
theorem small_runs : (TransCall.runAll demoSetup smallCalls demoA).1 = .ok () ∧
    titleAt (openArchive { demoSetup with kind := .remembering, calls := 0, follow := 0 } (fun _ => .error .hang) false
      smallOut.arch.zim.file) "Cb" = .ok "Ä" := by decide +kernel

theorem small_translated : small.translateInto demoSetup handleItem demoA = (.ok (), smallOut) := by
  have h : TransCall.runAll demoSetup smallCalls demoA = (.ok (), smallOut) :=
    Creator.step_eq (g := TransCall.runAll demoSetup smallCalls) small_runs.1
  unfold translateInto
  rw [small_calls, PyM.of_apply]
  simp only [h]

example (kind : ClusterKind) : smallOut.arch.zim.closed = true ∧
    ∃ a, openArchive { demoSetup with kind := kind, calls := 0, follow := 0 } (fun _ => .error .hang) false smallOut.arch.zim.file = .ok a ∧
      ShowsMain a.zim (some "a") ∧ IsCopy demoSetup.X kind 0 small smallContent a.zim ∧
      ∀ e ∈ small.entries, ∀ i, e.kind = .redirect i → e.ns ++ e.url ≠ "WmainPage" → e.title ≠ e.url →
        ∃ e', a.zim.entryByFullUrl (e.ns ++ e.url) = .ok e' ∧ e'.title = e.title :=
  C89_copy_partial (p := smallPage) (by omega) demoSetup_good (by decide) (by decide) Strategy.raw_working Creator.demoMain_new
    Creator.demoPlain_new Creator.demoA_eq small_copyable small_mainPage rfl small_translated kind 0 0 _

/-- **C89, finding.** The claim is false in full: a redirect whose title is its url (for example because it has none) gets the
title of its target. -/
theorem C89_fails : ¬ C89Full Bytes Unit := by
  intro h
  obtain ⟨a, h1, -, -, h2⟩ := h demoSetup Zim.toyHash 90 small smallContent demoA smallOut _ _ _ smallPage _ (by omega) demoSetup_good (by decide)
    (by decide) Strategy.raw_working Creator.demoMain_new Creator.demoPlain_new Creator.demoA_eq small_copyable small_mainPage rfl
    small_translated .remembering 0 0 (fun _ => .error .hang)
  obtain ⟨e', h3, h4⟩ := h2 _ (.tail _ (.head _)) 0 rfl (by decide)
  have h5 := small_runs.2
  rw [h1] at h5
  have h6 : titleAt (.ok a) "Cb" = .ok e'.title := by
    show (a.zim.entryByFullUrl "Cb").map Entry.title = _
    rw [show a.zim.entryByFullUrl "Cb" = .ok e' from h3]
    rfl
  rw [h6, h4] at h5
  revert h5
  decide +kernel

end TransInput
end Pyzim
