import Verif.Spec.Translator
import Verif.Props.IterByCluster
import Verif.Props.Item
import Verif.Props.Resolve
import Verif.Lemmas.PyM
import Mathlib.Data.List.Nodup

/-!
# C69: translating an archive
-/

namespace Pyzim
namespace TransInput

theorem addItems_eq (its : List Item) (log : List TransCall) :
    addItems its log = (.ok (), log ++ its.map .addItem) := by
  induction its generalizing log with
  | nil => simp [addItems]
  | cons it its ih =>
    unfold addItems call
    rw [PyM.modify_bind, ih]
    simp

theorem leads_chain {entries : List Entry} {n : Nat} {m e : Entry}
    (h : MainPage.Leads entries n m e) : Entry.Chain entries n m e := by
  induction n generalizing m with
  | zero => cases h; exact .nil _
  | succ n ih =>
    obtain ⟨i, t, h1, h2, h3⟩ := h
    exact .cons ⟨i, h1, h2⟩ (ih h3)

theorem WellFormed.kindFits {inp : TransInput} (h : inp.WellFormed) :
    ∀ e ∈ inp.entries, Entry.KindFits e := by
  intro e he
  have := h.kind e he
  unfold Entry.KindFits
  rw [this]
  cases e.kind <;> simp

theorem WellFormed.wellKinded {inp : TransInput} (h : inp.WellFormed) :
    IterByCluster.WellKinded inp.entries := h.kind

/-- `handle_header` sets the main page. -/
theorem handleHeader_eq {inp : TransInput} (h : inp.WellFormed) {p : Entry} (hp : inp.MainPage p)
    (log : List TransCall) :
    inp.handleHeader log = (.ok (), log ++ [.setMainpage p.url]) := by
  obtain ⟨i, m, n, h1, h2, h3, h4, c, b, h5⟩ := hp
  have hm : m ∈ inp.entries := List.mem_of_getElem? h2
  have hf := h.kindFits
  have hc := leads_chain h4
  have hr := Entry.C17_resolves inp.entries hf m p (hf m hm) n hc c b h5
    (Entry.chain_proper hf hc (hf m hm)) (inp.entries.length + 1) (by omega)
  unfold handleHeader
  rw [show inp.mainpageEntry = .ok m by unfold mainpageEntry; rw [h1]; simp only [h2],
    PyM.lift_ok_bind, show inp.resolved m = .ok p by unfold resolved; rw [hr], PyM.lift_ok_bind]
  rfl

theorem entryByFullUrl_eq {inp : TransInput} (h : inp.WellFormed) {e : Entry}
    (he : e ∈ inp.entries) : inp.entryByFullUrl e.fullUrl = .ok e := by
  have key : ∀ l : List Entry, (l.map fun e => e.ns ++ e.url).Nodup → e ∈ l →
      l.find? (fun x => x.fullUrl = e.fullUrl) = some e := by
    intro l
    induction l with
    | nil => intro _ h; cases h
    | cons x l ih =>
      intro hn hm
      rw [List.map_cons, List.nodup_cons] at hn
      rw [List.find?_cons]
      rcases List.mem_cons.1 hm with rfl | hm
      · simp
      · have : x.fullUrl ≠ e.fullUrl := by
          intro hx
          apply hn.1
          show x.fullUrl ∈ _
          rw [hx]
          exact List.mem_map.2 ⟨e, hm, rfl⟩
        simp only [this, decide_false]
        exact ih hn.2 hm
  unfold entryByFullUrl
  rw [key _ h.urls he]

/-- What becomes of a content entry. -/
theorem fromEntry_eq {inp : TransInput} (h : inp.WellFormed) {e : Entry} (he : e ∈ inp.entries)
    {c b : Nat} (hk : e.kind = .content c b) :
    ∃ it, Item.fromEntry e inp.mimetypes inp.article (inp.source e) = .ok it ∧ ItemFor inp e it := by
  obtain ⟨mt, m1, m2, m3⟩ := h.mimetype e he c b hk
  have hred : e.isRedirect = false := by rw [h.kind e he, hk]
  have hlt : e.mimetypeId < inp.mimetypes.mimetypes.length := by
    have := List.getElem?_eq_some_iff.1 m3
    exact this.1
  have hmt : Counter.mimetypeOf inp.mimetypes e = .ok mt := by
    unfold Counter.mimetypeOf
    rw [hred]
    have : inp.mimetypes.get (e.mimetypeId : Int) = .ok (encode mt) := by
      unfold MimeTypeList.get
      rw [if_neg (by omega)]
      simp only [Int.toNat_natCast, m3]
    simp only [Bool.false_eq_true, if_false, this]
    exact decode_encode mt
  have hart : e.isArticle (some inp.article) =
      .ok (decide (e.ns = "C") && inp.article e.oldFullUrl) := by
    unfold Entry.isArticle
    rw [h.read e he]
    by_cases hc : e.ns = "C" <;> simp [hc]
  refine ⟨{ ns := e.ns, url := e.url, mimetype := mt, source := inp.source e
            titleRaw := if e.title ≠ "" then some e.title else none
            isArticle := decide (e.ns = "C") && inp.article e.oldFullUrl }, ?_, ?_⟩
  · unfold Item.fromEntry
    rw [hk]
    simp only [hmt, hart]
    refine (Item.C54_new _ _ _ _ _ _ _).2 ⟨rfl, h.ns e he, h.url e he, ⟨?_, m2⟩, ?_⟩
    · show mt.length ≠ 0
      simpa using m1
    · intro t ht
      have : t = e.title := by
        by_cases htt : e.title = "" <;> simp [htt] at ht
        exact ht.symm
      rw [this]
      exact h.title e he
  · refine ⟨rfl, rfl, ?_, m3, rfl, rfl⟩
    unfold Item.title
    by_cases ht : e.title = ""
    · exfalso
      have hu := (h.url e he).1
      unfold Entry.title at ht
      split at ht
      · apply hu; rw [ht]; rfl
      · split at ht
        · apply hu; rw [ht]; rfl
        · next hne => exact hne ht
    · simp [ht]

/-- The calls made for one entry. -/
theorem translateOne_eq {inp : TransInput} (h : inp.WellFormed) {e : Entry} (he : e ∈ inp.entries)
    (handle : Item → List Item) (log : List TransCall) :
    ∃ calls, inp.translateOne handle e.fullUrl log = (.ok (), log ++ calls) ∧
      ((∃ c b it, e.kind = .content c b ∧ ItemFor inp e it ∧ calls = (handle it).map .addItem) ∨
        ∃ c, calls = [c] ∧ (∃ i, e.kind = .redirect i) ∧ CopiedBy inp e c) := by
  unfold translateOne
  rw [entryByFullUrl_eq h he, PyM.lift_ok_bind]
  cases hk : e.kind with
  | content c b =>
    obtain ⟨it, h1, h2⟩ := fromEntry_eq h he hk
    have hred : e.isRedirect = false := by rw [h.kind e he, hk]
    rw [hred, if_neg (by simp), h1, PyM.lift_ok_bind, addItems_eq]
    exact ⟨_, rfl, .inl ⟨c, b, it, rfl, h2, rfl⟩⟩
  | redirect i =>
    have hred : e.isRedirect = true := by rw [h.kind e he, hk]
    obtain ⟨t, ht⟩ := h.target e he i hk
    rw [hred, if_pos rfl]
    unfold handleRedirect
    rw [show e.follow inp.entries = .ok t by
      unfold Entry.follow; rw [hk]; simp [Entry.getByUrlIndex, ht], PyM.lift_ok_bind]
    refine ⟨_, rfl, .inr ⟨_, rfl, ⟨i, rfl⟩, rfl, ⟨i, t, hk, ht, rfl⟩, ?_⟩⟩
    by_cases htt : e.title = e.url <;> simp [htt]

theorem translateAll_eq {inp : TransInput} (h : inp.WellFormed) (handle : Item → List Item)
    (es : List Entry) (hes : ∀ e ∈ es, e ∈ inp.entries) (log : List TransCall) :
    ∃ calls : List (List TransCall),
      inp.translateAll handle (es.map Entry.fullUrl) log = (.ok (), log ++ calls.flatten) ∧
      List.Forall₂ (fun e cs =>
        (∃ c b it, e.kind = .content c b ∧ ItemFor inp e it ∧ cs = (handle it).map .addItem) ∨
          ∃ c, cs = [c] ∧ (∃ i, e.kind = .redirect i) ∧ CopiedBy inp e c) es calls := by
  induction es generalizing log with
  | nil => exact ⟨[], by simp [translateAll], .nil⟩
  | cons e es ih =>
    obtain ⟨cs, h1, h2⟩ := translateOne_eq h (hes e (by simp)) handle log
    obtain ⟨calls, h3, h4⟩ := ih (fun x hx => hes x (by simp [hx])) (log ++ cs)
    refine ⟨cs :: calls, ?_, .cons h2 h4⟩
    rw [List.map_cons]
    unfold translateAll
    rw [PyM.bind_ok h1, h3]
    simp

theorem perm_of_map {α β : Type} {f : α → β} {l m : List β} (h : l.Perm m) :
    ∀ es : List α, l = es.map f → ∃ es' : List α, es.Perm es' ∧ m = es'.map f := by
  induction h with
  | nil =>
    intro es he
    exact ⟨es, .refl _, he⟩
  | cons x _ ih =>
    intro es he
    cases es with
    | nil => cases he
    | cons e es =>
      rw [List.map_cons] at he
      injection he with h1 h2
      obtain ⟨es', h3, h4⟩ := ih es h2
      exact ⟨e :: es', h3.cons e, by rw [List.map_cons, ← h1, ← h4]⟩
  | swap x y l =>
    intro es he
    match es, he with
    | e :: e' :: es, he =>
      simp only [List.map_cons, List.cons.injEq] at he
      exact ⟨e' :: e :: es, .swap .., by simp [he.1, he.2.1, he.2.2]⟩
  | trans _ _ ih1 ih2 =>
    intro es he
    obtain ⟨es1, h1, h2⟩ := ih1 es he
    obtain ⟨es2, h3, h4⟩ := ih2 es1 h2
    exact ⟨es2, h1.trans h3, h4⟩

/-- The urls that are iterated over are those of the entries, in some order, but the redirects last. -/
theorem order {inp : TransInput} (h : inp.WellFormed) :
    ∃ es : List Entry, es.Perm inp.entries ∧
      (IterByCluster.run inp.entries).1.flatten = es.map Entry.fullUrl ∧ RedirectsLast es := by
  have hp := IterByCluster.C46_every_entry_once inp.entries h.wellKinded
  obtain ⟨es, h1, h2⟩ := perm_of_map hp.symm inp.entries rfl
  refine ⟨es, h1.symm, h2, ?_⟩
  have hnd : (es.map Entry.fullUrl).Nodup := (h1.map _).nodup_iff.1 h.urls
  have hkey : ∀ e ∈ es, (e.fullUrl ∈ redirectsOf inp.entries ↔ ∃ i, e.kind = .redirect i) := by
    intro e he
    have he' := h1.symm.mem_iff.1 he
    unfold redirectsOf
    rw [List.mem_filterMap]
    constructor
    · rintro ⟨x, hx, hxe⟩
      cases hk : x.kind with
      | content c b => rw [hk] at hxe; cases hxe
      | redirect i =>
        rw [hk] at hxe
        injection hxe with hxe
        exact ⟨i, by rw [← hk]; congr 1; exact List.inj_on_of_nodup_map h.urls he' hx hxe.symm⟩
    · rintro ⟨i, hk⟩
      exact ⟨e, he', by rw [hk]; rfl⟩
  obtain ⟨groups, _, k1, k2⟩ := IterByCluster.C46_iter_by_cluster inp.entries h.wellKinded
  have hsplit : es.map Entry.fullUrl = groups.flatten ++ redirectsOf inp.entries := by
    rw [← h2]
    by_cases hr : redirectsOf inp.entries = []
    · rw [k2 hr, hr, List.append_nil]
    · rw [k1 hr]; simp
  obtain ⟨es1, es2, rfl, e1, e2⟩ := List.map_eq_append_iff.1 hsplit
  unfold RedirectsLast
  rw [List.pairwise_append]
  have hall : ∀ e ∈ es2, ∃ i, e.kind = .redirect i := fun e he =>
    (hkey e (by simp [he])).1 (e2 ▸ List.mem_map.2 ⟨e, he, rfl⟩)
  have hnone : ∀ e ∈ es1, ¬ ∃ i, e.kind = .redirect i := by
    intro e he hk
    have hm := (hkey e (by simp [he])).2 hk
    rw [List.map_append, List.nodup_append] at hnd
    exact hnd.2.2 _ (List.mem_map.2 ⟨e, he, rfl⟩) _ (e2 ▸ hm) rfl
  refine ⟨?_, ?_, fun a ha b hb _ => hall b hb⟩
  · exact List.pairwise_iff_forall_sublist.2 fun hab hr => absurd hr (hnone _ (hab.subset (by simp)))
  · exact List.pairwise_iff_forall_sublist.2 fun hab _ => hall _ (hab.subset (by simp))

/-- Whether there is a redirect decides how the iteration ends. -/
theorem run_end {inp : TransInput} (h : inp.WellFormed) :
    ((∃ e ∈ inp.entries, ∃ i, e.kind = .redirect i) → (IterByCluster.run inp.entries).2 = .ok ()) ∧
      ((¬ ∃ e ∈ inp.entries, ∃ i, e.kind = .redirect i) →
        (IterByCluster.run inp.entries).2 = .error .keyError) := by
  obtain ⟨groups, _, h1, h2⟩ := IterByCluster.C46_iter_by_cluster inp.entries h.wellKinded
  by_cases hr : redirectsOf inp.entries = []
  · refine ⟨?_, fun _ => by rw [h2 hr]⟩
    rintro ⟨e, he, i, hk⟩
    have : (e.ns ++ e.url) ∈ redirectsOf inp.entries :=
      List.mem_filterMap.2 ⟨e, he, by rw [hk]⟩
    rw [hr] at this
    cases this
  · refine ⟨fun _ => by rw [h1 hr], fun hn => absurd ?_ hn⟩
    obtain ⟨u, hu⟩ := List.exists_mem_of_ne_nil _ hr
    obtain ⟨e, he, hk⟩ := List.mem_filterMap.1 hu
    refine ⟨e, he, ?_⟩
    cases hkk : e.kind with
    | content c b => rw [hkk] at hk; cases hk
    | redirect i => exact ⟨i, rfl⟩

/-- What the own handlers do with an item. -/
theorem handleItem_eq {inp : TransInput} {e : Entry} {it : Item} (hi : ItemFor inp e it) {c b : Nat}
    (hk : e.kind = .content c b) (hns : (encode e.ns).length = 1) :
    (CreatedByPyzim e → handleItem it = []) ∧ (¬ CreatedByPyzim e → handleItem it = [it]) := by
  unfold handleItem handleX handleM
  rw [hi.ns, hi.url]
  constructor
  · rintro ⟨hm, -⟩
    simp only [List.mem_cons, List.not_mem_nil, or_false] at hm
    rcases hm with hm | hm | hm
    · obtain ⟨h1, h2⟩ := append_inj_of_one_byte (b := "X") (t := "listing/titleOrdered/v0") hns
        (by decide) hm
      rw [if_pos h1, if_neg (by rw [h2]; simp)]
    · obtain ⟨h1, h2⟩ := append_inj_of_one_byte (b := "X") (t := "listing/titleOrdered/v1") hns
        (by decide) hm
      rw [if_pos h1, if_neg (by rw [h2]; simp)]
    · obtain ⟨h1, h2⟩ := append_inj_of_one_byte (b := "M") (t := "Counter") hns (by decide) hm
      rw [if_neg (by rw [h1]; decide), if_pos h1, if_neg (by rw [h2]; simp)]
  · intro hn
    have hcr : ∀ x ∈ ["Xlisting/titleOrdered/v0", "Xlisting/titleOrdered/v1", "MCounter"],
        e.ns ++ e.url ≠ x := by
      intro x hx he
      exact hn ⟨by rw [he]; exact hx, c, b, hk⟩
    split
    next hx =>
      rw [if_pos]
      intro hm
      simp only [List.mem_cons, List.not_mem_nil, or_false] at hm
      rcases hm with hm | hm
      · exact hcr "Xlisting/titleOrdered/v0" (by simp) (by rw [hx, hm]; rfl)
      · exact hcr "Xlisting/titleOrdered/v1" (by simp) (by rw [hx, hm]; rfl)
    next =>
      split
      next hx =>
        rw [if_pos]
        intro hm
        simp only [List.mem_cons, List.not_mem_nil, or_false] at hm
        exact hcr "MCounter" (by simp) (by rw [hx, hm]; rfl)
      next => rfl

/-- The calls made for the entries. -/
theorem body_eq {inp : TransInput} (h : inp.WellFormed) (log : List TransCall) :
    ∃ body kept, inp.translateAll handleItem (IterByCluster.run inp.entries).1.flatten log =
        (.ok (), log ++ body) ∧
      kept.Nodup ∧ (∀ e, e ∈ kept ↔ e ∈ inp.entries ∧ ¬ CreatedByPyzim e) ∧
      RedirectsLast kept ∧ List.Forall₂ (CopiedBy inp) kept body := by
  obtain ⟨es, ho1, ho2, ho3⟩ := order h
  obtain ⟨calls, h1, h2⟩ := translateAll_eq h handleItem es (fun e he => ho1.mem_iff.1 he)
    log
  have hnd : es.Nodup := by
    have := h.urls
    have := List.Nodup.of_map _ this
    exact (ho1.nodup_iff).2 this
  have hkeep : ∃ kept : List Entry, kept.Sublist es ∧ (∀ e, e ∈ kept ↔ e ∈ es ∧ ¬ CreatedByPyzim e) ∧
      List.Forall₂ (CopiedBy inp) kept calls.flatten := by
    have hin : ∀ e ∈ es, e ∈ inp.entries := fun e he => ho1.mem_iff.1 he
    clear ho1 ho2 ho3 h1 hnd
    induction h2 with
    | nil => exact ⟨[], .refl _, by simp, .nil⟩
    | @cons e cs es calls hx _ ih =>
      obtain ⟨kept, k1, k2, k3⟩ := ih (fun x hx => hin x (by simp [hx]))
      have he := hin e (by simp)
      rcases hx with ⟨c, b, it, hk, hi, rfl⟩ | ⟨c, rfl, ⟨i, hk⟩, hc⟩
      · by_cases hcr : CreatedByPyzim e
        · rw [(handleItem_eq hi hk (h.ns e he)).1 hcr]
          refine ⟨kept, k1.cons e, fun x => ?_, by simpa using k3⟩
          rw [k2 x, List.mem_cons]
          constructor
          · rintro ⟨a, b⟩; exact ⟨.inr a, b⟩
          · rintro ⟨rfl | a, b⟩
            · exact absurd hcr b
            · exact ⟨a, b⟩
        · rw [(handleItem_eq hi hk (h.ns e he)).2 hcr]
          refine ⟨e :: kept, k1.cons_cons e, fun x => ?_, ?_⟩
          · rw [List.mem_cons, List.mem_cons, k2 x]
            constructor
            · rintro (rfl | ⟨a, b⟩)
              · exact ⟨.inl rfl, hcr⟩
              · exact ⟨.inr a, b⟩
            · rintro ⟨rfl | a, b⟩
              · exact .inl rfl
              · exact .inr ⟨a, b⟩
          · exact .cons ⟨⟨c, b, hk⟩, hi⟩ k3
      · have hcr : ¬ CreatedByPyzim e := by
          rintro ⟨_, c, b, hk'⟩; rw [hk] at hk'; cases hk'
        refine ⟨e :: kept, k1.cons_cons e, fun x => ?_, ?_⟩
        · rw [List.mem_cons, List.mem_cons, k2 x]
          constructor
          · rintro (rfl | ⟨a, b⟩)
            · exact ⟨.inl rfl, hcr⟩
            · exact ⟨.inr a, b⟩
          · rintro ⟨rfl | a, b⟩
            · exact .inl rfl
            · exact .inr ⟨a, b⟩
        · exact .cons hc k3
  obtain ⟨kept, k1, k2, k3⟩ := hkeep
  exact ⟨calls.flatten, kept, by rw [ho2, h1], hnd.sublist k1, fun e => by rw [k2, ho1.mem_iff],
    List.Pairwise.sublist k1 ho3, k3⟩

/-- **C69.** Translating a well-formed archive which has a redirect and a main page sets the main
page of the output, adds every entry pyzim does not create itself exactly once, the redirects last — content with its
title, mimetype and whether it is an article, redirects with their target and title — and then
flushes and closes. -/
theorem C69_translate (inp : TransInput) (h : inp.WellFormed) (p : Entry) (hp : inp.MainPage p)
    (hr : ∃ e ∈ inp.entries, ∃ i, e.kind = .redirect i) :
    ∃ body kept, inp.translate handleItem [] =
        (.ok (), [.setMainpage p.url] ++ body ++ [.flushOut, .closeIn, .closeOut]) ∧
      kept.Nodup ∧ (∀ e, e ∈ kept ↔ e ∈ inp.entries ∧ ¬ CreatedByPyzim e) ∧
      RedirectsLast kept ∧ List.Forall₂ (CopiedBy inp) kept body := by
  obtain ⟨body, kept, h1, h2, h3, h4, h5⟩ := body_eq h [.setMainpage p.url]
  refine ⟨body, kept, ?_, h2, h3, h4, h5⟩
  unfold translate
  rw [PyM.bind_ok (handleHeader_eq h hp [])]
  rw [show ([] ++ [TransCall.setMainpage p.url]) = [TransCall.setMainpage p.url] from rfl,
    PyM.bind_ok h1, (run_end h).1 hr, PyM.lift_ok_bind]
  unfold finalize call
  rw [PyM.modify_bind, PyM.modify_bind, PyM.modify_apply]
  simp

/-- With handlers of a subclass: for every entry, in an order of its own, the items its handler
returned are added, or the redirect. -/
theorem C69_handlers (inp : TransInput) (h : inp.WellFormed) (p : Entry) (hp : inp.MainPage p)
    (hr : ∃ e ∈ inp.entries, ∃ i, e.kind = .redirect i) (handle : Item → List Item) :
    ∃ (es : List Entry) (calls : List (List TransCall)), es.Perm inp.entries ∧
      inp.translate handle [] =
        (.ok (), [.setMainpage p.url] ++ calls.flatten ++ [.flushOut, .closeIn, .closeOut]) ∧
      List.Forall₂ (fun e cs =>
        (∃ c b it, e.kind = .content c b ∧ ItemFor inp e it ∧ cs = (handle it).map .addItem) ∨
          ∃ c, cs = [c] ∧ (∃ i, e.kind = .redirect i) ∧ CopiedBy inp e c) es calls := by
  obtain ⟨es, ho1, ho2, -⟩ := order h
  obtain ⟨calls, h1, h2⟩ := translateAll_eq h handle es (fun e he => ho1.mem_iff.1 he)
    [.setMainpage p.url]
  refine ⟨es, calls, ho1, ?_, h2⟩
  unfold translate
  rw [PyM.bind_ok (handleHeader_eq h hp []), ho2]
  rw [show ([] ++ [TransCall.setMainpage p.url]) = [TransCall.setMainpage p.url] from rfl,
    PyM.bind_ok h1, (run_end h).1 hr, PyM.lift_ok_bind]
  unfold finalize call
  rw [PyM.modify_bind, PyM.modify_bind, PyM.modify_apply]
  simp

/-- **C69, finding.** An archive without any redirect cannot be translated: everything is added to
the output, but then `KeyError` is raised and the output is neither flushed nor closed. -/
theorem C69_no_redirects (inp : TransInput) (h : inp.WellFormed) (p : Entry) (hp : inp.MainPage p)
    (hr : ¬ ∃ e ∈ inp.entries, ∃ i, e.kind = .redirect i) :
    ∃ body kept, inp.translate handleItem [] = (.error .keyError, [.setMainpage p.url] ++ body) ∧
      kept.Nodup ∧ (∀ e, e ∈ kept ↔ e ∈ inp.entries ∧ ¬ CreatedByPyzim e) ∧
      RedirectsLast kept ∧ List.Forall₂ (CopiedBy inp) kept body := by
  obtain ⟨body, kept, h1, h2, h3, h4, h5⟩ := body_eq h [.setMainpage p.url]
  refine ⟨body, kept, ?_, h2, h3, h4, h5⟩
  unfold translate
  rw [PyM.bind_ok (handleHeader_eq h hp [])]
  rw [show ([] ++ [TransCall.setMainpage p.url]) = [TransCall.setMainpage p.url] from rfl,
    PyM.bind_ok h1, (run_end h).2 hr, PyM.lift_err_bind]

/-- **C69, finding.** An archive without a main page cannot be translated. -/
theorem C69_no_mainpage (inp : TransInput) (h : inp.mainPage = none) (handle : Item → List Item) :
    inp.translate handle [] = (.error .entryNotFound, []) := by
  unfold translate handleHeader mainpageEntry
  rw [h]
  rfl

/-- An archive with articles, a stylesheet, metadata, the entries pyzim creates, a redirect and the
redirect to the main page. -/
def demo : TransInput where
  entries :=
    [{ mimetypeId := 0, ns := "C", url := "a", titleRaw := some "Ä", kind := .content 1 1, oldFullUrl := some "Ca" },
     { mimetypeId := 0xffff, ns := "C", url := "b", titleRaw := none, kind := .redirect 0, oldFullUrl := some "Cb" },
     { mimetypeId := 1, ns := "C", url := "style.css", titleRaw := some "", kind := .content 0 0, oldFullUrl := some "Cstyle.css" },
     { mimetypeId := 1, ns := "M", url := "Counter", titleRaw := none, kind := .content 0 1, oldFullUrl := some "MCounter" },
     { mimetypeId := 1, ns := "M", url := "Title", titleRaw := none, kind := .content 0 2, oldFullUrl := some "MTitle" },
     { mimetypeId := 0xffff, ns := "W", url := "mainPage", titleRaw := none, kind := .redirect 1, oldFullUrl := some "WmainPage" },
     { mimetypeId := 2, ns := "X", url := "listing/titleOrdered/v1", titleRaw := none, kind := .content 0 3
       oldFullUrl := some "Xlisting/titleOrdered/v1" }]
  mainPage := some 5
  mimetypes := { mimetypes := [encode "text/html", encode "text/css", encode "application/octet-stream"] }
  article u := u = some "Ca"
  source _ := BlobSourceObj.empty.toSource

theorem demo_wellFormed : demo.WellFormed where
  urls := by decide +kernel
  kind := by decide +kernel
  ns := by decide +kernel
  url := by decide +kernel
  title := by decide +kernel
  read := by decide +kernel
  mimetype := by
    intro e he c b hk
    simp only [demo, List.mem_cons, List.not_mem_nil, or_false] at he
    rcases he with rfl | rfl | rfl | rfl | rfl | rfl | rfl
    · exact ⟨"text/html", by decide, by decide +kernel, rfl⟩
    · cases hk
    · exact ⟨"text/css", by decide, by decide +kernel, rfl⟩
    · exact ⟨"text/css", by decide, by decide +kernel, rfl⟩
    · exact ⟨"text/css", by decide, by decide +kernel, rfl⟩
    · cases hk
    · exact ⟨"application/octet-stream", by decide, by decide +kernel, rfl⟩
  target := by
    intro e he i hk
    simp only [demo, List.mem_cons, List.not_mem_nil, or_false] at he
    rcases he with rfl | rfl | rfl | rfl | rfl | rfl | rfl <;> cases hk <;> exact ⟨_, rfl⟩

theorem demo_mainPage : ∃ p, demo.MainPage p :=
  ⟨_, 5, _, 2, rfl, rfl, by decide, ⟨1, _, rfl, rfl, 0, _, rfl, rfl, rfl⟩, 1, 1, rfl⟩

example : ∃ p body kept, demo.translate handleItem [] =
      (.ok (), [.setMainpage p] ++ body ++ [.flushOut, .closeIn, .closeOut]) ∧
    kept.Nodup ∧ (∀ e, e ∈ kept ↔ e ∈ demo.entries ∧ ¬ CreatedByPyzim e) ∧
    RedirectsLast kept ∧ List.Forall₂ (CopiedBy demo) kept body := by
  obtain ⟨p, hp⟩ := demo_mainPage
  obtain ⟨body, kept, h⟩ := C69_translate demo demo_wellFormed p hp ⟨_, .tail _ (.head _), 0, rfl⟩
  exact ⟨p.url, body, kept, h⟩

end TransInput
end Pyzim
