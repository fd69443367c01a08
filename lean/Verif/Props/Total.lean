import Verif.Lemmas.Within
import Verif.Props.Redirecting

/-!
# Calls within the limits of the format do not fail
-/

namespace Pyzim
namespace Creator
open Zim (Redirect)

variable {D K : Type} {S : Setup D K} {md5 : Bytes → Bytes} {r : Nat} {c c' : Creator D} {done : List (List Sourced)}
  {recent : List Sourced} {rs : List Redirect} {mts : List String}

/-! ### The calls -/

/-- **C81.** Creating an archive succeeds. -/
theorem C81_new (hr : 2 ≤ r) (hS : S.Good md5 (some r)) (hd : 2 ≤ S.depth) {uuid : Bytes} (hu : uuid.length = 16)
    (main : Strategy D) {plain : Strategy D} (hp : plain.IsNew .none) : ∃ c, new S uuid main plain = .ok c :=
  new_total hr hS hd hu main hp

/-- **C81.** Adding an item succeeds if the archive stays within the limits. -/
theorem C81_add (hr : 2 ≤ r) (hS : S.Good md5 (some r)) (hd : 2 ≤ S.depth) (h : CreatorHist S c done recent rs) {p : Sourced}
    (hp : Item.Admissible p) (hw : InLimits r mts (done ++ [recent ++ [p]]) rs) (forceUncompressed : Bool) :
    ∃ c', addItem S p.1 forceUncompressed c = (.ok (), c') := by
  have hF := hw.add.fine
  obtain ⟨Gb, h1, h2⟩ := h.has hr hS hF.apart (stored_few hw.few) List.mem_cons_self hF.lists
  have hi := hw.fine.lists (recent ++ [p]) (by simp)
  exact h2.add_total hS hd (hF.lists recent (by simp)).2.1 (stored_few hw.few) hp.2 ⟨hp.1, (hi.2.2 p (by simp)).1, hp.2.2⟩
    (hw.fits (all_perm h1 _)) forceUncompressed

/-- **C81.** Adding a redirect succeeds if the archive stays within the limits. -/
theorem C81_redirect (hr : 2 ≤ r) (hS : S.Good md5 (some r)) (hd : 2 ≤ S.depth) (h : CreatorHist S c done recent rs) {q : Redirect}
    (hq : q.Valid) (hw : InLimits r mts (done ++ [recent]) (rs ++ [q])) :
    ∃ c', addFullUrlRedirect S q.1 q.2.1 q.2.2 c = (.ok (), c') := by
  have hw' : InLimits r mts (done ++ [recent]) rs :=
    hw.sub (List.Sublist.refl _) (fun l hl => ⟨l, hl, List.Sublist.refl _⟩) (List.sublist_append_left _ _)
  have hF := hw'.fine
  obtain ⟨Gb, h1, h2⟩ := h.has hr hS hF.apart (stored_few hw.few) List.mem_cons_self hF.lists
  refine h2.redirect_total hd (hw.apart.separate (fun x hx => ?_) h1) (hw.fits (all_perm h1 _))
  rcases List.mem_append.1 hx with hx | hx
  · exact h.valid x hx
  · rw [List.mem_singleton] at hx
    exact hx ▸ hq

/-- **C81.** Flushing succeeds if the archive is within the limits and each redirect leads to an item, in one or more steps;
unless what is written is as long as the largest offset that can be stored. -/
theorem C81_flush (hr : 2 ≤ r) (hS : S.Good md5 (some r)) (hd : 2 ≤ S.depth) (hps : rs.length + 1 ≤ S.passes)
    (h : CreatorHist S c done recent rs) (hw : InLimits r mts (done ++ [recent]) rs)
    (hreach : ∀ q ∈ rs, Reaches rs (fun u => ∃ p ∈ (done ++ [recent]).flatten, p.1.fullUrl = u) q.2.1) :
    (∃ c', flush S c = (.ok (), c')) ∨ 2 ^ 64 ≤ (flush S c).2.arch.zim.file.length := by
  have hF := hw.fine
  obtain ⟨Gb, h1, h2⟩ := h.has hr hS hF.apart (stored_few hw.few) List.mem_cons_self hF.lists
  refine h2.flush_total hr hS hd hps (hF.lists recent (by simp)).2.1 (hw.apart.separate h.valid h1)
    (h.filled hr hS (stored_few hw.few) List.mem_cons_self hF) (h.plainHead hr hS (stored_few hw.few) List.mem_cons_self hF) ?_
    (hw.fits (all_perm h1 _)) fun q hq => ?_
  · have := hw.space
    unfold mimesSize stored
    rw [List.map_cons, List.map_map]
    exact this
  · exact Reaches.imp (hreach q hq) fun u ⟨p, hp, e⟩ => ⟨p, (all_perm h1 _).symm.subset hp, e⟩

/-- **C81.** Opening the archive again succeeds if there are no unsaved changes. -/
theorem C81_reopen (hr : 2 ≤ r) (hS : S.Good md5 (some r)) (h : CreatorHist S c done recent rs) (hd : c.arch.isDirty = false)
    (hw : InLimits r mts (done ++ [recent]) rs) (titles : Zim → PyRes PointerList) (main plain : Strategy D) :
    ∃ c', reopen S titles main plain c.arch.zim.file = .ok c' := by
  have hF := hw.fine
  obtain ⟨Gb, h1, h2⟩ := h.has hr hS hF.apart (stored_few hw.few) List.mem_cons_self hF.lists
  exact h2.reopen_total hS hd titles main plain

/-! ### All of them -/

theorem added_dirty {it : Item} {force : Bool} (h : addItem S it force c = (.ok (), c')) : c'.arch.dirty = true := by
  unfold addItem at h
  rw [PyM.get_bind] at h
  obtain ⟨_, _, _, h⟩ := PyM.bind_ok_iff.1 h
  obtain ⟨_, _, _, h⟩ := PyM.bind_ok_iff.1 h
  obtain ⟨_, _, _, h⟩ := PyM.bind_ok_iff.1 h
  rw [PyM.modify_apply] at h
  injection h with _ h
  rw [← h]

theorem redirected_dirty {s t : String} {title : Option String} (h : addFullUrlRedirect S s t title c = (.ok (), c')) :
    c'.arch.dirty = c.arch.dirty := by
  have := congrArg (fun x => x.2.arch.dirty) h
  exact this.symm

theorem isDirty_of_dirty {a : Archive} (h : a.dirty = true) : a.isDirty = true := by
  unfold Archive.isDirty
  rw [h]
  rfl

theorem addAll_total (hr : 2 ≤ r) (hS : S.Good md5 (some r)) (hd : 2 ≤ S.depth) (items : List (Sourced × Bool)) :
    ∀ {c : Creator D} {recent : List Sourced}, CreatorHist S c done recent rs → (∀ p ∈ items, Item.Admissible p.1) →
      InLimits r mts (done ++ [recent ++ items.map Prod.fst]) rs →
      ∃ c', addAll S items c = (.ok (), c') ∧ CreatorHist S c' done (recent ++ items.map Prod.fst) rs ∧
        (items ≠ [] → c'.arch.dirty = true) := by
  induction items with
  | nil =>
    intro c recent h _ _
    refine ⟨c, rfl, ?_, fun h => (h rfl).elim⟩
    simpa using h
  | cons p ps ih =>
    intro c recent h hp hw
    have e : recent ++ (p :: ps).map Prod.fst = (recent ++ [p.1]) ++ ps.map Prod.fst := by simp
    rw [e] at hw ⊢
    obtain ⟨c1, e1⟩ := C81_add hr hS hd h (hp p (by simp)) (hw.front _) p.2
    obtain ⟨c2, e2, h2, h3⟩ := ih (.add h (hp p (by simp)) e1) (fun x hx => hp x (by simp [hx])) hw
    refine ⟨c2, ?_, h2, fun _ => ?_⟩
    · unfold addAll
      rw [PyM.bind_ok e1]
      exact e2
    · cases ps with
      | nil =>
        have : c1 = c2 := congrArg Prod.snd e2
        exact this ▸ added_dirty e1
      | cons _ _ => exact h3 (by simp)

theorem redirectAll_total (hr : 2 ≤ r) (hS : S.Good md5 (some r)) (hd : 2 ≤ S.depth) (qs : List Redirect) :
    ∀ {c : Creator D} {rs : List Redirect}, CreatorHist S c done recent rs → (qs = [] ∨ c.arch.dirty = true) →
      (∀ q ∈ qs, q.Valid) → InLimits r mts (done ++ [recent]) (rs ++ qs) →
      ∃ c', redirectAll S qs c = (.ok (), c') ∧ CreatorHist S c' done recent (rs ++ qs) := by
  induction qs with
  | nil =>
    intro c rs h _ _ _
    refine ⟨c, rfl, ?_⟩
    simpa using h
  | cons q qs ih =>
    intro c rs h hc hq hw
    have hc : c.arch.dirty = true := by simpa using hc
    have e : rs ++ q :: qs = (rs ++ [q]) ++ qs := by simp
    rw [e] at hw ⊢
    obtain ⟨c1, e1⟩ := C81_redirect hr hS hd h (hq q (by simp))
      (hw.sub (List.Sublist.refl _) (fun l hl => ⟨l, hl, List.Sublist.refl _⟩) (List.sublist_append_left _ _))
    have h1 := (redirected_dirty e1).trans hc
    obtain ⟨c2, e2, h2⟩ := ih (.redirect h (hq q (by simp)) e1 (isDirty_of_dirty h1)) (.inr h1) (fun x hx => hq x (by simp [hx])) hw
    refine ⟨c2, ?_, h2⟩
    unfold redirectAll
    rw [PyM.bind_ok e1]
    exact e2

theorem Reaches.mono {rs rs' : List Redirect} {p p' : String → Prop} {u : String} (h : Reaches rs p u) (hs : ∀ q ∈ rs, q ∈ rs')
    (hp : ∀ u, p u → p' u) : Reaches rs' p' u := by
  induction h with
  | here h => exact .here (hp _ h)
  | step hm _ ih => exact .step (hs _ hm) ih

theorem flatten_sublist {α : Type} {l l' : List (List α)} (h : l.Sublist l') : l.flatten.Sublist l'.flatten := by
  induction h with
  | slnil => exact List.Sublist.refl _
  | cons x _ ih => exact ih.trans (List.sublist_append_right _ _)
  | cons_cons x _ ih => exact (List.Sublist.refl _).append ih

theorem resolved_prefix {pre ls : List Load} (h : Resolved (pre ++ ls)) : Resolved pre := by
  intro n hn
  have := h n (by rw [List.length_append]; omega)
  rw [List.getElem_append_left hn, List.take_append_of_le_length (by omega)] at this
  exact this

theorem resolved_all {ls : List Load} (h : Resolved ls) :
    ∀ q ∈ allRedirects ls, Reaches (allRedirects ls) (fun u => ∃ p ∈ (allItems ls).flatten, p.1.fullUrl = u) q.2.1 := by
  intro q hq
  obtain ⟨l, h1, h2⟩ := List.mem_flatten.1 hq
  obtain ⟨x, h3, rfl⟩ := List.mem_map.1 h1
  obtain ⟨n, hn, rfl⟩ := List.getElem_of_mem h3
  refine Reaches.mono ((h n hn).2 q h2) (fun y hy => ?_) fun u ⟨p, hp, e⟩ => ⟨p, ?_, e⟩
  · exact (flatten_sublist ((List.take_sublist _ _).map _)).subset hy
  · exact (flatten_sublist ((List.take_sublist _ _).map _)).subset hp

theorem fill_total (hr : 2 ≤ r) (hS : S.Good md5 (some r)) (hd : 2 ≤ S.depth) (ls : List Load) :
    ∀ (pre : List Load) {c : Creator D}, CreatorHist S c (allItems pre) [] (allRedirects pre) → (ls = [] → c.arch.isDirty = false) →
      (∀ l ∈ ls, ∀ p ∈ l.items, Item.Admissible p.1) → (∀ l ∈ ls, ∀ q ∈ l.redirects, q.Valid) →
      InLimits r mts (allItems (pre ++ ls)) (allRedirects (pre ++ ls)) → (allRedirects (pre ++ ls)).length < S.passes → Resolved (pre ++ ls) →
      (∃ c', fill S ls c = (.ok (), c') ∧ CreatorHist S c' (allItems (pre ++ ls)) [] (allRedirects (pre ++ ls)) ∧ c'.arch.isDirty = false) ∨
        2 ^ 64 ≤ (fill S ls c).2.arch.zim.file.length := by
  induction ls with
  | nil =>
    intro pre c h hc _ _ _ _ _
    rw [List.append_nil]
    exact .inl ⟨c, rfl, h, hc rfl⟩
  | cons l ls ih =>
    intro pre c h hc hi hq hw hps hres
    have e : pre ++ l :: ls = (pre ++ [l]) ++ ls := by simp
    rw [e] at hw hps hres ⊢
    have hres1 := resolved_prefix hres
    have hw1 : InLimits r mts (allItems pre ++ [l.items.map Prod.fst]) (allRedirects pre ++ l.redirects) := by
      have e1 : allItems (pre ++ [l]) = allItems pre ++ [l.items.map Prod.fst] := by simp [allItems]
      have e2 : allRedirects (pre ++ [l]) = allRedirects pre ++ l.redirects := by simp [allRedirects]
      rw [← e1, ← e2]
      refine hw.sub ?_ (fun x hx => ⟨x, ?_, List.Sublist.refl _⟩) ?_
      · exact flatten_sublist ((List.sublist_append_left _ _).map _)
      · exact ((List.sublist_append_left (pre ++ [l]) ls).map _).subset hx
      · exact flatten_sublist ((List.sublist_append_left _ _).map _)
    obtain ⟨c1, e1, h1, k1⟩ := addAll_total hr hS hd l.items h (hi l (by simp))
      (hw1.sub (by simp) (fun x hx => ⟨x, by simpa using hx, List.Sublist.refl _⟩) (List.sublist_append_left _ _))
    rw [List.nil_append] at h1
    have hl := hres1 pre.length (by simp)
    rw [List.getElem_append_right (Nat.le_refl _)] at hl
    simp only [Nat.sub_self, List.getElem_cons_zero] at hl
    obtain ⟨c2, e2, h2⟩ := redirectAll_total hr hS hd l.redirects h1 (by
      by_cases hn : l.items = []
      · exact .inl (hl.1 hn)
      · exact .inr (k1 hn)) (hq l (by simp)) hw1
    have hrun : fill S (l :: ls) c = (flush S >>= fun _ => fill S ls) c2 := by
      conv_lhs => unfold fill
      rw [PyM.bind_ok e1, PyM.bind_ok e2]
    have hreach := resolved_all hres1
    rw [show allRedirects (pre ++ [l]) = allRedirects pre ++ l.redirects by simp [allRedirects],
      show allItems (pre ++ [l]) = allItems pre ++ [l.items.map Prod.fst] by simp [allItems]] at hreach
    have hlen : (allRedirects pre ++ l.redirects).length ≤ (allRedirects (pre ++ [l] ++ ls)).length := by
      simp [allRedirects]
    have hbig := C81_flush hr hS hd (by omega) h2 hw1 hreach
    cases hf : flush S c2 with
    | mk res c3 =>
      cases res with
      | ok u =>
        have e3 : flush S c2 = (.ok (), c3) := hf
        have h3 := CreatorHist.flush h2 e3
        have hclean : c3.arch.isDirty = false := by
          obtain ⟨Gb, g1, g2⟩ := h2.has hr hS hw1.fine.apart (stored_few hw1.few) List.mem_cons_self hw1.fine.lists
          have hb := hw1.fine.lists (l.items.map Prod.fst) (by simp)
          exact (g2.flush hS hb.2.1 (fun p hp => (hb.2.2 p hp).2) (hw1.apart.separate h2.valid g1) e3).2
        rw [hrun, PyM.bind_ok e3]
        refine ih (pre ++ [l]) ?_ (fun _ => hclean) (fun x hx => hi x (by simp [hx])) (fun x hx => hq x (by simp [hx])) hw hps hres
        rw [show allRedirects (pre ++ [l]) = allRedirects pre ++ l.redirects by simp [allRedirects],
          show allItems (pre ++ [l]) = allItems pre ++ [l.items.map Prod.fst] by simp [allItems]]
        exact h3
      | error x =>
        right
        rw [hrun, PyM.bind_err hf]
        rw [hf] at hbig
        rcases hbig with ⟨c', hbig⟩ | hbig
        · injection hbig with hbig
          cases hbig
        · exact hbig

theorem current_flatten (lists : List (List Sourced)) : (lists.flatten.map fun p => p.1.fullUrl).Nodup → current lists = lists.flatten := by
  induction lists using snoc_induction with
  | h0 => intro _; rfl
  | h1 ls l ih =>
    intro hn
    rw [List.flatten_append, List.flatten_cons, List.flatten_nil, List.append_nil] at hn ⊢
    rw [List.map_append, List.nodup_append] at hn
    rw [current_snoc, ih hn.1, List.filter_eq_self.2]
    intro p hp
    rw [List.all_eq_true]
    intro q hq
    have := hn.2.2 _ (List.mem_map.2 ⟨p, hp, rfl⟩) _ (List.mem_map.2 ⟨q, hq, rfl⟩)
    simpa using fun e => this e.symm

theorem InLimits.batches {lists : List (List Sourced)} (h : InLimits r mts lists rs) : ∀ l ∈ lists, Batch mts l := fun l hl =>
  ⟨h.urls.sublist ((List.sublist_flatten_of_mem hl).map _), fun p hp => h.mimetypes p (List.mem_flatten.2 ⟨l, hl, hp⟩),
    fun p hp => h.other p (List.mem_flatten.2 ⟨l, hl, hp⟩), h.size l hl⟩

/-- **C81.** Whoever creates an archive and fills it, in any number of steps, with items and redirects within the limits gets
a file in which everybody finds exactly these items, with their values and contents, and these redirects, each of which leads
to its target; unless the file reaches the largest offset that can be stored. -/
theorem C81_build (hr : 2 ≤ r) (hS : S.Good md5 (some r)) (hd : 2 ≤ S.depth) {uuid : Bytes} (hu : uuid.length = 16)
    {t : CompressionType} (W : Working S.X S.C t) {main plain : Strategy D} (hm : main.IsNew t) (hp : plain.IsNew .none)
    {ls : List Load} (hne : ls ≠ []) (hi : ∀ l ∈ ls, ∀ p ∈ l.items, Item.Admissible p.1)
    (hq : ∀ l ∈ ls, ∀ q ∈ l.redirects, q.Valid) (hw : InLimits r mts (allItems ls) (allRedirects ls))
    (hps : (allRedirects ls).length < S.passes) (hres : Resolved ls) :
    ∃ c, new S uuid main plain = .ok c ∧
      ((∃ c', fill S ls c = (.ok (), c') ∧ c'.arch.isDirty = false ∧
        ∀ (kind : ClusterKind) (calls follow : Nat) (titles : Zim → PyRes PointerList),
          ∃ a, openArchive { S with kind := kind, calls := calls, follow := follow } titles false c'.arch.zim.file = .ok a ∧
            ShowsItems S.X kind calls a.zim (allItems ls).flatten (allRedirects ls) ∧ ∀ x ∈ allRedirects ls, RedirectWorks a.zim x) ∨
      2 ^ 64 ≤ (fill S ls c).2.arch.zim.file.length) := by
  obtain ⟨c, hc⟩ := C81_new hr hS hd hu main hp
  refine ⟨c, hc, ?_⟩
  rcases fill_total hr hS hd ls [] (.new hu W hm hp hc) (fun h => (hne h).elim) hi hq hw hps hres with ⟨c', h1, h2, h3⟩ | h
  · refine .inl ⟨c', h1, h3, fun kind calls follow titles => ?_⟩
    rw [List.nil_append] at h2
    have hw' : InLimits r mts (allItems ls ++ [[]]) (allRedirects ls) := by
      refine hw.sub (by simp) (fun l hl => ?_) (List.Sublist.refl _)
      rcases List.mem_append.1 hl with hl | hl
      · exact ⟨l, hl, List.Sublist.refl _⟩
      · have hl' : l = [] := List.mem_singleton.1 hl
        cases ls with
        | nil => exact (hne rfl).elim
        | cons x xs => exact ⟨x.items.map Prod.fst, by simp [allItems], by rw [hl']; exact List.nil_sublist _⟩
    obtain ⟨a, a1, a2⟩ := C70_items_survive hr hS h2 hw'.apart h3 hw.few (InLimits.batches hw') kind calls follow titles
    obtain ⟨a', a3, a4⟩ := C75_opened_partial hr hS h2 hw'.apart h3 hw.few (InLimits.batches hw') kind calls follow titles
    rw [a1] at a3
    injection a3 with a3
    subst a3
    refine ⟨a, a1, ?_, fun x hx => a4 x hx (List.nodup_iff_count_le_one.1 hw'.urls _)⟩
    rw [current_flatten _ hw'.urls] at a2
    simpa using a2
  · exact .inr h

/-! ### A concrete archive -/

open Strategy (item)

/-- two pages, a redirect to one of them and a redirect to that; then another page (uncompressed), and a redirect -/
def demoLoads : List Load :=
  [⟨[(item "0" "text/html" [9], false), (item "a" "text/html" [1, 2, 3], false)], [("Cr", "Ca", none), ("Cq", "Cr", some "Q")]⟩,
   ⟨[(item "b" "image/png" [4, 5], true)], [("Cx", "Cq", none)]⟩]

theorem valid_Cx' : Redirect.Valid ("Cx", "Cq", none) :=
  ⟨⟨'C', "x", rfl, by decide, by decide +kernel⟩, by decide, (by intro t h; cases h), by decide⟩

/-- The limits are decided by computation. -/
theorem within_of {lists : List (List Sourced)} (h1 : (lists.flatten.map fun p => p.1.fullUrl).Nodup)
    (h2 : ∀ p ∈ lists.flatten, p.1.fullUrl ≠ URL_ARTICLES) (h3 : ∀ p ∈ lists.flatten, p.1.mimetype ∈ mts)
    (h4 : mts.length < 65534) (h5 : 1 + (("application/octet-stream+zimlisting" :: mts).map fun t => (encode t).length + 1).sum ≤ r)
    (h6 : ∀ l ∈ lists, NotHuge l) (h7 : Apart rs lists) (h8 : 1 + lists.flatten.length + rs.length < 80 + r) (h9 : 80 + r ≤ 2 ^ 32) :
    InLimits r mts lists rs := ⟨h1, h2, h3, h4, h5, h6, h7, by omega, .inr ⟨h8, h9⟩⟩

theorem demoLoads_within : InLimits 90 ["text/html", "image/png"] (allItems demoLoads) (allRedirects demoLoads) :=
  within_of (by decide +kernel) (by decide +kernel) (by decide +kernel) (by decide) (by decide +kernel)
    (by intro l hl
        simp only [allItems, demoLoads, List.map_cons, List.map_nil, List.mem_cons, List.not_mem_nil, or_false] at hl
        rcases hl with rfl | rfl <;> (unfold NotHuge; decide))
    ⟨by decide +kernel, by decide +kernel, by decide +kernel⟩ (by decide +kernel) (by decide)

theorem demoLoads_resolved : Resolved demoLoads := by
  have ha : ∀ n, Reaches (allRedirects (demoLoads.take (n + 1)))
      (fun u => ∃ p ∈ (allItems (demoLoads.take (n + 1))).flatten, p.1.fullUrl = u) "Ca" := fun n =>
    .here ⟨item "a" "text/html" [1, 2, 3], by simp [demoLoads, allItems], by decide +kernel⟩
  have hr : ∀ n, Reaches (allRedirects (demoLoads.take (n + 1)))
      (fun u => ∃ p ∈ (allItems (demoLoads.take (n + 1))).flatten, p.1.fullUrl = u) "Cr" := fun n =>
    .step (t := "Ca") (title := none) (by simp [demoLoads, allRedirects]) (ha n)
  have hq : ∀ n, Reaches (allRedirects (demoLoads.take (n + 1)))
      (fun u => ∃ p ∈ (allItems (demoLoads.take (n + 1))).flatten, p.1.fullUrl = u) "Cq" := fun n =>
    .step (t := "Cr") (title := some "Q") (by simp [demoLoads, allRedirects]) (hr n)
  intro n hn
  match n, hn with
  | 0, _ =>
    refine ⟨(fun h => by cases h), fun q hm => ?_⟩
    have hm : q ∈ [("Cr", "Ca", none), ("Cq", "Cr", some "Q")] := hm
    simp only [List.mem_cons, List.not_mem_nil, or_false] at hm
    rcases hm with rfl | rfl
    · exact ha 0
    · exact hr 0
  | 1, _ =>
    refine ⟨(fun h => by cases h), fun q hm => ?_⟩
    have hm : q ∈ [("Cx", "Cq", none)] := hm
    rw [List.mem_singleton] at hm
    subst hm
    exact hq 1
  | n + 2, hn => exact absurd hn (by simp [demoLoads])

theorem demoLoads_admissible : ∀ l ∈ demoLoads, ∀ p ∈ l.items, Item.Admissible p.1 := by
  intro l hl
  simp only [demoLoads, List.mem_cons, List.not_mem_nil, or_false] at hl
  rcases hl with rfl | rfl <;> intro p hp <;> simp only [List.mem_cons, List.not_mem_nil, or_false] at hp
  · rcases hp with rfl | rfl <;> exact item_admissible _ _ _ (by decide +kernel) (by decide +kernel)
  · rcases hp with rfl; exact item_admissible _ _ _ (by decide +kernel) (by decide +kernel)

theorem demoLoads_valid : ∀ l ∈ demoLoads, ∀ q ∈ l.redirects, Redirect.Valid q := by
  intro l hl
  simp only [demoLoads, List.mem_cons, List.not_mem_nil, or_false] at hl
  rcases hl with rfl | rfl <;> intro p hp <;> simp only [List.mem_cons, List.not_mem_nil, or_false] at hp
  · rcases hp with rfl | rfl
    · exact valid_Cr
    · exact valid_Cq
  · rcases hp with rfl; exact valid_Cx'

example : ∃ c, new demoSetup (List.replicate 16 1) demoMain demoPlain = .ok c ∧
    ((∃ c', fill demoSetup demoLoads c = (.ok (), c') ∧ c'.arch.isDirty = false ∧
        ∀ (kind : ClusterKind) (calls follow : Nat) (titles : Zim → PyRes PointerList),
          ∃ a, openArchive { demoSetup with kind := kind, calls := calls, follow := follow } titles false c'.arch.zim.file = .ok a ∧
            ShowsItems Cluster.rawCodecs kind calls a.zim [item "0" "text/html" [9], item "a" "text/html" [1, 2, 3], item "b" "image/png" [4, 5]]
              [("Cr", "Ca", none), ("Cq", "Cr", some "Q"), ("Cx", "Cq", none)] ∧
            ∀ x ∈ allRedirects demoLoads, RedirectWorks a.zim x) ∨
      2 ^ 64 ≤ (fill demoSetup demoLoads c).2.arch.zim.file.length) :=
  C81_build (by omega) demoSetup_good (by decide) rfl Strategy.raw_working demoMain_new demoPlain_new (by simp [demoLoads])
    demoLoads_admissible demoLoads_valid demoLoads_within (by decide) demoLoads_resolved

theorem demoG4_within : InLimits 90 ["text/html"] ([] ++ [[item "0" "text/html" [9], item "a" "text/html" [1, 2, 3]]])
    [("Cr", "Ca", none), ("Cq", "Cr", some "Q")] :=
  within_of (by decide +kernel) (by decide +kernel) (by decide +kernel) (by decide) (by decide +kernel)
    (by intro l hl
        rw [List.nil_append, List.mem_singleton] at hl
        subst hl
        unfold NotHuge; decide)
    ⟨by decide +kernel, by decide +kernel, by decide +kernel⟩ (by decide +kernel) (by decide)

example : ∃ c', addItem demoSetup (item "0" "text/html" [9]).1 true demoA = (.ok (), c') :=
  C81_add (by omega) demoSetup_good (by decide) demoA_hist (item_admissible _ _ _ (by decide +kernel) (by decide +kernel))
    (demoG4_within.sub (by simp) (by simp) (List.nil_sublist _)) true

example : ∃ c', addFullUrlRedirect demoSetup "Cx" "Cq" none demoG4 = (.ok (), c') :=
  C81_redirect (q := ("Cx", "Cq", none)) (mts := ["text/html"]) (by omega) demoSetup_good (by decide) demoG4_hist valid_Cx'
    (within_of (by decide +kernel) (by decide +kernel) (by decide +kernel) (by decide) (by decide +kernel) demoG4_within.size
      ⟨by decide +kernel, by decide +kernel, by decide +kernel⟩ (by decide +kernel) (by decide))

example : (∃ c', flush demoSetup demoG4 = (.ok (), c')) ∨ 2 ^ 64 ≤ (flush demoSetup demoG4).2.arch.zim.file.length :=
  C81_flush (by omega) demoSetup_good (by decide) (by decide) demoG4_hist demoG4_within fun q hq => by
    have ha : Reaches [("Cr", "Ca", none), ("Cq", "Cr", some "Q")]
        (fun u => ∃ p ∈ ([] ++ [[item "0" "text/html" [9], item "a" "text/html" [1, 2, 3]]]).flatten, p.1.fullUrl = u) "Ca" :=
      .here ⟨item "a" "text/html" [1, 2, 3], by simp, by decide +kernel⟩
    simp only [List.mem_cons, List.not_mem_nil, or_false] at hq
    rcases hq with rfl | rfl
    · exact ha
    · exact .step (t := "Ca") (title := none) (by simp) ha

example : ∃ c', reopen demoSetup (fun _ => .error .hang) demoMain demoPlain demoG.arch.zim.file = .ok c' :=
  C81_reopen (mts := ["text/html"]) (by omega) demoSetup_good demoG_hist demoG_clean
    (within_of (by decide +kernel) (by decide +kernel) (by decide +kernel) (by decide) (by decide +kernel)
      (fun l hl => (demoG_batches l hl).size) demoG_apart (by decide +kernel) (by decide)) _ _ _

end Creator
end Pyzim
