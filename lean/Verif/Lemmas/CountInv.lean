import Verif.Lemmas.CountHist
import Verif.Props.SetContents

/-!
# What holds throughout the history of an archive that counts mimetypes
-/

namespace Pyzim
open Zim (Row Stored Clustered Lists Mirrored Mirrors catalogue catalogue_snoc Rep Redirect)

variable {D K : Type} {X : Codecs D} {C : Compressors K} {ML : List Bytes} {reserve : Option Nat} {a a' : Archive}
  {G G' : List (List Sourced)} {rows : List Row} {cs : List Stored} {extra : Nat → Prop} {es : List Entry} {L : Bytes}
  {S : Setup D K} {G0 : List (List Sourced)} {items : List Sourced} {rs : List Redirect}
  {c c' : Counting D} {m0 : Catalogue} {R B : List Redirect} {M : String → Prop} {n n' : Counter} {P1 P2 : List Sourced}
  {done : List (List Sourced)} {recent : List Sourced} {x y p : Sourced} {u : String} {src : BlobSource} {content : Bytes}

/-! ### The lists of items, with the item of the counter in the first one -/

def doneC (x : Sourced) : List (List Sourced) → List (List Sourced)
  | [] => []
  | l :: ls => (x :: l) :: ls

def recentC (x : Sourced) : List (List Sourced) → List Sourced → List Sourced
  | [], recent => x :: recent
  | _ :: _, recent => recent

theorem doneC_append (x : Sourced) (done : List (List Sourced)) (recent : List Sourced) :
    doneC x done ++ [recentC x done recent] = doneC x (done ++ [recent]) := by
  cases done <;> rfl

theorem recentC_append (x p : Sourced) (done : List (List Sourced)) (recent : List Sourced) :
    recentC x done (recent ++ [p]) = recentC x done recent ++ [p] := by
  cases done <;> rfl

theorem mem_doneC {l : List Sourced} (h : l ∈ doneC x done) : ∃ l' ∈ done, l = l' ∨ l = x :: l' := by
  cases done with
  | nil => cases h
  | cons d ds =>
    rcases List.mem_cons.1 h with h | h
    · exact ⟨d, by simp, .inr h⟩
    · exact ⟨l, by simp [h], .inl rfl⟩

theorem doneC_set (hx : x.1.fullUrl ≠ u) : setContentIn u src content (doneC x done) = doneC x (setContentIn u src content done) := by
  cases done with
  | nil => rfl
  | cons l ls =>
    have e : withContent u src content x = x := by unfold withContent; rw [if_neg hx]
    unfold setContentIn doneC replaceLast
    split
    · rfl
    · simp only [List.any_cons, hx, decide_false, Bool.false_or, List.map_cons, e]
      split <;> rfl

theorem doneC_counter (hne : done ≠ []) (hx : x.1.fullUrl = u) (hd : ∀ l ∈ done, ∀ p ∈ l, p.1.fullUrl ≠ u) :
    setContentIn u src content (doneC x done) = doneC ({ x.1 with source := src }, content) done := by
  cases done with
  | nil => exact absurd rfl hne
  | cons l ls =>
    have h1 : (ls.any fun l => l.any fun p => decide (p.1.fullUrl = u)) = false := by
      rw [List.any_eq_false]
      intro l' hl'
      rw [Bool.not_eq_true, List.any_eq_false]
      intro p hp
      simpa using hd l' (by simp [hl']) p hp
    have h2 : l.map (withContent u src content) = l := by
      rw [List.map_congr_left (g := id) fun p hp => ?_, List.map_id]
      unfold withContent
      rw [if_neg (hd l (by simp) p hp)]; rfl
    unfold setContentIn doneC replaceLast
    rw [if_neg (by rw [h1]; simp)]
    simp only [List.any_cons, hx, decide_true, Bool.true_or, if_true, List.map_cons, h2]
    unfold withContent
    rw [if_pos hx]

theorem current_doneC (hd : ∀ l ∈ done, ∀ p ∈ l, p.1.fullUrl ≠ x.1.fullUrl) (hne : done ≠ []) :
    current (doneC x done) = x :: current done := by
  induction done using snoc_induction with
  | h0 => exact absurd rfl hne
  | h1 ds l ih =>
    cases ds with
    | nil => rfl
    | cons d ds =>
      rw [← doneC_append, current_snoc, current_snoc, ih (fun l hl => hd l (List.mem_append_left _ hl)) (by simp)]
      rw [List.filter_cons_of_pos]
      · rfl
      · rw [List.all_eq_true]
        intro q hq
        simpa using hd l (by simp) q hq

/-! ### The invariant -/

/-- The archive has the items and, first of all, that of the counter, whose content is `text`. -/
structure CountsAt (S : Setup D K) (ML : List Bytes) (reserve : Option Nat) (M : String → Prop) (c : Counting D)
    (done : List (List Sourced)) (recent : List Sourced) (rs : List Redirect) (x : Sourced) (Gb : List (List (List Sourced)))
    (G : List (List Sourced)) (P1 P2 : List Sourced) : Prop where
  item : ∃ src, x.1 = { Counting.counterItem with source := src }
  groups : List.Forall₂ (fun G l => G.flatten.Perm l) Gb (doneC x done)
  has : HasAt false none S ML reserve Gb.flatten (recentC x done recent) rs c.creator G P1 P2
  tally : TallyG M (Gb.flatten ++ G) c.counter
  fresh : done = [] → x.2 = [] ∧ c.creator.arch.isDirty = true ∧ c.counter.dirty = true
  saved : c.creator.arch.isDirty = false ∨ c.counter.dirty = false → ∃ n0, TallyG M (Gb.flatten ++ G) n0 ∧ x.2 = counterText n0

theorem CountsAt.url (h : CountsAt S ML reserve M c done recent rs x Gb G P1 P2) : x.1.fullUrl = URL_COUNTER := by
  obtain ⟨src, hx⟩ := h.item
  rw [hx]; rfl

/-- two counters of the same items -/
theorem TallyG.swap (h0 : TallyG M G n) (h1 : TallyG M G n') (h2 : TallyG M G' n') : TallyG M G' n :=
  ⟨fun mt => by rw [h0.counts, ← h1.counts, h2.counts], h0.distinct, h0.keys⟩

theorem Counting.onCreator_ok {α : Type} {g : PyM (Creator D) α} {r : α} (h : Counting.onCreator g c = (.ok r, c')) :
    g c.creator = (.ok r, c'.creator) ∧ c'.counter = c.counter := by
  simp only [Counting.onCreator, PyM.of_apply] at h
  injection h with h1 h2
  rw [← h2, ← h1]
  exact ⟨rfl, rfl⟩

theorem HasAt.set {c c' : Creator D} (hR : Replaceable S.X S.C) (h : HasAt false none S ML reserve G0 items rs c G P1 P2)
    (hd : Delivers src content) (hu : u ≠ URL_ARTICLES) (hn : ∀ p ∈ items, p.1.fullUrl ≠ u)
    (hok : Creator.setContent S u src c = (.ok (), c')) :
    u ≠ "" ∧ HasAt false none S ML reserve (setGroups u src content G0) items rs c' G P1 P2 ∧ c'.arch.isDirty = true ∧
      setGroups u src content (G0 ++ G) = setGroups u src content G0 ++ G := by
  obtain ⟨⟨rows, cs, extra, es, L, m0, R, B, hc, hB⟩, h1, h2, h3, h4, h5, h6⟩ := h
  obtain ⟨z', hz, rfl⟩ := Creator.setContent_ok hok
  obtain ⟨-, hu0, cs', k1, k2, k3, -⟩ := hc.setContent hR hd hu hz
  have hG : G.any (fun l => l.any (urlIs u)) = false :=
    any_urlIs fun p hp => hn p (h5.subset (List.mem_append_right _ hp))
  have e : setGroups u src content (G0 ++ G) = setGroups u src content G0 ++ G := by
    unfold setGroups
    rw [replaceLast_append, if_neg (by rw [hG]; simp)]
  rw [e] at k1
  have hdd : Archive.isDirty { c.arch with zim := z' } = true := by unfold Archive.isDirty; simp [k3]
  refine ⟨hu0, ⟨⟨rows, cs', extra, es, L, m0, R, B, k1, hB⟩, ?_, ?_, h3, h4, h5, ?_⟩, hdd, e⟩
  · simp only [k2]; exact h1
  · simp only [k2]; exact h2
  · intro hcl
    rw [show Archive.isDirty _ = true from hdd] at hcl
    cases hcl

theorem Creator.addItem_dirty {c c' : Creator D} {it : Item} {force : Bool} (hok : Creator.addItem S it force c = (.ok (), c')) :
    c'.arch.isDirty = true := by
  unfold Creator.addItem at hok
  rw [PyM.get_bind] at hok
  obtain ⟨⟨⟩, c1, -, hok⟩ := PyM.bind_ok_iff.1 hok
  obtain ⟨⟨⟩, c2, -, hok⟩ := PyM.bind_ok_iff.1 hok
  obtain ⟨⟨⟩, c3, -, hok⟩ := PyM.bind_ok_iff.1 hok
  rw [PyM.modify_apply] at hok
  injection hok with _ hok
  rw [← hok]
  unfold Archive.isDirty
  simp

theorem CountHist.valid (h : CountHist S c done recent rs) : ∀ r ∈ rs, Redirect.Valid r := by
  induction h with
  | new => intro r hr; cases hr
  | add _ _ _ ih => exact ih
  | redirect _ hv _ _ ih =>
    intro r hr
    rcases List.mem_append.1 hr with hr | hr
    · exact ih r hr
    · rw [List.mem_singleton] at hr; rw [hr]; exact hv
  | set _ _ _ _ _ _ _ ih => exact ih
  | flush _ _ ih => exact ih
  | reopen _ _ _ _ _ _ ih => exact ih

/-- what is asked of the items between two flushes, if the item of the counter might be one of them -/
structure Counts1 (ML : List Bytes) (l : List Sourced) : Prop where
  nodup : ((counterPlace :: l).map urlOf).Nodup
  size : NotHuge (counterPlace :: l)
  each : ∀ p ∈ l, encode p.1.mimetype ∈ ML ∧ p.1.fullUrl ≠ URL_ARTICLES

theorem Counts1.other {l : List Sourced} (h : Counts1 ML l) : ∀ p ∈ l, p.1.fullUrl ≠ URL_COUNTER := by
  intro p hp e
  have := h.nodup
  rw [List.map_cons, List.nodup_cons] at this
  exact this.1 (List.mem_map.2 ⟨p, hp, e⟩)

theorem Counts1.urls {l : List Sourced} (h : Counts1 ML l) : (l.map urlOf).Nodup := by
  have := h.nodup
  rw [List.map_cons, List.nodup_cons] at this
  exact this.2

theorem Counts1.with {l : List Sourced} (h : Counts1 ML l) (hx : x.1.fullUrl = URL_COUNTER) : ((x :: l).map urlOf).Nodup := by
  have := h.nodup
  rw [List.map_cons] at this ⊢
  rw [show urlOf x = urlOf counterPlace from hx]
  exact this

theorem Counts1.huge {l : List Sourced} (h : Counts1 ML l) : NotHuge l := h.size.sublist (List.sublist_cons_self _ _)

theorem Counts1.append {l m : List Sourced} (h : Counts1 ML (l ++ m)) : Counts1 ML l :=
  ⟨h.nodup.sublist (((List.sublist_append_left l m).cons₂ _).map _), h.size.sublist ((List.sublist_append_left l m).cons₂ _),
    fun p hp => h.each p (List.mem_append_left _ hp)⟩

theorem Counts1.unset {l : List Sourced} (h : Counts1 ML (l.map (withContent u src content))) (hs : NotHuge (counterPlace :: l)) :
    Counts1 ML l := by
  have e : urlOf ∘ withContent u src content = urlOf := by funext p; exact withContent_url u src content p
  refine ⟨?_, hs, fun p hp => ?_⟩
  · have := h.nodup
    rw [List.map_cons, List.map_map, e] at this
    rwa [List.map_cons]
  · have := h.each _ (List.mem_map_of_mem hp)
    rwa [withContent_url, withContent_mimetype] at this

/-- the sources of the redirects differ from the url of the counter, too -/
theorem Apart.counter (hA : Apart rs ([counterPlace] :: (done ++ [recent]))) (hx : x.1.fullUrl = URL_COUNTER) :
    Apart rs (doneC x done ++ [recentC x done recent]) := by
  refine ⟨hA.nodup, hA.articles, fun r hr l hl p hp => ?_⟩
  rw [doneC_append] at hl
  obtain ⟨l', hl', h⟩ := mem_doneC hl
  have := hA.items r hr l' (List.mem_cons_of_mem _ hl')
  rcases h with rfl | rfl
  · exact this p hp
  · rcases List.mem_cons.1 hp with rfl | hp
    · rw [hx]
      exact hA.items r hr [counterPlace] (by simp) counterPlace (by simp)
    · exact this p hp

theorem CountsAt.separate (h : CountsAt S ML reserve M c done recent rs x Gb G P1 P2)
    {rs' : List Redirect} (hA : Apart rs' ([counterPlace] :: (done ++ [recent]))) (hv : ∀ r ∈ rs', Redirect.Valid r) :
    Separate rs' Gb.flatten (recentC x done recent) := (hA.counter h.url).separate hv h.groups

theorem CountsAt.recentOnes (h : CountsAt S ML reserve M c done recent rs x Gb G P1 P2) (hl : Counts1 ML recent) :
    NotHuge (recentC x done recent) ∧ ∀ p ∈ recentC x done recent, p.1.fullUrl ≠ URL_ARTICLES := by
  cases done with
  | nil =>
    refine ⟨?_, fun p hp => ?_⟩
    · have := hl.size
      unfold NotHuge at this ⊢
      simpa [recentC, (h.fresh rfl).1, counterPlace] using this
    · rcases List.mem_cons.1 hp with rfl | hp
      · rw [h.url]; decide
      · exact (hl.each p hp).2
  | cons d ds => exact ⟨hl.huge, fun p hp => (hl.each p hp).2⟩

theorem CountsAt.last (h : CountsAt S ML reserve M c done recent rs x Gb G P1 P2) (hG : G.flatten.Perm (recentC x done recent))
    (hm : ∀ l ∈ done ++ [recent], Counts1 ML l) :
    (lastOnes urlOf (Gb.flatten ++ G).flatten).Perm (x :: current (done ++ [recent])) := by
  have hg : List.Forall₂ (fun (G : List (List Sourced)) l => G.flatten.Perm l) (Gb ++ [G]) (doneC x (done ++ [recent])) := by
    rw [← doneC_append]
    exact List.rel_append h.groups (.cons hG .nil)
  have := current_perm hg fun l hl => by
    obtain ⟨l', hl', k⟩ := mem_doneC hl
    rcases k with rfl | rfl
    · exact (hm _ hl').urls
    · exact (hm _ hl').with h.url
  rw [current_doneC (fun l hl p hp => by rw [h.url]; exact (hm l hl).other p hp) (by simp)] at this
  rw [List.flatten_append] at this
  simpa using this

theorem CountHist.counts {md5 : Bytes → Bytes} {r : Nat} (hr : 2 ≤ r) (hS : S.Good md5 (some r)) (hR : Replaceable S.X S.C)
    (h : CountHist S c done recent rs) (hA : Apart rs ([counterPlace] :: (done ++ [recent])))
    (hML : ML.length < 65535) (hmt : encode Creator.placeholder.mimetype ∈ ML) (hct : encode Counting.counterItem.mimetype ∈ ML)
    (hL : ∀ b ∈ ML, ∀ s, decode b = .ok s → M s) (hM : ∀ mt, M mt → MimetypeShape mt) (hM0 : ¬ M "<redirect>")
    (hm : ∀ l ∈ done ++ [recent], Counts1 ML l) :
    ∃ x Gb G P1 P2, CountsAt S ML (some r) M c done recent rs x Gb G P1 P2 := by
  induction h with
  | new hu W n1 n2 hok =>
    obtain ⟨G, P1, P2, h1, h2, h3, h4⟩ := Counting.new_ok (M := M) hr hS hu W n1 n2 hML hmt hct hok
    refine ⟨counterPlace, [], G, P1, P2, ⟨_, rfl⟩, .nil, h1, h4, fun _ => ⟨rfl, h2, h3⟩, ?_⟩
    rintro (k | k)
    · rw [h2] at k; cases k
    · rw [h3] at k; cases k
  | @add c c' done recent rs p _ _ hp hok ih =>
    have hl := hm (recent ++ [p]) (by simp)
    obtain ⟨x, Gb, G, P1, P2, h⟩ := ih (hA.sub (List.Sublist.refl _) fun y hy q hq => by
      rcases List.mem_cons.1 hy with hy | hy
      · exact ⟨y, by simp [hy], hq⟩
      rcases List.mem_append.1 hy with hx | hx
      · exact ⟨y, by simp [hx], hq⟩
      · rw [List.mem_singleton] at hx
        exact ⟨recent ++ [p], by simp, List.mem_append_left _ (hx ▸ hq)⟩) fun l hl' => by
      rcases List.mem_append.1 hl' with hl' | hl'
      · exact hm l (List.mem_append_left _ hl')
      · rw [List.mem_singleton] at hl'
        rw [hl']; exact hl.append
    obtain ⟨q1, q2⟩ := h.recentOnes hl.append
    have hh := h.has
    obtain ⟨⟨rows, cs, extra, es, L, m0, R, B, hc, hB⟩, -, -, hf1, hf2, -, -⟩ := hh
    have hi : p.1.Addable ML := ⟨hp.1, (hl.each _ (by simp)).1, hp.2.2⟩
    obtain ⟨k1, k2, k3⟩ := Counting.addItem_ok hM0 hL hML hc (hc.tallied_iff.2 h.tally) hf1 hf2 hi hok
    obtain ⟨G', P1', P2', rows', cs', es', g1, g2, -⟩ := h.has.add hS hc hB q1 hML hp.2 hi (fun q hq => by
      rcases List.mem_append.1 hq with hq | hq
      · exact q2 q hq
      · exact (hl.each q (List.mem_append_right _ hq)).2) k1
    have ht := g2.tallied_iff.1 k2
    have hdirty := Creator.addItem_dirty k1
    refine ⟨x, Gb, G ++ G', P1', P2', h.item, h.groups, by rw [recentC_append]; exact g1, ht, fun hd => ?_, ?_⟩
    · obtain ⟨f1, -, f3⟩ := h.fresh hd
      refine ⟨f1, hdirty, ?_⟩
      rcases k3 with k3 | k3
      · rw [k3]; exact f3
      · exact k3
    · rintro (k | k)
      · rw [hdirty] at k; cases k
      · rcases k3 with k3 | k3
        · rw [k3] at k ht
          obtain ⟨n0, s1, s2⟩ := h.saved (.inr k)
          exact ⟨n0, s1.swap h.tally ht, s2⟩
        · rw [k3] at k; cases k
  | @redirect c c' done recent rs r hprev hv hok hd ih =>
    obtain ⟨x, Gb, G, P1, P2, h⟩ := ih (hA.sub (List.sublist_append_left _ _) fun x hx q hq => ⟨x, hx, hq⟩) hm
    obtain ⟨k1, k2⟩ := Counting.onCreator_ok hok
    have hs := h.separate hA (hprev.redirect hv hok hd).valid
    have hh := h.has
    obtain ⟨⟨rows, cs, extra, es, L, m0, R, B, hc, hB⟩, -⟩ := hh
    obtain ⟨rows', m0', R', B', g1, -⟩ := h.has.redirect hc hB hs k1 hd
    refine ⟨x, Gb, G, P1, P2, h.item, h.groups, g1, by rw [k2]; exact h.tally, fun e => ?_, ?_⟩
    · obtain ⟨f1, -, f3⟩ := h.fresh e
      exact ⟨f1, hd, by rw [k2]; exact f3⟩
    · rintro (k | k)
      · rw [hd] at k; cases k
      · rw [k2] at k; exact h.saved (.inr k)
  | @set c c' done recent rs u src content hprev hh hu hu' hrec hd hok ih =>
    have hm' : ∀ l ∈ done ++ [recent], Counts1 ML l := by
      intro l hl
      rcases List.mem_append.1 hl with hl | hl
      · rcases setContentIn_old (u := u) (src := src) (content := content) hl with hl' | hl'
        · exact hm l (List.mem_append_left _ hl')
        · exact (hm _ (List.mem_append_left _ hl')).unset (hh l hl)
      · exact hm l (List.mem_append_right _ hl)
    have hA' : Apart rs ([counterPlace] :: (done ++ [recent])) := by
      refine ⟨hA.nodup, hA.articles, fun r hr l hl p hp => ?_⟩
      rcases List.mem_cons.1 hl with rfl | hl
      · exact hA.items r hr _ List.mem_cons_self p hp
      · have : Apart rs (setContentIn u src content done ++ [recent]) := hA.sub (List.Sublist.refl _) fun x hx q hq => ⟨x, List.mem_cons_of_mem _ hx, hq⟩
        exact this.unset.items r hr l hl p hp
    obtain ⟨x, Gb, G, P1, P2, h⟩ := ih hA' hm'
    obtain ⟨k1, k2⟩ := Counting.onCreator_ok hok
    have hne : ∀ p ∈ recentC x done recent, p.1.fullUrl ≠ u := by
      cases done with
      | nil =>
        intro p hp
        rcases List.mem_cons.1 hp with rfl | hp
        · rw [h.url]; exact Ne.symm hu'
        · exact hrec p hp
      | cons d ds => exact hrec
    obtain ⟨hne0, g1, g2, g3⟩ := h.has.set hR hd hu hne k1
    obtain ⟨Gb', q1, q2⟩ := setContentIn_groups (gh := false) u hne0 src content h.groups fun l hl => by
      obtain ⟨l', hl', k⟩ := mem_doneC hl
      rcases k with rfl | rfl
      · exact (hm' _ (List.mem_append_left _ hl')).urls
      · exact (hm' _ (List.mem_append_left _ hl')).with h.url
    rw [doneC_set (by rw [h.url]; exact Ne.symm hu')] at q1
    have hrc : recentC x (setContentIn u src content done) recent = recentC x done recent := by
      cases done with
      | nil => rfl
      | cons d ds => unfold setContentIn replaceLast; split <;> rfl
    have hdn : setContentIn u src content done = [] → done = [] := by
      cases done with
      | nil => intro _; rfl
      | cons d ds => unfold setContentIn replaceLast; intro k; split at k <;> cases k
    refine ⟨x, Gb', G, P1, P2, h.item, q1, by rw [q2, hrc]; exact g1, by rw [q2, ← g3, k2]; exact h.tally.set _ _ _, fun e => ?_, ?_⟩
    · obtain ⟨f1, -, f3⟩ := h.fresh (hdn e)
      exact ⟨f1, g2, by rw [k2]; exact f3⟩
    · rintro (k | k)
      · rw [g2] at k; cases k
      · rw [k2] at k
        obtain ⟨n0, s1, s2⟩ := h.saved (.inr k)
        exact ⟨n0, by rw [q2, ← g3]; exact s1.set _ _ _, s2⟩
  | @flush c c' done recent rs hprev hok ih =>
    have hA' : Apart rs ([counterPlace] :: (done ++ [recent])) := hA.sub (List.Sublist.refl _) fun x hx q hq => ⟨x, by
      rcases List.mem_cons.1 hx with hx | hx
      · simp [hx]
      · exact List.mem_cons_of_mem _ (List.mem_append_left _ hx), hq⟩
    have hm' : ∀ l ∈ done ++ [recent], Counts1 ML l := fun l hl => hm l (List.mem_append_left _ hl)
    obtain ⟨x, Gb, G, P1, P2, h⟩ := ih hA' hm'
    have hl := hm' recent (by simp)
    obtain ⟨q1, q2⟩ := h.recentOnes hl
    have hrc : ∀ y, recentC y (done ++ [recent]) [] = [] := by cases done <;> exact fun _ => rfl
    obtain ⟨k1, ⟨k2, rfl⟩ | ⟨k2, n1, G', k3, k4, k5, k6, k7⟩⟩ := Counting.flush_ok hS hR hM0 hL h.has h.tally q1 q2 (h.separate hA' hprev.valid) hok
    · obtain ⟨hcore, f1, f2, f3, f4, hperm, hcl⟩ := h.has
      obtain ⟨rfl, rfl, hb⟩ := hcl k2
      replace hb := hb rfl
      have hG : G.flatten.Perm (recentC x done recent) := by simpa using hperm
      have e : (Gb ++ [G]).flatten = Gb.flatten ++ G := by simp
      refine ⟨x, Gb ++ [G], [], [], [], h.item, ?_, ?_, ?_, fun e => by simp at e, ?_⟩
      · rw [← doneC_append]
        exact List.rel_append h.groups (.cons hG .nil)
      · rw [hrc, e]
        exact ⟨by simpa using hcore, f1, f2, f3, f4, .nil, hcl⟩
      · rw [e, List.append_nil]; exact h.tally
      · intro _
        rw [e, List.append_nil]
        exact h.saved (.inl k2)
    · have e : (Gb ++ [G']).flatten = Gb.flatten ++ G' := by simp
      have hg : List.Forall₂ (fun (G : List (List Sourced)) l => G.flatten.Perm l) (Gb ++ [G']) (doneC x (done ++ [recent])) := by
        rw [← doneC_append]
        exact List.rel_append h.groups (.cons k5 .nil)
      cases hdn : n1.dirty with
      | true =>
        have hst : storedIn n1 (Gb.flatten ++ G') = setGroups URL_COUNTER (counterSource n1) (counterText n1) (Gb ++ [G']).flatten := by
          unfold storedIn; rw [if_pos hdn, e]
        obtain ⟨Gb', w1, w2⟩ := setContentIn_groups (gh := false) URL_COUNTER (by decide) (counterSource n1) (counterText n1) hg fun l hl => by
          obtain ⟨l', hl', k⟩ := mem_doneC hl
          rcases k with rfl | rfl
          · exact (hm' _ hl').urls
          · exact (hm' _ hl').with h.url
        rw [doneC_counter (by simp) h.url fun l hl => (hm' l hl).other] at w1
        rw [hst, ← w2] at k7
        have ht : TallyG M Gb'.flatten n1 := by rw [w2, e]; exact k6.set _ _ _
        obtain ⟨src0, hx⟩ := h.item
        refine ⟨_, Gb', [], [], [], ⟨counterSource n1, by rw [hx]⟩, w1, by rw [hrc]; exact k7, ?_, fun e => by simp at e, ?_⟩
        · rw [List.append_nil, k4]
          exact ⟨ht.counts, ht.distinct, ht.keys⟩
        · intro _
          rw [List.append_nil]
          exact ⟨n1, ht, rfl⟩
      | false =>
        have hst : storedIn n1 (Gb.flatten ++ G') = (Gb ++ [G']).flatten := by
          unfold storedIn; rw [if_neg (by rw [hdn]; simp), e]
        rw [hst] at k7
        have hn1 : n1 = c.counter := by
          rcases k3 with k3 | k3
          · exact k3
          · rw [hdn] at k3; cases k3
        rw [hn1] at hdn
        obtain ⟨n0, s1, s2⟩ := h.saved (.inr hdn)
        refine ⟨x, Gb ++ [G'], [], [], [], h.item, hg, by rw [hrc]; exact k7, ?_, fun e => by simp at e, ?_⟩
        · rw [List.append_nil, k4, e]
          exact ⟨k6.counts, k6.distinct, k6.keys⟩
        · intro _
          rw [List.append_nil, e]
          exact ⟨n0, s1.swap h.tally (hn1 ▸ k6), s2⟩
  | @reopen c c' done recent rs main plain t titles hprev hd W n1 n2 hok ih =>
    obtain ⟨x, Gb, G, P1, P2, h⟩ := ih hA hm
    obtain ⟨n0, s1, s2⟩ := h.saved (.inl hd)
    obtain ⟨src, hx⟩ := h.item
    have hxe : x = counterWith src (counterText n0) := Prod.ext hx s2
    obtain ⟨-, -, -, -, -, hperm, hcl⟩ := h.has
    obtain ⟨rfl, rfl, -⟩ := hcl hd
    have hG : G.flatten.Perm (recentC x done recent) := by simpa using hperm
    obtain ⟨k1, k2, k3⟩ := Counting.reopen_ok hS hL hM h.has hd W n1 n2 (src := src) (n0 := n0)
      (by rw [← hxe]; exact (h.last hG hm).mem_iff.2 (by simp)) s1 hok
    refine ⟨x, Gb, G, [], [], h.item, h.groups, k1, k3, fun e => ?_, fun _ => ⟨n0, s1, s2⟩⟩
    rw [(h.fresh e).2.1] at hd
    cases hd

end Pyzim
