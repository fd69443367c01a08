import Verif.Lemmas.CreatorShows

/-!
# An archive filled by strategies: its file while items are added
-/

namespace Pyzim
open Zim (Row Stored Clustered Lists Art catalogue marked Redirect Stays KeepsBytes InRow InCluster titleOf)
open SpaceAllocator (InBlock)

variable {D K : Type} {X : Codecs D} {ML : List Bytes} {reserve : Option Nat} {a a0 : Archive}
  {G G' : List (List Sourced)} {rows rows0 : List Row} {cs cs0 : List Stored} {extra extra0 : Nat → Prop} {es es0 : List Entry}
  {L L0 : Bytes} {m0 m1 : Catalogue} {R B R' B' : List Redirect}

/-- the same entry at the same place; a redirect may have another index -/
def SameRow (r r' : Row) : Prop := r'.1 = r.1 ∧ r'.2.blank = r.2.blank

theorem Entry.blank_getDiskSize {e e' : Entry} (h : e.blank = e'.blank) : e.getDiskSize = e'.getDiskSize := by
  have h1 : ∀ e : Entry, e.blank.getDiskSize = e.getDiskSize := by
    intro e
    unfold Entry.blank
    cases hk : e.kind with
    | content c b => rfl
    | redirect i =>
      unfold Entry.getDiskSize Entry.withIndex
      simp only [hk]
      rfl
  rw [← h1 e, h, h1]

theorem SameRow.inRow {r r' : Row} (h : SameRow r r') (x : Nat) : InRow r' x ↔ InRow r x := by
  unfold InRow
  rw [h.1, Entry.blank_getDiskSize h.2]

theorem SameRow.fullUrl {r r' : Row} (h : SameRow r r') : r'.2.fullUrl = r.2.fullUrl := Entry.blank_fullUrl h.2

theorem SameRow.view {r r' : Row} (h : SameRow r r') : r'.2.view = r.2.view := Entry.view_of_blank h.2

theorem forall₂_pairwise {α β : Type} {Q : α → β → Prop} {P : α → α → Prop} {P' : β → β → Prop} {l : List α} {m : List β}
    (h : List.Forall₂ Q l m) (hp : l.Pairwise P) (hPP : ∀ a b a' b', Q a a' → Q b b' → P a b → P' a' b') : m.Pairwise P' := by
  induction h with
  | nil => exact List.Pairwise.nil
  | cons h1 h2 ih =>
    rw [List.pairwise_cons] at hp ⊢
    refine ⟨fun b hb => ?_, ih hp.2⟩
    obtain ⟨a, ha, hab⟩ := forall₂_mem_right h2 hb
    exact hPP _ _ _ _ h1 hab (hp.1 a ha)

theorem stays_rows {U : String → Prop} (h : Stays U rows0 rows) (hU : ∀ r ∈ rows0, ¬ U r.2.fullUrl) :
    ∃ rows1, List.Forall₂ SameRow rows0 rows1 ∧ ∀ r ∈ rows1, r ∈ rows := by
  induction rows0 with
  | nil => exact ⟨[], .nil, by simp⟩
  | cons r l ih =>
    obtain ⟨rows1, h1, h2⟩ := ih (fun r hr => h r (List.mem_cons_of_mem _ hr)) fun r hr => hU r (List.mem_cons_of_mem _ hr)
    obtain ⟨r', h3, h4, h5⟩ := h r List.mem_cons_self (hU r List.mem_cons_self)
    refine ⟨r' :: rows1, .cons ⟨h4, h5⟩ h1, fun q hq => ?_⟩
    rcases List.mem_cons.1 hq with rfl | hq
    · exact h3
    · exact h2 q hq

theorem SameRow.lists {m : Catalogue} {rows1 : List Row} (h : List.Forall₂ SameRow rows0 rows1) (hl : Lists m rows0) :
    Lists m rows1 := by
  intro u v
  rw [hl u v]
  constructor
  · rintro ⟨r, hr, h1, h2⟩
    obtain ⟨r', hr', hs⟩ := forall₂_mem_left h hr
    exact ⟨r', hr', hs.fullUrl.trans h1, hs.view.trans h2⟩
  · rintro ⟨r', hr', h1, h2⟩
    obtain ⟨r, hr, hs⟩ := forall₂_mem_right h hr'
    exact ⟨r, hr, hs.fullUrl.symm.trans h1, hs.view.symm.trans h2⟩

theorem SameRow.get {rows1 : List Row} (h : List.Forall₂ SameRow rows0 rows1) : ∀ i : Nat,
    (∀ r, rows0[i]? = some r → ∃ r', rows1[i]? = some r' ∧ SameRow r r') ∧
    ∀ r', rows1[i]? = some r' → ∃ r, rows0[i]? = some r ∧ SameRow r r' := by
  induction h with
  | nil => intro i; simp
  | cons h1 _ ih =>
    intro i
    cases i with
    | zero =>
      simp only [List.getElem?_cons_zero]
      exact ⟨fun r e => ⟨_, rfl, by injection e with e; rw [← e]; exact h1⟩, fun r e => ⟨_, rfl, by injection e with e; rw [← e]; exact h1⟩⟩
    | succ i => simpa using ih i

theorem SameRow.titleOf {rows1 : List Row} (h : List.Forall₂ SameRow rows0 rows1) (i : Nat) :
    Zim.titleOf rows1 i = Zim.titleOf rows0 i := by
  unfold Zim.titleOf
  cases h0 : rows0[i]? with
  | some r =>
    obtain ⟨r', h1, h2⟩ := (SameRow.get h i).1 r h0
    rw [h1]
    exact congrArg encode (congrArg View.title h2.view)
  | none =>
    cases h1 : rows1[i]? with
    | none => rfl
    | some r' =>
      obtain ⟨r, h2, -⟩ := (SameRow.get h i).2 r' h1
      rw [h0] at h2; cases h2

theorem SameRow.art {l : PointerList} {S : String → Prop} {rows1 : List Row} (h : List.Forall₂ SameRow rows0 rows1)
    (ha : Art l rows0 S) : Art l rows1 S where
  mutable := ha.mutable
  nonneg := ha.nonneg
  nodup := ha.nodup
  mem i := by
    rw [ha.mem i]
    constructor
    · rintro ⟨r, h1, h2⟩
      obtain ⟨r', h3, h4⟩ := (SameRow.get h i).1 r h1
      exact ⟨r', h3, by rw [h4.fullUrl]; exact h2⟩
    · rintro ⟨r', h1, h2⟩
      obtain ⟨r, h3, h4⟩ := (SameRow.get h i).2 r' h1
      exact ⟨r, h3, by rw [← h4.fullUrl]; exact h2⟩
  sorted := ha.sorted.imp fun {p q} h1 => by rw [SameRow.titleOf h, SameRow.titleOf h]; exact h1
  inC r' hr' hs := by
    obtain ⟨r, hr, h1⟩ := forall₂_mem_right h hr'
    have h2 : r'.2.ns = r.2.ns := congrArg View.ns h1.view
    rw [h2]
    exact ha.inC r hr (by rw [← h1.fullUrl]; exact hs)
  dom u hu := by
    obtain ⟨r, hr, h1⟩ := ha.dom u hu
    obtain ⟨r', hr', h2⟩ := forall₂_mem_left h hr
    exact ⟨r', hr', h2.fullUrl.trans h1⟩

/-- the archive as it was, with the file as it is -/
def crashed (a0 : Archive) (f : Bytes) : Archive :=
  { a0 with zim := { a0.zim with file := f, space := SpaceAllocator.new f.length } }

/-- What is in the file later, seen with the header and the lists as they were before. -/
theorem Core.crashed {U : String → Prop} {f : Bytes} (h0 : Core gh mp X C ML reserve a0 G rows0 cs0 extra0 es0 L0 m0 R B)
    (hd : a0.isDirty = false) (hs : Stays U rows0 rows) (hU : ∀ r ∈ rows0, ¬ U r.2.fullUrl) (hclean : ∀ r ∈ rows, r.2.Clean)
    (hstored : ∀ r ∈ rows, ∃ b, r.2.toBytes = .ok b ∧ Holds f r.1 b) (hheld : ∀ c ∈ cs0, Holds f c.1 c.2)
    (hb : KeepsBytes (restOf reserve a0 extra0) a0.zim.file f) (hlen : a0.zim.file.length ≤ f.length) :
    ∃ rows1 extra1, Readable gh X reserve (crashed a0 f) G rows1 cs0 extra1 es0 L0 m0 R := by
  have hr0 := h0.readable hd
  obtain ⟨d1, d2, d3, d4⟩ := hr0.clean
  obtain ⟨-, hend⟩ := h0.laid.ends d1 d2 d3 d4
  obtain ⟨rows1, hrow, hsub⟩ := stays_rows hs hU
  have hst0 := h0.laid.content.rep.store
  let used : Nat → Prop := fun x =>
    (∃ p ∈ a0.fixed reserve, InBlock p x) ∨ (∃ c ∈ cs0, InCluster c x) ∨ ∃ r ∈ rows0, InRow r x
  have hlt : ∀ x, used x → x < f.length := by
    intro x hx
    have : x < a0.zim.space.fileEnd := by
      rcases hx with ⟨p, hp, hx⟩ | ⟨c, hc, hx⟩ | ⟨r, hr, hx⟩
      · exact h0.laid.toParts.fixed_lt hp hx
      · exact h0.laid.toParts.cluster_lt hc hx
      · exact h0.laid.toParts.row_lt hr hx
    omega
  have hold : ∀ r' ∈ rows1, ∃ r ∈ rows0, ∀ x, InRow r' x ↔ InRow r x := by
    intro r' hr'
    obtain ⟨r, hr, hs⟩ := forall₂_mem_right hrow hr'
    exact ⟨r, hr, hs.inRow⟩
  have hin : ∀ x, (∃ r ∈ rows1, InRow r x) ↔ ∃ r ∈ rows0, InRow r x := by
    intro x
    constructor
    · rintro ⟨r', hr', hx⟩
      obtain ⟨r, hr, hs⟩ := hold r' hr'
      exact ⟨r, hr, (hs x).1 hx⟩
    · rintro ⟨r, hr, hx⟩
      obtain ⟨r', hr', hs⟩ := forall₂_mem_left hrow hr
      exact ⟨r', hr', (hs.inRow x).2 hx⟩
  refine ⟨rows1, fun x => x < f.length ∧ ¬ used x, ?_, ⟨d1, d2, d3, d4⟩, h0.head,
    h0.blobs_before (z := (Pyzim.crashed a0 f).zim) ?_, h0.entries, h0.other,
    SameRow.lists hrow h0.lists, SameRow.art hrow h0.art, hr0.listed, h0.shown, h0.only⟩
  · refine h0.laid.toParts.changeAll (a' := Pyzim.crashed a0 f) rfl rfl rfl rfl rfl rfl rfl
      (fun p hp x hx hu => hu.2 (Or.inl ⟨p, hp, hx⟩)) ?_ (hb.mono fun x hx => .inr hx)
    refine ⟨⟨⟨fun r hr => hclean r (hsub r hr), fun r hr => hstored r (hsub r hr), ?_, ?_, ?_, ?_⟩, ?_, ?_,
      h0.laid.content.rep.urlsMutable, h0.laid.content.rep.isOpen, h0.laid.content.rep.isMutable, h0.laid.content.rep.noTitles,
      h0.laid.content.rep.headerMutable⟩, h0.laid.content.pointers, h0.laid.content.mutable, h0.laid.content.num,
      hheld, h0.laid.content.nonempty, h0.laid.content.disjoint, ?_⟩
    · exact forall₂_pairwise hrow hst0.disjoint fun r s r' s' k1 k2 k3 x h1 h2 => k3 x ((k1.inRow x).1 h1) ((k2.inRow x).1 h2)
    · intro r' hr' x hx
      obtain ⟨r, hr, hs⟩ := hold r' hr'
      have hx := (hs x).1 hx
      rintro ((hu | hp) | hc)
      · exact hu.2 (Or.inr (Or.inr ⟨r, hr, hx⟩))
      · exact hst0.apart r hr x hx (Or.inl (Or.inr hp))
      · exact hst0.apart r hr x hx (Or.inr hc)
    · exact Nat.le_add_right _ _
    · refine Zim.inv_congr (SpaceAllocator.inv_new f.length) fun x => ?_
      rw [hin x]
      by_cases hu : used x
      · have h1 := hlt x hu
        simp only [h1, true_iff]
        rcases hu with hp | hc | hr
        · exact Or.inl (Or.inl (Or.inr hp))
        · exact Or.inl (Or.inr hc)
        · exact Or.inr hr
      · constructor
        · intro h1; exact Or.inl (Or.inl (Or.inl ⟨h1, hu⟩))
        · rintro (((h1 | h1) | h1) | h1)
          · exact h1.1
          · exact absurd (Or.inl h1) hu
          · exact absurd (Or.inr (Or.inl h1)) hu
          · exact absurd (Or.inr (Or.inr h1)) hu
    · exact forall₂_pairwise hrow h0.laid.content.rep.sorted fun r s r' s' k1 k2 k3 => by
        rw [k1.fullUrl, k2.fullUrl]; exact k3
    · refine h0.laid.content.rep.urls.trans ?_
      clear * - hrow
      induction hrow with
      | nil => rfl
      | cons h1 _ ih => rw [List.map_cons, List.map_cons, ih, h1.1]
    · rintro c hc x hx (hu | hp)
      · exact hu.2 (Or.inr (Or.inl ⟨c, hc, hx⟩))
      · exact h0.laid.content.apart c hc x hx (Or.inr hp)
  · intro c hc
    have hne : c.2.length ≠ 0 := fun e => h0.laid.content.nonempty c hc (List.length_eq_zero_iff.1 e)
    have hlt' := h0.laid.toParts.cluster_lt hc (x := c.1 + (c.2.length - 1)) (by unfold InCluster; omega)
    have hh := Holds.drop_take (hheld c hc)
    refine ⟨f.drop (c.1 + c.2.length), ?_, ?_⟩
    · intro e
      have := congrArg List.length e
      rw [List.length_drop, List.length_nil] at this
      omega
    · show f.drop c.1 = _
      rw [← List.take_append_drop c.2.length (f.drop c.1), hh, List.drop_drop]


theorem Onward.refl {U : String → Prop} : Onward reserve U a rows cs extra es a rows cs es :=
  ⟨⟨[], (List.append_nil _).symm⟩, List.prefix_rfl, Stays.refl _ _, KeepsBytes.refl _ _, rfl, Nat.le_refl _, List.prefix_rfl⟩

theorem Onward.trans {U U' : String → Prop} {a1 a2 : Archive} {rows1 rows2 : List Row} {cs1 cs2 : List Stored} {es1 es2 : List Entry}
    (h1 : Onward reserve U a rows cs extra es a1 rows1 cs1 es1) (h2 : Onward reserve U' a1 rows1 cs1 extra es1 a2 rows2 cs2 es2) :
    Onward reserve (fun u => U u ∨ U' u) a rows cs extra es a2 rows2 cs2 es2 := by
  obtain ⟨n1, rfl⟩ := h1.entries
  obtain ⟨n2, rfl⟩ := h2.entries
  refine ⟨⟨n1 ++ n2, List.append_assoc _ _ _⟩, h1.before.trans h2.before, (h1.stays.mono ?_).trans (h2.stays.mono ?_),
    h1.bytes.trans (h1.rest ▸ h2.bytes), h2.rest.trans h1.rest, Nat.le_trans h1.longer h2.longer, h1.mimes.trans h2.mimes⟩
  · rintro u (hu | hu)
    · exact .inl (.inl hu)
    · rw [List.drop_left] at hu
      rw [List.append_assoc, List.drop_left, List.map_append]
      exact .inr (List.mem_append_left _ hu)
  · rintro u (hu | hu)
    · exact .inl (.inr hu)
    · rw [List.drop_left] at hu
      rw [List.append_assoc, List.drop_left, List.map_append]
      exact .inr (List.mem_append_right _ hu)

theorem Onward.mono {U U' : String → Prop} {a1 : Archive} {rows1 : List Row} {cs1 : List Stored} {es1 : List Entry}
    (h1 : Onward reserve U a rows cs extra es a1 rows1 cs1 es1) (h : ∀ u, U u → U' u) :
    Onward reserve U' a rows cs extra es a1 rows1 cs1 es1 :=
  ⟨h1.entries, h1.before, h1.stays.mono fun _ hu => hu.imp_left (h _), h1.bytes, h1.rest, h1.longer, h1.mimes⟩

variable {S : Setup D K} {c c0 : Creator D} {rs rs' : List Redirect} {items0 items : List Sourced}

/-- such additions are part of a history -/
theorem AddedTo.hist {done : List (List Sourced)} (h0 : CreatorHist S c0 done items0 rs) (h : AddedTo S c0 c items rs') :
    CreatorHist S c done (items0 ++ items) (rs ++ rs') := by
  induction h with
  | start => simpa using h0
  | add _ hp hok ih => rw [← List.append_assoc]; exact .add ih hp hok
  | redirect _ hv hok hd ih => rw [← List.append_assoc]; exact .redirect ih hv hok hd

theorem Separate.sub {G0 : List (List Sourced)} (h : Separate rs G0 items) (h1 : rs'.Sublist rs) (h2 : ∀ p ∈ items0, p ∈ items) :
    Separate rs' G0 items0 :=
  ⟨fun r hr => h.valid r (h1.subset hr), h.nodup.sublist (h1.map _), fun r hr => h.articles r (h1.subset hr),
    fun r hr => h.old r (h1.subset hr), fun r hr p hp => h.new r (h1.subset hr) p (h2 p hp)⟩

/-- what additions leave as it is -/
theorem AddedTo.onward {md5 : Bytes → Bytes} (hS : S.Good md5 reserve) {G0 : List (List Sourced)} {P1 P2 : List Sourced}
    (h0 : HasAt gh mp S ML reserve G0 items0 rs c0 G P1 P2)
    (hc0 : Core gh mp S.X S.C ML reserve c0.arch (G0 ++ G) rows cs extra es L m0 R B) (hB0 : (R ++ B).Perm rs)
    (h : AddedTo S c0 c items rs') (hML : ML.length < 65535) (hh : NotHuge (items0 ++ items))
    (hm : ∀ q ∈ items0 ++ items, encode q.1.mimetype ∈ ML ∧ q.1.fullUrl ≠ URL_ARTICLES)
    (hs : Separate (rs ++ rs') G0 (items0 ++ items)) :
    ∃ Gn P1' P2' rows' cs' es' m0' R' B', HasAt gh mp S ML reserve G0 (items0 ++ items) (rs ++ rs') c (G ++ Gn) P1' P2' ∧
      Core gh mp S.X S.C ML reserve c.arch (G0 ++ (G ++ Gn)) rows' cs' extra es' L m0' R' B' ∧ (R' ++ B').Perm (rs ++ rs') ∧
      Onward reserve (· ∈ rs'.map (·.1)) c0.arch rows cs extra es c.arch rows' cs' es' := by
  induction h with
  | start => exact ⟨[], P1, P2, rows, cs, es, m0, R, B, by simpa using h0, by simpa using hc0, by simpa using hB0, .refl⟩
  | @add c c' items rs' p force _ hp hok ih =>
    rw [← List.append_assoc] at hh hm hs ⊢
    obtain ⟨Gn, P1', P2', rows', cs', es', m0', R', B', k1, k2, k3, k4⟩ := ih (hh.sublist (List.sublist_append_left _ _))
      (fun q hq => hm q (List.mem_append_left _ hq)) (hs.sub (.refl _) fun q hq => List.mem_append_left _ hq)
    obtain ⟨G', Q1, Q2, rows2, cs2, es2, l1, l2, l3⟩ := k1.add hS k2 k3 (hh.sublist (List.sublist_append_left _ _)) hML hp.2
      ⟨hp.1, (hm p (by simp)).1, hp.2.2⟩ (fun q hq => (hm q hq).2) hok
    rw [List.append_assoc G] at l1 l2
    exact ⟨Gn ++ G', Q1, Q2, rows2, cs2, es2, m0', R', B', l1, l2, k3, (k4.trans l3).mono fun u hu => hu.elim id False.elim⟩
  | @redirect c c' items rs' r _ hv hok hd ih =>
    rw [← List.append_assoc] at hs ⊢
    obtain ⟨Gn, P1', P2', rows', cs', es', m0', R', B', k1, k2, k3, k4⟩ := ih hh hm
      (hs.sub (List.sublist_append_left _ _) fun q hq => hq)
    obtain ⟨rows2, m2, R2, B2, l1, l2, l3, l4⟩ := k1.redirect k2 k3 hs hok hd
    refine ⟨Gn, P1', P2', rows2, cs', es', m2, R2, B2, l1, l2, l3, (k4.trans l4).mono fun u hu => ?_⟩
    rw [List.map_append]
    rcases hu with hu | rfl
    · exact List.mem_append_left _ hu
    · exact List.mem_append_right _ (by simp)

/-- no entry is replaced by one of the items or redirects that are added -/
theorem Core.untouched {done : List (List Sourced)}
    {Gb : List (List (List Sourced))} {Gn : List (List Sourced)} {U : String → Prop} {rows' : List Row} {cs' : List Stored}
    {es' : List Entry} {m0' : Catalogue}
    (hc : Core false mp S.X S.C ML reserve c0.arch (Gb.flatten ++ G) rows cs extra es L m0 R B)
    (hG : G.flatten.Perm items0) (hB : R.Perm rs) (h1 : List.Forall₂ (fun G l => G.flatten.Perm l) Gb done)
    (hA : Apart rs (done ++ [items0 ++ items]))
    (ho : ∀ p ∈ items, p.1.fullUrl ≠ URL_ARTICLES)
    (hnew : ∀ p ∈ items, ∀ l ∈ done ++ [items0], ∀ q ∈ l, p.1.fullUrl ≠ q.1.fullUrl)
    (k2 : Core false mp S.X S.C ML reserve a (Gb.flatten ++ (G ++ Gn)) rows' cs' extra es' L m0' R' B')
    (hGn : ∀ p ∈ Gn.flatten, p ∈ items) (hU : ∀ x ∈ rows, ¬ U x.2.fullUrl) (x : Row) (hx : x ∈ rows) :
    ¬ (U x.2.fullUrl ∨ x.2.fullUrl ∈ (es'.drop es.length).map Entry.fullUrl) := by
  have hGi : ∀ p ∈ G.flatten, p ∈ items0 := fun p hp => hG.subset hp
  have hrow : ∀ x ∈ rows, x.2.fullUrl ∈ es.map Entry.fullUrl ∨ ∃ y ∈ rs, y.1 = x.2.fullUrl := by
    intro x hx
    have h2 := (hc.lists _ _).2 ⟨x, hx, rfl, rfl⟩
    by_cases hu : x.2.fullUrl ∈ es.map Entry.fullUrl
    · exact .inl hu
    · rw [Zim.catalogue_other m0 hu] at h2
      obtain ⟨y, hy, hyu⟩ := hc.only _ _ h2
      exact .inr ⟨y, hB.subset hy, hyu⟩
  have hnews : ∀ u ∈ (es'.drop es.length).map Entry.fullUrl, ∃ p ∈ items, p.1.fullUrl = u := by
    intro u hu
    obtain ⟨e, he, rfl⟩ := List.mem_map.1 hu
    have h2 := k2.entries
    rw [← List.append_assoc, slotsOf_append, ← List.cons_append] at h2
    have h3 := List.forall₂_drop es.length h2
    rw [← hc.entries.length_eq, List.drop_left] at h3
    rw [← hc.entries.length_eq] at he
    obtain ⟨s, hs, hse⟩ := forall₂_mem_right h3 he
    obtain ⟨p, hp, hpe⟩ := slots_item (slotsOf_sub.subset hs)
    exact ⟨p, hGn p hp, by rw [hpe]; exact hse.fullUrl.symm⟩
  rintro (hu | hu)
  · exact hU x hx hu
  · obtain ⟨p, hp, hpu⟩ := hnews _ hu
    rcases hrow x hx with hx | ⟨z, hz, hzu⟩
    · rcases hc.urls hx with e | ⟨q, hq, hqu⟩
      · exact ho p hp (hpu.trans e)
      · rw [List.flatten_append] at hq
        rcases List.mem_append.1 hq with hq | hq
        · rw [List.mem_flatten] at hq
          obtain ⟨g, hg, hq⟩ := hq
          obtain ⟨g', hg', hgg⟩ := List.mem_flatten.1 hg
          obtain ⟨l, hl, hlp⟩ := forall₂_mem_left h1 hg'
          exact hnew p hp l (List.mem_append_left _ hl) q (hlp.subset (List.mem_flatten.2 ⟨g, hgg, hq⟩)) (hpu.trans hqu.symm)
        · exact hnew p hp items0 (by simp) q (hGi q hq) (hpu.trans hqu.symm)
    · exact hA.items z hz (items0 ++ items) (by simp) p (List.mem_append_right _ hp) (hpu.trans hzu.symm)

/-- a file with what an archive had shows its items -/
theorem Core.shows_readable {md5 : Bytes → Bytes} (hS : S.Good md5 reserve) {done : List (List Sourced)}
    {Gb : List (List (List Sourced))} {rows' : List Row} {cs' : List Stored} {extra' : Nat → Prop} {L' : Bytes}
    (hc : Core false mp S.X S.C ML reserve c0.arch (Gb.flatten ++ G) rows cs extra es L m0 R B)
    (hG : G.flatten.Perm items0) (hB : R.Perm rs) (h1 : List.Forall₂ (fun G l => G.flatten.Perm l) Gb done)
    (hA : Apart rs (done ++ [items0 ++ items])) (hv : ∀ x ∈ rs, Redirect.Valid x) (hm0 : ∀ l ∈ done ++ [items0], (l.map urlOf).Nodup)
    (hR : Readable false S.X reserve a (Gb.flatten ++ G) rows' cs' extra' es L' m0 R)
    (kind : ClusterKind) (calls follow : Nat) (titles : Zim → PyRes PointerList) :
    ∃ a', Creator.openArchive { S with kind := kind, calls := calls, follow := follow } titles false a.zim.file = .ok a' ∧
      ShowsItems S.X kind calls a'.zim (current (done ++ [items0])) rs := by
  have hA0 : Apart rs (done ++ [items0]) := hA.sub (.refl _) fun x hx q hq => by
    rcases List.mem_append.1 hx with hx | hx
    · exact ⟨x, List.mem_append_left _ hx, hq⟩
    · rw [List.mem_singleton] at hx
      exact ⟨_, List.mem_append_right _ (List.mem_singleton.2 rfl), List.mem_append_left _ (hx ▸ hq)⟩
  have hGi : ∀ p ∈ G.flatten, p ∈ items0 := fun p hp => hG.subset hp
  have hsep0 := hA0.separate hv h1
  refine ⟨_, hR.opens_readOnly (S := { S with kind := kind, calls := calls, follow := follow }) (C := S.C) hS.passthrough titles, ?_⟩
  refine hR.shows ?_ hB hA0.nodup (fun x hx => hc.apart hsep0 hGi hx) kind calls
  have := current_perm (List.rel_append h1 (.cons hG .nil)) hm0
  rw [List.flatten_append] at this
  simpa [present] using this

/-- the file later, if nothing of the archive was replaced -/
theorem Core.shows_still {md5 : Bytes → Bytes} (hS : S.Good md5 reserve) {done : List (List Sourced)}
    {Gb : List (List (List Sourced))} {Gn : List (List Sourced)} {U : String → Prop} {rows' : List Row} {cs' : List Stored}
    {es' : List Entry} {m0' : Catalogue}
    (hc : Core false mp S.X S.C ML reserve c0.arch (Gb.flatten ++ G) rows cs extra es L m0 R B) (hd : c0.arch.isDirty = false)
    (hG : G.flatten.Perm items0) (hB : R.Perm rs) (h1 : List.Forall₂ (fun G l => G.flatten.Perm l) Gb done)
    (hA : Apart rs (done ++ [items0 ++ items])) (hv : ∀ x ∈ rs, Redirect.Valid x) (hm0 : ∀ l ∈ done ++ [items0], (l.map urlOf).Nodup)
    (ho : ∀ p ∈ items, p.1.fullUrl ≠ URL_ARTICLES)
    (hnew : ∀ p ∈ items, ∀ l ∈ done ++ [items0], ∀ q ∈ l, p.1.fullUrl ≠ q.1.fullUrl)
    (k2 : Core false mp S.X S.C ML reserve a (Gb.flatten ++ (G ++ Gn)) rows' cs' extra es' L m0' R' B')
    (hGn : ∀ p ∈ Gn.flatten, p ∈ items) (k4 : Onward reserve U c0.arch rows cs extra es a rows' cs' es')
    (hU : ∀ x ∈ rows, ¬ U x.2.fullUrl) (kind : ClusterKind) (calls follow : Nat) (titles : Zim → PyRes PointerList) :
    ∃ a', Creator.openArchive { S with kind := kind, calls := calls, follow := follow } titles false a.zim.file = .ok a' ∧
      ShowsItems S.X kind calls a'.zim (current (done ++ [items0])) rs := by
  obtain ⟨rows1, extra1, hR⟩ := hc.crashed hd k4.stays (hc.untouched hG hB h1 hA ho hnew k2 hGn hU)
    k2.laid.content.rep.store.clean k2.laid.content.rep.store.stored (fun c hc => k2.laid.content.held c (k4.before.subset hc))
    k4.bytes k4.longer
  exact hc.shows_readable hS hG hB h1 hA hv hm0 hR kind calls follow titles

/-- What is known of an archive and of a later one to which items and redirects were added. -/
theorem AddedTo.later {md5 : Bytes → Bytes} {r : Nat} {done : List (List Sourced)} (hr : 2 ≤ r) (hS : S.Good md5 (some r))
    (h0 : CreatorHist S c0 done items0 rs) (hd : c0.arch.isDirty = false) (h : AddedTo S c0 c items rs')
    (hA : Apart (rs ++ rs') (done ++ [items0 ++ items])) (hML : ML.length < 65535)
    (hmt : encode Creator.placeholder.mimetype ∈ ML)
    (hm0 : ∀ l ∈ done ++ [items0], (l.map urlOf).Nodup)
    (hm : ∀ l ∈ done ++ [items0 ++ items], NotHuge l ∧
      ∀ p ∈ l, encode p.1.mimetype ∈ ML ∧ p.1.fullUrl ≠ URL_ARTICLES) :
    ∃ Gb G rows cs extra es L m0 R, List.Forall₂ (fun G l => G.flatten.Perm l) Gb done ∧
      Core false none S.X S.C ML (some r) c0.arch (Gb.flatten ++ G) rows cs extra es L m0 R [] ∧ G.flatten.Perm items0 ∧ R.Perm rs ∧
      Separate (rs ++ rs') Gb.flatten (items0 ++ items) ∧
      ∃ Gn P1 P2 rows' cs' es' m0' R' B', HasAt false none S ML (some r) Gb.flatten (items0 ++ items) (rs ++ rs') c (G ++ Gn) P1 P2 ∧
        Core false none S.X S.C ML (some r) c.arch (Gb.flatten ++ (G ++ Gn)) rows' cs' extra es' L m0' R' B' ∧ (R' ++ B').Perm (rs ++ rs') ∧
        Onward (some r) (· ∈ rs'.map (·.1)) c0.arch rows cs extra es c.arch rows' cs' es' ∧
        (∀ p ∈ P1 ++ P2 ++ Gn.flatten, p ∈ items) ∧ ∀ x ∈ rows, x.2.fullUrl ∉ rs'.map (·.1) := by
  have hA0 : Apart rs (done ++ [items0]) := hA.sub (List.sublist_append_left _ _) fun x hx q hq => by
    rcases List.mem_append.1 hx with hx | hx
    · exact ⟨x, List.mem_append_left _ hx, hq⟩
    · rw [List.mem_singleton] at hx
      exact ⟨_, List.mem_append_right _ (List.mem_singleton.2 rfl), List.mem_append_left _ (hx ▸ hq)⟩
  have hm1 : ∀ l ∈ done ++ [items0], (l.map urlOf).Nodup ∧ NotHuge l ∧ ∀ p ∈ l, encode p.1.mimetype ∈ ML ∧ p.1.fullUrl ≠ URL_ARTICLES := by
    intro l hl
    rcases List.mem_append.1 hl with hl | hl
    · exact ⟨hm0 l (List.mem_append_left _ hl), hm l (List.mem_append_left _ hl)⟩
    · rw [List.mem_singleton] at hl
      obtain ⟨g1, g2⟩ := hm (items0 ++ items) (by simp)
      rw [hl]
      exact ⟨hm0 _ (by simp), g1.sublist (List.sublist_append_left _ _), fun p hp => g2 p (List.mem_append_left _ hp)⟩
  obtain ⟨Gb, h1, G, P1, P2, hat⟩ := h0.has hr hS hA0 hML hmt hm1
  obtain ⟨rows, cs, extra, es, L, m0, R, B, hc, hB⟩ := hat.core
  obtain ⟨rfl, rfl, hb⟩ := hat.clean hd
  replace hb := hb rfl
  have hperm : G.flatten.Perm items0 := by simpa using hat.perm
  obtain rfl : B = [] := hc.redirects.symm.trans hb
  have hv : ∀ x ∈ rs ++ rs', Redirect.Valid x := (h.hist h0).valid
  have hsep : Separate (rs ++ rs') Gb.flatten (items0 ++ items) := hA.separate hv h1
  have hml := hm (items0 ++ items) (by simp)
  obtain ⟨Gn, P1', P2', rows', cs', es', m0', R', B', k1, k2, k3, k4⟩ := h.onward hS hat hc hB hML hml.1 hml.2 hsep
  rw [List.append_nil] at hB
  refine ⟨Gb, G, rows, cs, extra, es, L, m0, R, h1, hc, hperm, hB, hsep, Gn, P1', P2', rows', cs', es', m0', R', B', k1, k2, k3, k4, ?_, ?_⟩
  · intro p hp
    have h4 : ((P1' ++ P2' ++ Gn.flatten) ++ G.flatten).Perm (items ++ items0) := by
      refine List.Perm.trans ?_ (k1.perm.trans List.perm_append_comm)
      rw [List.flatten_append, List.append_assoc]
      exact List.Perm.append_left _ List.perm_append_comm
    exact ((List.perm_append_right_iff items0).1 ((List.Perm.append_left _ hperm).symm.trans h4)).subset hp
  · intro x hx hu
    obtain ⟨y, hy, hyu⟩ := List.mem_map.1 hu
    have h2 := (hc.lists _ _).2 ⟨x, hx, rfl, rfl⟩
    by_cases hue : x.2.fullUrl ∈ es.map Entry.fullUrl
    · rw [← hyu] at hue
      exact hc.apart (hsep.sub (List.Sublist.refl _) fun q hq => List.mem_append_left _ hq) (fun p hp => hperm.subset hp)
        (List.mem_append_right _ hy) hue
    · rw [Zim.catalogue_other m0 hue] at h2
      obtain ⟨z, hz, hzu⟩ := hc.only _ _ h2
      have := hA.nodup
      rw [List.map_append, List.nodup_append] at this
      exact this.2.2 _ (List.mem_map_of_mem (hB.subset hz)) _ (List.mem_map_of_mem hy) (hzu.trans hyu.symm)

/-- the file while items are added to an archive without unsaved changes -/
theorem AddedTo.shows {md5 : Bytes → Bytes} {r : Nat} {done : List (List Sourced)} (hr : 2 ≤ r) (hS : S.Good md5 (some r))
    (h0 : CreatorHist S c0 done items0 rs) (hd : c0.arch.isDirty = false) (h : AddedTo S c0 c items rs')
    (hA : Apart (rs ++ rs') (done ++ [items0 ++ items])) (hML : ML.length < 65535)
    (hmt : encode Creator.placeholder.mimetype ∈ ML)
    (hm0 : ∀ l ∈ done ++ [items0], (l.map urlOf).Nodup)
    (hm : ∀ l ∈ done ++ [items0 ++ items], NotHuge l ∧
      ∀ p ∈ l, encode p.1.mimetype ∈ ML ∧ p.1.fullUrl ≠ URL_ARTICLES)
    (hnew : ∀ p ∈ items, ∀ l ∈ done ++ [items0], ∀ q ∈ l, p.1.fullUrl ≠ q.1.fullUrl)
    (kind : ClusterKind) (calls follow : Nat) (titles : Zim → PyRes PointerList) :
    ∃ a, Creator.openArchive { S with kind := kind, calls := calls, follow := follow } titles false c.arch.zim.file = .ok a ∧
      ShowsItems S.X kind calls a.zim (current (done ++ [items0])) rs := by
  obtain ⟨Gb, G, rows, cs, extra, es, L, m0, R, h1, hc, hperm, hB, hsep, Gn, P1, P2, rows', cs', es', m0', R', B', -, k2, -, k4, k5,
    k6⟩ := h.later hr hS h0 hd hA hML hmt hm0 hm
  have hml := hm (items0 ++ items) (by simp)
  exact hc.shows_still hS hd hperm hB h1 (hA.sub (List.sublist_append_left _ _) fun x hx q hq => ⟨x, hx, hq⟩)
    (fun x hx => hsep.valid x (List.mem_append_left _ hx)) hm0 (fun p hp => (hml.2 p (List.mem_append_right _ hp)).2) hnew k2
    (fun p hp => k5 p (List.mem_append_right _ hp)) k4 k6 kind calls follow titles

end Pyzim
