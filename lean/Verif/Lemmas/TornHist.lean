import Verif.Lemmas.Torn

/-!
# An archive filled by strategies: its file if not all bytes were written
-/

namespace Pyzim
open Zim (Row Stored Clustered Lists Art MimesIn Mirrored catalogue marked Redirect Stays KeepsBytes InRow InCluster Works)
open SpaceAllocator (InBlock)

variable {D K : Type} {X : Codecs D} {C : Compressors K} {ML : List Bytes} {reserve : Option Nat} {a a0 a' : Archive}
  {G G' : List (List Sourced)} {rows rows0 : List Row} {cs cs0 : List Stored} {extra extra0 : Nat → Prop} {es es0 : List Entry}
  {L L0 : Bytes} {m0 m1 : Catalogue} {R B R' B' : List Redirect} {S : Setup D K} {c c' c0 : Creator D} {rs rs' : List Redirect}
  {items0 items : List Sourced} {done : List (List Sourced)} {Gb : List (List (List Sourced))} {r : Nat} {md5 : Bytes → Bytes} {n : Nat}

/-- What is known of a saved archive. -/
structure SavedAs (S : Setup D K) (ML : List Bytes) (r : Nat) (c0 : Creator D) (done : List (List Sourced)) (items0 : List Sourced)
    (rs : List Redirect) (Gb : List (List (List Sourced))) (G : List (List Sourced)) (rows : List Row) (cs : List Stored)
    (extra : Nat → Prop) (es : List Entry) (L : Bytes) (m0 : Catalogue) (R : List Redirect) : Prop where
  dirty : c0.arch.isDirty = false
  groups : List.Forall₂ (fun G l => G.flatten.Perm l) Gb done
  has : HasAt false none S ML (some r) Gb.flatten items0 rs c0 G [] []
  core : Core false none S.X S.C ML (some r) c0.arch (Gb.flatten ++ G) rows cs extra es L m0 R []
  perm : G.flatten.Perm items0
  redirects : R.Perm rs
  urls : ∀ l ∈ done ++ [items0], (l.map urlOf).Nodup
  valid : ∀ x ∈ rs, Redirect.Valid x

/-- What is asked of the items and redirects that are added. -/
structure Fresh (ML : List Bytes) (done : List (List Sourced)) (items0 : List Sourced) (rs : List Redirect) (items : List Sourced)
    (rs' : List Redirect) : Prop where
  apart : Apart (rs ++ rs') (done ++ [items0 ++ items])
  ok : ∀ l ∈ done ++ [items0 ++ items], NotHuge l ∧ ∀ p ∈ l, encode p.1.mimetype ∈ ML ∧ p.1.fullUrl ≠ URL_ARTICLES
  new : ∀ p ∈ items, ∀ l ∈ done ++ [items0], ∀ q ∈ l, p.1.fullUrl ≠ q.1.fullUrl

theorem Fresh.sub {items1 items2 : List Sourced} {rs1 rs2 : List Redirect}
    (h : Fresh ML done items0 rs (items1 ++ items2) (rs1 ++ rs2)) : Fresh ML done items0 rs items1 rs1 where
  apart := h.apart.sub (by rw [← List.append_assoc]; exact List.sublist_append_left _ _) fun x hx q hq => by
    rcases List.mem_append.1 hx with hx | hx
    · exact ⟨x, List.mem_append_left _ hx, hq⟩
    · rw [List.mem_singleton] at hx
      refine ⟨_, List.mem_append_right _ (List.mem_singleton.2 rfl), ?_⟩
      rw [← List.append_assoc]
      exact List.mem_append_left _ (hx ▸ hq)
  ok l hl := by
    rcases List.mem_append.1 hl with hl | hl
    · exact h.ok l (List.mem_append_left _ hl)
    · rw [List.mem_singleton] at hl
      obtain ⟨g1, g2⟩ := h.ok (items0 ++ (items1 ++ items2)) (by simp)
      rw [← List.append_assoc] at g1 g2
      rw [hl]
      exact ⟨g1.sublist (List.sublist_append_left _ _), fun p hp => g2 p (List.mem_append_left _ hp)⟩
  new p hp := h.new p (List.mem_append_left _ hp)

theorem Fresh.older (h : Fresh ML done items0 rs items rs') : Apart rs (done ++ [items0 ++ items]) :=
  h.apart.sub (List.sublist_append_left _ _) fun x hx q hq => ⟨x, hx, hq⟩

theorem Fresh.saved (h : Fresh ML done items0 rs items rs') : Apart rs (done ++ [items0]) :=
  h.apart.sub (List.sublist_append_left _ _) fun x hx q hq => by
    rcases List.mem_append.1 hx with hx | hx
    · exact ⟨x, List.mem_append_left _ hx, hq⟩
    · rw [List.mem_singleton] at hx
      exact ⟨_, List.mem_append_right _ (List.mem_singleton.2 rfl), List.mem_append_left _ (hx ▸ hq)⟩

theorem CreatorHist.saved (hr : 2 ≤ r) (hS : S.Good md5 (some r)) (h0 : CreatorHist S c0 done items0 rs)
    (hd : c0.arch.isDirty = false) (hF : Fresh ML done items0 rs items rs') (hML : ML.length < 65535)
    (hmt : encode Creator.placeholder.mimetype ∈ ML) (hm0 : ∀ l ∈ done ++ [items0], (l.map urlOf).Nodup) :
    ∃ Gb G rows cs extra es L m0 R, SavedAs S ML r c0 done items0 rs Gb G rows cs extra es L m0 R := by
  have hm1 : ∀ l ∈ done ++ [items0], (l.map urlOf).Nodup ∧ NotHuge l ∧ ∀ p ∈ l, encode p.1.mimetype ∈ ML ∧ p.1.fullUrl ≠ URL_ARTICLES := by
    intro l hl
    rcases List.mem_append.1 hl with hl | hl
    · exact ⟨hm0 l (List.mem_append_left _ hl), hF.ok l (List.mem_append_left _ hl)⟩
    · rw [List.mem_singleton] at hl
      obtain ⟨g1, g2⟩ := hF.ok (items0 ++ items) (by simp)
      rw [hl]
      exact ⟨hm0 _ (by simp), g1.sublist (List.sublist_append_left _ _), fun p hp => g2 p (List.mem_append_left _ hp)⟩
  obtain ⟨Gb, h1, G, P1, P2, hat⟩ := h0.has hr hS hF.saved hML hmt hm1
  obtain ⟨rows, cs, extra, es, L, m0, R, B, hc, hB⟩ := hat.core
  obtain ⟨rfl, rfl, hb⟩ := hat.clean hd
  obtain rfl : B = [] := hc.redirects.symm.trans (hb rfl)
  rw [List.append_nil] at hB
  exact ⟨Gb, G, rows, cs, extra, es, L, m0, R, hd, h1, hat, hc, by simpa using hat.perm, hB, hm0, h0.valid⟩

/-- what additions leave as it is -/
theorem SavedAs.later (hS : S.Good md5 (some r)) (hs : SavedAs S ML r c0 done items0 rs Gb G rows cs extra es L m0 R)
    (hML : ML.length < 65535) (h : AddedTo S c0 c items rs') (hv : ∀ x ∈ rs', Redirect.Valid x)
    (hF : Fresh ML done items0 rs items rs') :
    Separate (rs ++ rs') Gb.flatten (items0 ++ items) ∧
    ∃ Gn P1 P2 rows' cs' es' m0' R' B', HasAt false none S ML (some r) Gb.flatten (items0 ++ items) (rs ++ rs') c (G ++ Gn) P1 P2 ∧
      Core false none S.X S.C ML (some r) c.arch (Gb.flatten ++ (G ++ Gn)) rows' cs' extra es' L m0' R' B' ∧ (R' ++ B').Perm (rs ++ rs') ∧
      Onward (some r) (· ∈ rs'.map (·.1)) c0.arch rows cs extra es c.arch rows' cs' es' ∧
      (∀ p ∈ P1 ++ P2 ++ Gn.flatten, p ∈ items) ∧ ∀ x ∈ rows, x.2.fullUrl ∉ rs'.map (·.1) := by
  have hsep : Separate (rs ++ rs') Gb.flatten (items0 ++ items) := hF.apart.separate (fun x hx => by
    rcases List.mem_append.1 hx with hx | hx
    · exact hs.valid x hx
    · exact hv x hx) hs.groups
  have hml := hF.ok (items0 ++ items) (by simp)
  obtain ⟨Gn, P1', P2', rows', cs', es', m0', R', B', k1, k2, k3, k4⟩ := h.onward hS hs.has hs.core
    (by rw [List.append_nil]; exact hs.redirects) hML hml.1 hml.2 hsep
  refine ⟨hsep, Gn, P1', P2', rows', cs', es', m0', R', B', k1, k2, k3, k4, ?_, ?_⟩
  · intro p hp
    have h4 : ((P1' ++ P2' ++ Gn.flatten) ++ G.flatten).Perm (items ++ items0) := by
      refine List.Perm.trans ?_ (k1.perm.trans List.perm_append_comm)
      rw [List.flatten_append, List.append_assoc]
      exact List.Perm.append_left _ List.perm_append_comm
    exact ((List.perm_append_right_iff items0).1 ((List.Perm.append_left _ hs.perm).symm.trans h4)).subset hp
  · intro x hx hu
    obtain ⟨y, hy, hyu⟩ := List.mem_map.1 hu
    have h2 := (hs.core.lists _ _).2 ⟨x, hx, rfl, rfl⟩
    by_cases hue : x.2.fullUrl ∈ es.map Entry.fullUrl
    · rw [← hyu] at hue
      exact hs.core.apart (hsep.sub (List.Sublist.refl _) fun q hq => List.mem_append_left _ hq) (fun p hp => hs.perm.subset hp)
        (List.mem_append_right _ hy) hue
    · rw [Zim.catalogue_other m0 hue] at h2
      obtain ⟨z, hz, hzu⟩ := hs.core.only _ _ h2
      have := hF.apart.nodup
      rw [List.map_append, List.nodup_append] at this
      exact this.2.2 _ (List.mem_map_of_mem (hs.redirects.subset hz)) _ (List.mem_map_of_mem hy) (hzu.trans hyu.symm)

/-- the bytes of a saved archive while items are added -/
theorem SavedAs.added (hS : S.Good md5 (some r)) (hs : SavedAs S ML r c0 done items0 rs Gb G rows cs extra es L m0 R)
    (hML : ML.length < 65535) (h : AddedTo S c0 c items rs') (hv : ∀ x ∈ rs', Redirect.Valid x)
    (hF : Fresh ML done items0 rs items rs') :
    KeepsBytes (Solid rows cs (restOf (some r) c0.arch extra)) c0.arch.zim.file c.arch.zim.file := by
  obtain ⟨-, Gn, P1, P2, rows', cs', es', m0', R', B', -, k2, -, k4, k5, k6⟩ := hs.later hS hML h hv hF
  have hml := hF.ok (items0 ++ items) (by simp)
  exact hs.core.solid k2 k4 (hs.core.untouched hs.perm hs.redirects hs.groups hF.older
    (fun p hp => (hml.2 p (List.mem_append_right _ hp)).2) hF.new k2 (fun p hp => k5 p (List.mem_append_right _ hp)) k6)

/-- the bytes of a saved archive during the first four parts of a flush -/
theorem SavedAs.interrupted (hS : S.Good md5 (some r)) (hs : SavedAs S ML r c0 done items0 rs Gb G rows cs extra es L m0 R)
    (hML : ML.length < 65535) (h : AddedTo S c0 c items rs') (hv : ∀ x ∈ rs', Redirect.Valid x)
    (hF : Fresh ML done items0 rs items rs') (hn : n ≤ 4) (hok : Creator.interrupted S n c = (.ok (), c')) :
    KeepsBytes (Solid rows cs (restOf (some r) c0.arch extra)) c0.arch.zim.file c'.arch.zim.file := by
  obtain ⟨hsep, Gn, P1, P2, rows', cs', es', m0', R', B', k1, k2, k3, k4, k5, k6⟩ := hs.later hS hML h hv hF
  have hml := hF.ok (items0 ++ items) (by simp)
  obtain ⟨c3, hok3, hrest⟩ : ∃ c3, Creator.interrupted S (min n 3) c = (.ok (), c3) ∧
      Creator.runParts (((Creator.flushParts S).drop 3).take (n - 3)) c3 = (.ok (), c') := by
    by_cases h3 : n ≤ 3
    · refine ⟨c', by rw [Nat.min_eq_left h3]; exact hok, ?_⟩
      rw [Nat.sub_eq_zero_of_le h3]
      rfl
    · have hsplit : (Creator.flushParts S).take n =
          (Creator.flushParts S).take 3 ++ ((Creator.flushParts S).drop 3).take (n - 3) := by
        rw [← List.take_add, Nat.add_sub_cancel' (by omega)]
      unfold Creator.interrupted at hok ⊢
      rw [hsplit, runParts_append] at hok
      obtain ⟨⟨⟩, c3, e3, hok⟩ := PyM.bind_ok_iff.1 hok
      exact ⟨c3, by rw [Nat.min_eq_right (by omega)]; exact e3, hok⟩
  obtain ⟨G', rows2, cs2, es2, m2, R2, B2, l1, l2, l3, -⟩ := k1.interrupted hS k2 k3 hml.1 (fun q hq => (hml.2 q hq).2) hsep
    (Nat.min_le_right _ _) hok3
  rw [List.append_assoc G] at l1
  have hGn : ∀ p ∈ (Gn ++ G').flatten, p ∈ items := by
    intro p hp
    rw [List.flatten_append] at hp
    rcases List.mem_append.1 hp with hp | hp
    · exact k5 p (List.mem_append_right _ hp)
    · exact k5 p (List.mem_append_left _ (l2 p hp))
  have hU : ∀ x ∈ rows, ¬ (x.2.fullUrl ∈ rs'.map (·.1) ∨ x.2.fullUrl ∈ B'.map (·.1)) := by
    intro x hx
    rintro (hu | hu)
    · exact k6 x hx hu
    · have hno := k2.newSources hsep k3 fun p hp => by
        refine k1.perm.subset ?_
        exact List.mem_append_right _ hp
      obtain ⟨y, hy, hyu⟩ := List.mem_map.1 hu
      have h2 := hno.entries y hy
      obtain ⟨x', hx', hxu⟩ := k4.stays x hx (by
        rintro (h3 | h3)
        · exact k6 x hx h3
        · rw [← hyu] at h3
          exact h2 ((List.drop_sublist _ _).map _ |>.subset h3))
      have h3 := (k2.lists _ _).2 ⟨x', hx', rfl, rfl⟩
      rw [Entry.blank_fullUrl hxu.2, ← hyu, Zim.catalogue_other m0' h2, hno.redirects y hy] at h3
      cases h3
  have o := k4.trans l3
  have hun := hs.core.untouched (U := fun u => u ∈ rs'.map (·.1) ∨ u ∈ B'.map (·.1)) hs.perm hs.redirects hs.groups hF.older
    (fun p hp => (hml.2 p (List.mem_append_right _ hp)).2) hF.new l1 hGn hU
  have key := hs.core.solid l1 o hun
  obtain ⟨m, hm4⟩ : ∃ m, m = n - 3 := ⟨_, rfl⟩
  rw [← hm4] at hrest
  rcases m with _ | m
  · injection hrest with _ hrest
    subst hrest
    exact key
  unfold Creator.flushParts at hrest
  simp only [List.drop_succ_cons, List.drop_zero, List.take_succ_cons, Creator.runParts] at hrest
  obtain ⟨⟨⟩, c4, e4, hrest⟩ := PyM.bind_ok_iff.1 hrest
  obtain ⟨cs4, L4, ext4, cl4, p4, -, -, -, q1, -, -, q4, q5⟩ := l1.articles hS (onArch_ok e4)
  obtain rfl : m = 0 := by omega
  injection hrest with _ hrest
  subst hrest
  intro x v hx hv
  refine q4 x v ?_ (key x v hx hv)
  rcases hx with hx | ⟨c, hc1, hx⟩ | ⟨r', hr', hx⟩
  · exact .inl (by rw [o.rest]; exact hx)
  · exact .inr (.inl ⟨c, o.before.subset hc1, hx⟩)
  · obtain ⟨r2, h1, h2, h3⟩ := o.stays r' hr' (hun r' hr')
    exact .inr (.inr ⟨r2, h1, (SameRow.inRow ⟨h2, h3⟩ x).2 hx.1⟩)

/-- a file with the bytes of a saved archive shows its items -/
theorem SavedAs.shows (hS : S.Good md5 (some r)) (hs : SavedAs S ML r c0 done items0 rs Gb G rows cs extra es L m0 R)
    (hF : Fresh ML done items0 rs items rs') {since : Bytes → Prop} {f : Bytes} (ht : Torn c0.arch.zim.file since f)
    (hk : ∀ g, since g → KeepsBytes (Solid rows cs (restOf (some r) c0.arch extra)) c0.arch.zim.file g)
    (kind : ClusterKind) (calls follow : Nat) (titles : Zim → PyRes PointerList) :
    ∃ a, Creator.openArchive { S with kind := kind, calls := calls, follow := follow } titles false f = .ok a ∧
      ShowsItems S.X kind calls a.zim (current (done ++ [items0])) rs := by
  have hkf : KeepsBytes (Solid rows cs (restOf (some r) c0.arch extra)) c0.arch.zim.file f := by
    intro x v hx hv
    have hlt := (List.getElem?_eq_some_iff.1 hv).1
    rw [ht.bytes x hlt fun g hg => by rw [hk g hg x v hx hv, hv], hv]
  obtain ⟨rows1, extra1, hR⟩ := hs.core.torn hs.dirty hkf ht.length
  exact hs.core.shows_readable hS hs.perm hs.redirects hs.groups hF.older hs.valid hs.urls hR kind calls follow titles

theorem AddedTo.allValid (h : AddedTo S c0 c items rs') : ∀ x ∈ rs', Redirect.Valid x := by
  induction h with
  | start => simp
  | add _ _ _ ih => exact ih
  | redirect _ hv _ _ ih =>
    intro x hx
    rcases List.mem_append.1 hx with hx | hx
    · exact ih x hx
    · rw [List.mem_singleton] at hx; rw [hx]; exact hv

end Pyzim
