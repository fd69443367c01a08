import Verif.Lemmas.Mirrors

/-!
# What the strategies can do to the reduced archive, they can do to the archive
-/

namespace Pyzim

/-- Whatever succeeds for the second archive, and leads to what can be held (`P`), succeeds for the first one. What leads to
what can be held could be held before. -/
structure Backend.Tot {σ τ D : Type} (A : Backend σ D) (B : Backend τ D) (Q : Item → Prop) (R : σ → τ → Prop) (P : τ → Prop) :
    Prop where
  keepE : ∀ it, Keeps (fun t => ¬ P t) (B.toEntry it)
  keepC : ∀ m, Keeps (fun t => ¬ P t) (B.writeCluster m)
  keepW : ∀ e, Keeps (fun t => ¬ P t) (B.writeEntry e)
  toEntry : ∀ {s : σ} {t t' : τ} {it : Item} {e : Entry}, R s t → Q it → B.toEntry it t = (.ok e, t') → P t' →
    ∃ s', A.toEntry it s = (.ok e, s')
  writeCluster : ∀ {s : σ} {t t' : τ} {m : MCluster D} {n : Nat}, R s t → m.IsNew → B.writeCluster m t = (.ok n, t') → P t' →
    ∃ s', A.writeCluster m s = (.ok n, s')
  writeEntry : ∀ {s : σ} {t t' : τ} {e : Entry}, R s t → Zim.Good e → e.isRedirect = false → e.mutable = true →
    B.writeEntry e t = (.ok (), t') → P t' → ∃ s', A.writeEntry e s = (.ok (), s')

theorem Entry.setClusterNumber_mutable {e e' : Entry} {v : Int} (hs : e.setClusterNumber v = (.ok (), e')) : e'.mutable = true := by
  unfold Entry.setClusterNumber at hs
  cases hk : e.kind with
  | redirect r => rw [hk] at hs; cases hs
  | content c b =>
    rw [hk] at hs
    simp only at hs
    cases hm : e.mutable with
    | false =>
      rw [hm] at hs
      repeat' split at hs
      all_goals first | (cases hs; done) | simp at *
    | true =>
      repeat' split at hs
      all_goals
        first
        | (cases hs; done)
        | (injection hs with _ hs
           subst hs
           exact hm)

section
variable {σ τ D : Type} {X : Codecs D} {A : Backend σ D} {B : Backend τ D} {Q : Item → Prop} {R : σ → τ → Prop} {P : τ → Prop}
  {Z : σ} {z z' : τ}

theorem Keeps.back {σ α : Type} {P : σ → Prop} {m : PyM σ α} (h : Keeps (fun t => ¬ P t) m) {s s' : σ} {r : PyRes α}
    (hm : m s = (r, s')) (hp : P s') : P s := by
  by_contra hn
  have := h s hn
  rw [hm] at this
  exact this hp

theorem Backend.Tot.keepEntries (T : Backend.Tot A B Q R P) (num : Nat) : ∀ es : List Entry,
    Keeps (fun t => ¬ P t) (Simple.writeEntries B.writeEntry num es)
  | [] => Keeps.pure _
  | e :: es => by
    unfold Simple.writeEntries
    split
    · exact Keeps.raise _
    · exact (T.keepW _).bind fun _ => T.keepEntries num es

theorem keeps_onZim {α : Type} {g : PyM τ α} (h : Keeps (fun t => ¬ P t) g) :
    Keeps (fun q : Simple D × τ => ¬ P q.2) (Simple.onZim g) := fun q hq => h q.2 hq

theorem keeps_onCluster {α : Type} (g : PyM (MCluster D) α) :
    Keeps (fun q : Simple D × τ => ¬ P q.2) (Simple.onCluster g) := fun _ hq => hq

theorem Backend.Tot.keepFinalize (T : Backend.Tot A B Q R P) : Keeps (fun q : Simple D × τ => ¬ P q.2) (Simple.finalizeOn B) := by
  unfold Simple.finalizeOn
  exact Keeps.get.bind fun s => (keeps_onZim (T.keepC _)).bind fun num => Keeps.bind (Keeps.modify fun _ h => h) fun _ =>
    (keeps_onZim (T.keepEntries num _)).bind fun _ => Keeps.modify fun _ h => h

theorem Backend.Tot.keepFlush (T : Backend.Tot A B Q R P) : Keeps (fun q : Simple D × τ => ¬ P q.2) (Simple.flushOn B) := by
  unfold Simple.flushOn
  refine Keeps.get.bind fun s => ?_
  split
  · exact Keeps.pure _
  · exact T.keepFinalize

theorem Backend.Tot.keepFlushAll (T : Backend.Tot A B Q R P) : ∀ (L : List (String × Simple D)) (z : τ), ¬ P z →
    ¬ P (ByMimetype.flushAllOn B L z).2.2 := by
  intro L
  induction L with
  | nil => exact fun z h => h
  | cons q L ih =>
    intro z h
    obtain ⟨mt, cs⟩ := q
    unfold ByMimetype.flushAllOn
    have h1 := T.keepFlush (cs, z) h
    cases hq : Simple.flushOn B (cs, z) with
    | mk r p =>
      rw [hq] at h1
      obtain ⟨cs1, z1⟩ := p
      cases r with
      | error x => exact h1
      | ok u => exact ih z1 h1

theorem Backend.Tot.entries (H : Backend.Sim A B Q R) (T : Backend.Tot A B Q R P) {num : Nat} : ∀ {es : List Entry} {z : τ} {Z : σ},
    R Z z → (∀ e ∈ es, Zim.Good e) → Simple.writeEntries B.writeEntry num es z = (.ok (), z') → P z' →
    ∃ Z', Simple.writeEntries A.writeEntry num es Z = (.ok (), Z') := by
  intro es
  induction es with
  | nil => intro z Z _ _ _ _; exact ⟨Z, rfl⟩
  | cons e es ih =>
    intro z Z h hg hok hp
    unfold Simple.writeEntries at hok ⊢
    cases hs : e.setClusterNumber num with
    | mk r e1 =>
      rw [hs] at hok
      cases r with
      | error x => cases hok
      | ok u =>
        simp only at hok ⊢
        obtain ⟨⟨⟩, z1, h1, hok⟩ := PyM.bind_ok_iff.1 hok
        have hg' := (hg e (by simp)).setCluster hs
        obtain ⟨Z1, k1⟩ := T.writeEntry h hg' (hg'.content hs) (Entry.setClusterNumber_mutable hs) h1
          ((T.keepEntries num es).back hok hp)
        obtain ⟨z1', g1, g2⟩ := H.writeEntry h hg' (hg'.content hs) k1
        rw [h1] at g1
        injection g1 with _ g1
        subst g1
        obtain ⟨Z2, k2⟩ := ih g2 (fun e he => hg e (by simp [he])) hok hp
        exact ⟨Z2, by rw [PyM.bind_ok k1]; exact k2⟩

theorem Backend.Tot.finalize (H : Backend.Sim A B Q R) (T : Backend.Tot A B Q R P) {s s' : Simple D} (h : R Z z) (hf : s.Fit)
    (hok : Simple.finalizeOn B (s, z) = (.ok (), (s', z'))) (hp : P z') :
    ∃ Z', Simple.finalizeOn A (s, Z) = (.ok (), (s', Z')) := by
  unfold Simple.finalizeOn at hok ⊢
  rw [PyM.get_bind] at hok ⊢
  obtain ⟨num, ⟨s1, z1⟩, h1, hok⟩ := PyM.bind_ok_iff.1 hok
  simp only [Simple.onZim, PyM.of_apply] at h1
  injection h1 with h1 h2
  injection h2 with h2 h3
  subst h2
  rw [PyM.modify_bind] at hok
  obtain ⟨⟨⟩, ⟨s2, z2⟩, h4, hok⟩ := PyM.bind_ok_iff.1 hok
  simp only [Simple.onZim, PyM.of_apply] at h4
  injection h4 with h4 h5
  injection h5 with h5 h6
  rw [PyM.modify_apply] at hok
  injection hok with _ hok
  injection hok with hok1 hok2
  simp only at hok1 hok2
  subst hok2
  have hw : Simple.writeEntries B.writeEntry num s.entries z1 = (.ok (), z2) := by rw [← h4, ← h6]
  have hc : B.writeCluster s.cluster z = (.ok num, z1) := by rw [← h1, ← h3]
  obtain ⟨Z1, k1⟩ := T.writeCluster h hf.isNew hc ((T.keepEntries num _).back hw hp)
  obtain ⟨z1', g1, g2⟩ := H.writeCluster h hf.isNew k1
  rw [hc] at g1
  injection g1 with _ g1
  subst g1
  obtain ⟨Z2, k2⟩ := T.entries H g2 hf.good hw hp
  refine ⟨Z2, ?_⟩
  rw [PyM.bind_ok (show Simple.onZim (A.writeCluster s.cluster) (s, Z) = (.ok num, (s, Z1)) by
    simp only [Simple.onZim, PyM.of_apply, k1]), PyM.modify_bind,
    PyM.bind_ok (show Simple.onZim (Simple.writeEntries A.writeEntry num s.entries)
    ({ s with cluster := Simple.newCluster s.compressionType }, Z1) =
      (.ok (), ({ s with cluster := Simple.newCluster s.compressionType }, Z2)) by
    simp only [Simple.onZim, PyM.of_apply, k2]), PyM.modify_apply, ← hok1, ← h5]

theorem Backend.Tot.simpleFlush (H : Backend.Sim A B Q R) (T : Backend.Tot A B Q R P) {s s' : Simple D} (h : R Z z) (hf : s.Fit)
    (hok : Simple.flushOn B (s, z) = (.ok (), (s', z'))) (hp : P z') :
    ∃ Z', Simple.flushOn A (s, Z) = (.ok (), (s', Z')) := by
  unfold Simple.flushOn at hok ⊢
  rw [PyM.get_bind] at hok ⊢
  simp only at hok ⊢
  split at hok
  · rename_i he
    rw [if_pos he]
    rw [PyM.pure_apply] at hok
    injection hok with _ hok
    injection hok with h1 h2
    subst h1
    exact ⟨Z, rfl⟩
  · rename_i he
    rw [if_neg he]
    exact T.finalize H h hf hok hp

theorem Backend.Tot.flushAll (H : Backend.Sim A B Q R) (T : Backend.Tot A B Q R P) : ∀ {L L' : List (String × Simple D)} {z : τ} {Z : σ},
    R Z z → (∀ q ∈ L, q.2.Fit) → ByMimetype.flushAllOn B L z = (.ok (), L', z') → P z' →
    ∃ Z', ByMimetype.flushAllOn A L Z = (.ok (), L', Z') := by
  intro L
  induction L with
  | nil =>
    intro L' z Z _ _ hok _
    unfold ByMimetype.flushAllOn at hok
    injection hok with _ hok
    injection hok with h1 h2
    subst h1
    exact ⟨Z, rfl⟩
  | cons q L ih =>
    intro L' z Z h hf hok hp
    obtain ⟨mt, cs⟩ := q
    unfold ByMimetype.flushAllOn at hok ⊢
    cases hq : Simple.flushOn B (cs, z) with
    | mk r p =>
      obtain ⟨cs1, z1⟩ := p
      rw [hq] at hok
      cases r with
      | error x => injection hok with hok _; cases hok
      | ok u =>
        simp only at hok
        injection hok with hok1 hok2
        injection hok2 with hok2 hok3
        have hr : ByMimetype.flushAllOn B L z1 = (.ok (), (ByMimetype.flushAllOn B L z1).2.1, z') := by rw [← hok1, ← hok3]
        have hp1 : P z1 := by
          by_contra hn
          have := T.keepFlushAll L z1 hn
          rw [hr] at this
          exact this hp
        obtain ⟨Z1, k1⟩ := T.simpleFlush H h (hf (mt, cs) (by simp)) hq hp1
        obtain ⟨z1', g1, g2, g3⟩ := H.simpleFlush h (hf (mt, cs) (by simp)) k1
        rw [hq] at g1
        injection g1 with _ g1
        injection g1 with _ g1
        subst g1
        obtain ⟨Z2, k2⟩ := ih g2 (fun q hq => hf q (by simp [hq])) hr hp
        rw [k1]
        simp only [k2]
        exact ⟨Z2, by rw [hok2]⟩

theorem Backend.Tot.simpleAdd (H : Backend.Sim A B Q R) (T : Backend.Tot A B Q R P) {s s' : Simple D} (h : R Z z) (hf : s.Fit)
    {it : Item} (hi : Q it) (hok : Simple.addItemOn X B it (s, z) = (.ok (), (s', z'))) (hp : P z') :
    ∃ Z', Simple.addItemOn X A it (s, Z) = (.ok (), (s', Z')) := by
  unfold Simple.addItemOn at hok ⊢
  obtain ⟨needed, ⟨s1, z1⟩, h1, hokA⟩ := PyM.bind_ok_iff.1 hok
  clear hok
  have h1' : Simple.newClusterNeeded (σ := σ) X it (s, Z) = (.ok needed, (s1, Z)) ∧ z1 = z ∧ s1.Fit := by
    unfold Simple.newClusterNeeded at h1 ⊢
    rw [PyM.get_bind] at h1 ⊢
    simp only at h1 ⊢
    split at h1
    · rename_i he
      rw [if_pos he]
      rw [PyM.pure_apply] at h1 ⊢
      injection h1 with h1 h2
      injection h2 with h2 h3
      subst h2 h3
      injection h1 with h1
      subst h1
      exact ⟨rfl, rfl, hf⟩
    · rename_i he
      rw [if_neg he]
      obtain ⟨cur, ⟨s2, Z2⟩, k1, h1a⟩ := PyM.bind_ok_iff.1 h1
      simp only [Simple.onCluster, PyM.of_apply] at k1
      injection k1 with k1 k2
      injection k2 with k2 k3
      rw [PyM.pure_apply] at h1a
      injection h1a with h1a h2
      injection h2 with h2 h3
      subst h2 h3
      rw [PyM.bind_ok (show Simple.onCluster (σ := σ) (MCluster.getTotalDecompressedSize X) (s, Z) =
        (.ok cur, (s2, Z)) by simp only [Simple.onCluster, PyM.of_apply, k1, k2])]
      rw [PyM.pure_apply, h1a]
      refine ⟨rfl, k3.symm, ?_⟩
      rw [← k2]
      exact ⟨MCluster.keeps_total _ hf.isNew, hf.good⟩
  obtain ⟨h1', rfl, hf1⟩ := h1'
  rw [PyM.bind_ok h1']
  obtain ⟨⟨⟩, ⟨s2, z2⟩, h2, hokB⟩ := PyM.bind_ok_iff.1 hokA
  clear hokA
  obtain ⟨e, ⟨s3, z3⟩, h3, hokC⟩ := PyM.bind_ok_iff.1 hokB
  clear hokB
  simp only [Simple.onZim, PyM.of_apply] at h3
  injection h3 with h3 h4
  injection h4 with h4 h5
  subst h4
  obtain ⟨num, ⟨s4, z4⟩, h6, hok⟩ := PyM.bind_ok_iff.1 hokC
  clear hokC
  simp only [Simple.onCluster, PyM.of_apply] at h6
  injection h6 with h6 h7
  injection h7 with h7 h8
  subst h8
  have he : B.toEntry it z2 = (.ok e, z3) := by rw [← h3, ← h5]
  cases hb : e.setBlobNumber num with
  | mk r e1 =>
    rw [hb] at hok
    cases r with
    | error x => cases hok
    | ok u =>
      simp only [PyM.modify_apply] at hok
      injection hok with _ hok
      injection hok with hok1 hok2
      subst hok2
      have h2' : ∃ Z2, (if needed then Simple.finalizeOn A else pure ()) (s1, Z) = (.ok (), (s2, Z2)) ∧ R Z2 z2 := by
        cases needed with
        | true =>
          simp only [if_true] at h2 ⊢
          obtain ⟨Z2, k1⟩ := T.finalize H h hf1 h2 ((T.keepE it).back he hp)
          obtain ⟨z2', g1, g2, -⟩ := H.finalize h hf1 k1
          rw [h2] at g1
          injection g1 with _ g1
          injection g1 with _ g1
          subst g1
          exact ⟨Z2, k1, g2⟩
        | false =>
          simp only [Bool.false_eq_true, if_false, PyM.pure_apply] at h2 ⊢
          injection h2 with _ h2
          injection h2 with h2 h3
          subst h2 h3
          exact ⟨Z, rfl, h⟩
      obtain ⟨Z2, k1, k2⟩ := h2'
      obtain ⟨Z3, k3⟩ := T.toEntry k2 hi he hp
      refine ⟨Z3, ?_⟩
      rw [PyM.bind_ok k1, PyM.bind_ok (show Simple.onZim (A.toEntry it) (s2, Z2) = (.ok e, (s2, Z3)) by
        simp only [Simple.onZim, PyM.of_apply, k3]),
        PyM.bind_ok (show Simple.onCluster (σ := σ) (MCluster.appendBlob X it.source) (s2, Z3) = (.ok num, (s4, Z3)) by
        simp only [Simple.onCluster, PyM.of_apply, h6, h7])]
      simp only [hb, PyM.modify_apply, hok1]

theorem Backend.Tot.add (H : Backend.Sim A B Q R) (T : Backend.Tot A B Q R P) {s s' : Strategy D} (h : R Z z) (hf : s.Fit)
    {it : Item} (hi : Q it) (hok : Strategy.addItemOn X B it (s, z) = (.ok (), (s', z'))) (hp : P z') :
    ∃ Z', Strategy.addItemOn X A it (s, Z) = (.ok (), (s', Z')) := by
  unfold Strategy.addItemOn at hok ⊢
  rw [PyM.of_apply] at hok
  cases s with
  | simple s =>
    simp only at hok
    cases hr : Simple.addItemOn X B it (s, z) with
    | mk r p =>
      obtain ⟨s1, z1⟩ := p
      rw [hr] at hok
      simp only at hok
      injection hok with h1 h2
      injection h2 with h2 h3
      subst h1 h2 h3
      obtain ⟨Z', k⟩ := T.simpleAdd H h hf hi hr hp
      exact ⟨Z', by simp only [PyM.of_apply, k]⟩
  | byMimetype s =>
    obtain ⟨hd, hf⟩ := hf
    simp only [ByMimetype.addItemOn, PyM.of_apply] at hok ⊢
    have hc : (ByMimetype.getCs it.mimetype s).1.Fit := by
      unfold ByMimetype.getCs
      cases hg : dictGet it.mimetype s.strategies with
      | some cs => exact hf _ (mem_of_dictGet hg)
      | none => exact Simple.fit_new _ _
    cases hr : Simple.addItemOn X B it ((ByMimetype.getCs it.mimetype s).1, z) with
    | mk r p =>
      obtain ⟨s1, z1⟩ := p
      rw [hr] at hok
      simp only at hok
      injection hok with h1 h2
      injection h2 with h2 h3
      subst h1 h2 h3
      obtain ⟨Z', k⟩ := T.simpleAdd H h hc hi hr hp
      exact ⟨Z', by simp only [k]⟩

theorem Backend.Tot.flush (H : Backend.Sim A B Q R) (T : Backend.Tot A B Q R P) {s s' : Strategy D} (h : R Z z) (hf : s.Fit)
    (hok : Strategy.flushOn B (s, z) = (.ok (), (s', z'))) (hp : P z') :
    ∃ Z', Strategy.flushOn A (s, Z) = (.ok (), (s', Z')) := by
  unfold Strategy.flushOn at hok ⊢
  rw [PyM.of_apply] at hok
  cases s with
  | simple s =>
    simp only at hok
    cases hr : Simple.flushOn B (s, z) with
    | mk r p =>
      obtain ⟨s1, z1⟩ := p
      rw [hr] at hok
      simp only at hok
      injection hok with h1 h2
      injection h2 with h2 h3
      subst h1 h2 h3
      obtain ⟨Z', k⟩ := T.simpleFlush H h hf hr hp
      exact ⟨Z', by simp only [PyM.of_apply, k]⟩
  | byMimetype s =>
    obtain ⟨-, hf⟩ := hf
    simp only [ByMimetype.flushOn, PyM.of_apply] at hok ⊢
    cases hr : ByMimetype.flushAllOn B s.strategies z with
    | mk r p =>
      obtain ⟨L', z1⟩ := p
      rw [hr] at hok
      simp only at hok
      injection hok with h1 h2
      injection h2 with h2 h3
      subst h1 h2 h3
      obtain ⟨Z', k⟩ := T.flushAll H h hf hr hp
      exact ⟨Z', by simp only [k]⟩

end
end Pyzim
