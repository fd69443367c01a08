import Verif.Spec.Threads

/-!
# Lemmas about threads sharing the file
-/

namespace Pyzim

variable {α β : Type}

/-- What a thread which is not inside of a block is yet to do. -/
def Thread.script : Thread α β → Script α β
  | .outside s => s
  | .waiting b k => .use b k
  | .inside b k => .use b k

def Thread.Inside : Thread α β → Prop
  | .inside _ _ => True
  | _ => False

/-- The world looks like one in which the threads took `turns`, but for the thread holding the
lock, which is in the middle of its next turn. -/
structure InTurns (file : PyFile) (scripts : Nat → Script α β) (turns : List Nat)
    (w : World α β) : Prop where
  opened : w.closed = false
  rest : ∀ j, ¬ (w.threads j).Inside →
    (w.threads j).script = (turns.foldl takeTurn (file, scripts)).2 j
  free : w.lock = none → w.file = (turns.foldl takeTurn (file, scripts)).1
  alone : ∀ j, (w.threads j).Inside → w.lock = some j
  held : ∀ i, w.lock = some i → ∃ b k b0, w.threads i = .inside b k ∧
    (turns.foldl takeTurn (file, scripts)).2 i = .use b0 k ∧
    b.alone w.file = b0.alone (turns.foldl takeTurn (file, scripts)).1

theorem takeTurn_use {w : PyFile × (Nat → Script α β)} {i : Nat} {b : FileOps β}
    {k : PyRes β → Script α β} (h : w.2 i = .use b k) :
    takeTurn w i =
      ((b.alone w.1).2, fun j => if j = i then k (.ok (b.alone w.1).1) else w.2 j) := by
  simp only [takeTurn, h]

theorem takeTurn_done {w : PyFile × (Nat → Script α β)} {i : Nat} {a : α}
    (h : w.2 i = .done a) : takeTurn w i = w := by
  simp only [takeTurn, h]

theorem World.put_self (w : World α β) (i : Nat) (t : Thread α β) : (w.put i t).threads i = t := by
  simp [World.put]

theorem World.put_other (w : World α β) {i j : Nat} (t : Thread α β) (h : j ≠ i) :
    (w.put i t).threads j = w.threads j := by
  simp [World.put, h]

theorem InTurns.start (file : PyFile) (scripts : Nat → Script α β) :
    InTurns file scripts [] (World.start file scripts) where
  opened := rfl
  rest _ _ := rfl
  free _ := rfl
  alone _ h := h.elim
  held _ h := nomatch h

/-- A step inside of the block which does one operation of the file object. -/
theorem InTurns.inner {file : PyFile} {scripts : Nat → Script α β} {turns : List Nat}
    {w : World α β} (h : InTurns file scripts turns w) {i : Nat} {b c : FileOps β}
    {k : PyRes β → Script α β} {f : PyFile} (hi : w.threads i = .inside b k)
    (hc : c.alone f = b.alone w.file) :
    InTurns file scripts turns { w.put i (.inside c k) with file := f } := by
  have hl : w.lock = some i := h.alone i (by rw [hi]; trivial)
  refine ⟨h.opened, ?_, ?_, ?_, ?_⟩
  · intro j hj
    by_cases hji : j = i
    · subst hji
      exact absurd (by simp [World.put, Thread.Inside]) hj
    · simp only [World.put, if_neg hji] at hj ⊢
      exact h.rest j hj
  · intro hn
    exact absurd (hl.symm.trans hn) (by simp)
  · intro j hj
    by_cases hji : j = i
    · subst hji; exact hl
    · simp only [World.put, if_neg hji] at hj
      exact h.alone j hj
  · intro j hj
    obtain rfl : i = j := by
      have : w.lock = some j := hj
      rw [hl] at this; exact Option.some.inj this
    obtain ⟨b', k', b0, h1, h2, h3⟩ := h.held i hl
    rw [hi] at h1
    injection h1 with hb hk
    subst hb; subst hk
    exact ⟨c, k, b0, by simp [World.put], h2, hc.trans h3⟩

theorem InTurns.step {file : PyFile} {scripts : Nat → Script α β} {turns : List Nat}
    {w : World α β} (h : InTurns file scripts turns w) (i : Nat) :
    ∃ more, InTurns file scripts (turns ++ more) (w.step i) := by
  have stay : ∃ more, InTurns file scripts (turns ++ more) w := ⟨[], by simpa using h⟩
  unfold World.step
  split
  next => exact stay
  next b k hi =>
    rw [if_neg (by simp [h.opened])]
    refine ⟨[], ?_⟩
    simp only [List.append_nil]
    have hni : ¬ (w.threads i).Inside := by rw [hi]; exact id
    refine ⟨h.opened, ?_, h.free, ?_, ?_⟩
    · intro j hj
      by_cases hji : j = i
      · subst hji
        rw [World.put_self, ← h.rest j hni, hi]
        rfl
      · rw [World.put_other _ _ hji] at hj ⊢
        exact h.rest j hj
    · intro j hj
      by_cases hji : j = i
      · subst hji
        rw [World.put_self] at hj; exact hj.elim
      · rw [World.put_other _ _ hji] at hj
        exact h.alone j hj
    · intro j hj
      obtain ⟨b', k', b0, h1, h2, h3⟩ := h.held j hj
      have hji : j ≠ i := by
        rintro rfl; rw [hi] at h1; cases h1
      exact ⟨b', k', b0, by rw [World.put_other _ _ hji]; exact h1, h2, h3⟩
  next b k hi =>
    split
    next hn =>
      refine ⟨[], ?_⟩
      simp only [List.append_nil]
      have hni : ¬ (w.threads i).Inside := by rw [hi]; exact id
      refine ⟨h.opened, ?_, ?_, ?_, ?_⟩
      · intro j hj
        by_cases hji : j = i
        · subst hji
          exact absurd (by simp [World.put, Thread.Inside]) hj
        · simp only [World.put, if_neg hji] at hj ⊢
          exact h.rest j hj
      · intro hc; cases hc
      · intro j hj
        by_cases hji : j = i
        · subst hji; rfl
        · simp only [World.put, if_neg hji] at hj
          have := h.alone j hj
          rw [hn] at this; cases this
      · intro j hj
        obtain rfl : i = j := Option.some.inj hj
        refine ⟨b, k, b, by simp [World.put], ?_, ?_⟩
        · rw [← h.rest i hni, hi]; rfl
        · show b.alone w.file = _
          rw [h.free hn]
    next => exact stay
  next r k hi =>
    have hl : w.lock = some i := h.alone i (by rw [hi]; trivial)
    obtain ⟨b', k', b0, h1, h2, h3⟩ := h.held i hl
    rw [hi] at h1
    injection h1 with hb hk
    subst hb; subst hk
    have hturn : ∀ s : PyFile × (Nat → Script α β), (turns ++ [i]).foldl takeTurn s = takeTurn (turns.foldl takeTurn s) i := by
      intro s; simp
    have htake : takeTurn (turns.foldl takeTurn (file, scripts)) i =
        ((b0.alone (turns.foldl takeTurn (file, scripts)).1).2,
          fun j => if j = i then k (.ok (b0.alone (turns.foldl takeTurn (file, scripts)).1).1)
            else (turns.foldl takeTurn (file, scripts)).2 j) := by
      exact takeTurn_use h2
    refine ⟨[i], ?_⟩
    refine ⟨h.opened, ?_, ?_, ?_, ?_⟩
    · intro j hj
      rw [hturn, htake, ← h3]
      by_cases hji : j = i
      · subst hji
        simp [World.put, Thread.script, FileOps.alone]
      · simp only [World.put, if_neg hji] at hj ⊢
        exact h.rest j hj
    · intro _
      rw [hturn, htake, ← h3]
      rfl
    · intro j hj
      by_cases hji : j = i
      · subst hji
        simp only [World.put, if_true] at hj
        exact hj.elim
      · simp only [World.put, if_neg hji] at hj
        have := h.alone j hj
        rw [hl] at this
        exact absurd (Option.some.inj this).symm hji
    · intro j hj; cases hj
  next p c k hi => exact ⟨[], by rw [List.append_nil]; exact h.inner hi rfl⟩
  next c k hi => exact ⟨[], by rw [List.append_nil]; exact h.inner (f := w.file) hi rfl⟩
  next n c k hi => exact ⟨[], by rw [List.append_nil]; exact h.inner hi rfl⟩
  next d c k hi => exact ⟨[], by rw [List.append_nil]; exact h.inner hi rfl⟩
  next c k hi =>
    have hl : w.lock = some i := h.alone i (by rw [hi]; trivial)
    rw [if_neg (by simp [hl])]
    exact stay

theorem InTurns.run {file : PyFile} {scripts : Nat → Script α β} {turns : List Nat}
    {w : World α β} (h : InTurns file scripts turns w) (schedule : List Nat) :
    ∃ more, InTurns file scripts (turns ++ more) (w.run schedule) := by
  induction schedule generalizing turns w with
  | nil => exact ⟨[], by rw [List.append_nil]; exact h⟩
  | cons i s ih =>
    obtain ⟨m1, h1⟩ := h.step i
    obtain ⟨m2, h2⟩ := ih h1
    exact ⟨m1 ++ m2, by rw [← List.append_assoc]; exact h2⟩

theorem reachable {file : PyFile} {scripts : Nat → Script α β} (schedule : List Nat) :
    ∃ turns, InTurns file scripts turns ((World.start file scripts).run schedule) := by
  obtain ⟨m, h⟩ := (InTurns.start file scripts).run schedule
  exact ⟨m, by simpa using h⟩

theorem FileOps.ReadsOnly.data {b : FileOps β} (h : b.ReadsOnly) (f : PyFile) :
    (b.alone f).2.data = f.data := by
  induction b generalizing f with
  | ret r => rfl
  | seek p k ih => exact ih h _
  | tell k ih => exact ih _ (h _) _
  | read n k ih => exact ih _ (h _) _
  | write d k ih => exact h.elim
  | again k ih => exact ih h _

theorem turns_readers {file : PyFile} {scripts : Nat → Script α β}
    (hr : ∀ i, (scripts i).Reader) (turns : List Nat) :
    (turns.foldl takeTurn (file, scripts)).1.data = file.data ∧
      ∀ j, ((turns.foldl takeTurn (file, scripts)).2 j).Reader ∧
        ((turns.foldl takeTurn (file, scripts)).2 j).alone file.data =
          (scripts j).alone file.data := by
  induction turns generalizing file scripts with
  | nil => exact ⟨rfl, fun j => ⟨hr j, rfl⟩⟩
  | cons i turns ih =>
    rw [List.foldl_cons]
    cases hb' : scripts i with
    | done a => rw [takeTurn_done hb']; exact ih hr
    | use b k =>
      rw [takeTurn_use hb']
      have hri := hr i
      rw [hb'] at hri
      obtain ⟨⟨h1, h2⟩, h3⟩ := hri
      have hd := h1.data file
      obtain ⟨e1, e2⟩ := ih (file := (b.alone file).2)
        (scripts := fun j => if j = i then k (.ok (b.alone file).1) else scripts j) (by
          intro j; split
          · exact h3 _
          · exact hr j)
      refine ⟨e1.trans hd, fun j => ⟨(e2 j).1, ?_⟩⟩
      have := (e2 j).2
      rw [hd] at this
      refine this.trans ?_
      split
      next hji =>
        subst hji
        rw [hb']
        simp only [Script.alone]
        rw [h2 file.data 0 file.pos]
      next => rfl

/-- The thread which holds the lock can leave its block. -/
theorem leave {w : World α β} {i : Nat} {b : FileOps β} {k : PyRes β → Script α β}
    (hb : b.Flat) (hi : w.threads i = .inside b k) :
    ∃ more r, (w.run more).lock = none ∧ (w.run more).closed = w.closed ∧
      (w.run more).threads i = .outside (k (.ok r)) ∧
      ∀ j, j ≠ i → (w.run more).threads j = w.threads j := by
  induction b generalizing w with
  | ret r =>
    refine ⟨[i], r, ?_⟩
    have : w.run [i] = { w.put i (.outside (k (.ok r))) with lock := none } := by
      simp only [World.run, List.foldl_cons, List.foldl_nil, World.step, hi]
    rw [this]
    exact ⟨rfl, rfl, by simp [World.put], fun j hj => by simp [World.put, hj]⟩
  | seek p c ih =>
    obtain ⟨m, r, h1, h2, h3, h4⟩ := ih (w := w.step i) hb (by simp [World.step, hi, World.put])
    refine ⟨i :: m, r, h1, h2.trans ?_, h3, fun j hj => (h4 j hj).trans ?_⟩
    · simp [World.step, hi, World.put]
    · simp [World.step, hi, World.put, hj]
  | tell c ih =>
    obtain ⟨m, r, h1, h2, h3, h4⟩ := ih w.file.pos (w := w.step i) (hb _)
      (by simp [World.step, hi, World.put])
    refine ⟨i :: m, r, h1, h2.trans ?_, h3, fun j hj => (h4 j hj).trans ?_⟩
    · simp [World.step, hi, World.put]
    · simp [World.step, hi, World.put, hj]
  | read n c ih =>
    obtain ⟨m, r, h1, h2, h3, h4⟩ := ih (w.file.read n).1 (w := w.step i) (hb _)
      (by simp [World.step, hi, World.put])
    refine ⟨i :: m, r, h1, h2.trans ?_, h3, fun j hj => (h4 j hj).trans ?_⟩
    · simp [World.step, hi, World.put]
    · simp [World.step, hi, World.put, hj]
  | write d c ih =>
    obtain ⟨m, r, h1, h2, h3, h4⟩ := ih (w := w.step i) hb (by simp [World.step, hi, World.put])
    refine ⟨i :: m, r, h1, h2.trans ?_, h3, fun j hj => (h4 j hj).trans ?_⟩
    · simp [World.step, hi, World.put]
    · simp [World.step, hi, World.put, hj]
  | again c ih => exact hb.elim

theorem World.run_append (w : World α β) (s t : List Nat) : w.run (s ++ t) = (w.run s).run t := by
  simp [World.run]

/-- With the lock free, a thread can go on to its end. -/
theorem finish {w : World α β} {i : Nat} {s : Script α β} (hs : s.Flat) (ho : w.closed = false)
    (hl : w.lock = none) (hi : w.threads i = .outside s ∨
      ∃ b k, w.threads i = .waiting b k ∧ s = .use b k) :
    ∃ more a, Finished (w.run more) i a := by
  induction s generalizing w with
  | done a =>
    rcases hi with hi | ⟨_, _, _, hi⟩
    · exact ⟨[], a, hi⟩
    · cases hi
  | use b k ih =>
    have go : ∀ v : World α β, v.closed = false → v.lock = none → v.threads i = .waiting b k →
        ∃ more a, Finished (v.run more) i a := by
      intro v ho hl hi
      have e2 : v.step i = { v.put i (.inside b k) with lock := some i } := by
        simp only [World.step, hi, hl, if_true]
      obtain ⟨m, r, h1, h2, h3, h4⟩ := leave (w := v.step i) (i := i) (b := b) (k := k) hs.1
        (by rw [e2]; simp [World.put])
      have ho' : ((v.step i).run m).closed = false := by
        rw [h2, e2]; exact ho
      obtain ⟨m', a, h5⟩ := ih (.ok r) (hs.2 _) ho' h1 (.inl h3)
      exact ⟨i :: m ++ m', a, by rw [World.run_append]; exact h5⟩
    rcases hi with hi | ⟨_, _, hi, e⟩
    · have e1 : w.step i = w.put i (.waiting b k) := by simp [World.step, hi, ho]
      obtain ⟨m, a, h⟩ := go (w.step i) (by rw [e1]; exact ho) (by rw [e1]; exact hl)
        (by rw [e1, World.put_self])
      exact ⟨i :: m, a, h⟩
    · injection e with e1 e2
      subst e1; subst e2
      exact go w ho hl hi

/-- Nothing moves once a thread inside of its block waits for the lock. -/
theorem stuck {w : World α β} {i : Nat} {c : FileOps β} {k : PyRes β → Script α β}
    (ho : w.closed = false) (hl : w.lock = some i)
    (hx : ∀ j, (w.threads j).Inside → j = i) (hi : w.threads i = .inside (.again c) k)
    (schedule : List Nat) :
    (w.run schedule).threads i = .inside (.again c) k ∧ (w.run schedule).file = w.file ∧
      ∀ j a, Finished (w.run schedule) j a → Finished w j a := by
  induction schedule generalizing w with
  | nil => exact ⟨hi, rfl, fun _ _ h => h⟩
  | cons n s ih =>
    by_cases hn : n = i
    · subst hn
      have e : w.step n = w := by simp only [World.step, hi, hl, if_neg (Option.some_ne_none n)]
      show ((w.step n).run s).threads n = _ ∧ _ ∧ _
      simp only [World.run, List.foldl_cons, e]
      exact ih ho hl hx hi
    · cases ht : w.threads n with
      | inside b k => exact absurd (hx n (by rw [ht]; trivial)) hn
      | waiting b k =>
        have e : w.step n = w := by simp only [World.step, ht, hl, if_neg (Option.some_ne_none i)]
        simp only [World.run, List.foldl_cons, e]
        exact ih ho hl hx hi
      | outside s' =>
        cases s' with
        | done a =>
          have e : w.step n = w := by simp only [World.step, ht]
          simp only [World.run, List.foldl_cons, e]
          exact ih ho hl hx hi
        | use b k =>
          have e : w.step n = w.put n (.waiting b k) := by simp [World.step, ht, ho]
          simp only [World.run, List.foldl_cons, e]
          obtain ⟨h1, h2, h3⟩ := ih (w := w.put n (.waiting b k)) ho hl (by
            intro j hj
            by_cases hjn : j = n
            · subst hjn; rw [World.put_self] at hj; exact hj.elim
            · rw [World.put_other _ _ hjn] at hj; exact hx j hj)
            (by rw [World.put_other _ _ (Ne.symm hn)]; exact hi)
          refine ⟨h1, h2, fun j a h => ?_⟩
          have := h3 j a h
          by_cases hjn : j = n
          · subst hjn
            unfold Finished at this
            rw [World.put_self] at this; cases this
          · unfold Finished at this ⊢
            rwa [World.put_other _ _ hjn] at this

end Pyzim
