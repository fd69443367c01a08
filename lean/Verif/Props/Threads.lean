import Verif.Lemmas.Threads

/-!
# C44: threads sharing the file
-/

namespace Pyzim

variable {α β : Type}

/-- **C44.** Any number of threads read from the file of an open archive through `acquire_file`,
each seeking before it reads. Whatever the schedule, a thread which has finished has the result it
would have had alone. -/
theorem C44_same_bytes (file : PyFile) (scripts : Nat → Script α β)
    (hr : ∀ i, (scripts i).Reader) (schedule : List Nat) (i : Nat) (a : α)
    (h : Finished ((World.start file scripts).run schedule) i a) :
    a = (scripts i).alone file.data := by
  obtain ⟨turns, ht⟩ := reachable (file := file) (scripts := scripts) schedule
  have h1 := ht.rest i (by rw [h]; exact id)
  rw [h] at h1
  have h2 := ((turns_readers (file := file) hr turns).2 i).2
  rw [← h1] at h2
  exact h2

/-- At most one thread is inside of its block at any time. -/
theorem C44_one_at_a_time (file : PyFile) (scripts : Nat → Script α β) (schedule : List Nat)
    (i j : Nat) (b c : FileOps β) (k l : PyRes β → Script α β)
    (hi : ((World.start file scripts).run schedule).threads i = .inside b k)
    (hj : ((World.start file scripts).run schedule).threads j = .inside c l) : i = j := by
  obtain ⟨turns, ht⟩ := reachable (file := file) (scripts := scripts) schedule
  have h1 := ht.alone i (by rw [hi]; trivial)
  have h2 := ht.alone j (by rw [hj]; trivial)
  rw [h1] at h2
  exact Option.some.inj h2

/-- Also when the threads write: whatever the schedule, there is an order of whole uses of the file
which gives every finished thread the same result, and which leaves the same file once nobody is
using it. -/
theorem C44_turns (file : PyFile) (scripts : Nat → Script α β) (schedule : List Nat) :
    ∃ turns : List Nat,
      (∀ i a, Finished ((World.start file scripts).run schedule) i a →
        (turns.foldl takeTurn (file, scripts)).2 i = .done a) ∧
      (((World.start file scripts).run schedule).lock = none →
        ((World.start file scripts).run schedule).file =
          (turns.foldl takeTurn (file, scripts)).1) := by
  obtain ⟨turns, ht⟩ := reachable (file := file) (scripts := scripts) schedule
  refine ⟨turns, fun i a h => ?_, ht.free⟩
  have h1 := ht.rest i (by rw [h]; exact id)
  rw [h] at h1
  exact h1.symm

theorem FileOps.Flat.step {w : World α β} (i : Nat)
    (h : ∀ j, (w.threads j).script.Flat) : ∀ j, ((w.step i).threads j).script.Flat := by
  have key : ∀ t : Thread α β, t.script.Flat → ∀ j, ((w.put i t).threads j).script.Flat := by
    intro t ht j
    by_cases hj : j = i
    · subst hj; rw [World.put_self]; exact ht
    · rw [World.put_other _ _ hj]; exact h j
  have hi := h i
  unfold World.step
  split
  next => exact h
  next b k e =>
    rw [e] at hi
    split
    · exact key _ (hi.2 _)
    · exact key _ hi
  next b k e =>
    rw [e] at hi
    split
    · exact key (.inside b k) hi
    · exact h
  next r k e => rw [e] at hi; exact key (.outside _) (hi.2 _)
  next p c k e => rw [e] at hi; exact key (.inside c k) ⟨hi.1, hi.2⟩
  next c k e => rw [e] at hi; exact key (.inside _ k) ⟨hi.1 _, hi.2⟩
  next n c k e => rw [e] at hi; exact key (.inside _ k) ⟨hi.1 _, hi.2⟩
  next d c k e => rw [e] at hi; exact key (.inside c k) ⟨hi.1, hi.2⟩
  next c k e => rw [e] at hi; exact hi.1.elim

/-- No deadlock: as long as no block acquires the file again, every thread can still finish,
whatever has happened so far. -/
theorem C44_can_finish (file : PyFile) (scripts : Nat → Script α β)
    (hf : ∀ i, (scripts i).Flat) (schedule : List Nat) (i : Nat) :
    ∃ more a, Finished ((World.start file scripts).run (schedule ++ more)) i a := by
  have hflat : ∀ (s : List Nat) (w : World α β), (∀ j, (w.threads j).script.Flat) →
      ∀ j, ((w.run s).threads j).script.Flat := by
    intro s
    induction s with
    | nil => intro w h; exact h
    | cons i s ih => intro w h; exact ih _ (FileOps.Flat.step i h)
  obtain ⟨turns, ht⟩ := reachable (file := file) (scripts := scripts) schedule
  have hF := hflat schedule (World.start file scripts) hf
  simp only [World.run_append]
  generalize (World.start file scripts).run schedule = w at ht hF
  -- first the thread which holds the lock leaves its block
  have free : ∃ m, (w.run m).lock = none ∧ InTurns file scripts turns w ∧
      (w.run m).closed = false ∧ ∀ j, ((w.run m).threads j).script.Flat := by
    cases hl : w.lock with
    | none => exact ⟨[], hl, ht, ht.opened, hF⟩
    | some j =>
      obtain ⟨b, k, b0, h1, _, _⟩ := ht.held j hl
      have := hF j
      rw [h1] at this
      obtain ⟨m, r, e1, e2, _, _⟩ := leave this.1 h1
      exact ⟨m, e1, ht, e2.trans ht.opened, hflat m w hF⟩
  obtain ⟨m, hm, _, hc, hF'⟩ := free
  obtain ⟨x, hIn⟩ := ht.run m
  have hi := hF' i
  have hout : (w.run m).threads i = .outside ((w.run m).threads i).script ∨
      ∃ b k, (w.run m).threads i = .waiting b k ∧ ((w.run m).threads i).script = .use b k := by
    cases hv : (w.run m).threads i with
    | outside s => exact .inl rfl
    | waiting b k => exact .inr ⟨b, k, rfl, rfl⟩
    | inside b k =>
      have := hIn.alone i (by rw [hv]; trivial)
      rw [hm] at this; cases this
  obtain ⟨m', a, h⟩ := finish hi hc hm hout
  exact ⟨m ++ m', a, by rw [World.run_append]; exact h⟩

/-- The lock is not re-entrant. A thread which asks for the file while it is using it never goes
on, nobody else finishes any more, and no schedule helps. -/
theorem C44_nested_deadlock (file : PyFile) (scripts : Nat → Script α β) (schedule : List Nat)
    (i : Nat) (c : FileOps β) (k : PyRes β → Script α β)
    (hi : ((World.start file scripts).run schedule).threads i = .inside (.again c) k)
    (more : List Nat) :
    (∀ a, ¬ Finished ((World.start file scripts).run (schedule ++ more)) i a) ∧
      ∀ j a, Finished ((World.start file scripts).run (schedule ++ more)) j a →
        Finished ((World.start file scripts).run schedule) j a := by
  obtain ⟨turns, ht⟩ := reachable (file := file) (scripts := scripts) schedule
  have hl := ht.alone i (by rw [hi]; trivial)
  have hx : ∀ j, (((World.start file scripts).run schedule).threads j).Inside → j = i := by
    intro j hj
    have := ht.alone j hj
    rw [hl] at this
    exact (Option.some.inj this).symm
  obtain ⟨h1, h2, h3⟩ := stuck ht.opened hl hx hi more
  rw [World.run_append]
  refine ⟨fun a h => ?_, h3⟩
  unfold Finished at h
  rw [h1] at h
  cases h

/-- Everything which begins with a `seek` is independent of where the file was before. -/
theorem C44_seek_first (p : Nat) (b : FileOps β) : (FileOps.seek p b).Positioned :=
  fun _ _ _ => rfl

/-- What pyzim does inside of the blocks seeks first. -/
theorem C44_readAt_positioned (p n : Nat) :
    (FileOps.readAt p n).ReadsOnly ∧ (FileOps.readAt p n).Positioned ∧ (FileOps.readAt p n).Flat :=
  ⟨fun _ => trivial, fun _ _ _ => rfl, fun _ => trivial⟩

theorem C44_readInfobyte_positioned (p : Nat) :
    (FileOps.readInfobyte p).ReadsOnly ∧ (FileOps.readInfobyte p).Positioned ∧
      (FileOps.readInfobyte p).Flat := by
  refine ⟨fun n => ?_, fun data q r => ?_, fun n => ?_⟩
  · dsimp only; split <;> exact fun _ => trivial
  · have key : ∀ q, ((FileOps.readInfobyte p).alone ⟨data, q⟩).1 =
        if (data.drop p).take 1 = [] then .error .ioError else .ok ((data.drop p).take 1) := by
      intro q
      unfold FileOps.readInfobyte FileOps.seekIfNeeded
      simp only [FileOps.alone]
      split
      · rfl
      · next h => simp only [ne_eq, Decidable.not_not] at h; subst h; rfl
    rw [key, key]
  · dsimp only; split <;> exact fun _ => trivial

/-- Reading at a position gives the bytes at that position. -/
theorem C44_readAt_alone (p n : Nat) (f : PyFile) :
    ((FileOps.readAt p n).alone f).1 = (f.data.drop p).take n := rfl

/-- So any number of threads, each reading `n` bytes at a position of its own any number of times,
get these bytes. -/
theorem C44_positions (file : PyFile) (wanted : Nat → List (Nat × Nat)) (schedule : List Nat)
    (i : Nat) (got : List (PyRes Bytes))
    (h : Finished ((World.start file fun i =>
      (wanted i).foldr (fun w k acc => .use (FileOps.readAt w.1 w.2) fun r => k (acc ++ [r]))
        (fun acc => .done acc) []).run schedule) i got) :
    got = (wanted i).map fun w => .ok ((file.data.drop w.1).take w.2) := by
  have key : ∀ (ws : List (Nat × Nat)) (acc : List (PyRes Bytes)),
      Script.Reader (ws.foldr (fun w (k : List (PyRes Bytes) → Script (List (PyRes Bytes)) Bytes) acc =>
        .use (FileOps.readAt w.1 w.2) fun r => k (acc ++ [r])) (fun acc => .done acc) acc) ∧
      Script.alone file.data (ws.foldr (fun w (k : List (PyRes Bytes) → Script (List (PyRes Bytes)) Bytes) acc =>
        .use (FileOps.readAt w.1 w.2) fun r => k (acc ++ [r])) (fun acc => .done acc) acc) =
        acc ++ ws.map fun w => .ok ((file.data.drop w.1).take w.2) := by
    intro ws
    induction ws with
    | nil => intro acc; exact ⟨trivial, by simp [Script.alone]⟩
    | cons w ws ih =>
      intro acc
      refine ⟨⟨⟨(C44_readAt_positioned _ _).1, (C44_readAt_positioned _ _).2.1⟩,
        fun r => (ih _).1⟩, ?_⟩
      simp only [List.foldr_cons, Script.alone]
      rw [(ih _).2, C44_readAt_alone]
      simp
  have := C44_same_bytes file _ (fun i => (key (wanted i) []).1) schedule i got h
  rw [this, (key (wanted i) []).2]
  simp

/-- Two threads reading each two places of a file of ten bytes, for the examples. -/
def twoReaders : Nat → Script (List (PyRes Bytes)) Bytes := fun i =>
  ((fun i => if i = 0 then [(2, 3), (7, 2)] else [(0, 4), (8, 9)] : Nat → List (Nat × Nat)) i).foldr
    (fun w k acc => .use (FileOps.readAt w.1 w.2) fun r => k (acc ++ [r])) (fun acc => .done acc) []

/-- The schedule of the example switches threads in the middle of blocks. -/
def someSchedule : List Nat :=
  [0, 1, 0, 1, 0, 0, 1, 0, 1, 1, 0, 1, 1, 0, 1, 1, 0, 0, 1, 0, 1, 0, 1, 0, 0, 1, 1, 1, 1, 1]

/-- Both threads finish, with the bytes at their positions. -/
example : (match (((World.start ⟨[0, 1, 2, 3, 4, 5, 6, 7, 8, 9], 5⟩ twoReaders).run someSchedule).threads 0,
    ((World.start ⟨[0, 1, 2, 3, 4, 5, 6, 7, 8, 9], 5⟩ twoReaders).run someSchedule).threads 1) with
    | (.outside (.done a), .outside (.done b)) =>
      decide (a.map (·.toOption) = [some [2, 3, 4], some [7, 8]]) &&
        decide (b.map (·.toOption) = [some [0, 1, 2, 3], some [8, 9]])
    | _ => false) = true := by decide +kernel

/-- Using the archive in the body of a loop over a generator which holds the lock: the first chunk
is read, then the loop body asks for the file again. -/
def loopBody : Nat → Script (PyRes Bytes) Bytes := fun i =>
  if i = 0 then .use (.seek 4 (.read 2 fun d => .nested (FileOps.readAt 0 1) fun e => .ret (d ++ e)))
    fun r => .done r
  else .use (FileOps.readAt 0 4) fun r => .done r

/-- It never returns, on its own or with another thread reading, and keeps every other thread from
finishing. -/
theorem C44_loop_body_deadlock (more : List Nat) (j : Nat) (a : PyRes Bytes) :
    ¬ Finished ((World.start ⟨[0, 1, 2, 3, 4, 5, 6, 7, 8, 9], 0⟩ loopBody).run
      ([0, 0, 0, 0] ++ more)) j a := by
  intro h
  obtain ⟨_, h2⟩ := C44_nested_deadlock ⟨[0, 1, 2, 3, 4, 5, 6, 7, 8, 9], 0⟩ loopBody [0, 0, 0, 0] 0
    ((FileOps.readAt 0 1).bind fun e => .ret ([4, 5] ++ e)) (fun r => .done r) rfl more
  have h3 := h2 j a h
  have : ∀ j, j ≠ 0 → ((World.start ⟨[0, 1, 2, 3, 4, 5, 6, 7, 8, 9], 0⟩ loopBody).run
      [0, 0, 0, 0]).threads j = .outside (.use (FileOps.readAt 0 4) fun r => .done r) := by
    intro j hj
    have e : (World.start ⟨[0, 1, 2, 3, 4, 5, 6, 7, 8, 9], 0⟩ loopBody).run [0, 0, 0, 0] =
      World.mk ⟨[0, 1, 2, 3, 4, 5, 6, 7, 8, 9], 6⟩ (some 0) false
        (fun j => if j = 0 then .inside (.again ((FileOps.readAt 0 1).bind fun e => .ret ([4, 5] ++ e)))
          (fun r => .done r) else
          if j = 0 then .inside (.read 2 fun d => .nested (FileOps.readAt 0 1) fun e => .ret (d ++ e))
            (fun r => .done r) else
          if j = 0 then .inside (.seek 4 (.read 2 fun d => .nested (FileOps.readAt 0 1)
            fun e => .ret (d ++ e))) (fun r => .done r) else
          if j = 0 then .waiting (.seek 4 (.read 2 fun d => .nested (FileOps.readAt 0 1)
            fun e => .ret (d ++ e))) (fun r => .done r) else .outside (loopBody j)) := rfl
    rw [e]
    simp [hj, loopBody]
  by_cases hj : j = 0
  · subst hj
    cases h3
  · unfold Finished at h3
    rw [this j hj] at h3
    cases h3

end Pyzim
