import Verif.Model.Open

/-!
# C80: what `Zim.open` does to the files
-/

namespace Pyzim
namespace Opening

/-- **C80, partial.** Whatever other processes do: opening touches no other file; reading and updating do not change the file
either and need it to exist; writing empties it or creates it; a mode that is not known raises `ValueError` and changes nothing. -/
theorem C80_modes_partial (others : Disk → Disk) (path mode : String) (offset : Int) (d : Disk) :
    (∀ p, p ≠ path → (zimOpen others path mode offset d).2 p = others d p) ∧
    (mode = "r" ∨ mode = "u" ∨ mode = "a" → (zimOpen others path mode offset d).2 = others d ∧
      (zimOpen others path mode offset d).1.map (fun o => o.mode) =
        if (others d path).isSome then .ok mode else .error .fileNotFoundError) ∧
    (mode = "w" → (zimOpen others path mode offset d).1.map (fun o => o.mode) = .ok "w" ∧
      (zimOpen others path mode offset d).2 path = some []) ∧
    (mode ∉ ["r", "w", "x", "u", "a"] → zimOpen others path mode offset d = (.error .valueError, others d)) := by
  have key : ∀ m, m = FileMode.rb ∨ m = .rplusb → (others d).openFile path m =
      (if (others d path).isSome then .ok () else .error .fileNotFoundError, others d) := by
    rintro m (rfl | rfl) <;> (unfold Disk.openFile; dsimp only; split <;> rfl)
  refine ⟨fun p hp => ?_, fun hm => ?_, fun hm => ?_, fun hm => ?_⟩
  · unfold zimOpen
    cases h : openModes (d path).isSome mode with
    | error x => rfl
    | ok fm =>
      obtain ⟨f, m⟩ := fm
      cases f with
      | wplusb => show (if p = path then _ else _) = _; rw [if_neg hp]
      | rb => dsimp only; rw [key _ (.inl rfl)]; cases (others d path).isSome <;> rfl
      | rplusb => dsimp only; rw [key _ (.inr rfl)]; cases (others d path).isSome <;> rfl
  · rcases hm with rfl | rfl | rfl
    · unfold zimOpen
      rw [show openModes (d path).isSome "r" = .ok (.rb, "r") from rfl]
      dsimp only
      rw [key _ (.inl rfl)]
      cases (others d path).isSome <;> exact ⟨rfl, rfl⟩
    · unfold zimOpen
      rw [show openModes (d path).isSome "u" = .ok (.rplusb, "u") from rfl]
      dsimp only
      rw [key _ (.inr rfl)]
      cases (others d path).isSome <;> exact ⟨rfl, rfl⟩
    · unfold zimOpen
      rw [show openModes (d path).isSome "a" = .ok (.rplusb, "a") from rfl]
      dsimp only
      rw [key _ (.inr rfl)]
      cases (others d path).isSome <;> exact ⟨rfl, rfl⟩
  · subst hm
    refine ⟨rfl, ?_⟩
    show (if path = path then _ else _) = _
    rw [if_pos rfl]
  · simp only [List.mem_cons, List.not_mem_nil, or_false, not_or] at hm
    unfold zimOpen openModes
    rw [if_neg hm.1, if_neg hm.2.1, if_neg hm.2.2.1, if_neg (by simp [hm.2.2.2])]

/-- **C80, partial.** Mode `x`, as long as nobody else touches the files meanwhile: an existing file is left alone and
`FileExistsError` is raised; otherwise an empty file is created. -/
theorem C80_exclusive_partial (path : String) (offset : Int) (d : Disk) :
    (∀ b, d path = some b → zimOpen id path "x" offset d = (.error .fileExistsError, d)) ∧
    (d path = none → (zimOpen id path "x" offset d).1.map (fun o => o.mode) = .ok "w" ∧
      (zimOpen id path "x" offset d).2 path = some []) := by
  refine ⟨fun b hb => ?_, fun hb => ?_⟩
  · unfold zimOpen
    rw [hb]
    rfl
  · unfold zimOpen
    rw [hb]
    refine ⟨rfl, ?_⟩
    show (if path = path then _ else _) = _
    rw [if_pos rfl]

/-- the file at a path -/
def fileAt (path : String) (b : Bytes) : Disk := fun p => if p = path then some b else none

example : zimOpen id "a.zim" "x" 0 (fileAt "a.zim" [1, 2]) = (.error .fileExistsError, fileAt "a.zim" [1, 2]) :=
  (C80_exclusive_partial "a.zim" 0 _).1 [1, 2] rfl

example : (zimOpen id "a.zim" "r" 0 (fileAt "b.zim" [1])).1 = .error .fileNotFoundError := by decide +kernel

/-- The full claim for mode `x`: a file that exists when the file is opened is not lost. -/
def C80Exclusive : Prop := ∀ (others : Disk → Disk) (path : String) (offset : Int) (d : Disk) (b : Bytes),
  others d path = some b → (zimOpen others path "x" offset d).2 path = some b

/-- **C80, finding.** That is false: a file that another process creates after `os.path.exists` was called is emptied. -/
theorem C80_exclusive_fails : ¬ C80Exclusive := by
  intro h
  have := h (fun _ => fileAt "a.zim" [1, 2]) "a.zim" 0 (fun _ => none) [1, 2] (by decide +kernel)
  revert this
  decide +kernel

/-- The full claim for `offset`: the archive is expected at the given offset of the file. -/
def C80Offset : Prop := ∀ (path mode : String) (offset : Int) (d : Disk) (o : Opened),
  0 ≤ offset → (zimOpen id path mode offset d).1 = .ok o → o.offset = offset

/-- **C80, finding.** That is false, … -/
theorem C80_offset_fails : ¬ C80Offset := by
  intro h
  have := h "a.zim" "r" 7 (fileAt "a.zim" [1, 2]) ⟨"r", 0⟩ (by decide) (by decide +kernel)
  exact absurd this (by decide)

/-- **C80, finding.** … as the argument is ignored: whatever the offset, the archive is looked for at the start of the file. -/
theorem C80_offset_ignored (others : Disk → Disk) (path mode : String) (offset : Int) (d : Disk) :
    zimOpen others path mode offset d = zimOpen others path mode 0 d ∧
    ∀ o, (zimOpen others path mode offset d).1 = .ok o → o.offset = 0 := by
  refine ⟨rfl, fun o ho => ?_⟩
  unfold zimOpen at ho
  split at ho
  · cases ho
  · split at ho
    · cases ho
    · cases ho; rfl

end Opening
end Pyzim
