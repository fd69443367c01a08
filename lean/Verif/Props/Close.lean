import Verif.Model.Close
import Verif.Props.Counting
import Verif.Props.Redirecting
import Verif.Props.SetMetadata

/-!
# C79: closing an archive saves it
-/

namespace Pyzim

namespace Creator
variable {D K : Type} {S : Setup D K} {md5 : Bytes → Bytes} {r : Nat} {c c' : Creator D} {done : List (List Sourced)}
  {recent : List Sourced} {rs : List Zim.Redirect} {mts : List String}

theorem close_ok (h : close S c = (.ok (), c')) : ∃ c1, (c.arch.isDirty = false ∧ c1 = c ∨ c.arch.isDirty = true ∧ flush S c = (.ok (), c1)) ∧
    c' = { c1 with arch := { c1.arch with zim := { c1.arch.zim with closed := true } } } := by
  unfold close at h
  rw [PyM.get_bind] at h
  cases hd : c.arch.isDirty with
  | false =>
    rw [hd] at h
    exact ⟨c, .inl ⟨rfl, rfl⟩, ((Prod.mk.inj h).2).symm⟩
  | true =>
    rw [hd, if_pos rfl] at h
    obtain ⟨_, c1, h1, h2⟩ := PyM.bind_ok_iff.1 h
    exact ⟨c1, .inr ⟨rfl, h1⟩, ((Prod.mk.inj h2).2).symm⟩

/-- **C79.** Closing an archive saves all that was added: whoever opens the file finds exactly the items and the redirects.
The archive is closed then and has no unsaved changes. -/
theorem C79_close_saves (hr : 2 ≤ r) (hS : S.Good md5 (some r)) (h : CreatorHist S c done recent rs)
    (hA : Apart rs (done ++ [recent])) (hf : close S c = (.ok (), c')) (hmts : mts.length < 65534) (hl : ∀ l ∈ done ++ [recent], Batch mts l)
    (kind : ClusterKind) (calls follow : Nat) (titles : Zim → PyRes PointerList) :
    c'.arch.zim.closed = true ∧ c'.arch.isDirty = false ∧
    ∃ a, openArchive { S with kind := kind, calls := calls, follow := follow } titles false c'.arch.zim.file = .ok a ∧
      ShowsItems S.X kind calls a.zim (current (done ++ [recent])) rs := by
  obtain ⟨c1, h1, rfl⟩ := close_ok hf
  rcases h1 with ⟨hd, rfl⟩ | ⟨hd, h1⟩
  · exact ⟨rfl, hd, C70_items_survive hr hS h hA hd hmts hl kind calls follow titles⟩
  · exact ⟨rfl, C70_after_flush hr hS h hA h1 hmts hl kind calls follow titles⟩

/-- **C79.** Closing it once more succeeds and changes nothing. -/
theorem C79_close_again (hr : 2 ≤ r) (hS : S.Good md5 (some r)) (h : CreatorHist S c done recent rs)
    (hA : Apart rs (done ++ [recent])) (hf : close S c = (.ok (), c')) (hmts : mts.length < 65534) (hl : ∀ l ∈ done ++ [recent], Batch mts l) :
    close S c' = (.ok (), c') := by
  obtain ⟨h1, h2, -⟩ := C79_close_saves hr hS h hA hf hmts hl .remembering 0 0 (fun _ => .error .hang)
  unfold close
  rw [PyM.get_bind, h2]
  show (Except.ok (), { c' with arch := { c'.arch with zim := { c'.arch.zim with closed := true } } }) = _
  rw [← h1]

/-- **C79.** If the block of a `with` statement is left, be it with an exception or not, all that was added in it is saved,
the archive is closed, and the exception is raised. -/
theorem C79_with {α : Type} (hr : 2 ≤ r) (hS : S.Good md5 (some r)) {body : PyM (Creator D) α} {c0 : Creator D} {x : PyRes α}
    (hb : body c0 = (x, c)) (h : CreatorHist S c done recent rs) (ho : c.arch.zim.closed = false)
    (hA : Apart rs (done ++ [recent])) (hf : close S c = (.ok (), c')) (hmts : mts.length < 65534) (hl : ∀ l ∈ done ++ [recent], Batch mts l)
    (kind : ClusterKind) (calls follow : Nat) (titles : Zim → PyRes PointerList) :
    within S body c0 = (x, c') ∧ c'.arch.zim.closed = true ∧
    ∃ a, openArchive { S with kind := kind, calls := calls, follow := follow } titles false c'.arch.zim.file = .ok a ∧
      ShowsItems S.X kind calls a.zim (current (done ++ [recent])) rs := by
  obtain ⟨h1, -, h3⟩ := C79_close_saves hr hS h hA hf hmts hl kind calls follow titles
  refine ⟨?_, h1, h3⟩
  unfold within
  rw [PyM.of_apply, hb]
  dsimp only
  rw [ho, hf]
  rfl

/-- **C79.** If closing the archive at the end of a `with` statement fails, the exception is not suppressed. -/
theorem C79_with_fails {α : Type} {body : PyM (Creator D) α} {c0 : Creator D} {x : PyRes α} {e : PyErr} (hb : body c0 = (x, c))
    (ho : c.arch.zim.closed = false) (hf : flush S c = (.error e, c')) (hd : c.arch.isDirty = true) : within S body c0 = (.error e, c') := by
  have : close S c = (.error e, c') := by
    unfold close
    rw [PyM.get_bind, hd, if_pos rfl, PyM.bind_err hf]
  unfold within
  rw [PyM.of_apply, hb]
  dsimp only
  rw [ho, this]
  rfl

/-- **C79.** An archive that was closed in the block is not closed again. -/
theorem C79_with_closed {α : Type} {body : PyM (Creator D) α} {c0 : Creator D} {x : PyRes α} (hb : body c0 = (x, c))
    (ho : c.arch.zim.closed = true) : within S body c0 = (x, c) := by
  unfold within
  rw [PyM.of_apply, hb]
  dsimp only
  rw [ho]
  rfl

/-- **C79.** An archive that is closed refuses changes: the methods raise `ZimFileClosed` and change nothing. -/
theorem C79_refuses (hc : c.arch.zim.closed = true) :
    flush S c = (.error .zimFileClosed, c) ∧
    (∀ it force, addItem S it force c = (.error .zimFileClosed, c)) ∧
    (∀ key value mt, key ≠ "" → setMetadata S key value mt c = (.error .zimFileClosed, c)) ∧
    (∀ s t title, s ≠ t → s ≠ "" → t ≠ "" → addFullUrlRedirect S s t title c = (.error .zimFileClosed, c)) ∧
    (∀ url, onArch (Archive.onZim (Zim.setMainpageUrl S.blob S.depth url)) c = (.error .zimFileClosed, c)) ∧
    (∀ depth blob u, onArch (Archive.onZim (Zim.removeEntry S.blob (depth + 1) blob u)) c = (.error .zimFileClosed, c)) ∧
    (∀ depth e up add, onArch (Archive.onZim (Zim.writeEntry (depth + 1) e up add)) c = (.error .zimFileClosed, c)) := by
  have inner : ∀ {g : PyM Zim Unit}, g c.arch.zim = (.error .zimFileClosed, c.arch.zim) →
      onArch (Archive.onZim g) c = (.error .zimFileClosed, c) := fun {g} hg => by
    show ((g c.arch.zim).1, { c with arch := { c.arch with zim := (g c.arch.zim).2 } }) = _
    rw [hg]
  refine ⟨?_, ?_, ?_, ?_, ?_, ?_, ?_⟩
  · unfold flush
    rw [PyM.get_bind, hc, Bool.not_true, PyM.require_false_bind]
  · intro it force
    unfold addItem
    rw [PyM.get_bind, hc, Bool.not_true, PyM.require_false_bind]
  · intro key value mt hk
    unfold setMetadata
    rw [decide_eq_true hk, PyM.require_true_bind, PyM.get_bind, hc, Bool.not_true, PyM.require_false_bind]
  · intro s t title h1 h2 h3
    apply inner
    unfold Zim.addFullUrlRedirect
    rw [decide_eq_true h1, PyM.require_true_bind, decide_eq_true ⟨h2, h3⟩, PyM.require_true_bind, PyM.get_bind, hc, Bool.not_true,
      PyM.require_false_bind]
  · intro url
    apply inner
    unfold Zim.setMainpageUrl
    rw [PyM.get_bind, hc, Bool.not_true, PyM.require_false_bind]
  · intro depth blob u
    apply inner
    unfold Zim.removeEntry
    rw [PyM.get_bind, hc, Bool.not_true, PyM.require_false_bind]
  · intro depth e up add
    show ((Zim.writeEntry (depth + 1) e up add c.arch.zim).1,
      { c with arch := { c.arch with zim := (Zim.writeEntry (depth + 1) e up add c.arch.zim).2 } }) = _
    have : Zim.writeEntry (depth + 1) e up add c.arch.zim = (.error .zimFileClosed, c.arch.zim) := by
      unfold Zim.writeEntry
      rw [PyM.get_bind, hc, Bool.not_true, PyM.require_false_bind]
    rw [this]

/-! ### An example -/

open Strategy (item)

/-- The block of a `with` statement: two items, two redirects, and then an exception. -/
def demoBlock : PyM (Creator Bytes) Unit := do
  addItem demoSetup (item "0" "text/html" [9]).1 false
  addItem demoSetup (item "a" "text/html" [1, 2, 3]).1 false
  addFullUrlRedirect demoSetup "Cr" "Ca" none
  addFullUrlRedirect demoSetup "Cq" "Cr" (some "Q")
  PyM.raise .runtimeError

theorem demoBlock_runs : demoBlock demoA = (.error .runtimeError, demoG4) := by
  unfold demoBlock
  rw [PyM.bind_ok demoG1_eq, PyM.bind_ok demoG2_eq, PyM.bind_ok demoG3_eq, PyM.bind_ok demoG4_eq]
  rfl

theorem demoG4_open : demoG4.arch.zim.closed = false := by decide +kernel

/-- the archive after the `with` statement -/
def demoClosed : Creator Bytes := { demoG with arch := { demoG.arch with zim := { demoG.arch.zim with closed := true } } }

theorem demoG4_close : close demoSetup demoG4 = (.ok (), demoClosed) := by
  unfold close
  rw [PyM.get_bind, demoH_runs.2.2.2.2.2.1, if_pos rfl, PyM.bind_ok demoG_eq]
  rfl

example (kind : ClusterKind) : within demoSetup demoBlock demoA = (.error .runtimeError, demoClosed) ∧
    demoClosed.arch.zim.closed = true ∧
    ∃ a, openArchive { demoSetup with kind := kind, calls := 0, follow := 0 } (fun _ => .error .hang) false
        demoClosed.arch.zim.file = .ok a ∧
      ShowsItems Cluster.rawCodecs kind 0 a.zim [item "0" "text/html" [9], item "a" "text/html" [1, 2, 3]]
        [("Cr", "Ca", none), ("Cq", "Cr", some "Q")] :=
  C79_with (by omega) demoSetup_good demoBlock_runs demoG4_hist demoG4_open
    (demoG_apart.sub (List.Sublist.refl _) fun x hx p hp => ⟨x, List.mem_append_left _ hx, hp⟩) demoG4_close
    (by decide) (fun l hl => demoG_batches l (List.mem_append_left _ hl)) kind 0 0 _

example : close demoSetup demoClosed = (.ok (), demoClosed) :=
  C79_close_again (by omega) demoSetup_good demoG4_hist
    (demoG_apart.sub (List.Sublist.refl _) fun x hx p hp => ⟨x, List.mem_append_left _ hx, hp⟩) demoG4_close
    (by decide) (fun l hl => demoG_batches l (List.mem_append_left _ hl))

example : addItem demoSetup (item "b" "text/html" [4]).1 true demoClosed = (.error .zimFileClosed, demoClosed) :=
  (C79_refuses rfl).2.1 _ _

end Creator

namespace Counting
variable {D K : Type} {S : Setup D K} {md5 : Bytes → Bytes} {r : Nat} {c c' : Counting D} {done : List (List Sourced)}
  {recent : List Sourced} {rs : List Zim.Redirect} {mts : List String}

open Creator (openArchive Batch)

theorem close_ok (h : close S c = (.ok (), c')) : ∃ c1, (c.creator.arch.isDirty = false ∧ c1 = c ∨
      c.creator.arch.isDirty = true ∧ flush S c = (.ok (), c1)) ∧
    c' = { c1 with creator := { c1.creator with arch := { c1.creator.arch with zim := { c1.creator.arch.zim with closed := true } } } } := by
  unfold close at h
  rw [PyM.get_bind] at h
  cases hd : c.creator.arch.isDirty with
  | false =>
    rw [hd] at h
    exact ⟨c, .inl ⟨rfl, rfl⟩, ((Prod.mk.inj h).2).symm⟩
  | true =>
    rw [hd, if_pos rfl] at h
    obtain ⟨_, c1, h1, h2⟩ := PyM.bind_ok_iff.1 h
    exact ⟨c1, .inr ⟨rfl, h1⟩, ((Prod.mk.inj h2).2).symm⟩

/-- **C79.** The same with the default policy: closing an archive saves all that was added, and the entry `M/Counter` has the
number of items of each mimetype. -/
theorem C79_close_saves_counter (hr : 2 ≤ r) (hS : S.Good md5 (some r)) (hR : Replaceable S.X S.C) (h : CountHist S c done recent rs)
    (hA : Apart rs ([counterPlace] :: (done ++ [recent]))) (hf : close S c = (.ok (), c')) (hmts : mts.length < 65534)
    (hl : ∀ l ∈ done ++ [recent], Batch mts (counterPlace :: l)) (hs : ∀ mt ∈ mts, MimetypeShape mt ∧ mt ≠ "<redirect>")
    (kind : ClusterKind) (calls follow : Nat) (titles : Zim → PyRes PointerList) :
    c'.creator.arch.zim.closed = true ∧ c'.creator.arch.isDirty = false ∧
    ∃ a src text n, openArchive { S with kind := kind, calls := calls, follow := follow } titles false c'.creator.arch.zim.file = .ok a ∧
      ShowsItems S.X kind calls a.zim (({ counterItem with source := src }, text) :: current (done ++ [recent])) rs ∧
      Counter.fromString (.bytes text) = .ok n ∧ ∀ mt, n.getCount mt = (itemsWith mt (current (done ++ [recent])) : Int) := by
  obtain ⟨c1, h1, rfl⟩ := close_ok hf
  rcases h1 with ⟨hd, rfl⟩ | ⟨hd, h1⟩
  · exact ⟨rfl, hd, C78_counter hr hS hR h hA hd hmts hl hs kind calls follow titles⟩
  · exact ⟨rfl, C78_after_flush hr hS hR h hA h1 hmts hl hs kind calls follow titles⟩

/-- **C79.** With the default policy: leaving the block of a `with` statement, be it with an exception or not, closes the
archive. -/
theorem C79_with_counter {α : Type} {body : PyM (Counting D) α} {c0 : Counting D} {x : PyRes α}
    (hb : body c0 = (x, c)) (ho : c.creator.arch.zim.closed = false) :
    (close S c = (.ok (), c') → within S body c0 = (x, c')) ∧ (∀ e, close S c = (.error e, c') → within S body c0 = (.error e, c')) := by
  unfold within
  refine ⟨fun h => ?_, fun e h => ?_⟩ <;>
    · rw [PyM.of_apply, hb]
      dsimp only
      rw [ho, h]
      rfl

theorem demoC6_dirty : demoC6.creator.arch.isDirty = true := by decide +kernel

open Creator (setupZ setupZ_good)
open Strategy (item)

/-- the archive, closed -/
def shut {D : Type} (c : Counting D) : Counting D :=
  { c with creator := { c.creator with arch := { c.creator.arch with zim := { c.creator.arch.zim with closed := true } } } }

theorem demoC6_close : close setupZ demoC6 = (.ok (), shut demoC7) := by
  unfold close
  rw [PyM.get_bind, demoC6_dirty, if_pos rfl, PyM.bind_ok demoC7_eq]
  rfl

example (kind : ClusterKind) : ∃ a src text n, openArchive { setupZ with kind := kind, calls := 0, follow := 0 }
      (fun _ => .error .hang) false (shut demoC7).creator.arch.zim.file = .ok a ∧
    ShowsItems Toy.codecs kind 0 a.zim [({ counterItem with source := src }, text), item "b" "text/html" [7, 8, 9, 10, 11],
      item "a" "image/png" [6]] [] ∧
    Counter.fromString (.bytes text) = .ok n ∧ n.getCount "text/html" = 1 := by
  obtain ⟨-, -, a, src, text, n, h1, h2, h3, h4⟩ := C79_close_saves_counter (by omega) setupZ_good Toy.replaceable demoC_hist
    (Creator.apart_nil _) demoC6_close (by decide) demoC_batches (by
      intro mt hmt
      simp only [List.mem_cons, List.not_mem_nil, or_false] at hmt
      rcases hmt with rfl | rfl | rfl <;> exact ⟨Counter.shape_of _ (by decide +kernel) (by decide +kernel), by decide⟩)
    kind 0 0 (fun _ => .error .hang)
  have e : current (demoSet ++ [[item "a" "image/png" [6]]]) = [item "b" "text/html" [7, 8, 9, 10, 11], item "a" "image/png" [6]] := rfl
  rw [e] at h2 h4
  exact ⟨a, src, text, n, h1, h2, h3, (h4 _).trans rfl⟩

end Counting
end Pyzim
