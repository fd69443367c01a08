import Verif.Lemmas.Longer
import Verif.Lemmas.Work
import Verif.Model.OperationBuffer

/-!
# There is nothing missing at the end of the file
-/

namespace Pyzim

/-- a successful call of `m` does not leave the states `P` -/
def KeepsOk {σ α : Type} (P : σ → Prop) (m : PyM σ α) : Prop := ∀ s a s', P s → m s = (.ok a, s') → P s'

namespace KeepsOk
variable {σ α β : Type} {P : σ → Prop}

theorem bind {m : PyM σ α} {k : α → PyM σ β} (hm : KeepsOk P m) (hk : ∀ a, KeepsOk P (k a)) : KeepsOk P (m >>= k) := by
  intro s b s' hs h
  obtain ⟨a, s1, h1, h2⟩ := PyM.bind_ok_iff.1 h
  exact hk a s1 b s' (hm s a s1 hs h1) h2

theorem of {m : PyM σ α} (h : Keeps P m) : KeepsOk P m := by
  intro s a s' hs e
  have := h s hs
  rwa [e] at this

theorem pure (a : α) : KeepsOk P (Pure.pure a : PyM σ α) := .of (.pure a)
theorem get : KeepsOk P (PyM.get : PyM σ σ) := .of .get
theorem raise (e : PyErr) : KeepsOk P (PyM.raise e : PyM σ α) := .of (.raise e)
theorem lift (x : PyRes α) : KeepsOk P (PyM.lift x : PyM σ α) := .of (.lift x)
theorem require (b : Bool) (e : PyErr) : KeepsOk P (PyM.require b e : PyM σ Unit) := .of (.require b e)
theorem modify {f : σ → σ} (h : ∀ s, P s → P (f s)) : KeepsOk P (PyM.modify f) := .of (.modify h)

end KeepsOk

theorem PyM.require_state {σ : Type} {b : Bool} {e : PyErr} {s s' : σ} {u : Unit} (h : PyM.require b e s = (.ok u, s')) : s' = s := by
  unfold PyM.require at h
  split at h <;> cases h
  rfl

theorem SpaceAllocator.allocate_end (s : SpaceAllocator) (n : Nat) :
    (s.allocate n).2.fileEnd ≤ max s.fileEnd ((s.allocate n).1 + n) := by
  unfold SpaceAllocator.allocate
  split
  · exact Nat.le_max_left _ _
  · split
    · split <;> exact Nat.le_max_left _ _
    · split
      · split
        · dsimp only; omega
        · exact Nat.le_max_right _ _
      · exact Nat.le_max_right _ _

theorem SpaceAllocator.markFree_end (s : SpaceAllocator) (a n : Nat) : (s.markFree a n).fileEnd = s.fileEnd := by
  unfold SpaceAllocator.markFree
  split <;> rfl

theorem wr_end (file : Bytes) (off : Nat) (d : Bytes) (hd : d ≠ []) : off + d.length ≤ (wr file off d).length := by
  rw [wr_length _ _ hd]; omega

namespace Zim

/-- The managed part of the file ends within the file, or at `k`. -/
def Filled (k : Nat) (z : Zim) : Prop := z.space.fileEnd ≤ max k z.file.length

variable {k : Nat}

theorem filled_onArticles {α : Type} (f : PointerList → PyRes α × PointerList) : KeepsOk (Filled k) (onArticles f) :=
  .of fun _ h => h

theorem filled_onTitles {α : Type} (f : PointerList → PyRes α × PointerList) : KeepsOk (Filled k) (onTitles f) := by
  refine .of fun z hz => ?_
  unfold onTitles
  split <;> exact hz

theorem filled_onUrls {α : Type} (f : PointerList → PyRes α × PointerList) : KeepsOk (Filled k) (onUrls f) :=
  .of fun _ h => h

theorem filled_onHeader {α : Type} (f : Header → PyRes α × Header) : KeepsOk (Filled k) (onHeader f) := .of fun _ h => h

theorem filled_markFree (s n : Nat) : KeepsOk (Filled k) (markFree s n) := by
  refine .of fun z hz => ?_
  show (z.space.markFree s n).fileEnd ≤ _
  rw [SpaceAllocator.markFree_end]; exact hz

theorem filled_writeAt (o : Nat) (d : PyRes Bytes) : KeepsOk (Filled k) (writeAt o d) := by
  refine .of fun z hz => ?_
  unfold writeAt
  split
  · exact hz
  · cases d with
    | error e => exact hz
    | ok d =>
      have := (wr_length_le z.file o d).1
      unfold Filled at hz ⊢
      show z.space.fileEnd ≤ max k (wr z.file o d).length
      omega

theorem filled_shiftRedirects {rw' : Entry → PyM Zim Entry} (h : ∀ e, KeepsOk (Filled k) (rw' e)) (start : Nat) (diff : Int)
    (skip : List String) : ∀ l : List Nat, KeepsOk (Filled k) (shiftRedirects rw' start diff skip l)
  | [] => KeepsOk.pure _
  | i :: is => by
    unfold shiftRedirects
    refine KeepsOk.get.bind fun z => (KeepsOk.lift _).bind fun loc => (KeepsOk.lift _).bind fun e => ?_
    split
    · split
      · exact KeepsOk.raise _
      · split
        · exact (KeepsOk.lift _).bind fun _ => (KeepsOk.lift _).bind fun _ => (KeepsOk.require _ _).bind fun _ =>
            (h _).bind fun _ => filled_shiftRedirects h start diff skip is
        · exact filled_shiftRedirects h start diff skip is
    · exact filled_shiftRedirects h start diff skip is

theorem filled_updateUrlPointers {rw' : Entry → PyM Zim Entry} (h : ∀ e, KeepsOk (Filled k) (rw' e)) (start : Nat)
    (diff : Int) (b : Bool) (skip : List String) : KeepsOk (Filled k) (updateUrlPointers rw' start diff b skip) := by
  unfold updateUrlPointers
  refine (filled_onTitles _).bind fun _ => KeepsOk.bind ?_ fun _ => KeepsOk.get.bind fun z =>
    (filled_shiftRedirects h start diff skip _).bind fun _ => ?_
  · split
    · exact filled_onArticles _
    · exact KeepsOk.pure _
  · unfold shiftMainPage
    refine KeepsOk.get.bind fun z => ?_
    split
    · exact KeepsOk.pure _
    · split
      · exact filled_onHeader _
      · exact KeepsOk.pure _

theorem filled_retarget {rw' : Entry → PyM Zim Entry} (h : ∀ e, KeepsOk (Filled k) (rw' e)) (index : Nat) :
    ∀ l : List String, KeepsOk (Filled k) (retarget rw' index l)
  | [] => KeepsOk.pure _
  | _ :: us => KeepsOk.get.bind fun _ => (KeepsOk.lift _).bind fun _ => (KeepsOk.lift _).bind fun _ => (h _).bind fun _ =>
      filled_retarget h index us

theorem filled_insertUrl {rw' : Entry → PyM Zim Entry} (h : ∀ e, KeepsOk (Filled k) (rw' e)) (e : Entry) (offset : Nat) :
    KeepsOk (Filled k) (insertUrl rw' e offset) := by
  unfold insertUrl
  refine KeepsOk.get.bind fun z => (filled_onUrls _).bind fun i => (filled_updateUrlPointers h _ _ _ _).bind fun _ => ?_
  split
  · exact KeepsOk.raise _
  · exact KeepsOk.pure _
  · split
    · exact (KeepsOk.lift _).bind fun _ => (filled_writeAt _ _).bind fun _ => (KeepsOk.require _ _).bind fun _ => KeepsOk.pure _
    · exact (KeepsOk.require _ _).bind fun _ => KeepsOk.pure _

/-- Space is allocated for some data, and the data is written there. -/
theorem filled_allocate_write (n : Nat) (d : PyRes Bytes) (hd : ∀ b, d = .ok b → b.length = n ∧ b ≠ []) {β : Type}
    {m : Nat → PyM Zim β} (hm : ∀ off, KeepsOk (Filled k) (m off)) :
    KeepsOk (Filled k) (allocate n >>= fun off => writeAt off d >>= fun _ => m off) := by
  intro z b z' hz h
  obtain ⟨off, z1, h1, h2⟩ := PyM.bind_ok_iff.1 h
  obtain ⟨u, z2, h3, h4⟩ := PyM.bind_ok_iff.1 h2
  refine hm off z2 b z' ?_ h4
  unfold allocate at h1
  injection h1 with e1 e2
  injection e1 with e1
  unfold writeAt at h3
  split at h3
  · cases h3
  · cases d with
    | error e => cases h3
    | ok d =>
      obtain ⟨hl, hne⟩ := hd d rfl
      injection h3 with _ h3
      have a1 := z.space.allocate_end n
      have a2 := wr_end z.file off d hne
      have a3 := (wr_length_le z.file off d).1
      rw [← h3, ← e2]
      unfold Filled at hz ⊢
      rw [e1] at a1
      rw [hl] at a2
      show (z.space.allocate n).2.fileEnd ≤ max k (wr z.file off d).length
      omega

theorem filled_place_write (old : Option Old) (n : Nat) (d : PyRes Bytes) (hd : ∀ b, d = .ok b → b.length = n ∧ b ≠ []) {β : Type}
    {m : Nat → PyM Zim β} (hm : ∀ off, KeepsOk (Filled k) (m off)) :
    KeepsOk (Filled k) (place old n >>= fun off => writeAt off d >>= fun _ => m off) := by
  unfold place
  cases old with
  | none => exact filled_allocate_write _ _ hd hm
  | some o =>
    dsimp only
    by_cases ho : o.size ≠ n
    · rw [if_pos ho, PyM.bind_assoc_fn]
      exact (filled_markFree _ _).bind fun _ => filled_allocate_write _ _ hd hm
    · rw [if_neg ho]
      exact (KeepsOk.pure _).bind fun off => (filled_writeAt _ _).bind fun _ => hm off

/-- Writing an entry fills the space that it allocates. -/
theorem filled_writeEntry (k : Nat) : ∀ (depth : Nat) (e : Entry) (u t : Bool),
    KeepsOk (Filled k) (writeEntry depth e u t)
  | 0, _, _, _ => KeepsOk.raise _
  | depth + 1, e, u, t => by
    have ih := filled_writeEntry k depth
    unfold writeEntry
    refine KeepsOk.get.bind fun z => (KeepsOk.require _ _).bind fun _ => (KeepsOk.require _ _).bind fun _ =>
      (KeepsOk.lift _).bind fun ia => (KeepsOk.lift _).bind fun old => (KeepsOk.lift _).bind fun reds => ?_
    have hsz : ∀ b, e.toBytes = .ok b → b.length = e.getDiskSize ∧ b ≠ [] :=
      fun b hb => ⟨Entry.size_eq _ _ hb, Entry.toBytes_ne_nil hb⟩
    refine filled_place_write _ _ _ hsz fun off => ?_
    refine KeepsOk.bind ?_ fun _ => KeepsOk.bind ?_ fun _ =>
      KeepsOk.bind ?_ fun r => KeepsOk.bind ?_ fun _ => KeepsOk.bind ?_ fun _ => KeepsOk.bind ?_ fun _ => KeepsOk.pure _
    · split
      · exact KeepsOk.pure _
      · unfold removeTitles
        refine KeepsOk.bind ?_ fun _ => ?_
        · split
          · exact filled_onTitles _
          · exact KeepsOk.pure _
        · split
          · exact filled_onArticles _
          · exact KeepsOk.pure _
    · cases old with
      | none => exact KeepsOk.pure _
      | some o =>
        dsimp only
        split
        · exact (filled_onUrls _).bind fun _ => filled_updateUrlPointers (fun e => ih e true true) _ _ _ _
        · exact KeepsOk.pure _
    · split
      · exact KeepsOk.pure _
      · exact filled_insertUrl (fun e => ih e true true) _ _
    · split
      · unfold addTitles
        refine KeepsOk.get.bind fun z => (filled_onTitles _).bind fun _ => ?_
        split
        · exact (filled_onArticles _).bind fun _ => KeepsOk.pure _
        · exact KeepsOk.pure _
      · exact KeepsOk.pure _
    · split
      · exact filled_retarget (fun e => ih e false true) _ _
      · exact KeepsOk.pure _
    · unfold logRedirect
      refine KeepsOk.get.bind fun z => ?_
      split
      · split
        · exact KeepsOk.raise _
        · exact (KeepsOk.lift _).bind fun _ => KeepsOk.pure _
      · exact KeepsOk.pure _

theorem filled_addFullUrlRedirect (depth : Nat) (s t : String) (title : Option String) :
    KeepsOk (Filled k) (addFullUrlRedirect depth s t title) := by
  unfold addFullUrlRedirect
  refine (KeepsOk.require _ _).bind fun _ => (KeepsOk.require _ _).bind fun _ => KeepsOk.get.bind fun z =>
    (KeepsOk.require _ _).bind fun _ => (KeepsOk.require _ _).bind fun _ => ?_
  split
  · exact KeepsOk.modify fun _ h => h
  · exact KeepsOk.raise _
  · refine KeepsOk.bind ?_ fun _ => (KeepsOk.lift _).bind fun _ => (filled_writeEntry k _ _ _ _).bind fun _ => KeepsOk.pure _
    split
    · exact KeepsOk.pure _
    · exact (KeepsOk.lift _).bind fun _ => KeepsOk.pure _

theorem filled_addBuffered (depth : Nat) : ∀ l : List Redirect, KeepsOk (Filled k) (addBuffered depth l)
  | [] => KeepsOk.pure _
  | r :: rs => (filled_addFullUrlRedirect depth r.1 r.2.1 r.2.2).bind fun _ => filled_addBuffered depth rs

theorem filled_redirectLoop (depth : Nat) : ∀ passes : Nat, KeepsOk (Filled k) (redirectLoop depth passes)
  | 0 => KeepsOk.raise _
  | passes + 1 => by
    unfold redirectLoop
    refine KeepsOk.get.bind fun z => (KeepsOk.of fun _ h => h).bind fun _ => (filled_addBuffered depth _).bind fun _ =>
      KeepsOk.get.bind fun z' => ?_
    split
    · exact filled_redirectLoop depth passes
    · exact KeepsOk.pure _

theorem filled_applyRedirects (depth passes : Nat) : KeepsOk (Filled k) (applyRedirects depth passes) :=
  (filled_redirectLoop depth passes).bind fun _ => KeepsOk.get.bind fun _ => KeepsOk.require _ _

/-- Writing a cluster fills the space that it allocates. -/
theorem Clustered.filled {K : Type} {O : ClusterOps K} {z z' : Zim} {rows : List Row} {cs cs' : List Stored} {rest : Nat → Prop}
    (h : Clustered z rows cs rest) (hw : ClusterWrite O z cs z' cs') (hz : Filled k z) : Filled k z' := by
  obtain ⟨c, c', chunks, num, fuel, n, w1, w2, w3, w4⟩ : ∃ c c' chunks num fuel n, O.Writes c z.file (InUse z) chunks ∧
      chunks.flatten ≠ [] ∧ chunks.length < fuel ∧ writeCluster O fuel c num z = (.ok (n, c'), z') := by
    cases hw with
    | new h1 h2 h3 h4 h5 h6 => exact ⟨_, _, _, _, _, _, h1, h2, h3, h5⟩
    | replace h1 h2 h3 h4 h5 h6 h7 h8 h9 => exact ⟨_, _, _, _, _, _, h1, h2, h3, h8⟩
  have hcne : chunks ≠ [] := by rintro rfl; exact w2 rfl
  unfold writeCluster at w4
  obtain ⟨_, y1, e1, w5⟩ := PyM.bind_ok_iff.1 w4
  rw [PyM.require_state e1, PyM.get_bind] at w5
  obtain ⟨_, y2, e2, w6⟩ := PyM.bind_ok_iff.1 w5
  rw [PyM.require_state e2] at w6
  obtain ⟨_, y3, e3, w7⟩ := PyM.bind_ok_iff.1 w6
  rw [PyM.require_state e3] at w7
  obtain ⟨_, y4, e4, w8⟩ := PyM.bind_ok_iff.1 w7
  rw [PyM.require_state e4] at w8
  clear w4 w5 w6 w7 e1 e2 e3 e4
  rw [w1.size _ (KeepsBytes.refl _ _), PyM.lift_ok_bind] at w8
  obtain ⟨n', z2, e2, w9⟩ := PyM.bind_ok_iff.1 w8
  have hz2 : z2.space = z.space ∧ z2.file = z.file ∧ z2.closed = z.closed := by
    unfold clusterNumber at e2
    rw [PyM.get_bind] at e2
    cases ho : O.offset c with
    | none =>
      rw [ho] at e2
      unfold newClusterNum at e2
      injection e2 with _ e2
      rw [← e2]; exact ⟨rfl, rfl, rfl⟩
    | some o =>
      rw [ho] at e2
      cases hn : num.map Int.toNat with
      | none =>
        rw [hn] at e2
        injection e2 with _ e2
        rw [← e2]; exact ⟨rfl, rfl, rfl⟩
      | some o =>
        rw [hn] at e2
        injection e2 with _ e2
        rw [← e2]; exact ⟨rfl, rfl, rfl⟩
  obtain ⟨off, z3, e3, w10⟩ := PyM.bind_ok_iff.1 w9
  unfold allocate at e3
  injection e3 with e3 e3'
  injection e3 with e3
  have hoff : (z.space.allocate chunks.flatten.length).1 = off := by rw [← e3, hz2.1]
  have hal : ∀ x, InUse z x → ¬ (off ≤ x ∧ x < off + chunks.flatten.length) := by
    intro x hx hb
    have h2 := (h.rep.store.alloc chunks.flatten.length).2 x (by rw [hoff]; exact hb)
    rcases (h.inUse x).1 hx with hr | hc | ⟨r, hr, hx'⟩
    · exact h2.1 (Or.inl hr)
    · exact h2.1 (Or.inr hc)
    · exact h2.2 r hr hx'
  obtain ⟨-, hwc, -⟩ := writeChunks_ok O c (own := InUse z) chunks chunks 0 off fuel z3
    (by rw [← e3']; exact hz2.2.2.trans h.rep.isOpen) rfl (Nat.zero_le _)
    (by rw [← e3']; simp only; rw [hz2.2.1]; exact w1.chunk) hal
  obtain ⟨file', hwc, hwr⟩ := hwc w3 hcne
  rw [PyM.bind_ok hwc] at w10
  have hfile : Filled k { z3 with file := file' } := by
    have a1 := z.space.allocate_end chunks.flatten.length
    rw [hoff] at a1
    have a2 : off + chunks.flatten.length ≤ file'.length := hwr.holds.below w2
    have a3 := hwr.longer
    rw [← e3'] at a3
    simp only [hz2.2.1] at a3
    unfold Filled at hz ⊢
    rw [← e3']
    simp only [hz2.1]
    omega
  refine KeepsOk.bind (P := Filled k) (.of fun _ h => h) (fun _ => KeepsOk.get.bind fun _ => (KeepsOk.lift _).bind fun _ =>
    KeepsOk.bind ?_ fun _ => KeepsOk.pure _) _ _ _ hfile w10
  split
  · exact filled_markFree _ _
  · exact KeepsOk.pure _

end Zim
end Pyzim
