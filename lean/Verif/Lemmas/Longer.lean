import Verif.Lemmas.Keeps
import Verif.Lemmas.Clusters

/-!
# Writing entries does not make the file shorter
-/

namespace Pyzim
namespace Zim

/-- the file has at least `n` bytes -/
def Longer (n : Nat) (z : Zim) : Prop := n ≤ z.file.length

variable {n : Nat}

theorem long_onArticles {α : Type} (f : PointerList → PyRes α × PointerList) : Keeps (Longer n) (onArticles f) :=
  fun _ h => h

theorem long_onTitles {α : Type} (f : PointerList → PyRes α × PointerList) : Keeps (Longer n) (onTitles f) := by
  intro z hz
  unfold onTitles
  split <;> exact hz

theorem long_onUrls {α : Type} (f : PointerList → PyRes α × PointerList) : Keeps (Longer n) (onUrls f) :=
  fun _ h => h

theorem long_onHeader {α : Type} (f : Header → PyRes α × Header) : Keeps (Longer n) (onHeader f) := fun _ h => h

theorem long_allocate (k : Nat) : Keeps (Longer n) (allocate k) := fun _ h => h

theorem long_markFree (s k : Nat) : Keeps (Longer n) (markFree s k) := fun _ h => h

theorem long_writeAt (o : Nat) (d : PyRes Bytes) : Keeps (Longer n) (writeAt o d) := by
  intro z hz
  unfold writeAt
  split
  · exact hz
  · cases d with
    | error e => exact hz
    | ok d => exact Nat.le_trans hz (wr_length_le z.file o d).1

theorem long_shiftRedirects {rw' : Entry → PyM Zim Entry} (h : ∀ e, Keeps (Longer n) (rw' e)) (start : Nat) (diff : Int)
    (skip : List String) : ∀ l : List Nat, Keeps (Longer n) (shiftRedirects rw' start diff skip l)
  | [] => Keeps.pure _
  | i :: is => by
    unfold shiftRedirects
    refine Keeps.get.bind fun z => (Keeps.lift _).bind fun loc => (Keeps.lift _).bind fun e => ?_
    split
    · split
      · exact Keeps.raise _
      · split
        · exact (Keeps.lift _).bind fun _ => (Keeps.lift _).bind fun _ => (Keeps.require _ _).bind fun _ =>
            (h _).bind fun _ => long_shiftRedirects h start diff skip is
        · exact long_shiftRedirects h start diff skip is
    · exact long_shiftRedirects h start diff skip is

theorem long_updateUrlPointers {rw' : Entry → PyM Zim Entry} (h : ∀ e, Keeps (Longer n) (rw' e)) (start : Nat)
    (diff : Int) (b : Bool) (skip : List String) : Keeps (Longer n) (updateUrlPointers rw' start diff b skip) := by
  unfold updateUrlPointers
  refine (long_onTitles _).bind fun _ => Keeps.bind ?_ fun _ => Keeps.get.bind fun z =>
    (long_shiftRedirects h start diff skip _).bind fun _ => ?_
  · split
    · exact long_onArticles _
    · exact Keeps.pure _
  · unfold shiftMainPage
    refine Keeps.get.bind fun z => ?_
    split
    · exact Keeps.pure _
    · split
      · exact long_onHeader _
      · exact Keeps.pure _

theorem long_retarget {rw' : Entry → PyM Zim Entry} (h : ∀ e, Keeps (Longer n) (rw' e)) (index : Nat) :
    ∀ l : List String, Keeps (Longer n) (retarget rw' index l)
  | [] => Keeps.pure _
  | _ :: us => Keeps.get.bind fun _ => (Keeps.lift _).bind fun _ => (Keeps.lift _).bind fun _ => (h _).bind fun _ =>
      long_retarget h index us

theorem long_insertUrl {rw' : Entry → PyM Zim Entry} (h : ∀ e, Keeps (Longer n) (rw' e)) (e : Entry) (offset : Nat) :
    Keeps (Longer n) (insertUrl rw' e offset) := by
  unfold insertUrl
  refine Keeps.get.bind fun z => (long_onUrls _).bind fun i => (long_updateUrlPointers h _ _ _ _).bind fun _ => ?_
  split
  · exact Keeps.raise _
  · exact Keeps.pure _
  · split
    · exact (Keeps.lift _).bind fun _ => (long_writeAt _ _).bind fun _ => (Keeps.require _ _).bind fun _ => Keeps.pure _
    · exact (Keeps.require _ _).bind fun _ => Keeps.pure _

/-- Writing an entry does not make the file shorter. -/
theorem long_writeEntry (n : Nat) : ∀ (depth : Nat) (e : Entry) (u t : Bool),
    Keeps (Longer n) (writeEntry depth e u t)
  | 0, _, _, _ => Keeps.raise _
  | depth + 1, e, u, t => by
    have ih := long_writeEntry n depth
    unfold writeEntry
    refine Keeps.get.bind fun z => (Keeps.require _ _).bind fun _ => (Keeps.require _ _).bind fun _ =>
      (Keeps.lift _).bind fun ia => (Keeps.lift _).bind fun old => (Keeps.lift _).bind fun reds => ?_
    refine Keeps.bind ?_ fun off => (long_writeAt _ _).bind fun _ => Keeps.bind ?_ fun _ => Keeps.bind ?_ fun _ =>
      Keeps.bind ?_ fun r => Keeps.bind ?_ fun _ => Keeps.bind ?_ fun _ => Keeps.bind ?_ fun _ => Keeps.pure _
    · unfold place
      split
      · exact long_allocate _
      · split
        · exact (long_markFree _ _).bind fun _ => long_allocate _
        · exact Keeps.pure _
    · split
      · exact Keeps.pure _
      · unfold removeTitles
        refine Keeps.bind ?_ fun _ => ?_
        · split
          · exact long_onTitles _
          · exact Keeps.pure _
        · split
          · exact long_onArticles _
          · exact Keeps.pure _
    · cases old with
      | none => exact Keeps.pure _
      | some o =>
        dsimp only
        split
        · exact (long_onUrls _).bind fun _ => long_updateUrlPointers (fun e => ih e true true) _ _ _ _
        · exact Keeps.pure _
    · split
      · exact Keeps.pure _
      · exact long_insertUrl (fun e => ih e true true) _ _
    · split
      · unfold addTitles
        refine Keeps.get.bind fun z => (long_onTitles _).bind fun _ => ?_
        split
        · exact (long_onArticles _).bind fun _ => Keeps.pure _
        · exact Keeps.pure _
      · exact Keeps.pure _
    · split
      · exact long_retarget (fun e => ih e false true) _ _
      · exact Keeps.pure _
    · unfold logRedirect
      refine Keeps.get.bind fun z => ?_
      split
      · split
        · exact Keeps.raise _
        · exact (Keeps.lift _).bind fun _ => Keeps.pure _
      · exact Keeps.pure _

end Zim
end Pyzim
