import Verif.Lemmas.PyM
import Verif.Model.Archive

/-!
# What a method does not change
-/

namespace Pyzim

/-- `m` does not leave the states `P`. -/
def Keeps {σ α : Type} (P : σ → Prop) (m : PyM σ α) : Prop := ∀ s, P s → P (m s).2

namespace Keeps
variable {σ α β : Type} {P : σ → Prop}

theorem bind {m : PyM σ α} {k : α → PyM σ β} (hm : Keeps P m) (hk : ∀ a, Keeps P (k a)) : Keeps P (m >>= k) := by
  intro s hs
  have h1 := hm s hs
  cases hr : m s with
  | mk r s1 =>
    rw [hr] at h1
    cases r with
    | error e => rw [PyM.bind_err hr]; exact h1
    | ok a => rw [PyM.bind_ok hr]; exact hk a s1 h1

theorem pure (a : α) : Keeps P (Pure.pure a : PyM σ α) := fun _ h => h
theorem get : Keeps P (PyM.get : PyM σ σ) := fun _ h => h
theorem raise (e : PyErr) : Keeps P (PyM.raise e : PyM σ α) := fun _ h => h
theorem lift (x : PyRes α) : Keeps P (PyM.lift x : PyM σ α) := fun _ h => h
theorem require (b : Bool) (e : PyErr) : Keeps P (PyM.require b e : PyM σ Unit) := by
  intro s h
  cases b <;> exact h
theorem modify {f : σ → σ} (h : ∀ s, P s → P (f s)) : Keeps P (PyM.modify f) := h

end Keeps

namespace Zim

/-- The article title list is `A`, or marked as to be written. -/
def ArtsKept (A : PointerList) (z : Zim) : Prop := z.articles = A ∨ z.articles.dirty = true

theorem ite_pred {α : Type} {Q : α → Prop} {c : Prop} [Decidable c] {x y : α} (hx : Q x) (hy : Q y) :
    Q (if c then x else y) := by
  split
  · exact hx
  · exact hy

theorem massUpdate_kept (l : PointerList) (d : Int) (s : Option Int) (e : Option Int) :
    (l.massUpdate d s e).2 = l ∨ (l.massUpdate d s e).2.dirty = true := by
  unfold PointerList.massUpdate
  refine ite_pred (Q := fun r : PyRes Unit × PointerList => r.2 = l ∨ r.2.dirty = true) (Or.inl rfl) ?_
  · by_cases ha : l.pointers.any (PointerList.massSelected s e) = true
    · right; simp [ha]
    · left
      simp only [Bool.not_eq_true] at ha
      have hm : l.pointers.map (fun p => if PointerList.massSelected s e p then p + d else p) = l.pointers := by
        refine (List.map_congr_left (g := id) fun p hp => ?_).trans (List.map_id _)
        rw [if_neg (by
          intro hs
          rw [List.any_eq_false] at ha
          exact ha p hp hs)]
        rfl
      simp only [ha, hm, Bool.or_false]

theorem removeByIndex_kept (l : PointerList) (i : Int) :
    (l.removeByIndex i).2 = l ∨ (l.removeByIndex i).2.dirty = true := by
  unfold PointerList.removeByIndex
  repeat' split
  all_goals first | exact Or.inl rfl | exact Or.inr rfl

theorem add_kept (l : PointerList) (keyf : Int → PyRes Bytes) (key : Bytes) (p : Int) :
    (l.add keyf key p).2 = l ∨ (l.add keyf key p).2.dirty = true := by
  unfold PointerList.add
  repeat' split
  all_goals first | exact Or.inl rfl | exact Or.inr rfl

variable {A : PointerList}

theorem keeps_onArticles {α : Type} {f : PointerList → PyRes α × PointerList}
    (hf : ∀ l, (f l).2 = l ∨ (f l).2.dirty = true) : Keeps (ArtsKept A) (onArticles f) := by
  intro z hz
  show (f z.articles).2 = A ∨ (f z.articles).2.dirty = true
  rcases hf z.articles with h | h
  · rw [h]; exact hz
  · exact Or.inr h

theorem keeps_onTitles {α : Type} (f : PointerList → PyRes α × PointerList) : Keeps (ArtsKept A) (onTitles f) := by
  intro z hz
  unfold onTitles
  split <;> exact hz

theorem keeps_onUrls {α : Type} (f : PointerList → PyRes α × PointerList) : Keeps (ArtsKept A) (onUrls f) :=
  fun _ h => h

theorem keeps_onHeader {α : Type} (f : Header → PyRes α × Header) : Keeps (ArtsKept A) (onHeader f) := fun _ h => h

theorem keeps_allocate (n : Nat) : Keeps (ArtsKept A) (allocate n) := fun _ h => h

theorem keeps_markFree (s n : Nat) : Keeps (ArtsKept A) (markFree s n) := fun _ h => h

theorem keeps_writeAt (o : Nat) (d : PyRes Bytes) : Keeps (ArtsKept A) (writeAt o d) := by
  intro z hz
  unfold writeAt
  repeat' split
  all_goals exact hz

theorem keeps_shiftRedirects {rw' : Entry → PyM Zim Entry} (h : ∀ e, Keeps (ArtsKept A) (rw' e)) (start : Nat) (diff : Int)
    (skip : List String) : ∀ l : List Nat, Keeps (ArtsKept A) (shiftRedirects rw' start diff skip l)
  | [] => Keeps.pure _
  | i :: is => by
    unfold shiftRedirects
    refine Keeps.get.bind fun z => (Keeps.lift _).bind fun loc => (Keeps.lift _).bind fun e => ?_
    split
    · split
      · exact Keeps.raise _
      · split
        · exact (Keeps.lift _).bind fun _ => (Keeps.lift _).bind fun _ => (Keeps.require _ _).bind fun _ =>
            (h _).bind fun _ => keeps_shiftRedirects h start diff skip is
        · exact keeps_shiftRedirects h start diff skip is
    · exact keeps_shiftRedirects h start diff skip is

theorem keeps_updateUrlPointers {rw' : Entry → PyM Zim Entry} (h : ∀ e, Keeps (ArtsKept A) (rw' e)) (start : Nat)
    (diff : Int) (b : Bool) (skip : List String) : Keeps (ArtsKept A) (updateUrlPointers rw' start diff b skip) := by
  unfold updateUrlPointers
  refine (keeps_onTitles _).bind fun _ => Keeps.bind ?_ fun _ => Keeps.get.bind fun z =>
    (keeps_shiftRedirects h start diff skip _).bind fun _ => ?_
  · split
    · exact keeps_onArticles fun l => massUpdate_kept l _ _ _
    · exact Keeps.pure _
  · unfold shiftMainPage
    refine Keeps.get.bind fun z => ?_
    split
    · exact Keeps.pure _
    · split
      · exact keeps_onHeader _
      · exact Keeps.pure _

theorem keeps_retarget {rw' : Entry → PyM Zim Entry} (h : ∀ e, Keeps (ArtsKept A) (rw' e)) (index : Nat) :
    ∀ l : List String, Keeps (ArtsKept A) (retarget rw' index l)
  | [] => Keeps.pure _
  | _ :: us => Keeps.get.bind fun _ => (Keeps.lift _).bind fun _ => (Keeps.lift _).bind fun _ => (h _).bind fun _ =>
      keeps_retarget h index us

theorem keeps_insertUrl {rw' : Entry → PyM Zim Entry} (h : ∀ e, Keeps (ArtsKept A) (rw' e)) (e : Entry) (offset : Nat) :
    Keeps (ArtsKept A) (insertUrl rw' e offset) := by
  unfold insertUrl
  refine Keeps.get.bind fun z => (keeps_onUrls _).bind fun i => (keeps_updateUrlPointers h _ _ _ _).bind fun _ => ?_
  split
  · exact Keeps.raise _
  · exact Keeps.pure _
  · split
    · exact (Keeps.lift _).bind fun _ => (keeps_writeAt _ _).bind fun _ => (Keeps.require _ _).bind fun _ => Keeps.pure _
    · exact (Keeps.require _ _).bind fun _ => Keeps.pure _

/-- Writing an entry leaves the article title list alone or marks it as to be written. -/
theorem keeps_writeEntry (A : PointerList) : ∀ (depth : Nat) (e : Entry) (u t : Bool),
    Keeps (ArtsKept A) (writeEntry depth e u t)
  | 0, _, _, _ => Keeps.raise _
  | depth + 1, e, u, t => by
    have ih := keeps_writeEntry A depth
    unfold writeEntry
    refine Keeps.get.bind fun z => (Keeps.require _ _).bind fun _ => (Keeps.require _ _).bind fun _ =>
      (Keeps.lift _).bind fun ia => (Keeps.lift _).bind fun old => (Keeps.lift _).bind fun reds => ?_
    refine Keeps.bind ?_ fun off => (keeps_writeAt _ _).bind fun _ => Keeps.bind ?_ fun _ => Keeps.bind ?_ fun _ =>
      Keeps.bind ?_ fun r => Keeps.bind ?_ fun _ => Keeps.bind ?_ fun _ => Keeps.bind ?_ fun _ => Keeps.pure _
    · unfold place
      split
      · exact keeps_allocate _
      · split
        · exact (keeps_markFree _ _).bind fun _ => keeps_allocate _
        · exact Keeps.pure _
    · split
      · exact Keeps.pure _
      · unfold removeTitles
        refine Keeps.bind ?_ fun _ => ?_
        · split
          · exact keeps_onTitles _
          · exact Keeps.pure _
        · split
          · exact keeps_onArticles fun l => removeByIndex_kept l _
          · exact Keeps.pure _
    · cases old with
      | none => exact Keeps.pure _
      | some o =>
        dsimp only
        split
        · exact (keeps_onUrls _).bind fun _ => keeps_updateUrlPointers (fun e => ih e true true) _ _ _ _
        · exact Keeps.pure _
    · split
      · exact Keeps.pure _
      · exact keeps_insertUrl (fun e => ih e true true) _ _
    · split
      · unfold addTitles
        refine Keeps.get.bind fun z => (keeps_onTitles _).bind fun _ => ?_
        split
        · exact (keeps_onArticles fun l => add_kept l _ _ _).bind fun _ => Keeps.pure _
        · exact Keeps.pure _
      · exact Keeps.pure _
    · split
      · exact keeps_retarget (fun e => ih e false true) _ _
      · exact Keeps.pure _
    · unfold logRedirect
      refine Keeps.get.bind fun z => ?_
      split
      · split
        · exact Keeps.raise _
        · exact (Keeps.lift _).bind fun _ => Keeps.pure _
      · exact Keeps.pure _

end Zim
end Pyzim
