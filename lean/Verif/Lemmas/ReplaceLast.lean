import Verif.Spec.Creator
import Mathlib.Data.List.Forall2
import Mathlib.Data.List.Nodup

/-!
# Replacing the last element with a property
-/

namespace Pyzim
section
variable {α β : Type} {h : α → Bool} {f : α → α}

theorem replaceLast_none {l : List α} (hn : l.any h = false) : replaceLast h f l = l := by
  induction l with
  | nil => rfl
  | cons x xs ih =>
    rw [List.any_cons, Bool.or_eq_false_iff] at hn
    unfold replaceLast
    rw [if_neg (by rw [hn.2]; simp), if_neg (by rw [hn.1]; simp)]

theorem replaceLast_append (l m : List α) :
    replaceLast h f (l ++ m) = if m.any h then l ++ replaceLast h f m else replaceLast h f l ++ m := by
  induction l with
  | nil =>
    cases hm : m.any h with
    | true => rfl
    | false => rw [List.nil_append, replaceLast_none hm]; rfl
  | cons x xs ih =>
    rw [List.cons_append, replaceLast, replaceLast, List.any_append, ih]
    cases hm : m.any h with
    | true => simp
    | false => cases hx : xs.any h <;> simp

theorem replaceLast_flatten {L : List (List α)} :
    (replaceLast (fun l => l.any h) (replaceLast h f) L).flatten = replaceLast h f L.flatten := by
  have hany : ∀ L : List (List α), L.flatten.any h = L.any fun l => l.any h := by
    intro L
    induction L with
    | nil => rfl
    | cons l L ih => rw [List.flatten_cons, List.any_append, ih, List.any_cons]
  induction L with
  | nil => rfl
  | cons l L ih =>
    rw [List.flatten_cons, replaceLast_append, hany, replaceLast]
    cases hL : L.any fun l => l.any h with
    | true => rw [if_pos rfl, if_pos rfl, List.flatten_cons, ih]
    | false =>
      cases hl : l.any h with
      | true => simp
      | false => simp [replaceLast_none hl]

/-- where the replaced element is -/
theorem replaceLast_at {l : List α} (hn : l.any h = true) : ∃ l1 x l2, l = l1 ++ x :: l2 ∧ h x = true ∧ l2.any h = false ∧
    replaceLast h f l = l1 ++ f x :: l2 := by
  induction l with
  | nil => cases hn
  | cons x xs ih =>
    unfold replaceLast
    cases hx : xs.any h with
    | true =>
      obtain ⟨l1, y, l2, e1, e2, e3, e4⟩ := ih hx
      exact ⟨x :: l1, y, l2, by rw [e1]; rfl, e2, e3, by rw [if_pos rfl, e4]; rfl⟩
    | false =>
      rw [List.any_cons, hx, Bool.or_false] at hn
      exact ⟨[], x, xs, rfl, hn, hx, by rw [if_neg (by simp), if_pos hn]; rfl⟩

theorem replaceLast_any {f : α → α} (hf : ∀ x, h (f x) = h x) (l : List α) : (replaceLast h f l).any h = l.any h := by
  cases hl : l.any h with
  | false => rw [replaceLast_none hl, hl]
  | true =>
    obtain ⟨l1, x, l2, e1, e2, e3, e4⟩ := replaceLast_at (f := f) hl
    rw [e4, List.any_append, List.any_cons, hf, e2]; simp

theorem replaceLast_forall₂ {R : α → β → Prop} {h' : β → Bool} {f' : β → β} {l : List α} {m : List β}
    (hR : List.Forall₂ R l m) (hh : ∀ a b, R a b → h a = h' b) (hf : ∀ a b, a ∈ l → b ∈ m → R a b → R (f a) (f' b)) :
    List.Forall₂ R (replaceLast h f l) (replaceLast h' f' m) := by
  induction hR with
  | nil => exact .nil
  | @cons a b l m hab hlm ih =>
    have hany : ∀ {l : List α} {m : List β}, List.Forall₂ R l m → l.any h = m.any h' := by
      intro l m H
      induction H with
      | nil => rfl
      | cons k _ ih => rw [List.any_cons, List.any_cons, hh _ _ k, ih]
    unfold replaceLast
    rw [hany hlm, hh _ _ hab]
    cases m.any h' with
    | true => exact .cons hab (ih fun a b ha hb => hf a b (List.mem_cons_of_mem _ ha) (List.mem_cons_of_mem _ hb))
    | false =>
      cases h' b with
      | true => exact .cons (hf _ _ List.mem_cons_self List.mem_cons_self hab) hlm
      | false => exact .cons hab hlm

/-- if no other element has the property -/
theorem replaceLast_unique {γ : Type} {key : α → γ} [DecidableEq γ] {u : γ} {f : α → α} {l : List α} (hn : (l.map key).Nodup) :
    replaceLast (fun x => decide (key x = u)) f l = l.map fun x => if key x = u then f x else x := by
  induction l with
  | nil => rfl
  | cons x xs ih =>
    rw [List.map_cons, List.nodup_cons] at hn
    unfold replaceLast
    rw [List.map_cons, ih hn.2]
    cases hx : xs.any fun x => decide (key x = u) with
    | true =>
      obtain ⟨y, hy, hyu⟩ := List.any_eq_true.1 hx
      have hyu := of_decide_eq_true hyu
      rw [if_pos rfl, if_neg]
      intro e
      exact hn.1 (by rw [e, ← hyu]; exact List.mem_map_of_mem hy)
    | false =>
      have : xs.map (fun x => if key x = u then f x else x) = xs := by
        conv_rhs => rw [← List.map_id xs]
        refine List.map_congr_left fun y hy => ?_
        rw [if_neg]
        · rfl
        · intro e
          have := List.any_eq_false.1 hx y hy
          exact this (decide_eq_true e)
      rw [if_neg (by simp), this]
      by_cases e : key x = u <;> simp [e]

theorem replaceLast_mem {l : List α} {y : α} (hy : y ∈ replaceLast h f l) : y ∈ l ∨ ∃ x ∈ l, h x = true ∧ y = f x := by
  cases hl : l.any h with
  | false => rw [replaceLast_none hl] at hy; exact .inl hy
  | true =>
    obtain ⟨l1, x, l2, e1, e2, e3, e4⟩ := replaceLast_at (f := f) hl
    rw [e4] at hy
    rw [e1]
    rcases List.mem_append.1 hy with hy | hy
    · exact .inl (List.mem_append_left _ hy)
    · rcases List.mem_cons.1 hy with hy | hy
      · exact .inr ⟨x, by simp, e2, hy⟩
      · exact .inl (List.mem_append_right _ (List.mem_cons_of_mem _ hy))

theorem replaceLast_length (l : List α) : (replaceLast h f l).length = l.length := by
  cases hl : l.any h with
  | false => rw [replaceLast_none hl]
  | true =>
    obtain ⟨l1, x, l2, e1, e2, e3, e4⟩ := replaceLast_at (f := f) hl
    rw [e4, e1]; simp

end
theorem replaceLast_filter {f : α → α} {q : α → Bool} (hq : ∀ x, h x = true → q x = true) (hf : ∀ x, q (f x) = q x) (l : List α) :
    (replaceLast h f l).filter q = replaceLast h f (l.filter q) := by
  cases hl : l.any h with
  | false =>
    rw [replaceLast_none hl, replaceLast_none]
    rw [List.any_eq_false] at hl ⊢
    exact fun x hx => hl x (List.mem_of_mem_filter hx)
  | true =>
    obtain ⟨l1, x, l2, rfl, h1, h2, h3⟩ := replaceLast_at (f := f) hl
    have h4 : (l2.filter q).any h = false := by
      rw [List.any_eq_false] at h2 ⊢
      exact fun x hx => h2 x (List.mem_of_mem_filter hx)
    rw [h3, List.filter_append, List.filter_append, List.filter_cons_of_pos (by rw [hf]; exact hq x h1),
      List.filter_cons_of_pos (hq x h1), replaceLast_append, if_pos (by simp [h1])]
    congr 1
    rw [replaceLast, if_neg (by rw [h4]; simp), if_pos h1]

end Pyzim
