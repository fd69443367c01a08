import Verif.Model.Base

namespace Pyzim
namespace PyM
variable {σ α β : Type}

theorem bind_ok {m : PyM σ α} {k : α → PyM σ β} {s s' : σ} {a : α} (h : m s = (.ok a, s')) :
    (m >>= k) s = k a s' := by
  show PyM.bind m k s = _
  simp [PyM.bind, h]

theorem bind_err {m : PyM σ α} {k : α → PyM σ β} {s s' : σ} {e : PyErr} (h : m s = (.error e, s')) :
    (m >>= k) s = (.error e, s') := by
  show PyM.bind m k s = _
  simp [PyM.bind, h]

@[simp] theorem get_bind (k : σ → PyM σ β) (s : σ) : (PyM.get >>= k) s = k s s := rfl
@[simp] theorem modify_bind (f : σ → σ) (k : Unit → PyM σ β) (s : σ) :
    (PyM.modify f >>= k) s = k () (f s) := rfl
@[simp] theorem lift_ok_bind (a : α) (k : α → PyM σ β) (s : σ) :
    (PyM.lift (.ok a) >>= k) s = k a s := rfl
@[simp] theorem lift_err_bind (e : PyErr) (k : α → PyM σ β) (s : σ) :
    (PyM.lift (.error e) >>= k) s = (.error e, s) := rfl
@[simp] theorem require_true_bind (e : PyErr) (k : Unit → PyM σ β) (s : σ) :
    (PyM.require true e >>= k) s = k () s := rfl
@[simp] theorem require_false_bind (e : PyErr) (k : Unit → PyM σ β) (s : σ) :
    (PyM.require false e >>= k) s = (.error e, s) := rfl
@[simp] theorem raise_bind (e : PyErr) (k : α → PyM σ β) (s : σ) :
    (PyM.raise e >>= k) s = (.error e, s) := rfl
@[simp] theorem pure_bind' (a : α) (k : α → PyM σ β) (s : σ) :
    ((pure a : PyM σ α) >>= k) s = k a s := rfl
@[simp] theorem of_apply (f : σ → PyRes α × σ) (s : σ) : PyM.of f s = f s := rfl
@[simp] theorem pure_apply (a : α) (s : σ) : (pure a : PyM σ α) s = (.ok a, s) := rfl
@[simp] theorem raise_apply (e : PyErr) (s : σ) : (PyM.raise e : PyM σ α) s = (.error e, s) := rfl
@[simp] theorem get_apply (s : σ) : (PyM.get : PyM σ σ) s = (.ok s, s) := rfl
@[simp] theorem modify_apply (f : σ → σ) (s : σ) : PyM.modify f s = (.ok (), f s) := rfl
@[simp] theorem lift_apply (x : PyRes α) (s : σ) : (PyM.lift x : PyM σ α) s = (x, s) := rfl

theorem pure_bind_fn (a : α) (k : α → PyM σ β) : ((pure a : PyM σ α) >>= k) = k a := rfl

theorem bind_ok_iff {m : PyM σ α} {k : α → PyM σ β} {s s' : σ} {b : β} :
    (m >>= k) s = (.ok b, s') ↔ ∃ a s1, m s = (.ok a, s1) ∧ k a s1 = (.ok b, s') := by
  show PyM.bind m k s = _ ↔ _
  unfold PyM.bind
  cases m s with
  | mk x s1 =>
    cases x with
    | error e => simp
    | ok a =>
      constructor
      · intro h; exact ⟨a, s1, rfl, h⟩
      · rintro ⟨a', s1', h1, h2⟩
        cases h1; exact h2

theorem bind_assoc' {γ : Type} (m : PyM σ α) (k : α → PyM σ β) (l : β → PyM σ γ) (s : σ) :
    ((m >>= k) >>= l) s = (m >>= fun a => k a >>= l) s := by
  show PyM.bind (PyM.bind m k) l s = PyM.bind m (fun a => PyM.bind (k a) l) s
  unfold PyM.bind
  cases m s with
  | mk x s' => cases x <;> rfl

theorem bind_assoc_fn {γ : Type} (m : PyM σ α) (k : α → PyM σ β) (l : β → PyM σ γ) :
    ((m >>= k) >>= l) = (m >>= fun a => k a >>= l) := funext fun s => bind_assoc' m k l s

end PyM
end Pyzim
