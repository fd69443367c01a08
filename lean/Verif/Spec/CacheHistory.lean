import Verif.Spec.Cache

/-!
# Observing a cache over a history of calls

Everything here is said in terms of the results of `has`, `get`, `push`, `remove`, `clear` and of
the log of the leave callback.
-/

namespace Pyzim
variable {C K V : Type} [DecidableEq K]

/-- Whether a call asks for the leave callback (evictions always call it). -/
def CacheOp.reporting : CacheOp K V → Bool
  | .remove _ l => l
  | .clear l => l
  | _ => true

/-- The call only looks up or adds keys. -/
def CacheOp.keeps : CacheOp K V → Bool
  | .remove _ _ => false
  | .clear _ => false
  | _ => true

/-- At most `n` keys are cached. -/
def CacheImpl.AtMost (I : CacheImpl C K V) (c : C) (n : Nat) : Prop :=
  ∀ ks : List K, ks.Nodup → (∀ k ∈ ks, I.has c k = true) → ks.length ≤ n

/-- `get` returns the value last pushed for a cached key and raises `KeyError` for another. -/
def CacheImpl.Coherent (I : CacheImpl C K V) (c₀ : C) : Prop :=
  ∀ (ops : List (CacheOp K V)) (k : K),
    (I.has (I.run c₀ ops) k = true →
      ∃ v, (I.get k (I.run c₀ ops)).1 = .ok v ∧ lastPushed k ops = some v) ∧
    (I.has (I.run c₀ ops) k = false → (I.get k (I.run c₀ ops)).1 = .error .keyError)

/-- The calls of the leave callback: one for each pair that was cached before the call and whose
key is not cached any more, unless the caller asked for none. -/
def CacheImpl.Reports (I : CacheImpl C K V) (left : C → List (K × V)) (c : C) (op : CacheOp K V) :
    Prop :=
  ∃ gone, left (I.step c op) = left c ++ gone ∧ (gone.map Prod.fst).Nodup ∧
    (op.reporting = true → ∀ k v, (k, v) ∈ gone ↔
      ((I.get k c).1 = .ok v ∧ I.has (I.step c op) k = false)) ∧
    (op.reporting = false → gone = [])

/-- The key a call used: looked up successfully, or pushed and accepted. -/
def CacheImpl.useOf (I : CacheImpl C K V) (c : C) : CacheOp K V → Option K
  | .get k => match (I.get k c).1 with | .ok _ => some k | .error _ => none
  | .push k v a => match (I.push k v a c).1 with | .ok true => some k | _ => none
  | _ => none

/-- The keys used by the calls of a history, in order. -/
def CacheImpl.uses (I : CacheImpl C K V) (c : C) : List (CacheOp K V) → List K
  | [] => []
  | op :: ops => (I.useOf c op).toList ++ I.uses (I.step c op) ops

/-- The last use of `k` is before the last use of `j`. -/
def LessRecent (k j : K) (uses : List K) : Prop :=
  k ≠ j ∧ ∃ pre post, uses = pre ++ j :: post ∧ k ∉ post

/-- The distinct keys, the one used last first. -/
def mostRecent (us : List K) : List K :=
  us.foldl (fun acc k => k :: acc.filter fun j => decide (j ≠ k)) []

end Pyzim
