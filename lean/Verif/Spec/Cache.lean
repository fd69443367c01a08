import Verif.Model.Cache

/-!
# What caches are expected to do

The caches are used through their five methods only; a history is a list of calls. The functions
below look at the history (or at plain lists), not at the data structures of the caches.
-/

namespace Pyzim

/-- A call of a cache method (`has` changes nothing and is left out). -/
inductive CacheOp (K V : Type)
  | get (k : K)
  | push (k : K) (v : V) (allow : Bool)
  | remove (k : K) (leave : Bool)
  | clear (leave : Bool)

/-- The methods of a kind of cache. -/
structure CacheImpl (C K V : Type) where
  has : C → K → Bool
  get : K → PyM C V
  push : K → V → Bool → PyM C Bool
  remove : K → Bool → PyM C Unit
  clear : Bool → C → C

/-- The exception raised by a call, if any. -/
def CacheImpl.raised {C K V : Type} (I : CacheImpl C K V) (c : C) : CacheOp K V → Option PyErr
  | .get k => match (I.get k c).1 with | .error e => some e | .ok _ => none
  | .push k v a => match (I.push k v a c).1 with | .error e => some e | .ok _ => none
  | .remove k l => match (I.remove k l c).1 with | .error e => some e | .ok _ => none
  | .clear _ => none

/-- The cache after a call. -/
def CacheImpl.step {C K V : Type} (I : CacheImpl C K V) (c : C) : CacheOp K V → C
  | .get k => (I.get k c).2
  | .push k v a => (I.push k v a c).2
  | .remove k l => (I.remove k l c).2
  | .clear l => I.clear l c

/-- The cache after a history of calls (whether they raised or not). -/
def CacheImpl.run {C K V : Type} (I : CacheImpl C K V) (c : C) (ops : List (CacheOp K V)) : C :=
  ops.foldl I.step c

/-- The three kinds of caches. -/
def lastCacheImpl (K V : Type) [DecidableEq K] : CacheImpl (LastCache K V) K V :=
  ⟨LastCache.has, LastCache.get, LastCache.push, LastCache.remove, LastCache.clear⟩

def topCacheImpl (K V : Type) [DecidableEq K] : CacheImpl (TopCache K V) K V :=
  ⟨TopCache.has, TopCache.get, TopCache.push, TopCache.remove, TopCache.clear⟩

def hybridCacheImpl (K V : Type) [DecidableEq K] : CacheImpl (HybridCache K V) K V :=
  ⟨HybridCache.has, HybridCache.get, HybridCache.push, HybridCache.remove, HybridCache.clear⟩

def noOpCacheImpl (K V : Type) : CacheImpl NoOpCache K V :=
  ⟨NoOpCache.has, NoOpCache.get, NoOpCache.push, NoOpCache.remove, NoOpCache.clear⟩

section History
variable {K V : Type} [DecidableEq K]

/-- The value last pushed for `k`. -/
def lastPushed (k : K) (ops : List (CacheOp K V)) : Option V :=
  ops.foldl (fun acc op => match op with
    | .push k' v _ => if k' = k then some v else acc
    | _ => acc) none

/-- How often `k` was accessed (`get` or `push`) since the cache was cleared last. -/
def accesses (k : K) (ops : List (CacheOp K V)) : Nat :=
  ops.foldl (fun n op => match op with
    | .push k' _ _ => if k' = k then n + 1 else n
    | .get k' => if k' = k then n + 1 else n
    | .clear _ => 0
    | .remove _ _ => n) 0

/-- The values pushed for `k` since it was removed, or the cache was cleared, last. -/
def pushedSince (k : K) (ops : List (CacheOp K V)) : List V :=
  ops.foldl (fun l op => match op with
    | .push k' v _ => if k' = k then l ++ [v] else l
    | .remove k' _ => if k' = k then [] else l
    | .clear _ => []
    | .get _ => l) []

end History

/-! ### The least-recently-used cache as a list, the most recently used pair first -/

/-- An abstract cache: the pairs, and the pairs handed to the leave callback so far. -/
structure Lru (K V : Type) where
  items : List (K × V)
  left : List (K × V)

namespace Lru
variable {K V : Type} [DecidableEq K]

/-- All pairs but the one of key `k`. -/
def without (k : K) (l : List (K × V)) : List (K × V) := l.filter fun p => decide (p.1 ≠ k)

/-- The pair of key `k`. -/
def only (k : K) (l : List (K × V)) : List (K × V) := l.filter fun p => decide (p.1 = k)

/-- Looking up a key moves its pair to the front. -/
def get (k : K) (s : Lru K V) : PyRes V × Lru K V :=
  match s.items.lookup k with
  | none => (.error .keyError, s)
  | some v => (.ok v, { s with items := (k, v) :: without k s.items })

/-- A pushed pair goes to the front; what exceeds the size limit leaves at the end. With
`allow = false` only pairs of known keys are replaced. -/
def push (n : Nat) (k : K) (v : V) (allow : Bool) (s : Lru K V) : PyRes Bool × Lru K V :=
  if (s.items.lookup k).isSome then (.ok true, { s with items := (k, v) :: without k s.items })
  else if allow then
    (.ok true, { items := ((k, v) :: s.items).take n
                 left := s.left ++ ((k, v) :: s.items).drop n })
  else (.ok false, s)

/-- Removing a key. -/
def remove (k : K) (leave : Bool) (s : Lru K V) : PyRes Unit × Lru K V :=
  (.ok (), { items := without k s.items
             left := s.left ++ if leave then only k s.items else [] })

/-- Clearing. -/
def clear (leave : Bool) (s : Lru K V) : Lru K V :=
  { items := [], left := s.left ++ if leave then s.items else [] }

end Lru

/-- The abstract cache as a kind of cache. -/
def lruImpl (K V : Type) [DecidableEq K] (n : Nat) : CacheImpl (Lru K V) K V :=
  ⟨fun s k => (s.items.lookup k).isSome, Lru.get, Lru.push n, Lru.remove, Lru.clear⟩

end Pyzim
