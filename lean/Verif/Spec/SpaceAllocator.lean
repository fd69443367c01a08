import Verif.Model.SpaceAllocator

/-!
# Specification vocabulary for the space allocator

Bytes of the file are natural numbers. `used x` says that byte `x` is in use: it belonged to the
file when the allocator was created, or was handed out since, and has not been freed since.
-/

namespace Pyzim.SpaceAllocator

/-- byte `x` lies in the range of `b.2` bytes starting at `b.1` -/
def InBlock (b : Block) (x : Nat) : Prop := b.1 ≤ x ∧ x < b.1 + b.2

/-- byte `x` lies in one of the ranges -/
def Covered (bs : List Block) (x : Nat) : Prop := ∃ b ∈ bs, InBlock b x

/-- `History e s used`: there is a history of calls starting with `SpaceAllocator(file_end=e)`
after which the allocator is in state `s` and exactly the bytes `x` with `used x` are in use.
Only space that is in use may be freed. -/
inductive History (e : Nat) : SpaceAllocator → (Nat → Prop) → Prop
  | start : History e (SpaceAllocator.new e) (fun x => x < e)
  | alloc {s : SpaceAllocator} {used : Nat → Prop} (n : Nat) : History e s used →
      History e (s.allocate n).2 (fun x => used x ∨ InBlock ((s.allocate n).1, n) x)
  | free {s : SpaceAllocator} {used : Nat → Prop} (start length : Nat) : History e s used →
      (∀ x, InBlock (start, length) x → used x) →
      History e (s.markFree start length) (fun x => used x ∧ ¬ InBlock (start, length) x)

/-- Calls of a client which only frees whole ranges it got before. -/
inductive Call
  | alloc (n : Nat)
  /-- free the `k`-th range of the list of live ranges (nothing happens if there is none) -/
  | freeNth (k : Nat)

/-- Run a client; the second component lists the live ranges, most recent first. -/
def runCall : SpaceAllocator × List Block → Call → SpaceAllocator × List Block
  | (s, live), .alloc n => ((s.allocate n).2, ((s.allocate n).1, n) :: live)
  | (s, live), .freeNth k =>
    match live[k]? with
    | some (start, length) => (s.markFree start length, live.eraseIdx k)
    | none => (s, live)

/-- Run all calls of a client on a fresh allocator. -/
def runCalls (e : Nat) (calls : List Call) : SpaceAllocator × List Block :=
  calls.foldl runCall (SpaceAllocator.new e, [])

/-- two ranges have no byte in common -/
def Disjoint (a b : Block) : Prop := ∀ x, ¬ (InBlock a x ∧ InBlock b x)

end Pyzim.SpaceAllocator
