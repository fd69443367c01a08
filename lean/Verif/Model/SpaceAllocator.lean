/-!
# Model of `pyzim/spaceallocator.py`

Simplifications: the lock (line 64, 89, 151) is dropped, so each method is one atomic step;
logging is dropped.
-/

namespace Pyzim

/-- A block `(start, length)`; `pyzim/spaceallocator.py:27-44` (`free_blocks` entries). -/
abbrev Block := Nat × Nat

/-- State of a `SpaceAllocator`; `pyzim/spaceallocator.py:48-64`. -/
structure SpaceAllocator where
  freeBlocks : List Block
  fileEnd : Nat
deriving Repr, DecidableEq

namespace SpaceAllocator

/-- `SpaceAllocator(file_end=e)`; `pyzim/spaceallocator.py:48-64`. -/
def new (e : Nat) : SpaceAllocator := ⟨[], e⟩

/-- The loop of `pyzim/spaceallocator.py:91-96`. `best` is `(best_index, free_blocks[best_index])`,
i.e. the block is carried along instead of being read again at line 100; `min_size` is its
length. -/
def findBest (n : Nat) : List Block → Nat → Option (Nat × Block) → Option (Nat × Block)
  | [], _, best => best
  | (start, length) :: bs, index, best =>
    let take : Bool := match best with
      | none => true
      | some (_, (_, minSize)) => decide (length < minSize)
    if length ≥ n ∧ take then findBest n bs (index + 1) (some (index, (start, length)))
    else findBest n bs (index + 1) best

/-- `SpaceAllocator.allocate`; `pyzim/spaceallocator.py:66-130`. -/
def allocate (s : SpaceAllocator) (n : Nat) : Nat × SpaceAllocator :=
  if n = 0 then (s.fileEnd, s)                                       -- 84-86
  else
    match findBest n s.freeBlocks 0 none with
    | some (i, (start, length)) =>                                    -- 98-109
      if length > n then
        (start, { s with freeBlocks := s.freeBlocks.set i (start + n, length - n) })
      else
        (start, { s with freeBlocks := s.freeBlocks.eraseIdx i })
    | none =>
      match s.freeBlocks.getLast? with                                -- 112-115
      | some (start, length) =>
        if start + length = s.fileEnd then                            -- 116-124
          (start, { freeBlocks := s.freeBlocks.dropLast
                    fileEnd := s.fileEnd + max (n - length) 0 })
        else (s.fileEnd, { s with fileEnd := s.fileEnd + n })         -- 126-130
      | none => (s.fileEnd, { s with fileEnd := s.fileEnd + n })      -- 126-130

/-- The search for the insertion point; `pyzim/spaceallocator.py:155-160`. -/
def insertIndex (start : Nat) : List Block → Nat → Nat → Nat
  | [], _, idx => idx
  | (bs, _) :: rest, i, idx => insertIndex start rest (i + 1) (if bs ≤ start then i + 1 else idx)

/-- The merge loop after its first iteration; `prev` is `prev_block`, the list holds the blocks
not yet visited; `pyzim/spaceallocator.py:166-190`. -/
def mergeFrom (prev : Block) : List Block → List Block
  | [] => [prev]
  | b :: rest =>
    if prev.1 + prev.2 ≥ b.1 then
      mergeFrom (prev.1, max (prev.1 + prev.2) (b.1 + b.2) - prev.1) rest
    else prev :: mergeFrom b rest

/-- The whole merge loop; `pyzim/spaceallocator.py:166-190`. -/
def mergeBlocks : List Block → List Block
  | [] => []
  | b :: rest => mergeFrom b rest

/-- `SpaceAllocator.mark_free`; `pyzim/spaceallocator.py:132-192`. -/
def markFree (s : SpaceAllocator) (start length : Nat) : SpaceAllocator :=
  if length = 0 then s
  else
    let newBlocks := s.freeBlocks.insertIdx (insertIndex start s.freeBlocks 0 0) (start, length)
    { s with freeBlocks := mergeBlocks newBlocks }

end SpaceAllocator
end Pyzim
