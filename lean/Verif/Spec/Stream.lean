import Verif.Model.Compression

/-!
# What a streaming decompressor is expected to do, and what reading from a stream means

Nothing here mentions the code of the reader.
-/

namespace Pyzim

/-- The streaming contract. `raw` is everything found in the file from the start of the compressed
stream on, `plain` the data it decompresses to. `R d k j` relates a state of the decompressor to
the number `k` of bytes of `raw` fed so far and the number `j` of bytes of `plain` returned so
far. -/
structure Streams {D : Type} (C : Decomp D) (d₀ : D) (raw plain : Bytes)
    (R : D → Nat → Nat → Prop) : Prop where
  init : R d₀ 0 0
  bound : ∀ d k j, R d k j → k ≤ raw.length ∧ j ≤ plain.length
  /-- The end is only reported when everything has been delivered. -/
  eof_done : ∀ d k j, R d k j → C.eof d = true → j = plain.length
  /-- Fed according to `needs_input` with the next bytes and asked for at least one byte, it returns
  the next bytes of `plain` (not necessarily respecting the limit). An empty answer means that
  more input is needed, or that everything has been delivered. -/
  step : ∀ d k j x m, R d k j → C.eof d = false → 0 < m →
    ((C.needsInput d = true ∧ x ≠ []) ∨ (C.needsInput d = false ∧ x = [])) →
    x <+: raw.drop k →
    ∃ y d', C.decompress d x m = (.ok y, d') ∧ y <+: plain.drop j ∧
      R d' (k + x.length) (j + y.length) ∧
      (y = [] → (C.needsInput d' = true ∧ C.eof d' = false) ∨
        (C.needsInput d' = false ∧ j = plain.length))
  /-- It asks for more than there is only when everything has been delivered. -/
  starved : ∀ d j, R d raw.length j → C.needsInput d = true → C.eof d = false → j = plain.length

/-- The stream knows its end: it never asks for more input than there is. True of compressed
streams, not of the passthrough "compression". -/
def Closed {D : Type} (C : Decomp D) (raw : Bytes) (R : D → Nat → Nat → Prop) : Prop :=
  ∀ d j, R d raw.length j → C.needsInput d = true → C.eof d = true

/-- The compressed stream occupies the first `size` bytes of `raw`: when there is nothing left to
deliver the decompressor notices the end, and then it reports exactly the surplus as unused. -/
structure Occupies {D : Type} (C : Decomp D) (raw : Bytes) (R : D → Nat → Nat → Prop) (size : Nat) :
    Prop where
  ends : ∀ d k j x m d', R d k j → C.eof d = false → 0 < m →
    ((C.needsInput d = true ∧ x ≠ []) ∨ (C.needsInput d = false ∧ x = [])) →
    x <+: raw.drop k → C.decompress d x m = (.ok [], d') → C.needsInput d' = false →
    C.eof d' = true
  surplus : ∀ d k j, R d k j → C.eof d = true → k = size + (C.unusedData d).1.length
  unused : ∀ d k j, R d k j → C.eof d = true → R (C.unusedData d).2 k j

/-- Calls on a reader. `disturb p`: other code moves the file to position `p`, then the owner calls
`reseek`. -/
inductive ReadOp
  | read (n extra : Nat)
  | readN (n : Nat)
  | iterRead (n : Int) (buffersize calls : Nat)
  | skip (n : Nat)
  | skipTo (offset : Nat)
  | disturb (p : Nat)

/-- What a call returns: some chunks, whether an iterator was exhausted, or an exception. -/
abbrev ReadOut := PyRes (List Bytes × Bool)

/-- `ReadSpec plain closed p op out p'`: on a reader standing at position `p` of the stream
`plain`, `out` is a correct result of `op` which leaves the reader at `p'`. On a stream that does
not know its end (`closed` false) running into the end may raise an `IOError`. -/
def ReadSpec (plain : Bytes) (closed : Prop) (p : Nat) : ReadOp → ReadOut → Nat → Prop
  | .read n _, out, p' =>
    (∃ y b, out = .ok ([y], b) ∧ y <+: plain.drop p ∧ y.length ≤ n ∧ p' = p + y.length ∧
      (y = [] → p = plain.length)) ∨
    (out = .error .ioError ∧ ¬ closed ∧ p = plain.length ∧ p' = p)
  | .readN n, out, p' =>
    (∃ b, out = .ok ([(plain.drop p).take n], b) ∧ p' = min (p + n) plain.length) ∨
    (out = .error .ioError ∧ ¬ closed ∧ plain.length < p + n ∧ p' = plain.length)
  | .iterRead n bs k, out, p' =>
    (∃ cs fin, out = .ok (cs, fin) ∧ cs.flatten <+: plain.drop p ∧ p' = p + cs.flatten.length ∧
      (∀ c ∈ cs, c ≠ [] ∧ c.length ≤ bs) ∧ cs.length ≤ k ∧
      (0 ≤ n → cs.flatten.length ≤ n.toNat) ∧
      (fin = false → cs.length = k) ∧
      (fin = true → p' = plain.length ∨ (0 ≤ n ∧ cs.flatten.length = n.toNat))) ∨
    (out = .error .ioError ∧ ¬ closed ∧ (0 ≤ n → plain.length < p + n.toNat) ∧ p' = plain.length)
  | .skip n, out, p' =>
    (∃ x, out = .ok x ∧ p' = min (p + n) plain.length) ∨
    (out = .error .ioError ∧ ¬ closed ∧ plain.length < p + n ∧ p' = plain.length)
  | .skipTo o, out, p' =>
    (o < p ∧ out = .error .ioError ∧ p' = p) ∨
    (p ≤ o ∧ ∃ x, out = .ok x ∧ p' = min o plain.length) ∨
    (p ≤ o ∧ out = .error .ioError ∧ ¬ closed ∧ plain.length < o ∧ p' = plain.length)
  | .disturb _, out, p' => (∃ x, out = .ok x) ∧ p' = p

/-- A whole history of calls, with the position reported after each call. -/
inductive ReadTrace (plain : Bytes) (closed : Prop) : Nat → List (ReadOp × ReadOut × Nat) → Prop
  | nil (p) : ReadTrace plain closed p []
  | cons {p op out p' rest} : ReadSpec plain closed p op out p' →
      ReadTrace plain closed p' rest → ReadTrace plain closed p ((op, out, p') :: rest)

end Pyzim

namespace Pyzim

/-- Expected behaviour of `zlib.decompressobj` (external). `R z k j`: `k` bytes of `raw` have been
presented so far (the unconsumed tail is presented again with each call and counted once), `j`
bytes of `plain` have been returned. -/
structure ZlibStreams {Z : Type} (O : ZlibObj Z) (z₀ : Z) (raw plain : Bytes)
    (R : Z → Nat → Nat → Prop) : Prop where
  init : R z₀ 0 0
  tail₀ : O.unconsumedTail z₀ = []
  bound : ∀ z k j, R z k j → k ≤ raw.length ∧ j ≤ plain.length
  eof_done : ∀ z k j, R z k j → O.eof z = true → j = plain.length
  /-- With a limit `m > 0` at most `m` bytes are returned; nothing is returned only if all input was
  consumed or the end has been reached. -/
  step : ∀ z k j x m, R z k j → O.eof z = false → 0 < m → x <+: raw.drop k →
    (x ≠ [] ∨ O.unconsumedTail z ≠ []) →
    ∃ y z', O.decompress z (O.unconsumedTail z ++ x) m = (.ok y, z') ∧ y <+: plain.drop j ∧
      y.length ≤ m ∧ R z' (k + x.length) (j + y.length) ∧
      (y = [] → O.unconsumedTail z' = [] ∨ O.eof z' = true)
  /-- The stream and at least one byte behind it lie in `raw`. -/
  closed : ∀ z j, R z raw.length j → O.unconsumedTail z = [] → O.eof z = true

/-- Expected behaviour of `zstandard.ZstdDecompressionObj` (external). The last clause says that
the end of the frame is never reached by a call that returns nothing. -/
structure ZstdStreams {Z : Type} (O : ZstdObj Z) (z₀ : Z) (raw plain : Bytes)
    (R : Z → Nat → Nat → Prop) : Prop where
  init : R z₀ 0 0
  bound : ∀ z k j, R z k j → k ≤ raw.length ∧ j ≤ plain.length
  eof_done : ∀ z k j, R z k j → O.eof z = true → j = plain.length
  step : ∀ z k j x, R z k j → O.eof z = false → x ≠ [] → x <+: raw.drop k →
    ∃ y z', O.decompress z x = (.ok y, z') ∧ y <+: plain.drop j ∧
      R z' (k + x.length) (j + y.length) ∧ (y = [] → O.eof z' = false)
  closed : ∀ z j, R z raw.length j → O.eof z = true

/-- A history of `decompress(data, max_length)` calls made according to `needs_input`, with
positive limits, up to the end of the stream; the outputs in order. `fed` is what was fed. -/
inductive Fed {D : Type} (C : Decomp D) : D → List (Bytes × Nat) → Bytes → List Bytes → D → Prop
  | nil (d) : Fed C d [] [] [] d
  | cons {d d' d'' : D} {x y : Bytes} {m : Nat} {rest fed outs} :
      C.eof d = false → 0 < m →
      ((C.needsInput d = true ∧ x ≠ []) ∨ (C.needsInput d = false ∧ x = [])) →
      C.decompress d x m = (.ok y, d') → Fed C d' rest fed outs d'' →
      Fed C d ((x, m) :: rest) (x ++ fed) (y :: outs) d''

end Pyzim
