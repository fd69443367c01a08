import Verif.Spec.Strategy
import Verif.Props.ModCluster

/-!
# A compression that satisfies the assumptions

Used in examples. Every byte is preceded by a 1, and a 0 is the end.
-/

namespace Pyzim
namespace Toy

/-- A decompressor: whether there was a 1, whether there was the end, and what was behind it. -/
structure Esc where
  half : Bool := false
  done : Bool := false
  unused : Bytes := []

def Esc.feed : Esc → Bytes → Bytes × Esc
  | s, [] => ([], s)
  | s, b :: bs =>
    if s.done then Esc.feed { s with unused := s.unused ++ [b] } bs
    else if s.half then
      let r := Esc.feed { s with half := false } bs
      (b :: r.1, r.2)
    else if b = 0 then Esc.feed { s with done := true } bs
    else Esc.feed { s with half := true } bs

/-- the compressed data -/
def enc (plain : Bytes) : Bytes := plain.flatMap (fun b => [1, b]) ++ [0]

theorem feed_cons (s : Esc) (b : UInt8) (bs : Bytes) : s.feed (b :: bs) =
    if s.done then Esc.feed { s with unused := s.unused ++ [b] } bs
    else if s.half then (b :: (Esc.feed { s with half := false } bs).1, (Esc.feed { s with half := false } bs).2)
    else if b = 0 then Esc.feed { s with done := true } bs
    else Esc.feed { s with half := true } bs := rfl

theorem feed_append (s : Esc) (a b : Bytes) :
    s.feed (a ++ b) = ((s.feed a).1 ++ ((s.feed a).2.feed b).1, ((s.feed a).2.feed b).2) := by
  induction a generalizing s with
  | nil => simp [Esc.feed]
  | cons x a ih =>
    rw [List.cons_append, feed_cons, feed_cons s x a]
    split
    · rw [ih]
    · split
      · rw [ih]; rfl
      · split <;> rw [ih]

theorem feed_done (h : Bool) (u x : Bytes) : Esc.feed ⟨h, true, u⟩ x = ([], ⟨h, true, u ++ x⟩) := by
  induction x generalizing u with
  | nil => simp [Esc.feed]
  | cons b x ih =>
    rw [feed_cons, if_pos rfl, ih]
    simp

theorem feed_done' {s : Esc} (h : s.done = true) (x : Bytes) : s.feed x = ([], { s with unused := s.unused ++ x }) := by
  obtain ⟨a, b, c⟩ := s
  cases h
  exact feed_done a c x

theorem feed_enc (plain rest : Bytes) : Esc.feed {} (enc plain ++ rest) = (plain, ⟨false, true, rest⟩) := by
  unfold enc
  induction plain with
  | nil =>
    show Esc.feed {} (0 :: rest) = _
    rw [feed_cons]
    simp [feed_done]
  | cons b plain ih =>
    show Esc.feed {} (1 :: b :: (plain.flatMap (fun b => [1, b]) ++ [0] ++ rest)) = _
    rw [feed_cons, if_neg (by simp), if_neg (by simp), if_neg (by decide), feed_cons, if_neg (by simp), if_pos rfl]
    show (b :: (Esc.feed {} (plain.flatMap (fun b => [1, b]) ++ [0] ++ rest)).1,
      (Esc.feed {} (plain.flatMap (fun b => [1, b]) ++ [0] ++ rest)).2) = _
    rw [ih]

/-- the bytes as they are, or this compression -/
def ops : Decomp (Bytes ⊕ Esc) where
  eof d := match d with | .inl d => passthrough.eof d | .inr s => s.done
  needsInput d := match d with | .inl d => passthrough.needsInput d | .inr s => !s.done
  unusedData d := match d with
    | .inl d => ((passthrough.unusedData d).1, .inl (passthrough.unusedData d).2)
    | .inr s => (s.unused, .inr s)
  decompress d x m := match d with
    | .inl d => ((passthrough.decompress d x m).1, .inl (passthrough.decompress d x m).2)
    | .inr s => (.ok (s.feed x).1, .inr (s.feed x).2)

def codecs : Codecs (Bytes ⊕ Esc) where
  ops := ops
  new t := match t with
    | .none => .ok (.inl [])
    | .zstd => .ok (.inr {})
    | _ => .error .unsupportedCompression

def compressors : Compressors Bool where
  new t := match t with
    | .none => .ok false
    | .zstd => .ok true
    | _ => .error .unsupportedCompression
  compress k c := (.ok (if k then c.flatMap (fun b => [1, b]) else c), k)
  flush k := .ok (if k then [0] else [])

theorem compresses {k : Bool} {cs : List Bytes} {out : Bytes} :
    Compresses compressors k cs out ↔ out = if k then enc cs.flatten else cs.flatten := by
  constructor
  · intro h
    induction h with
    | @flush k out h => cases h; cases k <;> rfl
    | @chunk k k' c o out cs h _ ih =>
      cases h
      cases k <;> simp [ih, enc]
  · rintro rfl
    induction cs with
    | nil =>
      have : Compresses compressors k [] (if k then [0] else []) := .flush rfl
      cases k <;> exact this
    | cons c cs ih =>
      have : Compresses compressors k (c :: cs) ((if k then c.flatMap (fun b => [1, b]) else c) ++
          if k then enc cs.flatten else cs.flatten) := .chunk rfl ih
      cases k <;> simpa [enc] using this

/-- where a decompressor is -/
def At (plain rest : Bytes) (d : Bytes ⊕ Esc) (k j : Nat) : Prop :=
  ∃ s, d = .inr s ∧ k ≤ (enc plain ++ rest).length ∧ j ≤ plain.length ∧
    Esc.feed {} ((enc plain ++ rest).take k) = (plain.take j, s)

theorem At.rest {plain rest : Bytes} {s : Esc} {k j : Nat} (h : At plain rest (.inr s) k j) :
    plain.drop j = (s.feed ((enc plain ++ rest).drop k)).1 ∧ (s.feed ((enc plain ++ rest).drop k)).2 = ⟨false, true, rest⟩ := by
  obtain ⟨_, h0, h1, h2, h3⟩ := h
  cases h0
  have h4 := feed_enc plain rest
  conv at h4 => lhs; rw [← List.take_append_drop k (enc plain ++ rest)]
  rw [feed_append, h3] at h4
  injection h4 with h4 h5
  refine ⟨?_, h5⟩
  have h6 : plain.take j ++ plain.drop j = plain.take j ++ (s.feed ((enc plain ++ rest).drop k)).1 := by
    rw [h4, List.take_append_drop]
  exact List.append_cancel_left h6

theorem At.done {plain rest : Bytes} {s : Esc} {k j : Nat} (h : At plain rest (.inr s) k j) (hd : s.done = true) :
    j = plain.length ∧ k = (enc plain).length + s.unused.length := by
  have h1 := h.rest
  rw [feed_done' hd] at h1
  obtain ⟨_, _, hk, hj, -⟩ := h
  have h2 := congrArg List.length h1.1
  have h3 := congrArg (fun s : Esc => s.unused.length) h1.2
  simp only [List.length_drop, List.length_nil, List.length_append] at h2 h3 hk
  omega

theorem At.step {plain rest : Bytes} {s : Esc} {k j : Nat} (h : At plain rest (.inr s) k j) {x : Bytes}
    (hx : x <+: (enc plain ++ rest).drop k) :
    (s.feed x).1 <+: plain.drop j ∧ At plain rest (.inr (s.feed x).2) (k + x.length) (j + (s.feed x).1.length) := by
  obtain ⟨t, ht⟩ := hx
  have h1 := h.rest.1
  rw [← ht, feed_append] at h1
  have hpre : (s.feed x).1 <+: plain.drop j := ⟨_, h1.symm⟩
  refine ⟨hpre, ?_⟩
  obtain ⟨_, h0, hk, hj, hf⟩ := h
  cases h0
  have hxl : k + x.length ≤ (enc plain ++ rest).length := by
    have := congrArg List.length ht
    simp only [List.length_append, List.length_drop] at this ⊢
    simp only [List.length_append] at hk
    omega
  refine ⟨_, rfl, hxl, ?_, ?_⟩
  · have := hpre.length_le
    rw [List.length_drop] at this
    omega
  · rw [List.take_add, ← ht, List.take_left' rfl, feed_append, hf, List.take_add]
    obtain ⟨w, hw⟩ := hpre
    rw [← hw, List.take_left' rfl]

theorem streams (plain rest : Bytes) : Streams ops (.inr {}) (enc plain ++ rest) plain (At plain rest) where
  init := ⟨{}, rfl, Nat.zero_le _, Nat.zero_le _, rfl⟩
  bound := by rintro d k j ⟨s, -, h1, h2, -⟩; exact ⟨h1, h2⟩
  eof_done := by
    intro d k j h he
    obtain ⟨s, rfl, -⟩ := id h
    exact (h.done he).1
  step := by
    intro d k j x m h he _ hn hx
    obtain ⟨s, rfl, -⟩ := id h
    obtain ⟨h1, h2⟩ := h.step hx
    refine ⟨_, _, rfl, h1, h2, fun hy => ?_⟩
    cases hd : (s.feed x).2.done with
    | false => exact .inl ⟨by simp [ops, hd], by simp [ops, hd]⟩
    | true =>
      have := (h2.done hd).1
      rw [hy] at this
      exact .inr ⟨by simp [ops, hd], this⟩
  starved := by
    intro d j h hn he
    obtain ⟨s, rfl, -⟩ := id h
    have := h.rest.2
    rw [List.drop_length] at this
    simp only [Esc.feed] at this
    rw [this] at hn
    cases hn

theorem closed (plain rest : Bytes) : Closed ops (enc plain ++ rest) (At plain rest) := by
  intro d j h hn
  obtain ⟨s, rfl, -⟩ := id h
  have := h.rest.2
  rw [List.drop_length] at this
  simp only [Esc.feed] at this
  rw [this] at hn
  cases hn

theorem occupies (plain rest : Bytes) : Occupies ops (enc plain ++ rest) (At plain rest) (enc plain).length where
  ends := by
    intro d k j x m d' h _ _ _ _ hd hn
    obtain ⟨s, rfl, -⟩ := h
    injection hd with _ hd
    subst hd
    simpa [ops] using hn
  surplus := by
    intro d k j h he
    obtain ⟨s, rfl, -⟩ := id h
    exact (h.done he).2
  unused := by
    intro d k j h he
    obtain ⟨s, rfl, -⟩ := id h
    exact h

theorem zstd_sealed : Sealed codecs compressors .zstd where
  streams k hk chunks out h rest := by
    cases hk
    rw [compresses] at h
    subst h
    exact ⟨.inr {}, _, rfl, streams _ _, closed _ _, occupies _ _⟩
  works k _ chunks := ⟨_, compresses.2 rfl⟩
  even k _ chunks chunks' out out' h h' he := by
    rw [compresses] at h h'
    rw [h, h', he]

theorem passthrough_inl {raw plain : Bytes} {d₀ : Bytes} {R : Bytes → Nat → Nat → Prop} (h : Streams passthrough d₀ raw plain R) :
    Streams ops (.inl d₀) raw plain (fun d k j => ∃ d', d = .inl d' ∧ R d' k j) where
  init := ⟨_, rfl, h.init⟩
  bound := by rintro d k j ⟨d', rfl, hr⟩; exact h.bound _ _ _ hr
  eof_done := by rintro d k j ⟨d', rfl, hr⟩ he; exact h.eof_done _ _ _ hr he
  step := by
    rintro d k j x m ⟨d', rfl, hr⟩ he hm hn hx
    obtain ⟨y, d2, h1, h2, h3, h4⟩ := h.step _ _ _ x m hr he hm hn hx
    exact ⟨y, .inl d2, by simp [ops, h1], h2, ⟨d2, rfl, h3⟩, h4⟩
  starved := by rintro d j ⟨d', rfl, hr⟩ hn he; exact h.starved _ _ hr hn he

theorem replaceable : Replaceable codecs compressors where
  plain := {
    works := fun k _ chunks => ⟨_, compresses.2 rfl⟩
    same := fun k hk chunks out h => by
      cases hk
      exact compresses.1 h
    reads := fun raw => ⟨.inl [], _, rfl, passthrough_inl (C25_passthrough_streams raw)⟩ }
  other t ht := by
    cases t with
    | none => exact absurd rfl ht
    | zstd => exact zstd_sealed
    | _ => exact ⟨fun k hk => (by cases hk), fun k hk => (by cases hk), fun k hk => (by cases hk)⟩

theorem _root_.Pyzim.Sealed.lossless {D K : Type} {X : Codecs D} {C : Compressors K} {t : CompressionType} (h : Sealed X C t) :
    Lossless X C t := by
  intro k hk chunks out ho rest _
  obtain ⟨d, R, h1, h2, -⟩ := h.streams k hk chunks out ho rest
  exact ⟨d, [], R, h1, by rw [List.append_nil]; exact h2⟩

theorem zstd_working : Working codecs compressors .zstd :=
  ⟨by decide, ⟨true, rfl, fun cs => ⟨_, compresses.2 rfl⟩⟩, zstd_sealed.lossless⟩

theorem none_working : Working codecs compressors .none := by
  refine ⟨by decide, ⟨false, rfl, fun cs => ⟨_, compresses.2 rfl⟩⟩, ?_⟩
  intro k hk chunks out ho rest _
  cases hk
  have h1 := compresses.1 ho
  simp only [Bool.false_eq_true, if_false] at h1
  subst h1
  exact ⟨.inl [], rest, _, rfl, passthrough_inl (C25_passthrough_streams _)⟩

end Toy
end Pyzim
