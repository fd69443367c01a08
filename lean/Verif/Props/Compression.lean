import Verif.Lemmas.Compression

/-!
# C24, C25: the decompressing reader and the decompressor wrappers
-/

namespace Pyzim
namespace DReader
variable {D : Type} {C : Decomp D} {d₀ : D} {raw plain : Bytes} {R : D → Nat → Nat → Prop}

/-- Perform one call (or disturb the file); pure dispatch to the modelled methods. -/
def perform (C : Decomp D) (base : Nat) : ReadOp → DReader D → PyFile →
    ReadOut × DReader D × PyFile
  | .read n extra, r, f =>
    let (x, r, f) := read C n extra r f; (x.map fun y => ([y], true), r, f)
  | .readN n, r, f => let (x, r, f) := readN C n r f; (x.map fun y => ([y], true), r, f)
  | .iterRead n bs k, r, f => iterRead C n bs k 0 r f
  | .skip n, r, f => let (x, r, f) := skip C n r f; (x.map fun _ => ([], true), r, f)
  | .skipTo o, r, f => let (x, r, f) := skipTo C o r f; (x.map fun _ => ([], true), r, f)
  | .disturb p, r, f => (.ok ([], true), r, reseek base r (f.seek p))

/-- Perform the calls one after the other, recording result and position after each. -/
def performAll (C : Decomp D) (base : Nat) : List ReadOp → DReader D → PyFile →
    List (ReadOp × ReadOut × Nat)
  | [], _, _ => []
  | op :: ops, r, f =>
    let (out, r, f) := perform C base op r f
    (op, out, r.readDecompressed) :: performAll C base ops r f

/-- Calls the interface allows: positive read sizes and buffer sizes. -/
def Allowed : ReadOp → Prop
  | .read n _ => 0 < n
  | .iterRead _ bs _ => 0 < bs
  | _ => True

theorem perform_spec (hS : Streams C d₀ raw plain R) {base : Nat} {op : ReadOp} (ha : Allowed op)
    {r : DReader D} {f : PyFile} (hI : Inv C raw plain R base r f) :
    ∃ out r' f', perform C base op r f = (out, r', f') ∧ Inv C raw plain R base r' f' ∧
      ReadSpec plain (Closed C raw R) r.readDecompressed op out r'.readDecompressed := by
  have hbd : r.readDecompressed ≤ plain.length := by
    have := (hS.bound _ _ _ hI.rel).2; omega
  cases op with
  | read n extra =>
    obtain ⟨res, r', f', h1, h2, _, h3⟩ := read_spec hS extra ha hI
    refine ⟨_, _, _, by simp only [perform, h1]; rfl, h2, ?_⟩
    rcases h3 with ⟨y, rfl, h3, h4, h5, h6⟩ | ⟨rfl, h3, h4, h5⟩
    · exact .inl ⟨y, true, rfl, h3, h4, h5, h6⟩
    · exact .inr ⟨rfl, h3, h4, h5⟩
  | readN n =>
    obtain ⟨res, r', f', h1, h2, _, h3⟩ := readN_spec hS n hI
    refine ⟨_, _, _, by simp only [perform, h1]; rfl, h2, ?_⟩
    rcases h3 with ⟨rfl, h3⟩ | ⟨rfl, h3, h4, h5⟩
    · exact .inl ⟨true, rfl, h3⟩
    · exact .inr ⟨rfl, h3, h4, h5⟩
  | iterRead n bs k =>
    obtain ⟨res, r', f', h1, h2, _, h3⟩ := iterRead_spec hS n bs ha k 0 r f hI
    refine ⟨_, _, _, by simp only [perform, h1]; rfl, h2, ?_⟩
    simpa [ReadSpec] using h3
  | skip n =>
    obtain ⟨res, r', f', h1, h2, _, h3⟩ := skip_spec hS n hI
    refine ⟨_, _, _, by simp only [perform, h1]; rfl, h2, ?_⟩
    rcases h3 with ⟨rfl, h3⟩ | ⟨rfl, h3, h4, h5⟩
    · exact .inl ⟨_, rfl, h3⟩
    · exact .inr ⟨rfl, h3, h4, h5⟩
  | skipTo o =>
    by_cases ho : r.readDecompressed ≤ o
    · obtain ⟨res, r', f', h1, h2, _, h3⟩ := skipTo_spec hS o hI ho
      refine ⟨_, _, _, by simp only [perform, h1]; rfl, h2, ?_⟩
      rcases h3 with ⟨rfl, h3⟩ | ⟨rfl, h3, h4, h5⟩
      · exact .inr (.inl ⟨ho, _, rfl, h3⟩)
      · exact .inr (.inr ⟨ho, rfl, h3, h4, h5⟩)
    · have h1 : skipTo C o r f = (.error .ioError, r, f) := by
        unfold skipTo; rw [if_pos (by omega)]
      refine ⟨_, _, _, by simp only [perform, h1]; rfl, hI, .inl ⟨by omega, rfl, rfl⟩⟩
  | disturb p =>
    exact ⟨_, _, _, rfl, ⟨hI.file, rfl, hI.rel, hI.buf⟩, ⟨_, rfl⟩, rfl⟩

/-- **C24.** A new reader over a file whose content from `base` on is `raw`: whatever calls are
made on it, every result and every reported position is what reading the stream `plain` means
(`ReadSpec`, `Spec/Stream.lean`). Nothing but the streaming contract is assumed of the
decompressor. -/
theorem C24_reader_faithful (hS : Streams C d₀ raw plain R) (f : PyFile) (base : Nat)
    (hf : f.data.drop base = raw) (hp : f.pos = base) (ops : List ReadOp)
    (ha : ∀ op ∈ ops, Allowed op) :
    ReadTrace plain (Closed C raw R) 0 (performAll C base ops { dec := d₀ } f) := by
  have hI : Inv C raw plain R base { dec := d₀ } f :=
    ⟨hf, hp, by simpa using hS.init, by simp⟩
  have key : ∀ (ops : List ReadOp) (r : DReader D) (f : PyFile),
      (∀ op ∈ ops, Allowed op) → Inv C raw plain R base r f →
      ReadTrace plain (Closed C raw R) r.readDecompressed (performAll C base ops r f) := by
    intro ops
    induction ops with
    | nil => intro r f _ _; exact .nil _
    | cons op ops ih =>
      intro r f ha hI
      obtain ⟨out, r', f', h1, h2, h3⟩ := perform_spec hS (ha op (by simp)) hI
      simp only [performAll, h1]
      exact .cons h3 (ih r' f' (fun o ho => ha o (by simp [ho])) h2)
  exact key ops _ f ha hI

/-- **C24.** On a stream that knows its end, `read_n` returns exactly `n` bytes or everything left,
and raises nothing. -/
theorem C24_read_n_exact (hS : Streams C d₀ raw plain R) (hC : Closed C raw R) {base : Nat}
    {r : DReader D} {f : PyFile} (hI : Inv C raw plain R base r f) (n : Nat) :
    ∃ r' f', readN C n r f = (.ok ((plain.drop r.readDecompressed).take n), r', f') ∧
      r'.readDecompressed = min (r.readDecompressed + n) plain.length := by
  obtain ⟨res, r', f', h1, _, _, h3⟩ := readN_spec hS n hI
  rcases h3 with ⟨rfl, h3⟩ | ⟨_, h3, _⟩
  · exact ⟨r', f', h1, h3⟩
  · exact absurd hC h3

/-- **C24.** At the end of a stream that knows its end, every read returns empty bytes, and the
reader stays at the end (so it does so for ever). -/
theorem C24_end_for_ever (hS : Streams C d₀ raw plain R) (hC : Closed C raw R) {base : Nat}
    {r : DReader D} {f : PyFile} (hI : Inv C raw plain R base r f)
    (hend : r.readDecompressed = plain.length) (n extra : Nat) (hn : 0 < n) :
    ∃ r' f', read C n extra r f = (.ok [], r', f') ∧ Inv C raw plain R base r' f' ∧
      r'.readDecompressed = plain.length := by
  obtain ⟨res, r', f', h1, h2, _, h3⟩ := read_spec hS extra hn hI
  rcases h3 with ⟨y, rfl, h3, h4, h5, _⟩ | ⟨_, h3, _⟩
  · have : y = [] := by
      rw [hend] at h3; simpa using h3
    subst this
    exact ⟨r', f', h1, h2, by simpa [hend] using h5⟩
  · exact absurd hC h3

/-- **C24.** Reading everything with `iter_read` from a stream that knows its end delivers exactly
the rest of the stream, in chunks of at most `buffersize` bytes. -/
theorem C24_iter_read_all (hS : Streams C d₀ raw plain R) (hC : Closed C raw R) {base : Nat}
    {r : DReader D} {f : PyFile} (hI : Inv C raw plain R base r f) (bs : Nat) (hbs : 0 < bs)
    (k : Nat) (hk : plain.length - r.readDecompressed < k) :
    ∃ cs r' f', iterRead C (-1) bs k 0 r f = (.ok (cs, true), r', f') ∧
      cs.flatten = plain.drop r.readDecompressed ∧ ∀ c ∈ cs, c ≠ [] ∧ c.length ≤ bs := by
  obtain ⟨res, r', f', h1, h2, _, h3⟩ := iterRead_spec hS (-1) bs hbs k 0 r f hI
  rcases h3 with ⟨cs, fin, rfl, h3, h4, h5, h6, _, h7, h8⟩ | ⟨_, h3, _⟩
  · have hbd : r'.readDecompressed ≤ plain.length := by
      have := (hS.bound _ _ _ h2.rel).2; omega
    have hcount : ∀ (l : List Bytes), (∀ c ∈ l, c ≠ []) → l.length ≤ l.flatten.length := by
      intro l
      induction l with
      | nil => simp
      | cons a l ih =>
        intro h
        have h1 := ih (fun c hc => h c (by simp [hc]))
        have h2 := List.length_pos_iff.2 (h a (by simp))
        simp only [List.length_cons, List.flatten_cons, List.length_append]; omega
    have hc := hcount cs (fun c hc => (h5 c hc).1)
    cases fin with
    | false => have := h7 rfl; omega
    | true =>
      refine ⟨cs, r', f', h1, ?_, h5⟩
      rcases h8 rfl with h | h
      · rw [prefix_take h3, List.take_of_length_le]
        rw [List.length_drop]; omega
      · exact absurd h.1 (by decide)
  · exact absurd hC h3

/-- The loop of `read` ends by itself: its result does not depend on the fuel once that exceeds the
number of bytes left in the file by two. No assumption on the decompressor is made. -/
theorem C24_read_loop_terminates (C : Decomp D) (n extra : Nat) (fuel fuel' : Nat) :
    ∀ (r : DReader D) (f : PyFile), f.data.length - f.pos + 1 < fuel →
      f.data.length - f.pos + 1 < fuel' →
      readLoop C n extra fuel r f = readLoop C n extra fuel' r f := by
  have key : ∀ (fuel fuel' : Nat) (r : DReader D) (f : PyFile),
      f.data.length - f.pos + (if C.needsInput r.dec then 0 else 1) < fuel →
      f.data.length - f.pos + (if C.needsInput r.dec then 0 else 1) < fuel' →
      readLoop C n extra fuel r f = readLoop C n extra fuel' r f := by
    intro fuel
    induction fuel with
    | zero => intro _ _ _ h; omega
    | succ fuel ih =>
      intro fuel' r f h h'
      cases fuel' with
      | zero => omega
      | succ fuel' =>
        unfold readLoop
        cases hne : C.needsInput r.dec with
        | true =>
          simp only [hne, if_true] at h h' ⊢
          simp only [Bool.true_and]
          by_cases hx : (f.read n).1 = []
          · simp [hx]
          · have hx' : (f.read n).1.isEmpty = false := by simpa using hx
            simp only [hx', Bool.false_eq_true, if_false]
            have hlen : 0 < (f.read n).1.length := List.length_pos_iff.2 hx
            have hlt : f.pos < f.data.length := by
              simp [PyFile.read] at hlen; omega
            have hpos : (f.read n).2.data = f.data ∧ (f.read n).2.pos = f.pos + (f.read n).1.length :=
              ⟨rfl, rfl⟩
            split
            · rfl
            · split
              · rename_i hc
                simp only [Bool.and_eq_true] at hc
                apply ih
                · simp only [hc.2, if_true, hpos]; omega
                · simp only [hc.2, if_true, hpos]; omega
              · rfl
        | false =>
          simp only [hne, Bool.false_eq_true, if_false] at h h' ⊢
          simp only [Bool.false_and, Bool.false_eq_true, if_false]
          split
          · rfl
          · split
            · rename_i hc
              simp only [Bool.and_eq_true] at hc
              apply ih
              · simp only [hc.2, if_true]; omega
              · simp only [hc.2, if_true]; omega
            · rfl
  intro r f h h'
  exact key fuel fuel' r f (by split <;> omega) (by split <;> omega)

end DReader

/-! ### C25: the wrappers -/

/-- **C25.** `PassthroughDecompressor` honours the streaming contract, with the stream itself as
the decompressed data. -/
theorem C25_passthrough_streams (raw : Bytes) :
    Streams passthrough [] raw raw
      (fun b k j => k ≤ raw.length ∧ j ≤ k ∧ b = (raw.drop j).take (k - j)) where
  init := by simp
  bound := by intro d k j h; omega
  eof_done := by intro d k j _ h; simp [passthrough] at h
  step := by
    intro d k j x m ⟨hk, hj, hd⟩ _ hm _ hx
    have hxl := hx.length_le
    simp only [List.length_drop] at hxl
    have hdl : d.length = k - j := by rw [hd]; simp; omega
    have hfull : d ++ x <+: raw.drop j := by
      refine DReader.prefix_drop_add (by rw [hd]; exact List.take_prefix _ _) ?_
      rw [hdl]; rw [show j + (k - j) = k by omega]; exact hx
    have hnot : ¬ m < 0 := by omega
    refine ⟨(d ++ x).take (min m.toNat (d ++ x).length), (d ++ x).drop (min m.toNat (d ++ x).length),
      ?_, ?_, ?_, ?_⟩
    · simp only [passthrough, if_neg hnot]
    · exact List.IsPrefix.trans (List.take_prefix _ _) hfull
    · generalize hq : min m.toNat (d ++ x).length = q
      have hqle : q ≤ k - j + x.length := by
        rw [← hq, List.length_append, hdl]; omega
      have hl : ((d ++ x).take q).length = q := by
        rw [List.length_take, List.length_append, hdl]; omega
      rw [hl]
      refine ⟨by omega, by omega, ?_⟩
      rw [DReader.prefix_take hfull, List.length_append, hdl, List.drop_take, List.drop_drop]
      congr 1; omega
    · intro hy
      have hmin : min m.toNat (d ++ x).length = 0 ∨ d ++ x = [] := by
        rcases List.take_eq_nil_iff.1 hy with h | h
        · exact .inl h
        · exact .inr h
      have hnil : d ++ x = [] := by
        rcases hmin with h | h
        · have : (d ++ x).length = 0 := by omega
          exact List.length_eq_zero_iff.1 this
        · exact h
      left
      rw [hnil]; simp [passthrough]
  starved := by
    intro d j ⟨_, hj, hd⟩ hn _
    have : d.length = raw.length - j := by rw [hd]; simp
    simp [passthrough] at hn
    rw [hn] at this; simp at this; omega

/-- **C25.** The passthrough decompressor never returns more than `max_length` bytes. -/
theorem C25_passthrough_limit (b data : Bytes) (m : Nat) (y b' : Bytes)
    (h : passthrough.decompress b data m = (.ok y, b')) : y.length ≤ m := by
  simp only [passthrough] at h
  rw [if_neg (by omega)] at h
  simp only [Prod.mk.injEq, Except.ok.injEq] at h
  rw [← h.1]; simp; omega

/-- **C25.** The zlib wrapper honours the streaming contract on every stream on which the wrapped
object behaves as documented. -/
theorem C25_zlib_streams {Z : Type} {O : ZlibObj Z} {z₀ : Z} {raw plain : Bytes}
    {R : Z → Nat → Nat → Prop} (h : ZlibStreams O z₀ raw plain R) :
    Streams (zlibWrapper O) (z₀, []) raw plain (fun s k j => s.2 = [] ∧ R s.1 k j) where
  init := ⟨rfl, h.init⟩
  bound := fun s k j hr => h.bound _ _ _ hr.2
  eof_done := fun s k j hr he => h.eof_done _ _ _ hr.2 he
  step := by
    intro ⟨z, b⟩ k j x m ⟨hb, hr⟩ he hm hx hxp
    simp only at hb; subst hb
    have hx' : x ≠ [] ∨ O.unconsumedTail z ≠ [] := by
      rcases hx with hx | ⟨hx, _⟩
      · exact .inl hx.2
      · right
        simp only [zlibWrapper] at hx he
        simp [he] at hx
        exact hx
    obtain ⟨y, z', h1, h2, h3, h4, h5⟩ := h.step z k j x m.toNat hr he (by omega) hxp hx'
    have hne : ¬ m < 0 := by omega
    refine ⟨y, (z', []), ?_, h2, ⟨rfl, h4⟩, ?_⟩
    · simp only [zlibWrapper, if_neg hne, List.length_nil, List.nil_append]
      rw [show (m - ((0 : Nat) : Int)).toNat = m.toNat by omega, h1]
      simp only [Nat.min_eq_right h3, List.take_length, List.drop_length]
    · intro hy
      cases he' : O.eof z' with
      | true =>
        right
        refine ⟨by simp [zlibWrapper, he'], ?_⟩
        have := h.eof_done _ _ _ h4 he'
        simpa [hy] using this
      | false =>
        left
        have ht : O.unconsumedTail z' = [] := by
          rcases h5 hy with h | h
          · exact h
          · rw [he'] at h; exact absurd h (by simp)
        exact ⟨by simp [zlibWrapper, he', ht], he'⟩
  starved := by
    intro ⟨z, b⟩ j ⟨hb, hr⟩ hn he
    simp only at hb; subst hb
    simp only [zlibWrapper] at hn he
    simp [he] at hn
    have := h.closed _ _ hr hn
    rw [he] at this; exact absurd this (by simp)

/-- **C25.** The zlib wrapper knows the end of the stream. -/
theorem C25_zlib_closed {Z : Type} {O : ZlibObj Z} {z₀ : Z} {raw plain : Bytes}
    {R : Z → Nat → Nat → Prop} (h : ZlibStreams O z₀ raw plain R) :
    Closed (zlibWrapper O) raw (fun s k j => s.2 = [] ∧ R s.1 k j) := by
  intro ⟨z, b⟩ j ⟨hb, hr⟩ hn
  simp only at hb; subst hb
  cases he : O.eof z with
  | true => exact he
  | false =>
    simp [zlibWrapper, he] at hn
    have := h.closed _ _ hr hn
    rw [he] at this; exact absurd this (by simp)

/-- **C25.** The zlib wrapper never returns more than `max_length` bytes (whatever the wrapped
object does). -/
theorem C25_zlib_limit {Z : Type} (O : ZlibObj Z) (s s' : Z × Bytes) (data : Bytes) (m : Nat)
    (y : Bytes) (h : (zlibWrapper O).decompress s data m = (.ok y, s')) : y.length ≤ m := by
  simp only [zlibWrapper] at h
  split at h
  · simp at h
  · rw [if_neg (by omega)] at h
    simp only [Prod.mk.injEq, Except.ok.injEq] at h
    rw [← h.1]; simp; omega

/-- **C25.** The zstandard wrapper honours the streaming contract on every stream on which the
wrapped object behaves as documented. -/
theorem C25_zstd_streams {Z : Type} {O : ZstdObj Z} {z₀ : Z} {raw plain : Bytes}
    {R : Z → Nat → Nat → Prop} (h : ZstdStreams O z₀ raw plain R) :
    Streams (zstdWrapper O) (z₀, []) raw plain
      (fun s k j => R s.1 k (j + s.2.length) ∧ s.2 <+: plain.drop j) where
  init := by simpa using h.init
  bound := fun s k j hr => by have := h.bound _ _ _ hr.1; omega
  eof_done := by
    intro s k j hr he
    simp only [zstdWrapper, Bool.and_eq_true, List.isEmpty_iff] at he
    have := h.eof_done _ _ _ hr.1 he.1
    simpa [he.2] using this
  step := by
    intro ⟨z, b⟩ k j x m ⟨hr, hb⟩ he hm hx hxp
    simp only at hr hb
    have hbd := h.bound _ _ _ hr
    by_cases hbe : b = []
    · subst hbe
      simp only [List.length_nil, Nat.add_zero] at hr
      have hxne : x ≠ [] := by
        rcases hx with hx | hx
        · exact hx.2
        · simp [zstdWrapper] at hx
      have he' : O.eof z = false := by simpa [zstdWrapper] using he
      obtain ⟨y, z', h1, h2, h3, h4⟩ := h.step z k j x hr he' hxne hxp
      by_cases hl : (y.length : Int) > m
      · obtain ⟨hp1, hp2⟩ := DReader.prefix_of_append (a := y.take m.toNat) (b := y.drop m.toNat)
          (l := plain) (p := j) (by rw [List.take_append_drop]; exact h2)
        refine ⟨y.take m.toNat, (z', y.drop m.toNat), ?_, hp1, ⟨?_, hp2⟩, ?_⟩
        · simp only [zstdWrapper, List.isEmpty_nil, Bool.true_eq_false, if_false, h1, if_pos hl]
        · refine DReader.rel_congr h3 ?_
          simp; omega
        · intro hy
          have := congrArg List.length hy
          rw [List.length_take, List.length_nil] at this; omega
      · refine ⟨y, (z', []), ?_, h2, ⟨by simpa using h3, by simp⟩, ?_⟩
        · simp only [zstdWrapper, List.isEmpty_nil, Bool.true_eq_false, if_false, h1, if_neg hl]
        · intro hy
          left
          simp [zstdWrapper, h4 hy]
    · have hbe' : b.isEmpty = false := by simpa using hbe
      have hx0 : x = [] := by
        rcases hx with hx | hx
        · simp [zstdWrapper] at hx; exact absurd hx.1 hbe
        · exact hx.2
      subst hx0
      by_cases hl : m > (b.length : Int)
      · refine ⟨b, (z, []), ?_, hb, ⟨by simpa using hr, by simp⟩, fun h => absurd h hbe⟩
        simp only [zstdWrapper, hbe', if_true, if_pos hl]
      · obtain ⟨hp1, hp2⟩ := DReader.prefix_of_append (a := b.take m.toNat) (b := b.drop m.toNat)
          (l := plain) (p := j) (by rw [List.take_append_drop]; exact hb)
        refine ⟨b.take m.toNat, (z, b.drop m.toNat), ?_, hp1, ⟨?_, hp2⟩, ?_⟩
        · simp only [zstdWrapper, hbe', if_true, if_neg hl]
        · refine DReader.rel_congr hr ?_
          simp; omega
        · intro hy
          have hb0 := List.length_pos_iff.2 hbe
          have := congrArg List.length hy
          rw [List.length_take, List.length_nil] at this; omega
  starved := by
    intro ⟨z, b⟩ j ⟨hr, hb⟩ hn he
    simp only [zstdWrapper, List.isEmpty_iff] at hn
    subst hn
    have := h.closed _ _ hr
    simp [zstdWrapper, this] at he

/-- **C25.** The zstandard wrapper knows the end of the stream. -/
theorem C25_zstd_closed {Z : Type} {O : ZstdObj Z} {z₀ : Z} {raw plain : Bytes}
    {R : Z → Nat → Nat → Prop} (h : ZstdStreams O z₀ raw plain R) :
    Closed (zstdWrapper O) raw (fun s k j => R s.1 k (j + s.2.length) ∧ s.2 <+: plain.drop j) := by
  intro ⟨z, b⟩ j ⟨hr, hb⟩ hn
  simp only [zstdWrapper, List.isEmpty_iff] at hn
  subst hn
  simp [zstdWrapper, h.closed _ _ hr]

/-- **C25.** The zstandard wrapper never returns more than `max_length` bytes. -/
theorem C25_zstd_limit {Z : Type} (O : ZstdObj Z) (s s' : Z × Bytes) (data : Bytes) (m : Nat)
    (y : Bytes) (h : (zstdWrapper O).decompress s data m = (.ok y, s')) : y.length ≤ m := by
  simp only [zstdWrapper] at h
  split at h
  · split at h <;> simp only [Prod.mk.injEq, Except.ok.injEq] at h <;> rw [← h.1] <;>
      (try simp) <;> omega
  · split at h
    · simp at h
    · split at h <;> simp only [Prod.mk.injEq, Except.ok.injEq] at h <;> rw [← h.1] <;>
        (try simp) <;> omega

/-- **C25.** What the streaming contract means for the user of a decompressor: any history of calls
that feeds the bytes of the stream in order according to `needs_input` delivers the decompressed
data in order, with nothing lost and nothing duplicated. -/
theorem C25_fed_in_order {D : Type} {C : Decomp D} {d₀ d : D} {raw plain : Bytes}
    {R : D → Nat → Nat → Prop} (hS : Streams C d₀ raw plain R) {calls : List (Bytes × Nat)}
    {fed : Bytes} {outs : List Bytes} (h : Fed C d₀ calls fed outs d) (hfed : fed <+: raw) :
    outs.flatten <+: plain ∧ (C.eof d = true → outs.flatten = plain) := by
  have key : ∀ (d₁ d : D) calls fed outs, Fed C d₁ calls fed outs d →
      ∀ k j, R d₁ k j → fed <+: raw.drop k → outs.flatten <+: plain.drop j ∧
        R d (k + fed.length) (j + outs.flatten.length) := by
    intro d₁ d calls fed outs h
    induction h with
    | nil d => intro k j hr _; simpa using hr
    | @cons d d' d'' x y m rest fed outs he hm hx hdec _ ih =>
      intro k j hr hf
      obtain ⟨hf1, hf2⟩ := DReader.prefix_of_append hf
      obtain ⟨y', d1, h1, h2, h3, _⟩ := hS.step d k j x m hr he (by omega) hx hf1
      rw [hdec] at h1
      simp only [Prod.mk.injEq, Except.ok.injEq] at h1
      obtain ⟨rfl, rfl⟩ := h1
      obtain ⟨h4, h5⟩ := ih _ _ h3 hf2
      refine ⟨by rw [List.flatten_cons]; exact DReader.prefix_drop_add h2 h4, ?_⟩
      simp only [List.flatten_cons, List.length_append, ← Nat.add_assoc]
      exact h5
  obtain ⟨h1, h2⟩ := key _ _ _ _ _ h 0 0 hS.init (by simpa using hfed)
  simp only [List.drop_zero, Nat.zero_add] at h1 h2
  refine ⟨h1, fun he => ?_⟩
  have := hS.eof_done _ _ _ h2 he
  exact h1.eq_of_length this


/-! ### Findings -/

/-- **C24, finding.** `read(0)` on a fresh reader raises an `IOError`, although there is no end of
file: it asks the file for 0 bytes and takes the empty answer for the end. (`read_n(0)`, `skip(0)`
and iteration never call `read(0)`.) -/
theorem C24_read_zero_raises {D : Type} (C : Decomp D) (d : D) (f : PyFile) (extra : Nat)
    (he : C.eof d = false) (hn : C.needsInput d = true) :
    (DReader.read C 0 extra { dec := d } f).1 = .error .ioError := by
  simp [DReader.read, he, DReader.readLoop, hn, PyFile.read]

/-- **C25, finding.** A `read(0)` on a zlib stream with unconsumed input decompresses without limit
into the wrapper's buffer; if that reaches the end of the stream, the data (`y`) is lost: every
later read returns empty bytes. -/
theorem C25_zlib_read_zero_loses_data {Z : Type} (O : ZlibObj Z) (z z' : Z) (y : Bytes)
    (f : PyFile) (he : O.eof z = false) (ht : O.unconsumedTail z ≠ [])
    (hd : O.decompress z (O.unconsumedTail z) 0 = (.ok y, z')) (he' : O.eof z' = true)
    (hy : y ≠ []) :
    ∃ r, DReader.read (zlibWrapper O) 0 0 { dec := (z, []) } f = (.ok [], r, f) ∧
      r.dec = (z', y) ∧
      ∀ n, DReader.read (zlibWrapper O) n 0 r f = (.ok [], r, f) := by
  refine ⟨{ dec := (z', y) }, ?_, rfl, ?_⟩
  · simp [DReader.read, zlibWrapper, he, DReader.readLoop, ht, hd, hy]
  · intro n
    simp [DReader.read, zlibWrapper, he']

/-- **C25, finding.** If the end marker of a zstandard frame arrives in a call that returns no data,
the reader does not notice the end: it goes on reading the file, and raises an `IOError` if nothing
follows (the correct answer is empty bytes). This is why `ZstdStreams` excludes such calls. -/
theorem C25_zstd_empty_end_raises {Z : Type} (O : ZstdObj Z) (z z' : Z) (x : Bytes) (f : PyFile)
    (n : Nat) (he : O.eof z = false) (hx : x ≠ []) (hf : f.data.drop f.pos = x) (hn : x.length ≤ n)
    (hd : O.decompress z x = (.ok [], z')) :
    (DReader.read (zstdWrapper O) n 0 { dec := (z, []) } f).1 = .error .ioError := by
  have hr : f.read n = (x, { f with pos := f.pos + x.length }) := by
    simp [PyFile.read, hf, List.take_of_length_le hn]
  have hlen : f.pos + x.length = f.data.length := by
    have h1 := congrArg List.length hf
    have h2 := List.length_pos_iff.2 hx
    rw [List.length_drop] at h1; omega
  have hr2 : PyFile.read { f with pos := f.pos + x.length } n =
      ([], { f with pos := f.pos + x.length }) := by
    simp [PyFile.read, hlen]
  have hm : ¬ ((([] : Bytes).length : Nat) : Int) > ((n + 0 : Nat) : Int) := by simp
  have hxe : x.isEmpty = false := by simpa using hx
  unfold DReader.read
  simp only [List.isEmpty_nil, Bool.true_eq_false, if_false]
  simp only [zstdWrapper, he, Bool.false_and, Bool.false_eq_true, if_false]
  unfold DReader.readLoop
  simp only [List.isEmpty_nil, if_true, hr, hxe, Bool.and_false, Bool.false_eq_true, if_false, hd,
    Bool.true_eq_false, if_neg hm, Bool.and_true]
  unfold DReader.readLoop
  simp only [List.isEmpty_nil, if_true, hr2, Bool.and_true]

/-! ### Examples: the hypotheses are met -/

/-- A toy `zlib.decompressobj`: the stream is `left` bytes, stored as they are. -/
structure ToyZ where
  left : Nat
  tail : Bytes := []
  unused : Bytes := []
deriving DecidableEq

/-- The toy object; it keeps input it may not output yet in the unconsumed tail, like zlib. -/
def toyZlib : ZlibObj ToyZ where
  eof z := z.left == 0
  unconsumedTail z := z.tail
  unusedData z := z.unused
  decompress z data m :=
    let t := min (if m = 0 then z.left else min m z.left) data.length
    let rest := data.drop t
    if z.left - t = 0 then (.ok (data.take t), { left := 0, tail := [], unused := rest })
    else (.ok (data.take t), { left := z.left - t, tail := rest, unused := [] })

/-- The contract for zlib objects can be met: the toy satisfies it on every stream. -/
theorem toyZlib_streams (raw : Bytes) (L : Nat) (hL : L ≤ raw.length) :
    ZlibStreams toyZlib { left := L } raw (raw.take L)
      (fun z k j => z.left = L - j ∧ j ≤ L ∧ j ≤ k ∧ k ≤ raw.length ∧
        (j < L → z.tail = (raw.drop j).take (k - j)) ∧ (j = L → z.tail = [])) where
  init := by simp
  tail₀ := rfl
  bound := by intro z k j h; simp; omega
  eof_done := by
    intro z k j h he
    simp [toyZlib] at he
    simp; omega
  step := by
    intro z k j x m ⟨h1, h2, h3, h4, h5, _⟩ he hm hx hne
    simp only [toyZlib, beq_eq_false_iff_ne] at he
    have hj : j < L := by omega
    have ht := h5 hj
    have htl : z.tail.length = k - j := by rw [ht]; simp; omega
    have hxl := hx.length_le
    simp only [List.length_drop] at hxl
    have hfull : z.tail ++ x <+: raw.drop j := by
      refine DReader.prefix_drop_add (by rw [ht]; exact List.take_prefix _ _) ?_
      rw [htl]; rw [show j + (k - j) = k by omega]; exact hx
    have hdl : 0 < (z.tail ++ x).length := by
      apply List.length_pos_iff.2
      rcases hne with h | h
      · simp [h]
      · have : z.tail ≠ [] := h
        simp [this]
    simp only [toyZlib]
    rw [if_neg (by omega : ¬ m = 0)]
    generalize htt : min (min m z.left) (z.tail ++ x).length = t
    have hlt : ((z.tail ++ x).take t).length = t := by rw [List.length_take]; omega
    have hfl : (z.tail ++ x).length = k - j + x.length := by rw [List.length_append, htl]
    have hyp : (z.tail ++ x).take t <+: (raw.take L).drop j := by
      rw [List.drop_take, DReader.prefix_take hfull, List.take_take]
      rw [show min t (z.tail ++ x).length = min t (L - j) by omega, ← List.take_take]
      exact List.take_prefix _ _
    by_cases hz : z.left - t = 0
    · rw [if_pos hz]
      refine ⟨_, _, rfl, hyp, by omega, ?_, fun h => ?_⟩
      · rw [hlt]
        refine ⟨?_, ?_, ?_, ?_, ?_, ?_⟩ <;> (try simp only) <;> (try omega)
        intro _; trivial
      · rw [h] at hlt; simp at hlt; omega
    · rw [if_neg hz]
      refine ⟨_, _, rfl, hyp, by omega, ?_, fun h => ?_⟩
      · rw [hlt]
        refine ⟨?_, ?_, ?_, ?_, ?_, ?_⟩
        · simp; omega
        · omega
        · omega
        · omega
        · intro _
          simp only
          rw [DReader.prefix_take hfull, List.drop_take, List.drop_drop, hfl]
          congr 1; omega
        · intro h; omega
      · rw [h] at hlt; simp at hlt; omega
  closed := by
    intro z j ⟨h1, h2, h3, h4, h5, _⟩ ht
    simp only [toyZlib, beq_iff_eq]
    by_cases hj : j < L
    · have := congrArg List.length (h5 hj)
      simp only [toyZlib] at ht
      rw [ht] at this
      simp at this; omega
    · omega

/-- `C24_reader_faithful` applies to a zlib stream of five bytes in the middle of a file ... -/
example (ops : List ReadOp) (ha : ∀ op ∈ ops, DReader.Allowed op) :
    ∃ closed : Prop, closed ∧ ReadTrace [1, 2, 3, 4, 5] closed 0
      (DReader.performAll (zlibWrapper toyZlib) 2 ops { dec := ({ left := 5 }, []) }
        { data := [9, 9, 1, 2, 3, 4, 5, 77, 78], pos := 2 }) :=
  ⟨_, C25_zlib_closed (toyZlib_streams [1, 2, 3, 4, 5, 77, 78] 5 (by decide)),
    DReader.C24_reader_faithful
    (C25_zlib_streams (toyZlib_streams [1, 2, 3, 4, 5, 77, 78] 5 (by decide)))
    { data := [9, 9, 1, 2, 3, 4, 5, 77, 78], pos := 2 } 2 rfl rfl ops ha⟩

/-- ... and this is what some calls give. -/
example : (DReader.performAll (zlibWrapper toyZlib) 2
      [.read 2 1, .disturb 0, .readN 1, .skipTo 1, .skipTo 4, .iterRead (-1) 3 5, .read 7 0]
      { dec := ({ left := 5 }, []) } { data := [9, 9, 1, 2, 3, 4, 5, 77, 78], pos := 2 }).map
      (fun x => (x.2.1, x.2.2)) =
    [(.ok ([[1, 2]], true), 2), (.ok ([], true), 2), (.ok ([[3]], true), 3),
     (.error .ioError, 3), (.ok ([], true), 4), (.ok ([[5]], true), 5), (.ok ([[]], true), 5)] := by
  decide +kernel

/-- The passthrough reader raises at the end of the file, and `read_n` then loses what it read. -/
example : (DReader.performAll passthrough 2 [.read 2 3, .readN 3, .readN 3, .read 1 0]
      { dec := [] } { data := [9, 9, 1, 2, 3, 4, 5, 77], pos := 2 }).map (fun x => (x.2.1, x.2.2)) =
    [(.ok ([[1, 2]], true), 2), (.ok ([[3, 4, 5]], true), 5), (.error .ioError, 6),
     (.error .ioError, 6)] := by
  decide +kernel

/-- A toy zstandard object whose frame is `left` bytes, stored as they are. -/
def toyZstd : ZstdObj (Nat × Bytes) where
  eof z := z.1 == 0
  unusedData z := z.2
  decompress z data := (.ok (data.take z.1), (z.1 - data.length, data.drop z.1))

/-- The contract for zstandard objects can be met. -/
theorem toyZstd_streams (raw : Bytes) (L : Nat) (hL : L ≤ raw.length) :
    ZstdStreams toyZstd (L, []) raw (raw.take L)
      (fun z k j => z.1 = L - k ∧ k ≤ raw.length ∧ j = min k L) where
  init := by simp
  bound := by intro z k j h; simp; omega
  eof_done := by
    intro z k j h he
    simp [toyZstd] at he
    simp; omega
  step := by
    intro z k j x ⟨h1, h2, h3⟩ he hne hx
    simp only [toyZstd, beq_eq_false_iff_ne] at he
    have hxl := hx.length_le
    have hx0 := List.length_pos_iff.2 hne
    simp only [List.length_drop] at hxl
    refine ⟨_, _, rfl, ?_, ?_, ?_⟩
    · have hjk : j = k := by omega
      rw [hjk, h1, List.drop_take, DReader.prefix_take hx, List.take_take, Nat.min_comm,
        ← List.take_take]
      exact List.take_prefix _ _
    · simp; omega
    · intro h
      have := congrArg List.length h
      rw [List.length_take, List.length_nil] at this
      omega
  closed := by
    intro z j ⟨h1, _, _⟩
    simp [toyZstd]; omega

/-- `C25_fed_in_order` is not vacuous: the zstandard wrapper over the toy, fed in two pieces and
drained by the limits, delivers the frame. -/
example : Fed (zstdWrapper toyZstd) ((3, []), []) [([7, 8], 1), ([], 5), ([9, 99], 4)] [7, 8, 9, 99]
    [[7], [8], [9]] ((0, [99]), []) :=
  .cons (d' := ((1, []), [8])) (by decide) (by decide) (.inl (by decide)) (by decide +kernel)
    (.cons (d' := ((1, []), [])) (by decide) (by decide) (.inr (by decide)) (by decide +kernel)
      (.cons (by decide) (by decide) (.inl (by decide)) (by decide +kernel) (.nil _)))

/-- A zlib-like object in a state that meets the hypotheses of `C25_zlib_read_zero_loses_data`. -/
example : toyZlib.eof { left := 2, tail := [4, 5] } = false ∧
    toyZlib.decompress { left := 2, tail := [4, 5] } [4, 5] 0 = (.ok [4, 5], { left := 0 }) ∧
    toyZlib.eof { left := 0 } = true := by
  decide +kernel

/-- A zstandard-like object whose end marker is a separate byte 0. -/
example : ∃ (O : ZstdObj Bool), O.eof false = false ∧
    O.decompress false [0] = (.ok [], true) ∧ O.eof true = true :=
  ⟨{ eof := id, unusedData := fun _ => []
     decompress := fun _ x => (.ok (x.filter (· ≠ 0)), x.contains 0) }, by decide +kernel⟩

end Pyzim
