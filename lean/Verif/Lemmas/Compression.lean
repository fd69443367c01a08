import Verif.Model.Compression
import Verif.Spec.Stream

namespace Pyzim
namespace DReader
variable {D : Type} {C : Decomp D} {d₀ : D} {raw plain : Bytes} {R : D → Nat → Nat → Prop}

/-- Invariant of a reader on a file whose content from `base` on is `raw`. -/
structure Inv (C : Decomp D) (raw plain : Bytes) (R : D → Nat → Nat → Prop) (base : Nat)
    (r : DReader D) (f : PyFile) : Prop where
  file : f.data.drop base = raw
  pos : f.pos = base + r.readCompressed
  rel : R r.dec r.readCompressed (r.readDecompressed + r.buffer.length)
  buf : r.buffer <+: plain.drop r.readDecompressed

theorem prefix_take {α : Type} {y l : List α} (h : y <+: l) : y = l.take y.length :=
  List.prefix_iff_eq_take.1 h

theorem prefix_drop_length {α : Type} {y l : List α} {p : Nat} (h : y <+: l.drop p)
    (hp : p ≤ l.length) : p + y.length ≤ l.length := by
  have := h.length_le
  simp at this; omega

theorem prefix_drop_add {α : Type} {a b l : List α} {p : Nat} (h : a <+: l.drop p)
    (h' : b <+: l.drop (p + a.length)) : a ++ b <+: l.drop p := by
  obtain ⟨t, ht⟩ := h
  have : l.drop (p + a.length) = t := by
    rw [← List.drop_drop, ← ht]; simp
  rw [this] at h'
  obtain ⟨u, hu⟩ := h'
  exact ⟨u, by rw [← ht, ← hu]; simp⟩

theorem prefix_of_append {α : Type} {a b l : List α} {p : Nat} (h : a ++ b <+: l.drop p) :
    a <+: l.drop p ∧ b <+: l.drop (p + a.length) := by
  obtain ⟨t, ht⟩ := h
  refine ⟨⟨b ++ t, by rw [← ht]; simp⟩, ⟨t, ?_⟩⟩
  rw [← List.drop_drop, ← ht]; simp

theorem rel_congr {d : D} {k j j' : Nat} (h : R d k j) (e : j = j') : R d k j' := e ▸ h

/-- One call of the loop of `read`. -/
theorem readLoop_spec (hS : Streams C d₀ raw plain R) {base : Nat} (n extra : Nat) (hn : 0 < n)
    (fuel : Nat) : ∀ (r : DReader D) (f : PyFile), Inv C raw plain R base r f → r.buffer = [] →
    C.eof r.dec = false →
    raw.length - r.readCompressed + (if C.needsInput r.dec then 0 else 1) < fuel →
    ∃ res r' f', readLoop C n extra fuel r f = (res, r', f') ∧ Inv C raw plain R base r' f' ∧
      f'.data = f.data ∧
      ((∃ y, res = .ok y ∧ y <+: plain.drop r.readDecompressed ∧ y.length ≤ n ∧
          r'.readDecompressed = r.readDecompressed + y.length ∧
          (y = [] → r.readDecompressed = plain.length)) ∨
        (res = .error .ioError ∧ ¬ Closed C raw R ∧ r.readDecompressed = plain.length ∧
          r'.readDecompressed = r.readDecompressed)) := by
  induction fuel with
  | zero => intro r f _ _ _ h; omega
  | succ fuel ih =>
    intro r f hI hb he hfuel
    have hrel : R r.dec r.readCompressed r.readDecompressed := by
      have := hI.rel; rw [hb] at this; simpa using this
    have hbd := hS.bound _ _ _ hrel
    unfold readLoop
    cases hne : C.needsInput r.dec with
    | true =>
      simp only [if_true, Bool.true_and]
      have hdrop : f.data.drop f.pos = raw.drop r.readCompressed := by
        rw [hI.pos, ← List.drop_drop, hI.file]
      have hread : f.read n = ((raw.drop r.readCompressed).take n,
          { f with pos := f.pos + ((raw.drop r.readCompressed).take n).length }) := by
        simp [PyFile.read, hdrop]
      rw [hread]
      simp only
      generalize hx : (raw.drop r.readCompressed).take n = x
      have hxp : x <+: raw.drop r.readCompressed := by rw [← hx]; exact List.take_prefix _ _
      cases x with
      | nil =>
        have hk : r.readCompressed = raw.length := by
          have := congrArg List.length hx
          simp at this; omega
        have hj := hS.starved r.dec r.readDecompressed (hk ▸ hrel) hne he
        refine ⟨_, _, _, rfl, ⟨hI.file, by simp [hI.pos], hI.rel, hI.buf⟩, rfl, .inr ⟨rfl, ?_, hj, rfl⟩⟩
        intro hc
        have := hc _ _ (hk ▸ hrel) hne
        rw [he] at this; exact absurd this (by simp)
      | cons c cs =>
        obtain ⟨y, d', hdec, hyp, hR', hemp⟩ := hS.step r.dec _ _ (c :: cs)
          ((n + extra : Nat) : Int) hrel he (by omega) (.inl ⟨hne, by simp⟩) hxp
        simp only [List.isEmpty_cons, Bool.false_eq_true, if_false, hdec]
        have hyl := prefix_drop_length hyp hbd.2
        by_cases hcont : (y.isEmpty && C.needsInput d') = true
        · rw [if_pos hcont]
          simp only [Bool.and_eq_true, List.isEmpty_iff] at hcont
          obtain ⟨hy, hne'⟩ := hcont
          subst hy
          have he' : C.eof d' = false := by
            rcases hemp rfl with h | h
            · exact h.2
            · rw [hne'] at h; exact absurd h.1 (by simp)
          have hle : r.readCompressed + (c :: cs).length ≤ raw.length :=
            (hS.bound _ _ _ hR').1
          obtain ⟨res, r', f', h1, h2, h3, h4⟩ := ih
            { r with readCompressed := r.readCompressed + (c :: cs).length, dec := d' }
            { f with pos := f.pos + (c :: cs).length }
            ⟨hI.file, by simp [hI.pos, Nat.add_assoc], by simpa [hb] using hR', hI.buf⟩ hb he'
            (by
              rw [hne] at hfuel
              simp only [hne', if_true] at hfuel ⊢
              simp only [List.length_cons] at hle ⊢
              omega)
          exact ⟨res, r', f', h1, h2, h3, h4⟩
        · rw [if_neg hcont]
          by_cases hlen : y.length > n
          · rw [if_pos hlen]
            obtain ⟨hp1, hp2⟩ := prefix_of_append (a := y.take n) (b := y.drop n) (l := plain)
              (p := r.readDecompressed) (by rw [List.take_append_drop]; exact hyp)
            refine ⟨_, _, _, rfl, ⟨hI.file, by simp [hI.pos, Nat.add_assoc], ?_, ?_⟩, rfl,
              .inl ⟨_, rfl, hp1, by simp; omega, rfl, ?_⟩⟩
            · simp only [hb, List.nil_append]
              exact rel_congr hR' (by simp; omega)
            · simpa [hb] using hp2
            · intro h
              have := congrArg List.length h
              rw [List.length_take, List.length_nil] at this; omega
          · rw [if_neg hlen]
            refine ⟨_, _, _, rfl, ⟨hI.file, by simp [hI.pos, Nat.add_assoc], by simpa [hb] using hR',
              by simp [hb]⟩, rfl, .inl ⟨_, rfl, hyp, by omega, rfl, ?_⟩⟩
            intro h
            rcases hemp h with h' | h'
            · simp [h, h'.1] at hcont
            · exact h'.2
    | false =>
      obtain ⟨y, d', hdec, hyp, hR', hemp⟩ := hS.step r.dec _ _ []
          ((n + extra : Nat) : Int) hrel he (by omega) (.inr ⟨hne, rfl⟩) (List.nil_prefix)
      simp only [Bool.false_eq_true, if_false, Bool.false_and, hdec]
      have hyl := prefix_drop_length hyp hbd.2
      by_cases hcont : (y.isEmpty && C.needsInput d') = true
      · rw [if_pos hcont]
        simp only [Bool.and_eq_true, List.isEmpty_iff] at hcont
        obtain ⟨hy, hne'⟩ := hcont
        subst hy
        have he' : C.eof d' = false := by
          rcases hemp rfl with h | h
          · exact h.2
          · rw [hne'] at h; exact absurd h.1 (by simp)
        obtain ⟨res, r', f', h1, h2, h3, h4⟩ := ih
          { r with readCompressed := r.readCompressed + 0, dec := d' } f
          ⟨hI.file, by simp [hI.pos], by simpa [hb] using hR', hI.buf⟩ hb he'
          (by
            rw [hne] at hfuel
            simp only [hne', if_true] at hfuel ⊢
            simp at hfuel ⊢
            omega)
        exact ⟨res, r', f', h1, h2, h3, h4⟩
      · rw [if_neg hcont]
        by_cases hlen : y.length > n
        · rw [if_pos hlen]
          obtain ⟨hp1, hp2⟩ := prefix_of_append (a := y.take n) (b := y.drop n) (l := plain)
            (p := r.readDecompressed) (by rw [List.take_append_drop]; exact hyp)
          refine ⟨_, _, _, rfl, ⟨hI.file, by simp [hI.pos], ?_, ?_⟩, rfl,
            .inl ⟨_, rfl, hp1, by simp; omega, rfl, ?_⟩⟩
          · simp only [hb, List.nil_append]
            exact rel_congr hR' (by simp; omega)
          · simpa [hb] using hp2
          · intro h
            have := congrArg List.length h
            rw [List.length_take, List.length_nil] at this; omega
        · rw [if_neg hlen]
          refine ⟨_, _, _, rfl, ⟨hI.file, by simp [hI.pos], by simpa [hb] using hR',
            by simp [hb]⟩, rfl, .inl ⟨_, rfl, hyp, by omega, rfl, ?_⟩⟩
          intro h
          rcases hemp h with h' | h'
          · simp [h, h'.1] at hcont
          · exact h'.2

/-- `read` on a reader satisfying the invariant. -/
theorem read_spec (hS : Streams C d₀ raw plain R) {base : Nat} {n : Nat} (extra : Nat)
    (hn : 0 < n) {r : DReader D} {f : PyFile} (hI : Inv C raw plain R base r f) :
    ∃ res r' f', read C n extra r f = (res, r', f') ∧ Inv C raw plain R base r' f' ∧
      f'.data = f.data ∧
      ((∃ y, res = .ok y ∧ y <+: plain.drop r.readDecompressed ∧ y.length ≤ n ∧
          r'.readDecompressed = r.readDecompressed + y.length ∧
          (y = [] → r.readDecompressed = plain.length)) ∨
        (res = .error .ioError ∧ ¬ Closed C raw R ∧ r.readDecompressed = plain.length ∧
          r'.readDecompressed = r.readDecompressed)) := by
  unfold read
  have hbd := hS.bound _ _ _ hI.rel
  by_cases hb : r.buffer = []
  · simp only [hb, List.isEmpty_nil, Bool.true_eq_false, if_false]
    cases he : C.eof r.dec with
    | true =>
      have hj := hS.eof_done _ _ _ hI.rel he
      simp only [hb, List.length_nil, Nat.add_zero] at hj
      exact ⟨_, _, _, rfl, hI, rfl, .inl ⟨[], rfl, List.nil_prefix, by simp, rfl, fun _ => hj⟩⟩
    | false =>
      simp only [Bool.false_eq_true, if_false]
      refine readLoop_spec hS n extra hn _ r f hI hb he ?_
      have : raw.length ≤ f.data.length := by rw [← hI.file]; simp
      split <;> omega
  · have : r.buffer.isEmpty = false := by simpa using hb
    have hlen : 0 < r.buffer.length := List.length_pos_iff.2 hb
    simp only [this, if_true]
    obtain ⟨hp1, hp2⟩ := prefix_of_append (a := r.buffer.take (min n r.buffer.length))
      (b := r.buffer.drop (min n r.buffer.length)) (l := plain) (p := r.readDecompressed)
      (by rw [List.take_append_drop]; exact hI.buf)
    have hl : (r.buffer.take (min n r.buffer.length)).length = min n r.buffer.length := by simp
    refine ⟨_, _, _, rfl, ⟨hI.file, hI.pos, ?_, ?_⟩, rfl, .inl ⟨_, rfl, hp1, ?_, ?_, ?_⟩⟩
    · exact rel_congr hI.rel (by simp; omega)
    · rw [hl] at hp2; exact hp2
    · rw [hl]; omega
    · rw [hl]
    · intro h
      have := congrArg List.length h
      rw [hl, List.length_nil] at this; omega

theorem take_append_prefix {y l : List UInt8} {p n : Nat} (h : y <+: l.drop p) (hn : y.length ≤ n) :
    y ++ (l.drop (p + y.length)).take (n - y.length) = (l.drop p).take n := by
  obtain ⟨t, ht⟩ := h
  rw [← List.drop_drop, ← ht, List.drop_left, List.take_append]
  rw [List.take_of_length_le hn]

theorem readNLoop_spec (hS : Streams C d₀ raw plain R) {base : Nat} (n : Nat) (fuel : Nat) :
    ∀ (data : Bytes) (r : DReader D) (f : PyFile), Inv C raw plain R base r f →
    data.length ≤ n → n - data.length < fuel →
    ∃ res r' f', readNLoop C n fuel data r f = (res, r', f') ∧ Inv C raw plain R base r' f' ∧
      f'.data = f.data ∧
      ((res = .ok (data ++ (plain.drop r.readDecompressed).take (n - data.length)) ∧
        r'.readDecompressed = min (r.readDecompressed + (n - data.length)) plain.length) ∨
       (res = .error .ioError ∧ ¬ Closed C raw R ∧
        plain.length < r.readDecompressed + (n - data.length) ∧
        r'.readDecompressed = plain.length)) := by
  induction fuel with
  | zero => intro _ _ _ _ _ h; omega
  | succ fuel ih =>
    intro data r f hI hd hfuel
    have hbd : r.readDecompressed ≤ plain.length := by
      have := (hS.bound _ _ _ hI.rel).2; omega
    unfold readNLoop
    by_cases hlt : data.length < n
    · rw [if_pos (by exact_mod_cast hlt)]
      have e : ((n : Int) - (data.length : Int)).toNat = n - data.length := by omega
      rw [e]
      obtain ⟨res, r1, f1, h1, h2, h2', h3⟩ := read_spec hS (n := n - data.length) 0 (by omega) hI
      rw [h1]
      rcases h3 with ⟨y, rfl, hy, hyn, hp, hemp⟩ | ⟨rfl, hc, hp, hp'⟩
      · simp only
        by_cases hy0 : y = []
        · subst hy0
          simp only [List.isEmpty_nil, if_true]
          have := hemp rfl
          refine ⟨_, _, _, rfl, h2, h2', .inl ⟨?_, ?_⟩⟩
          · rw [this]; simp
          · simp at hp; omega
        · have : y.isEmpty = false := by simpa using hy0
          simp only [this, Bool.false_eq_true, if_false]
          have hy1 : 0 < y.length := List.length_pos_iff.2 hy0
          obtain ⟨res, r', f', g1, g2, g2', g3⟩ := ih (data ++ y) r1 f1 h2 (by simp; omega)
            (by simp; omega)
          refine ⟨res, r', f', g1, g2, g2'.trans h2', ?_⟩
          rw [hp] at g3
          have e2 : n - (data ++ y).length = n - data.length - y.length := by simp; omega
          rw [e2] at g3
          rcases g3 with ⟨g3, g4⟩ | ⟨g3, g4, g5, g6⟩
          · refine .inl ⟨?_, by rw [g4]; congr 1; omega⟩
            rw [g3, List.append_assoc, take_append_prefix hy hyn]
          · exact .inr ⟨g3, g4, by omega, g6⟩
      · exact ⟨_, _, _, rfl, h2, h2', .inr ⟨rfl, hc, by omega, by omega⟩⟩
    · rw [if_neg (by exact_mod_cast hlt)]
      refine ⟨_, _, _, rfl, hI, rfl, .inl ⟨?_, by omega⟩⟩
      have : n - data.length = 0 := by omega
      rw [this]; simp

theorem readN_spec (hS : Streams C d₀ raw plain R) {base : Nat} (n : Nat) {r : DReader D}
    {f : PyFile} (hI : Inv C raw plain R base r f) :
    ∃ res r' f', readN C n r f = (res, r', f') ∧ Inv C raw plain R base r' f' ∧
      f'.data = f.data ∧
      ((res = .ok ((plain.drop r.readDecompressed).take n) ∧
        r'.readDecompressed = min (r.readDecompressed + n) plain.length) ∨
       (res = .error .ioError ∧ ¬ Closed C raw R ∧
        plain.length < r.readDecompressed + n ∧
        r'.readDecompressed = plain.length)) := by
  have := readNLoop_spec hS n ((n : Int).toNat + 1) [] r f hI (by simp) (by simp)
  simpa [readN] using this

theorem readN_neg {n : Int} (hn : n ≤ 0) (r : DReader D) (f : PyFile) :
    readN C n r f = (.ok [], r, f) := by
  unfold readN readNLoop
  rw [if_neg (by simp; omega)]

theorem skipLoop_spec (hS : Streams C d₀ raw plain R) {base : Nat} (n : Nat) (fuel : Nat) :
    ∀ (k : Nat) (r : DReader D) (f : PyFile), Inv C raw plain R base r f →
    k ≤ n → n - k < fuel →
    ∃ res r' f', skipLoop C n fuel k r f = (res, r', f') ∧ Inv C raw plain R base r' f' ∧
      f'.data = f.data ∧
      ((res = .ok () ∧
        r'.readDecompressed = min (r.readDecompressed + (n - k)) plain.length) ∨
       (res = .error .ioError ∧ ¬ Closed C raw R ∧
        plain.length < r.readDecompressed + (n - k) ∧
        r'.readDecompressed = plain.length)) := by
  induction fuel with
  | zero => intro _ _ _ _ _ h; omega
  | succ fuel ih =>
    intro k r f hI hd hfuel
    have hbd : r.readDecompressed ≤ plain.length := by
      have := (hS.bound _ _ _ hI.rel).2; omega
    unfold skipLoop
    by_cases hlt : k < n
    · rw [if_pos hlt]
      obtain ⟨res, r1, f1, h1, h2, h2', h3⟩ := read_spec hS (n := n - k) 0 (by omega) hI
      rw [h1]
      rcases h3 with ⟨y, rfl, hy, hyn, hp, hemp⟩ | ⟨rfl, hc, hp, hp'⟩
      · simp only
        by_cases hy0 : y = []
        · subst hy0
          simp only [List.isEmpty_nil, if_true]
          have := hemp rfl
          simp at hp
          exact ⟨_, _, _, rfl, h2, h2', .inl ⟨rfl, by omega⟩⟩
        · have : y.isEmpty = false := by simpa using hy0
          simp only [this, Bool.false_eq_true, if_false]
          have hy1 : 0 < y.length := List.length_pos_iff.2 hy0
          obtain ⟨res, r', f', g1, g2, g2', g3⟩ := ih (k + y.length) r1 f1 h2 (by omega)
            (by omega)
          refine ⟨res, r', f', g1, g2, g2'.trans h2', ?_⟩
          rw [hp] at g3
          rcases g3 with ⟨g3, g4⟩ | ⟨g3, g4, g5, g6⟩
          · exact .inl ⟨g3, by rw [g4]; congr 1; omega⟩
          · exact .inr ⟨g3, g4, by omega, g6⟩
      · exact ⟨_, _, _, rfl, h2, h2', .inr ⟨rfl, hc, by omega, by omega⟩⟩
    · rw [if_neg hlt]
      exact ⟨_, _, _, rfl, hI, rfl, .inl ⟨rfl, by omega⟩⟩

theorem skip_spec (hS : Streams C d₀ raw plain R) {base : Nat} (n : Nat) {r : DReader D}
    {f : PyFile} (hI : Inv C raw plain R base r f) :
    ∃ res r' f', skip C n r f = (res, r', f') ∧ Inv C raw plain R base r' f' ∧
      f'.data = f.data ∧
      ((res = .ok () ∧ r'.readDecompressed = min (r.readDecompressed + n) plain.length) ∨
       (res = .error .ioError ∧ ¬ Closed C raw R ∧ plain.length < r.readDecompressed + n ∧
        r'.readDecompressed = plain.length)) := by
  have := skipLoop_spec hS n (n + 1) 0 r f hI (by simp) (by simp)
  simpa [skip] using this

theorem skipTo_spec (hS : Streams C d₀ raw plain R) {base : Nat} (o : Nat) {r : DReader D}
    {f : PyFile} (hI : Inv C raw plain R base r f) (ho : r.readDecompressed ≤ o) :
    ∃ res r' f', skipTo C o r f = (res, r', f') ∧ Inv C raw plain R base r' f' ∧
      f'.data = f.data ∧
      ((res = .ok () ∧ r'.readDecompressed = min o plain.length) ∨
       (res = .error .ioError ∧ ¬ Closed C raw R ∧ plain.length < o ∧
        r'.readDecompressed = plain.length)) := by
  have h := skip_spec hS (o - r.readDecompressed) hI
  have e : r.readDecompressed + (o - r.readDecompressed) = o := by omega
  rw [e] at h
  unfold skipTo
  rw [if_neg (by omega)]
  exact h

theorem iterRead_spec (hS : Streams C d₀ raw plain R) {base : Nat} (n : Int) (bs : Nat)
    (hbs : 0 < bs) (k : Nat) :
    ∀ (nRead : Nat) (r : DReader D) (f : PyFile), Inv C raw plain R base r f →
    ∃ res r' f', iterRead C n bs k nRead r f = (res, r', f') ∧ Inv C raw plain R base r' f' ∧
      f'.data = f.data ∧
      ((∃ cs fin, res = .ok (cs, fin) ∧ cs.flatten <+: plain.drop r.readDecompressed ∧
          r'.readDecompressed = r.readDecompressed + cs.flatten.length ∧
          (∀ c ∈ cs, c ≠ [] ∧ c.length ≤ bs) ∧ cs.length ≤ k ∧
          (0 ≤ n → cs.flatten.length ≤ n.toNat - nRead) ∧ (fin = false → cs.length = k) ∧
          (fin = true → r'.readDecompressed = plain.length ∨
            (0 ≤ n ∧ cs.flatten.length = n.toNat - nRead))) ∨
       (res = .error .ioError ∧ ¬ Closed C raw R ∧
        (0 ≤ n → plain.length < r.readDecompressed + (n.toNat - nRead)) ∧
        r'.readDecompressed = plain.length)) := by
  induction k with
  | zero =>
    intro nRead r f hI
    refine ⟨_, _, _, rfl, hI, rfl, .inl ⟨[], false, rfl, ?_⟩⟩
    simp
  | succ k ih =>
    intro nRead r f hI
    unfold iterRead
    by_cases hdone : 0 ≤ n ∧ n ≤ nRead
    · rw [if_pos hdone]
      refine ⟨_, _, _, rfl, hI, rfl, .inl ⟨[], true, rfl, by simp, by simp, by simp, by simp, ?_, by simp, ?_⟩⟩
      · intro _; simp
      · intro _; right; refine ⟨hdone.1, ?_⟩; simp; omega
    · rw [if_neg hdone]
      have hto : 0 < (if 0 ≤ n then min bs (n - nRead).toNat else bs) := by
        split <;> omega
      have hto2 : (if 0 ≤ n then min bs (n - nRead).toNat else bs) ≤ bs := by
        split <;> omega
      have hto3 : 0 ≤ n → (if 0 ≤ n then min bs (n - nRead).toNat else bs) ≤ n.toNat - nRead := by
        intro h; rw [if_pos h]; omega
      generalize (if 0 ≤ n then min bs (n - nRead).toNat else bs) = toRead at hto hto2 hto3
      obtain ⟨res, r1, f1, h1, h2, h2', h3⟩ := read_spec hS (n := toRead) 0 hto hI
      simp only
      rw [h1]
      rcases h3 with ⟨y, rfl, hy, hyn, hp, hemp⟩ | ⟨rfl, hc, hp, hp'⟩
      · simp only
        by_cases hy0 : y = []
        · subst hy0
          simp only [List.isEmpty_nil, if_true]
          have := hemp rfl
          simp at hp
          refine ⟨_, _, _, rfl, h2, h2', .inl ⟨[], true, rfl, by simp, by simpa using hp, by simp, by simp, by simp, by simp, ?_⟩⟩
          intro _; left; omega
        · have : y.isEmpty = false := by simpa using hy0
          simp only [this, Bool.false_eq_true, if_false]
          have hy1 : 0 < y.length := List.length_pos_iff.2 hy0
          obtain ⟨res, r', f', g1, g2, g2', g3⟩ := ih (nRead + y.length) r1 f1 h2
          rw [g1]
          rw [hp] at g3
          rcases g3 with ⟨cs, fin, rfl, g3, g4, g5, g6, g7, g8, g9⟩ | ⟨rfl, g4, g5, g6⟩
          · simp only
            refine ⟨_, _, _, rfl, g2, g2'.trans h2', .inl ⟨y :: cs, fin, rfl, ?_, ?_, ?_, ?_, ?_, ?_, ?_⟩⟩
            · rw [List.flatten_cons]; exact prefix_drop_add hy g3
            · simp only [List.flatten_cons, List.length_append]; omega
            · intro c hc
              rcases List.mem_cons.1 hc with rfl | hc
              · exact ⟨hy0, by omega⟩
              · exact g5 c hc
            · simp; omega
            · intro h
              have := g7 h
              have := hto3 h
              simp only [List.flatten_cons, List.length_append]; omega
            · intro h; simp [g8 h]
            · intro h
              rcases g9 h with h' | h'
              · exact .inl h'
              · refine .inr ⟨h'.1, ?_⟩
                have := hto3 h'.1
                simp only [List.flatten_cons, List.length_append]; omega
          · refine ⟨_, _, _, rfl, g2, g2'.trans h2', .inr ⟨rfl, g4, ?_, g6⟩⟩
            intro h; have := g5 h; have := hto3 h; omega
      · refine ⟨_, _, _, rfl, h2, h2', .inr ⟨rfl, hc, ?_, by omega⟩⟩
        intro h; have := hto3 h; omega


/-- When the loop of `read` returns nothing, the end of the stream was noticed. -/
theorem readLoop_empty {size : Nat} (hS : Streams C d₀ raw plain R) (hO : Occupies C raw R size)
    {base : Nat} (n extra : Nat) (hn : 0 < n) (fuel : Nat) :
    ∀ (r : DReader D) (f : PyFile) (r' : DReader D) (f' : PyFile), Inv C raw plain R base r f →
    r.buffer = [] → C.eof r.dec = false → readLoop C n extra fuel r f = (.ok [], r', f') →
    C.eof r'.dec = true ∧ r'.buffer = [] := by
  induction fuel with
  | zero => intro r f r' f' _ _ _ h; simp [readLoop] at h
  | succ fuel ih =>
    intro r f r' f' hI hb he hres
    have hrel : R r.dec r.readCompressed r.readDecompressed := by
      have := hI.rel; rw [hb] at this; simpa using this
    have hdrop : f.data.drop f.pos = raw.drop r.readCompressed := by
      rw [hI.pos, ← List.drop_drop, hI.file]
    -- the common part, for the bytes fed
    have key : ∀ (x : Bytes) (f1 : PyFile), f1.data = f.data → f1.pos = f.pos + x.length →
        x <+: raw.drop r.readCompressed →
        ((C.needsInput r.dec = true ∧ x ≠ []) ∨ (C.needsInput r.dec = false ∧ x = [])) →
        (match C.decompress r.dec x ((n + extra : Nat) : Int) with
          | (.error e, d) => (.error e, { r with readCompressed := r.readCompressed + x.length, dec := d }, f1)
          | (.ok decompressed, d) =>
            let r := { r with readCompressed := r.readCompressed + x.length, dec := d }
            if decompressed.isEmpty && C.needsInput d then readLoop C n extra fuel r f1
            else if decompressed.length > n then
              (.ok (decompressed.take n),
                { r with buffer := r.buffer ++ decompressed.drop n
                         readDecompressed := r.readDecompressed + (decompressed.take n).length }, f1)
            else
              (.ok decompressed,
                { r with readDecompressed := r.readDecompressed + decompressed.length }, f1) :
          PyRes Bytes × DReader D × PyFile) = (.ok [], r', f') →
        C.eof r'.dec = true ∧ r'.buffer = [] := by
      intro x f1 hf1 hp1 hxp hx hr
      obtain ⟨y, d', hdec, hyp, hR', hemp⟩ := hS.step r.dec _ _ x
        ((n + extra : Nat) : Int) hrel he (by omega) hx hxp
      rw [hdec] at hr
      simp only at hr
      by_cases hy : y = []
      · subst hy
        cases hnd : C.needsInput d' with
        | true =>
          rw [hnd] at hr
          simp only [List.isEmpty_nil, Bool.and_self, if_true] at hr
          have hed : C.eof d' = false := by
            rcases hemp rfl with h | h
            · exact h.2
            · rw [hnd] at h; exact absurd h.1 (by simp)
          refine ih { r with readCompressed := r.readCompressed + x.length, dec := d' } f1 r' f'
            ⟨by rw [hf1]; exact hI.file, ?_, ?_, ?_⟩ hb hed hr
          · simp only [hp1, hI.pos]; omega
          · simp only [hb, List.length_nil, Nat.add_zero] at hR' ⊢; exact hR'
          · exact hI.buf
        | false =>
          rw [hnd] at hr
          simp only [List.isEmpty_nil, Bool.and_false, Bool.false_eq_true, if_false, List.length_nil,
            Nat.not_lt_zero, gt_iff_lt] at hr
          have := hO.ends _ _ _ _ _ _ hrel he (by omega) hx hxp hdec hnd
          simp only [Prod.mk.injEq] at hr
          obtain ⟨_, rfl, _⟩ := hr
          exact ⟨this, hb⟩
      · have hyl := List.length_pos_iff.2 hy
        have hye : y.isEmpty = false := by simpa using hy
        simp only [hye, Bool.false_and, Bool.false_eq_true, if_false] at hr
        split at hr
        · simp only [Prod.mk.injEq, Except.ok.injEq] at hr
          have := congrArg List.length hr.1
          rw [List.length_take, List.length_nil] at this; omega
        · simp only [Prod.mk.injEq, Except.ok.injEq] at hr
          exact absurd hr.1 hy
    unfold readLoop at hres
    cases hne : C.needsInput r.dec with
    | true =>
      simp only [hne, if_true, Bool.true_and, PyFile.read, hdrop] at hres
      by_cases hx : (raw.drop r.readCompressed).take n = []
      · simp [hx] at hres
      · have hx' : ((raw.drop r.readCompressed).take n).isEmpty = false := by simpa using hx
        simp only [hx', Bool.false_eq_true, if_false] at hres
        exact key _ { f with pos := f.pos + ((raw.drop r.readCompressed).take n).length } rfl rfl
          (List.take_prefix _ _) (.inl ⟨hne, hx⟩) hres
    | false =>
      simp only [hne, Bool.false_eq_true, if_false, Bool.false_and] at hres
      exact key [] f rfl rfl (by simp) (.inr ⟨hne, rfl⟩) hres

theorem read_empty {size : Nat} (hS : Streams C d₀ raw plain R) (hO : Occupies C raw R size)
    {base n : Nat} (hn : 0 < n) {r r' : DReader D} {f f' : PyFile}
    (hI : Inv C raw plain R base r f) (h : read C n 0 r f = (.ok [], r', f')) :
    C.eof r'.dec = true ∧ r'.buffer = [] := by
  unfold read at h
  by_cases hb : r.buffer = []
  · simp only [hb, List.isEmpty_nil, Bool.true_eq_false, if_false] at h
    cases he : C.eof r.dec with
    | true =>
      simp only [he, if_true, Prod.mk.injEq, true_and] at h
      rw [← h.1]; exact ⟨he, hb⟩
    | false =>
      simp only [he, Bool.false_eq_true, if_false] at h
      exact readLoop_empty hS hO n 0 hn _ r f r' f' hI hb he h
  · have hb' : r.buffer.isEmpty = false := by simpa using hb
    have hlen : 0 < r.buffer.length := List.length_pos_iff.2 hb
    simp only [hb', if_true, Prod.mk.injEq, Except.ok.injEq] at h
    have := congrArg List.length h.1
    rw [List.length_take, List.length_nil] at this; omega

/-- When an unlimited iteration comes to its end, the end of the stream was noticed. -/
theorem iterRead_end {size : Nat} (hS : Streams C d₀ raw plain R) (hO : Occupies C raw R size)
    {base : Nat} {n : Int} (hn : n < 0) {bs : Nat} (hbs : 0 < bs) (k : Nat) :
    ∀ (nRead : Nat) (r : DReader D) (f : PyFile) (cs : List Bytes) (r' : DReader D) (f' : PyFile),
    Inv C raw plain R base r f → iterRead C n bs k nRead r f = (.ok (cs, true), r', f') →
    C.eof r'.dec = true ∧ r'.buffer = [] := by
  induction k with
  | zero => intro nRead r f cs r' f' _ h; simp [iterRead] at h
  | succ k ih =>
    intro nRead r f cs r' f' hI h
    unfold iterRead at h
    rw [if_neg (by omega)] at h
    simp only [show ¬ (0 ≤ n) by omega, if_false] at h
    obtain ⟨res, r1, f1, h1, h2, h3, h4⟩ := read_spec hS (n := bs) 0 hbs hI
    rw [h1] at h
    rcases h4 with ⟨y, rfl, hy, hyn, hp, hemp⟩ | ⟨rfl, _⟩
    · simp only at h
      by_cases hy0 : y = []
      · subst hy0
        simp only [List.isEmpty_nil, if_true, Prod.mk.injEq, Except.ok.injEq] at h
        have := read_empty hS hO hbs hI h1
        rw [← h.2.1]; exact this
      · have hy' : y.isEmpty = false := by simpa using hy0
        simp only [hy', Bool.false_eq_true, if_false] at h
        generalize hg : iterRead C n bs k (nRead + y.length) r1 f1 = g at h
        obtain ⟨gr, g1, g2⟩ := g
        cases gr with
        | error e => simp at h
        | ok v =>
          simp only [Prod.mk.injEq, Except.ok.injEq] at h
          obtain ⟨⟨_, hv⟩, rfl, rfl⟩ := h
          refine ih (nRead + y.length) r1 f1 v.1 g1 g2 h2 ?_
          rw [hg, ← hv]
    · simp at h

end DReader
end Pyzim
