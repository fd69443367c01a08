import Verif.Spec.Counter

/-!
# Lemmas about the counter
-/

namespace Pyzim

/-! ## Splitting and joining -/

theorem pySplit_ne_nil (c : Char) (s : List Char) : pySplit c s ≠ [] := by
  cases s with
  | nil => simp [pySplit]
  | cons x xs =>
    unfold pySplit
    split
    · simp
    · split <;> simp

theorem pySplit_append (c : Char) (a b : List Char) :
    pySplit c (a ++ c :: b) = pySplit c a ++ pySplit c b := by
  induction a with
  | nil => simp [pySplit]
  | cons x xs ih =>
    simp only [List.cons_append]
    rw [pySplit, pySplit, ih]
    by_cases h : x = c
    · simp [h]
    · simp only [h, if_false]
      cases h1 : pySplit c xs with
      | nil => exact absurd h1 (pySplit_ne_nil c xs)
      | cons p ps => rfl

theorem pyJoin_cons (c : Char) (a : List Char) {l : List (List Char)} (h : l ≠ []) :
    pyJoin c (a :: l) = a ++ c :: pyJoin c l := by
  cases l with
  | nil => exact absurd rfl h
  | cons b r => rfl

theorem pyJoin_pySplit (c : Char) (s : List Char) : pyJoin c (pySplit c s) = s := by
  induction s with
  | nil => rfl
  | cons x xs ih =>
    rw [pySplit]
    by_cases h : x = c
    · subst h
      rw [if_pos rfl, pyJoin_cons _ _ (pySplit_ne_nil _ _), ih]
      rfl
    · rw [if_neg h]
      cases h1 : pySplit c xs with
      | nil => exact absurd h1 (pySplit_ne_nil c xs)
      | cons p ps =>
        rw [h1] at ih
        rw [← ih]
        cases ps <;> rfl

/-- Splitting yields parts without the separator. -/
theorem pySplit_not_mem (c : Char) (s : List Char) : ∀ p ∈ pySplit c s, c ∉ p := by
  induction s with
  | nil => simp [pySplit]
  | cons x xs ih =>
    intro p hp
    rw [pySplit] at hp
    by_cases h : x = c
    · rw [if_pos h] at hp
      rcases List.mem_cons.1 hp with rfl | hp
      · simp
      · exact ih p hp
    · rw [if_neg h] at hp
      cases h1 : pySplit c xs with
      | nil => exact absurd h1 (pySplit_ne_nil c xs)
      | cons q qs =>
        rw [h1] at hp ih
        rcases List.mem_cons.1 hp with rfl | hp
        · intro hc
          rcases List.mem_cons.1 hc with rfl | hc
          · exact h rfl
          · exact ih q (by simp) hc
        · exact ih p (by simp [hp])

theorem pySplit_of_not_mem (c : Char) (s : List Char) (h : c ∉ s) : pySplit c s = [s] := by
  induction s with
  | nil => rfl
  | cons x xs ih =>
    have h1 : x ≠ c := fun e => h (by simp [e])
    have h2 : c ∉ xs := fun e => h (by simp [e])
    rw [pySplit, if_neg h1, ih h2]

theorem pyRsplit_none (c : Char) (s : List Char) (h : c ∉ s) : pyRsplit c s = none := by
  induction s with
  | nil => rfl
  | cons x xs ih =>
    have h1 : x ≠ c := fun e => h (by simp [e])
    have h2 : c ∉ xs := fun e => h (by simp [e])
    rw [pyRsplit, ih h2]
    simp [h1]

theorem pyRsplit_append (c : Char) (a b : List Char) (h : c ∉ b) :
    pyRsplit c (a ++ c :: b) = some (a, b) := by
  induction a with
  | nil => simp [pyRsplit, pyRsplit_none c b h]
  | cons x xs ih => simp [pyRsplit, ih]

theorem pyRsplit_some {c : Char} {s a b : List Char} (h : pyRsplit c s = some (a, b)) :
    s = a ++ c :: b := by
  induction s generalizing a b with
  | nil => cases h
  | cons x xs ih =>
    rw [pyRsplit] at h
    cases h1 : pyRsplit c xs with
    | none =>
      rw [h1] at h
      by_cases hx : x = c
      · simp only [hx, if_true] at h
        cases h
        simp [hx]
      · simp [hx] at h
    | some r =>
      obtain ⟨a', b'⟩ := r
      rw [h1] at h
      cases h
      simp [ih h1]

/-! ## Numbers -/

theorem pyStr_digits (n : Nat) : ∀ c ∈ Nat.toDigits 10 n, c.isDigit = true :=
  fun _ hc => Nat.isDigit_of_mem_toDigits (by decide) (by decide) hc

theorem pyDigits_of_all (d : List Char) (h : ∀ c ∈ d, c.isDigit = true) (b : Bool) (hb : d ≠ [] ∨ b = true) :
    pyDigits b d = true := by
  induction d generalizing b with
  | nil => simpa [pyDigits] using hb
  | cons x xs ih =>
    rw [pyDigits, if_pos (h x (by simp))]
    exact ih (fun c hc => h c (by simp [hc])) true (Or.inr rfl)

theorem digit_facts {c : Char} (h : c.isDigit = true) :
    pySpace c = false ∧ c ≠ ';' ∧ c ≠ '=' ∧ c ≠ '-' ∧ c ≠ '+' := by
  have h2 : 48 ≤ c.toNat ∧ c.toNat ≤ 57 := by
    simp only [Char.isDigit, Bool.and_eq_true, decide_eq_true_eq, ge_iff_le, UInt32.le_iff_toNat_le] at h
    exact h
  refine ⟨?_, ?_, ?_, ?_, ?_⟩
  · have h3 : c ≠ ' ' := by rintro rfl; revert h2; decide
    unfold pySpace
    rw [decide_eq_false_iff_not]
    rintro (h4 | h4 | h4)
    · exact h3 h4
    · omega
    · omega
  all_goals (rintro rfl; revert h2; decide)

theorem dropWhile_none {s : List Char} (h : ∀ c ∈ s, pySpace c = false) : s.dropWhile pySpace = s := by
  cases s with
  | nil => rfl
  | cons x xs => simp [List.dropWhile, h x (by simp)]

theorem strip_none {s : List Char} (h : ∀ c ∈ s, pySpace c = false) :
    ((s.dropWhile pySpace).reverse.dropWhile pySpace).reverse = s := by
  rw [dropWhile_none h, dropWhile_none (by simpa using h), List.reverse_reverse]

theorem pyInt_pyStr (n : Int) : pyInt (pyStr n) = .ok n := by
  have key (k : Nat) : pyDigits false (Nat.toDigits 10 k) = true :=
    pyDigits_of_all _ (pyStr_digits k) _ (Or.inl Nat.toDigits_ne_nil)
  have val (k : Nat) : Nat.ofDigitChars 10 ((Nat.toDigits 10 k).filter Char.isDigit) 0 = k := by
    rw [List.filter_eq_self.2 (pyStr_digits k)]
    exact Nat.ofDigitChars_toDigits (by decide) (by decide)
  cases n with
  | ofNat k =>
    have hs := strip_none (s := Nat.toDigits 10 k) fun c hc => (digit_facts (pyStr_digits k c hc)).1
    simp only [pyInt, pyStr, hs]
    cases hd : Nat.toDigits 10 k with
    | nil => exact absurd hd Nat.toDigits_ne_nil
    | cons x xs =>
      have hx := digit_facts (pyStr_digits k x (by simp [hd]))
      have key' := key k
      have val' := val k
      rw [hd] at key' val'
      split
      · rename_i h; cases h; exact absurd rfl hx.2.2.2.1
      · rename_i h; cases h; exact absurd rfl hx.2.2.2.2
      · simp only [key', if_true, val']; rfl
  | negSucc k =>
    have hs : ((('-' :: Nat.toDigits 10 (k + 1)).dropWhile pySpace).reverse.dropWhile pySpace).reverse
        = '-' :: Nat.toDigits 10 (k + 1) := by
      apply strip_none
      intro c hc
      rcases List.mem_cons.1 hc with rfl | hc
      · decide
      · exact (digit_facts (pyStr_digits _ c hc)).1
    simp only [pyInt, pyStr, hs, key, if_true, val]
    rfl

theorem pyStr_not_mem (n : Int) : ';' ∉ pyStr n ∧ '=' ∉ pyStr n := by
  have key (k : Nat) : ';' ∉ Nat.toDigits 10 k ∧ '=' ∉ Nat.toDigits 10 k :=
    ⟨fun h => (digit_facts (pyStr_digits k _ h)).2.1 rfl,
     fun h => (digit_facts (pyStr_digits k _ h)).2.2.1 rfl⟩
  cases n with
  | ofNat k => exact key k
  | negSucc k =>
    have := key (k + 1)
    refine ⟨?_, ?_⟩ <;> intro h <;> rcases List.mem_cons.1 h with h | h
    · exact absurd h (by decide)
    · exact this.1 h
    · exact absurd h (by decide)
    · exact this.2 h

/-! ## Dictionaries -/

theorem dictGet_set_self {V : Type} (k : String) (v : V) (d : List (String × V)) :
    dictGet k (dictSet k v d) = some v := by
  induction d with
  | nil => simp [dictSet, dictGet]
  | cons p d ih =>
    obtain ⟨a, w⟩ := p
    simp only [dictSet]
    by_cases h : a = k
    · simp [h, dictGet]
    · simp [h, dictGet, ih]

theorem dictGet_set_ne {V : Type} {k k' : String} (v : V) (d : List (String × V)) (h : k' ≠ k) :
    dictGet k' (dictSet k v d) = dictGet k' d := by
  induction d with
  | nil => simp [dictSet, dictGet, Ne.symm h]
  | cons p d ih =>
    obtain ⟨a, w⟩ := p
    simp only [dictSet]
    by_cases h1 : a = k
    · simp [h1, dictGet, Ne.symm h]
    · simp [h1, dictGet, ih]

theorem dictSet_new {V : Type} (k : String) (v : V) (d : List (String × V))
    (h : k ∉ d.map Prod.fst) : dictSet k v d = d ++ [(k, v)] := by
  induction d with
  | nil => rfl
  | cons p d ih =>
    obtain ⟨a, w⟩ := p
    simp only [List.map_cons, List.mem_cons, not_or] at h
    simp [dictSet, Ne.symm h.1, ih h.2]

theorem dictSet_mem {V : Type} {k : String} {v : V} {d : List (String × V)} {x : String}
    (h : x ∈ (dictSet k v d).map Prod.fst) : x = k ∨ x ∈ d.map Prod.fst := by
  induction d with
  | nil => simpa [dictSet] using h
  | cons p d ih =>
    obtain ⟨a, w⟩ := p
    simp only [dictSet] at h
    split at h
    · exact Or.inr h
    · rcases List.mem_cons.1 h with h | h
      · exact Or.inr (by simp at h; simp [h])
      · rcases ih h with h | h
        · exact Or.inl h
        · exact Or.inr (by simp at h; simp [h])

theorem dictSet_nodup {V : Type} (k : String) (v : V) (d : List (String × V)) (h : DistinctKeys d) :
    DistinctKeys (dictSet k v d) := by
  induction d with
  | nil => simp [dictSet, DistinctKeys]
  | cons p d ih =>
    obtain ⟨a, w⟩ := p
    have h' : a ∉ d.map Prod.fst ∧ DistinctKeys d := List.nodup_cons.1 h
    simp only [dictSet]
    by_cases h1 : a = k
    · rw [if_pos h1]; exact h
    · rw [if_neg h1]
      refine List.nodup_cons.2 ⟨?_, ih h'.2⟩
      intro hm
      rcases dictSet_mem hm with e | e
      · exact h1 e
      · exact h'.1 e

/-! ## Parsing -/

namespace Counter

/-- Text in which each `;` is followed by a space. -/
def Params (s : List Char) : Prop := ∀ a b, s = a ++ ';' :: b → b.head? = some ' '

theorem startsWithSpace_iff (p : List Char) : startsWithSpace p = true ↔ p.head? = some ' ' := by
  unfold startsWithSpace
  split
  · simp
  · rename_i h
    cases p with
    | nil => simp
    | cons x xs =>
      simp only [List.head?_cons, Option.some.injEq]
      constructor
      · intro h1; exact absurd h1 (by simp)
      · rintro rfl; exact absurd rfl (h xs)

/-- The parts after the first one all start with a space. -/
theorem params_split {s : List Char} (h : Params s) :
    ∃ p ps, pySplit ';' s = p :: ps ∧ ∀ q ∈ ps, startsWithSpace q = true := by
  induction s with
  | nil => exact ⟨[], [], rfl, by simp⟩
  | cons x xs ih =>
    have hx : Params xs := fun a b e => h (x :: a) b (by rw [e]; rfl)
    obtain ⟨p, ps, e, hps⟩ := ih hx
    rw [pySplit, e]
    by_cases hc : x = ';'
    · rw [if_pos hc]
      refine ⟨[], p :: ps, rfl, fun q hq => ?_⟩
      rcases List.mem_cons.1 hq with rfl | hq
      · rw [startsWithSpace_iff]
        have h1 := h [] xs (by rw [hc]; rfl)
        have h2 := pyJoin_pySplit ';' xs
        rw [e] at h2
        cases ps with
        | nil => rw [show pyJoin ';' [q] = q from rfl] at h2; rw [h2]; exact h1
        | cons r rs =>
          rw [pyJoin_cons _ _ (by simp)] at h2
          cases q with
          | nil =>
            rw [← h2] at h1
            simp at h1
          | cons y ys => rw [← h2] at h1; exact h1
      · exact hps q hq
    · rw [if_neg hc]
      exact ⟨x :: p, ps, rfl, hps⟩

theorem absorb_all (m : List Char) (ps rest : List (List Char))
    (h : ∀ q ∈ ps, startsWithSpace q = true) (hr : ∀ q, rest.head? = some q → startsWithSpace q = false) :
    absorb m (ps ++ rest) = (pyJoin ';' (m :: ps), rest) := by
  induction ps generalizing m with
  | nil =>
    cases rest with
    | nil => rfl
    | cons q qs => simp [absorb, hr q rfl, pyJoin]
  | cons p ps ih =>
    simp only [List.cons_append, absorb]
    rw [if_pos (h p (by simp)), ih _ (fun q hq => h q (by simp [hq])), pyJoin_cons _ m (by simp)]
    cases ps with
    | nil => rfl
    | cons q qs =>
      rw [pyJoin_cons _ (m ++ ';' :: p) (by simp), pyJoin_cons _ p (by simp)]
      simp

/-- The text of one mimetype and its count. -/
def component (p : String × Int) : List Char := p.1.toList ++ '=' :: pyStr p.2

theorem component_params {p : String × Int} (h : MimetypeShape p.1) : Params (component p) := by
  intro a b e
  have hv : ';' ∉ '=' :: pyStr p.2 := by
    intro hm
    rcases List.mem_cons.1 hm with hm | hm
    · exact absurd hm (by decide)
    · exact (pyStr_not_mem _).1 hm
  rcases List.append_eq_append_iff.1 e with ⟨a', h1, h2⟩ | ⟨b', h1, h2⟩
  · exfalso
    cases a' with
    | nil => exact hv (by rw [h2]; simp)
    | cons y ys => exact hv (by rw [h2]; simp)
  · cases b' with
    | nil => exfalso; exact hv (by rw [List.nil_append] at h2; rw [← h2]; simp)
    | cons y ys =>
      simp only [List.cons_append, List.cons.injEq] at h2
      rw [← h2.1] at h1
      have h3 := h.1 a ys h1
      rw [h2.2]
      cases ys with
      | nil => simp at h3
      | cons z zs => simpa using h3

theorem component_head {p : String × Int} (h : MimetypeShape p.1) : (component p).head? ≠ some ' ' := by
  unfold component
  cases hm : p.1.toList with
  | nil => simp
  | cons x xs =>
    have := h.2
    rw [hm] at this
    simpa using this

theorem split_head (c : Char) (s p : List Char) (ps : List (List Char)) (h : pySplit c s = p :: ps)
    (hs : s.head? ≠ some ' ') : startsWithSpace p = false := by
  cases hp : startsWithSpace p with
  | false => rfl
  | true =>
    rw [startsWithSpace_iff] at hp
    have h2 := pyJoin_pySplit c s
    rw [h] at h2
    cases p with
    | nil => simp at hp
    | cons y ys =>
      cases ps with
      | nil => rw [← h2] at hs; exact absurd hp hs
      | cons q qs => rw [pyJoin_cons _ _ (by simp)] at h2; rw [← h2] at hs; exact absurd hp hs

/-- Parsing the parts of one component, followed by other components. -/
theorem parse_component {p : String × Int} (h : MimetypeShape p.1) (counts : List (String × Int))
    (rest : List (List Char)) (hr : ∀ q, rest.head? = some q → startsWithSpace q = false) :
    parse counts (pySplit ';' (component p) ++ rest) = parse (dictSet p.1 p.2 counts) rest := by
  obtain ⟨q, qs, e, hqs⟩ := params_split (component_params h)
  have hj := pyJoin_pySplit ';' (component p)
  rw [e] at hj
  rw [e, List.cons_append, parse, absorb_all q qs rest hqs hr, hj]
  have hne : component p ≠ [] := by simp [component]
  simp only [ne_eq, hne, not_false_eq_true, if_true]
  rw [component, pyRsplit_append _ _ _ (pyStr_not_mem _).2]
  simp only [pyInt_pyStr, String.ofList_toList]

theorem parse_components (l : List (String × Int)) (h : ∀ p ∈ l, MimetypeShape p.1)
    (counts : List (String × Int)) :
    parse counts (pySplit ';' (pyJoin ';' (l.map component))) =
      .ok (l.foldl (fun d p => dictSet p.1 p.2 d) counts) := by
  induction l generalizing counts with
  | nil => simp [pyJoin, pySplit, parse, absorb]
  | cons p l ih =>
    have hp := h p (by simp)
    have ih' := ih (fun q hq => h q (by simp [hq])) (dictSet p.1 p.2 counts)
    cases l with
    | nil =>
      have := parse_component hp counts [] (by simp)
      rw [List.append_nil] at this
      simp only [List.map_cons, List.map_nil, pyJoin, List.foldl_cons, List.foldl_nil]
      rw [this]
      simp [parse]
    | cons p' l =>
      rw [List.map_cons, pyJoin_cons _ _ (by simp), pySplit_append, parse_component hp, ih']
      · rfl
      · intro q hq
        obtain ⟨p0, ps0, e0, _⟩ : ∃ p0 ps0, pySplit ';' (pyJoin ';' (List.map component (p' :: l))) = p0 :: ps0 ∧ True := by
          cases hh : pySplit ';' (pyJoin ';' (List.map component (p' :: l))) with
          | nil => exact absurd hh (pySplit_ne_nil _ _)
          | cons a b => exact ⟨a, b, rfl, trivial⟩
        rw [e0] at hq
        cases hq
        refine split_head ';' _ _ _ e0 ?_
        have hc := component_head (h p' (by simp))
        rw [List.map_cons]
        cases hl : l.map component with
        | nil => simpa [pyJoin] using hc
        | cons a b =>
          rw [pyJoin_cons _ _ (by simp)]
          have hne : component p' ≠ [] := by simp [component]
          cases hc' : component p' with
          | nil => exact absurd hc' hne
          | cons y ys => rw [hc'] at hc; simpa using hc

theorem foldl_dictSet (l counts : List (String × Int))
    (h : DistinctKeys (counts ++ l)) :
    l.foldl (fun d p => dictSet p.1 p.2 d) counts = counts ++ l := by
  induction l generalizing counts with
  | nil => simp
  | cons p l ih =>
    have hnew : p.1 ∉ counts.map Prod.fst := by
      unfold DistinctKeys at h
      rw [List.map_append, List.map_cons, List.nodup_append] at h
      intro hm
      exact h.2.2 _ hm _ (by simp) rfl
    rw [List.foldl_cons, dictSet_new _ _ _ hnew, ih]
    · simp
    · simpa [DistinctKeys] using h

/-- Everything parsed has distinct keys. -/
theorem parse_distinct : ∀ (n : Nat) (ps : List (List Char)), ps.length ≤ n → ∀ (counts out),
    DistinctKeys counts → parse counts ps = .ok out → DistinctKeys out := by
  intro n
  induction n with
  | zero =>
    intro ps hn counts out hd h
    have : ps = [] := List.eq_nil_of_length_eq_zero (by omega)
    subst this
    rw [parse] at h
    cases h
    exact hd
  | succ n ih =>
    intro ps hn counts out hd h
    cases ps with
    | nil => rw [parse] at h; cases h; exact hd
    | cons p ps =>
      have hl := absorb_length p ps
      rw [parse] at h
      simp only [List.length_cons] at hn
      split at h
      · split at h
        · cases h
        · split at h
          · cases h
          · exact ih _ (by omega) _ _ (dictSet_nodup _ _ _ hd) h
      · exact ih _ (by omega) _ _ hd h

theorem params_prefix {a b : List Char} (h : Params (a ++ '=' :: b)) : Params a := by
  intro x y e
  have h1 := h x (y ++ '=' :: b) (by rw [e]; simp)
  cases y with
  | nil => simp at h1
  | cons z zs => simpa using h1

theorem absorb_params (m : List Char) (ps : List (List Char)) (hm : Params m)
    (hps : ∀ p ∈ ps, ';' ∉ p) :
    Params (absorb m ps).1 ∧ (absorb m ps).2 <:+ ps ∧
    (∀ q, (absorb m ps).2.head? = some q → startsWithSpace q = false) ∧
    m <+: (absorb m ps).1 := by
  induction ps generalizing m with
  | nil => simp [absorb, hm]
  | cons p ps ih =>
    unfold absorb
    by_cases hp : startsWithSpace p = true
    · rw [if_pos hp]
      have hm' : Params (m ++ ';' :: p) := by
        intro a b e
        rcases List.append_eq_append_iff.1 e with ⟨a', h1, h2⟩ | ⟨b', h1, h2⟩
        · cases a' with
          | nil =>
            simp only [List.nil_append, List.cons.injEq, true_and] at h2
            rw [← h2]; exact (startsWithSpace_iff p).1 hp
          | cons y ys =>
            simp only [List.cons_append, List.cons.injEq] at h2
            exact absurd (by rw [h2.2]; simp) (hps p (by simp))
        · cases b' with
          | nil =>
            simp only [List.nil_append, List.cons.injEq, true_and] at h2
            rw [h2]; exact (startsWithSpace_iff p).1 hp
          | cons y ys =>
            simp only [List.cons_append, List.cons.injEq] at h2
            have := hm a ys (by rw [h1, ← h2.1])
            rw [h2.2]
            cases ys with
            | nil => simp at this
            | cons z zs => simpa using this
      obtain ⟨h1, h2, h3, h4⟩ := ih _ hm' (fun q hq => hps q (by simp [hq]))
      exact ⟨h1, h2.trans (List.suffix_cons _ _), h3, (List.prefix_append _ _).trans h4⟩
    · rw [if_neg hp]
      refine ⟨hm, List.suffix_refl _, ?_, List.prefix_refl _⟩
      intro q hq
      cases hq
      simpa using hp

theorem parse_shape : ∀ (n : Nat) (ps : List (List Char)), ps.length ≤ n → (∀ p ∈ ps, ';' ∉ p) →
    (∀ q, ps.head? = some q → startsWithSpace q = false) → ∀ (counts out),
    (∀ p ∈ counts, MimetypeShape p.1) → parse counts ps = .ok out → ∀ p ∈ out, MimetypeShape p.1 := by
  intro n
  induction n with
  | zero =>
    intro ps hn _ _ counts out hd h
    have : ps = [] := List.eq_nil_of_length_eq_zero (by omega)
    subst this
    rw [parse] at h
    cases h
    exact hd
  | succ n ih =>
    intro ps hn hsemi hhead counts out hd h
    cases ps with
    | nil => rw [parse] at h; cases h; exact hd
    | cons p ps =>
      have hl := absorb_length p ps
      have hpm : Params p := fun a b e => absurd (by rw [e]; simp) (hsemi p (by simp))
      obtain ⟨h1, h2, h3, h4⟩ := absorb_params p ps hpm (fun q hq => hsemi q (by simp [hq]))
      rw [parse] at h
      simp only [List.length_cons] at hn
      have hs2 : ∀ q ∈ (absorb p ps).2, ';' ∉ q := fun q hq => hsemi q (by simp [h2.subset hq])
      split at h
      · rename_i hne
        split at h
        · cases h
        · rename_i mt v hr
          split at h
          · cases h
          · refine ih _ (by omega) hs2 h3 _ _ ?_ h
            intro x hx
            have hx' : x.1 ∈ (dictSet (String.ofList mt) _ counts).map Prod.fst :=
              List.mem_map_of_mem hx
            rcases dictSet_mem hx' with e | e
            · rw [e]
              have hrs := pyRsplit_some hr
              rw [hrs] at h1 h4
              refine ⟨by rw [String.toList_ofList]; exact params_prefix h1, ?_⟩
              rw [String.toList_ofList]
              intro hsp
              have hp0 := hhead p rfl
              obtain ⟨t, ht⟩ := h4
              cases p with
              | nil =>
                -- an empty part followed by a part starting with a space
                cases mt with
                | nil => simp at hsp
                | cons z zs =>
                  simp only [List.head?_cons, Option.some.injEq] at hsp
                  subst hsp
                  rw [hrs] at hne
                  cases ps with
                  | nil => simp [absorb] at hrs
                  | cons q qs =>
                    unfold absorb at hrs
                    split at hrs
                    · -- the text starts with `;`
                      have hpre : (absorb ([] ++ ';' :: q) qs).1.head? = some ';' := by
                        have hgen : ∀ (qs : List (List Char)) (m : List Char),
                            m.head? = some ';' → (absorb m qs).1.head? = some ';' := by
                          intro qs
                          induction qs with
                          | nil => intro m hm; exact hm
                          | cons r rs ihq =>
                            intro m hm
                            unfold absorb
                            split
                            · apply ihq
                              cases m with
                              | nil => simp at hm
                              | cons a b => simpa using hm
                            · exact hm
                        exact hgen qs _ rfl
                      rw [hrs] at hpre
                      simp at hpre
                    · simp at hrs
              | cons y ys =>
                cases mt with
                | nil => simp at hsp
                | cons z zs =>
                  simp only [List.head?_cons, Option.some.injEq] at hsp
                  simp only [List.cons_append, List.cons.injEq] at ht
                  rw [ht.1, hsp] at hp0
                  simp [startsWithSpace] at hp0
            · obtain ⟨y, hy, e2⟩ := List.mem_map.1 e
              rw [← e2]; exact hd y hy
      · exact ih _ (by omega) hs2 h3 _ _ hd h

/-! ## Counting -/

theorem getCount_increment (c : Counter) (mt m : String) :
    (c.increment mt).getCount m = c.getCount m + (if m = mt then 1 else 0) := by
  unfold increment getCount
  cases h : dictGet mt c.counts with
  | none =>
    by_cases hm : m = mt
    · subst hm; simp [dictGet_set_self, h]
    · simp [dictGet_set_ne _ _ hm, hm]
  | some n =>
    by_cases hm : m = mt
    · subst hm; simp [dictGet_set_self, h]
    · simp [dictGet_set_ne _ _ hm, hm]

theorem decrement_spec (c : Counter) (mt : String) (h : 0 < c.getCount mt) :
    ∃ c', c.decrement mt = (.ok (), c') ∧
      ∀ m, c'.getCount m = c.getCount m - (if m = mt then 1 else 0) := by
  unfold decrement getCount at *
  cases hg : dictGet mt c.counts with
  | none => simp [hg] at h
  | some n =>
    simp only [hg, Option.getD_some] at h
    refine ⟨_, by simp only; rw [if_neg (by omega)], ?_⟩
    intro m
    by_cases hm : m = mt
    · subst hm; simp [dictGet_set_self, hg]
    · simp [dictGet_set_ne _ _ hm, hm]

end Counter
end Pyzim
