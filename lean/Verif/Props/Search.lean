import Verif.Spec.Search
import Verif.Lemmas.PointerList
import Verif.Lemmas.Utf8Order

/-!
# C47, C62: title search
-/

namespace Pyzim

theorem mapM_ok {α β : Type} {f : α → PyRes β} {l : List α} {r : List β} (h : l.mapM f = .ok r) :
    r.length = l.length ∧ ∀ i (h1 : i < l.length) (h2 : i < r.length), f l[i] = .ok r[i] := by
  induction l generalizing r with
  | nil => cases h; exact ⟨rfl, fun i h1 => absurd h1 (by simp)⟩
  | cons a l ih =>
    rw [List.mapM_cons] at h
    cases ha : f a with
    | error e => rw [ha] at h; cases h
    | ok b =>
      cases hl : l.mapM f with
      | error e => rw [ha, hl] at h; cases h
      | ok bs =>
        rw [ha, hl] at h; cases h
        obtain ⟨h1, h2⟩ := ih hl
        refine ⟨by simp [h1], ?_⟩
        intro i hi hi'
        cases i with
        | zero => exact ha
        | succ i => exact h2 i (by simpa using hi) (by simpa using hi')

/-- In a list where exactly the elements in a range of indexes satisfy a condition, filtering gives the range. -/
theorem filter_range {α : Type} (p : α → Bool) (l : List α) (a b : Nat)
    (h : ∀ i (hi : i < l.length), p l[i] = true ↔ a ≤ i ∧ i < b) : l.filter p = (l.take b).drop a := by
  induction l generalizing a b with
  | nil => simp
  | cons x l ih =>
    have h0 := h 0 (by simp)
    simp only [List.getElem_cons_zero] at h0
    have hs := ih (a - 1) (b - 1) (fun i hi => by
      have := h (i + 1) (by simpa using hi)
      simp only [List.getElem_cons_succ] at this
      rw [this]; omega)
    cases b with
    | zero =>
      have : p x = false := by
        cases hx : p x with
        | false => rfl
        | true => have := h0.1 hx; omega
      rw [List.filter_cons, this]
      simp only [Nat.zero_sub, List.take_zero, List.drop_nil] at hs
      simp [hs]
    | succ b =>
      cases a with
      | zero =>
        rw [List.filter_cons, h0.2 ⟨Nat.le_refl _, by omega⟩]
        simp only [Nat.zero_sub, Nat.add_sub_cancel, List.drop_zero] at hs
        simp [hs]
      | succ a =>
        have : p x = false := by
          cases hx : p x with
          | false => rfl
          | true => have := h0.1 hx; omega
        rw [List.filter_cons, this]
        simp only [Nat.add_sub_cancel] at hs
        simp [hs]

namespace TitleStartSearch

variable {t : TitleStartSearch} {entries : List Entry}

theorem find_spec (h : TitleList t entries) (k : Bytes) :
    ∃ r, t.list.findFirstGreaterEquals t.key k = .ok r ∧ r ≤ entries.length ∧
      ∀ i (hi : i < entries.length), i < r ↔ encode (t.text entries[i]) < k := by
  obtain ⟨hlen, hget⟩ := mapM_ok h.lists
  obtain ⟨r, h1, h2, h3, h4⟩ := binarysearch_spec (t.list.keyAt t.key)
    (fun i => if hi : i < entries.length then encode (t.text entries[i]) else []) k t.list.len
    (fun i hi => by
      have hi' : i < entries.length := by rw [hlen]; exact hi
      rw [dif_pos hi']
      unfold PointerList.keyAt PointerList.getByIndex
      rw [pyIndex_lt _ _ hi]
      show t.key t.list.pointers[i] = _
      unfold key
      rw [hget i hi hi']
      rfl)
    (fun i j hij hj => by
      have hj' : j < entries.length := by rw [hlen]; exact hj
      rw [dif_pos hj', dif_pos (Nat.lt_trans hij hj')]
      exact (List.pairwise_iff_getElem.1 h.sorted) i j _ hj' hij)
  refine ⟨r, h1, by rw [hlen]; exact h2, ?_⟩
  intro i hi
  constructor
  · intro hir
    have := h3 i hir
    rwa [dif_pos hi] at this
  · intro hlt
    rcases Nat.lt_or_ge i r with hc | hc
    · exact hc
    · have := h4 i hc (by rw [hlen] at hi; exact hi)
      rw [dif_pos hi] at this
      exact absurd hlt this

theorem nextKey_spec {term : String} (hne : term ≠ "") (hs : Searchable term) :
    ∃ c d : Char, term.toList = term.toList.dropLast ++ [c] ∧ d.val.toNat = c.val.toNat + 1 ∧
      nextKey term = .ok (encode (String.ofList (term.toList.dropLast ++ [d]))) := by
  have hl : term.toList ≠ [] := by
    intro h
    apply hne
    rw [← String.toList_inj]
    exact h
  have hc := List.getLast?_eq_some_getLast hl
  generalize hcc : term.toList.getLast hl = c at hc
  have hv : (c.val.toNat + 1).isValidChar := by
    have h1 := hs c hc
    have h2 := c.valid
    unfold UInt32.isValidChar Nat.isValidChar at *
    omega
  refine ⟨c, Char.ofNatAux (c.val.toNat + 1) hv, ?_, ?_, ?_⟩
  · rw [← hcc, List.dropLast_concat_getLast]
  · rfl
  · unfold nextKey
    rw [hc]
    simp only [dif_pos hv]

/-- The results are the entries between two indexes of the list. -/
theorem bounds_spec (h : TitleList t entries) (term : String) (hs : Searchable term) :
    ∃ a b, t.bounds term = .ok (a, b) ∧ b ≤ entries.length ∧ a ≤ b ∧
      withPrefix t.text entries term = (entries.take b).drop a := by
  unfold bounds
  by_cases hne : term ≠ ""
  · rw [if_pos hne]
    obtain ⟨c, d, hterm, hd, hnext⟩ := nextKey_spec hne hs
    obtain ⟨a, ha1, ha2, ha3⟩ := find_spec h (encode term)
    obtain ⟨b, hb1, hb2, hb3⟩ := find_spec h (encode (String.ofList (term.toList.dropLast ++ [d])))
    have hpre : ∀ i (hi : i < entries.length),
        term.toList.isPrefixOf (t.text entries[i]).toList = true ↔ a ≤ i ∧ i < b := by
      intro i hi
      have h1 := ha3 i hi
      have h2 := hb3 i hi
      have h3 := prefix_iff_between term.toList.dropLast c d hd (t.text entries[i]).toList
      rw [List.isPrefixOf_iff_prefix]
      rw [← hterm, ← encode_lt] at h3
      rw [encode_lt, String.toList_ofList] at h2
      rw [← h3, ← h2, ← h1]
      omega
    have hab : a ≤ b := by
      rcases Nat.lt_or_ge b a with hlt | hge
      · have hi : b < entries.length := by omega
        have h1 := (ha3 b hi).1 hlt
        have h2 := mt (hb3 b hi).2 (Nat.lt_irrefl b)
        rw [encode_lt, String.toList_ofList] at h2
        rw [encode_lt] at h1
        exfalso
        apply h2
        rw [hterm] at h1
        clear h2 hb3 ha3 hpre hnext hb1 hterm
        generalize (t.text entries[b]).toList = s at h1
        generalize term.toList.dropLast = p at h1
        induction p generalizing s with
        | nil =>
          cases s with
          | nil => trivial
          | cons x s =>
            rcases h1 with h1 | ⟨-, h1⟩
            · exact .inl (by omega)
            · exact absurd h1 (by cases s <;> exact id)
        | cons y p ih =>
          cases s with
          | nil => trivial
          | cons x s =>
            rcases h1 with h1 | ⟨rfl, h1⟩
            · exact .inl h1
            · exact .inr ⟨rfl, ih s h1⟩
      · exact hge
    refine ⟨a, b, ?_, hb2, hab, filter_range _ _ _ _ hpre⟩
    rw [ha1, hnext]
    show (do let end_ ← t.list.findFirstGreaterEquals t.key _; pure (a, end_) : PyRes (Nat × Nat)) = _
    rw [hb1]; rfl
  · rw [if_neg hne]
    have hn : term = "" := Classical.not_not.1 hne
    obtain ⟨hlen, -⟩ := mapM_ok h.lists
    refine ⟨0, entries.length, by rw [hlen]; rfl, Nat.le_refl _, Nat.zero_le _, ?_⟩
    unfold withPrefix
    rw [List.take_length, List.drop_zero, List.filter_eq_self]
    intro e _
    rw [hn]; rfl

/-- **C47.** The estimated number of results is the number of entries with the prefix. -/
theorem C47_estimate (h : TitleList t entries) (term : String) (hs : Searchable term) :
    t.search term = .ok (withPrefix t.text entries term).length := by
  obtain ⟨a, b, h1, h2, h3, h4⟩ := bounds_spec h term hs
  unfold search
  rw [h1, h4]
  show Except.ok ((b : Int) - a) = _
  congr 1
  rw [List.length_drop, List.length_take]
  omega

theorem collect_spec (h : TitleList t entries) (ha : t.nonarticles = false) (term : String) (n i : Nat)
    (number : Int) (hn : 1 ≤ number) (hi : i + n ≤ entries.length)
    (hp : ∀ e ∈ (entries.drop i).take n, term.toList.isPrefixOf e.title.toList = true) :
    t.collect term n i number = .ok (numbered term ((entries.drop i).take n) number) := by
  obtain ⟨hlen, hget⟩ := mapM_ok h.lists
  induction n generalizing i number with
  | zero => simp [collect, numbered]
  | succ n ih =>
    have hi' : i < entries.length := by omega
    have hil : i < t.list.pointers.length := by rw [hlen] at hi'; exact hi'
    have hd : entries.drop i = entries[i] :: entries.drop (i + 1) := (List.getElem_cons_drop hi').symm
    have hmem : entries[i] ∈ (entries.drop i).take (n + 1) := by
      rw [hd, List.take_succ_cons]; exact List.mem_cons_self ..
    have hpr := hp _ hmem
    have hnamed := h.named _ (List.getElem_mem hi')
    rw [List.isPrefixOf_iff_prefix] at hpr
    have hl1 := hpr.length_le
    have hl2 : entries[i].title.toList.length ≠ 0 := by
      intro h0
      apply hnamed.1
      rw [← String.toList_inj, List.length_eq_zero_iff.1 h0]; rfl
    unfold collect PointerList.getByIndex
    rw [pyIndex_lt _ _ hil]
    have hres : SearchResult.new number (term.toList.length, entries[i].title.toList.length)
        entries[i].fullUrl entries[i].title = .ok (resultFor term entries[i] number) := by
      unfold SearchResult.new
      rw [if_neg (by omega)]
      simp only
      rw [if_neg (by omega), if_neg (show ¬ entries[i].fullUrl = "" from hnamed.2)]
      rfl
    have ih' := ih (i + 1) (number + 1) (by omega) (by omega) (fun e he => hp e (by
      rw [hd, List.take_succ_cons]; exact List.mem_cons_of_mem _ he))
    show (do
      let e ← t.entryAt t.list.pointers[i]
      let r ← SearchResult.new number (term.toList.length, e.title.toList.length) e.fullUrl e.title
      let rest ← collect t term n ((i : Int) + 1) (number + 1)
      pure (r :: rest)) = _
    rw [hget i hil hi']
    show (do
      let r ← SearchResult.new number (term.toList.length, entries[i].title.toList.length)
        entries[i].fullUrl entries[i].title
      let rest ← collect t term n ((i : Int) + 1) (number + 1)
      pure (r :: rest)) = _
    rw [hres]
    show (do
      let rest ← collect t term n ((i + 1 : Nat) : Int) (number + 1)
      pure (resultFor term entries[i] number :: rest)) = _
    rw [ih', hd, List.take_succ_cons]
    show Except.ok _ = Except.ok _
    congr 1
    unfold numbered
    rw [List.mapIdx_cons]
    congr 1
    · congr 1; omega
    · apply List.mapIdx_eq_mapIdx_iff.2
      intro k hk
      congr 1
      omega

/-- **C47.** `search_in_range` returns the results from the `start`-th on, at most `n`. -/
theorem C47_range (h : TitleList t entries) (ha : t.nonarticles = false) (term : String)
    (hs : Searchable term) (start n : Nat) (hst : 1 ≤ start) :
    t.searchInRange term start n =
      .ok (numbered term (((withPrefix Entry.title entries term).drop (start - 1)).take n)) := by
  obtain ⟨a, b, h1, h2, h3, h4⟩ := bounds_spec h term hs
  have htext : t.text = Entry.title := by
    funext e; unfold text; rw [ha]; rfl
  rw [htext] at h4
  unfold searchInRange
  rw [h1]
  show t.collect term (min (n : Int) ((b : Int) - ((a : Int) + ((start : Int) - 1)))).toNat
    ((a : Int) + ((start : Int) - 1)) 1 = _
  have e1 : (a : Int) + ((start : Int) - 1) = ((a + (start - 1) : Nat) : Int) := by omega
  have e2 : (min (n : Int) ((b : Int) - ((a + (start - 1) : Nat) : Int))).toNat
      = min n (b - (a + (start - 1))) := by omega
  rw [e1, e2]
  have e3 : ((withPrefix Entry.title entries term).drop (start - 1)).take n =
      (entries.drop (a + (start - 1))).take (min n (b - (a + (start - 1)))) := by
    rw [h4, List.drop_drop, List.drop_take, List.take_take]
  rw [e3]
  by_cases hz : min n (b - (a + (start - 1))) = 0
  · rw [hz]; simp [collect, numbered]
  · apply collect_spec h ha
    · decide
    · omega
    · intro e he
      rw [← e3] at he
      have := List.mem_of_mem_drop (List.mem_of_mem_take he)
      exact (List.mem_filter.1 this).2

theorem numberedByPage_split (term : String) (es : List Entry) :
    numberedByPage term es = numbered term (es.take 20) ++ numberedByPage term (es.drop 20) := by
  have h : ∀ (l1 l2 : List Entry), (l1.length = 20 ∨ l2 = []) → l1.length ≤ 20 →
      numberedByPage term (l1 ++ l2) = numbered term l1 ++ numberedByPage term l2 := by
    intro l1 l2 hl hle
    unfold numberedByPage numbered
    rw [List.mapIdx_append]
    congr 1
    · apply List.mapIdx_eq_mapIdx_iff.2
      intro i hi
      congr 1
      omega
    · rcases hl with hl | hl
      · apply List.mapIdx_eq_mapIdx_iff.2
        intro i hi
        congr 1
        omega
      · subst hl; rfl
  have := h (es.take 20) (es.drop 20) (by
    by_cases hc : 20 ≤ es.length
    · left; rw [List.length_take]; omega
    · right; exact List.drop_eq_nil_of_le (by omega)) (by rw [List.length_take]; omega)
  rwa [List.take_append_drop] at this

theorem iter_from (h : TitleList t entries) (ha : t.nonarticles = false) (term : String)
    (hs : Searchable term) (fuel cur : Nat) (hc : 1 ≤ cur)
    (hf : ((withPrefix Entry.title entries term).drop (cur - 1)).length < fuel) :
    t.iter term fuel cur = some (.ok (numberedByPage term ((withPrefix Entry.title entries term).drop (cur - 1)))) := by
  generalize hM : withPrefix Entry.title entries term = M at *
  induction fuel generalizing cur with
  | zero => omega
  | succ fuel ih =>
    unfold iter
    have hr := C47_range h ha term hs cur 20 hc
    rw [hM] at hr
    have h20 : ((20 : Nat) : Int) = (20 : Int) := rfl
    rw [h20] at hr
    rw [hr]
    cases hd : M.drop (cur - 1) with
    | nil => rfl
    | cons e es =>
      have hnum : ∃ r rs, numbered term ((e :: es).take 20) = r :: rs := by
        rw [show (20 : Nat) = 19 + 1 from rfl, List.take_succ_cons]
        exact ⟨_, _, List.mapIdx_cons⟩
      obtain ⟨r, rs, hrs⟩ := hnum
      have hlen : (r :: rs).length = min 20 (e :: es).length := by
        rw [← hrs]; unfold numbered; rw [List.length_mapIdx, List.length_take]
      rw [hrs]
      simp only
      have hcur : (cur : Int) + ((r :: rs).length : Int) = ((cur + (r :: rs).length : Nat) : Int) := by omega
      rw [hcur]
      have hdl : (M.drop (cur - 1)).length = (e :: es).length := by rw [hd]
      have hdrop : M.drop (cur + (r :: rs).length - 1) = (e :: es).drop 20 := by
        have : cur + (r :: rs).length - 1 = (cur - 1) + (r :: rs).length := by omega
        rw [this, ← List.drop_drop, hd]
        by_cases hc20 : 20 ≤ (e :: es).length
        · rw [hlen, Nat.min_eq_left hc20]
        · rw [List.drop_eq_nil_of_le (by omega), List.drop_eq_nil_of_le (by omega)]
      have hpos : 0 < (r :: rs).length := by simp
      rw [ih (cur + (r :: rs).length) (by omega) (by
        rw [hdrop, List.length_drop]; simp only [List.length_cons] at *; omega)]
      rw [hdrop]
      simp only
      rw [numberedByPage_split term (e :: es), hrs]

/-- **C47.** Iterating over the result set ends and yields, in title order, exactly the articles whose title starts
with the term, each once. (The results are numbered from 1 on each page of 20.) -/
theorem C47_iter (h : TitleList t entries) (ha : t.nonarticles = false) (term : String)
    (hs : Searchable term) :
    ∃ rounds, ∀ fuel, rounds ≤ fuel →
      t.iter term fuel 1 = some (.ok (numberedByPage term (withPrefix Entry.title entries term))) := by
  refine ⟨(withPrefix Entry.title entries term).length + 1, fun fuel hf => ?_⟩
  have := iter_from h ha term hs fuel 1 (Nat.le_refl _) (by simp; omega)
  simpa using this

/-- **C47.** `iter_in_range` yields the results from the `start`-th on, at most `n`. -/
theorem C47_iter_in_range (h : TitleList t entries) (ha : t.nonarticles = false) (term : String)
    (hs : Searchable term) (start n : Nat) (hst : 1 ≤ start) (fuel : Nat) (hf : 3 ≤ fuel) :
    t.iterInRange term start n fuel start =
      some (.ok (numbered term (((withPrefix Entry.title entries term).drop (start - 1)).take n))) := by
  obtain ⟨fuel, rfl⟩ : ∃ f, fuel = f + 3 := ⟨fuel - 3, by omega⟩
  unfold iterInRange
  by_cases hn : n = 0
  · subst hn
    rw [if_neg (by omega)]
    simp [numbered]
  rw [if_pos (by omega), C47_range h ha term hs start n hst]
  generalize hM : withPrefix Entry.title entries term = M
  cases hd : (M.drop (start - 1)).take n with
  | nil => rfl
  | cons e es =>
    have hnum : ∃ r rs, numbered term (e :: es) = r :: rs := ⟨_, _, List.mapIdx_cons⟩
    obtain ⟨r, rs, hrs⟩ := hnum
    have hlen : (r :: rs).length = (e :: es).length := by
      rw [← hrs]; unfold numbered; rw [List.length_mapIdx]
    rw [hrs]
    simp only
    have hl : (e :: es).length = min n (M.length - (start - 1)) := by
      rw [← hd, List.length_take, List.length_drop]
    unfold iterInRange
    by_cases hk : (r :: rs).length = n
    · rw [if_neg (by omega)]; simp
    · have hlt : (r :: rs).length < n := by omega
      rw [if_pos (by omega)]
      have hcur : (start : Int) + ((r :: rs).length : Int) = ((start + (r :: rs).length : Nat) : Int) := by omega
      rw [hcur, C47_range h ha term hs (start + (r :: rs).length) n (by omega), hM,
        List.drop_eq_nil_of_le (by omega)]
      simp [numbered]

/-- **C47.** A term whose last character is the last one of all raises `ValueError`, one ending in the last
character before the surrogates raises `UnicodeEncodeError`. -/
theorem C47_last_character (h : TitleList t entries) (term : String) (c : Char)
    (hc : term.toList.getLast? = some c) (start n : Int) :
    (c.val.toNat = 0x10ffff → t.search term = .error .valueError ∧ t.searchInRange term start n = .error .valueError) ∧
    (c.val.toNat = 0xd7ff → t.search term = .error .unicodeError ∧
      t.searchInRange term start n = .error .unicodeError) := by
  have hne : term ≠ "" := by rintro rfl; cases hc
  obtain ⟨a, ha1, -⟩ := find_spec h (encode term)
  have hb : ∀ x, nextKey term = .error x → t.bounds term = .error x := by
    intro x hx
    unfold bounds
    rw [if_pos hne, ha1, hx]; rfl
  constructor
  · intro h1
    have := hb .valueError (by
      unfold nextKey
      rw [hc]
      simp only
      rw [dif_neg (by unfold Nat.isValidChar; omega), if_pos (by omega)])
    unfold search searchInRange
    rw [this]; exact ⟨rfl, rfl⟩
  · intro h1
    have := hb .unicodeError (by
      unfold nextKey
      rw [hc]
      simp only
      rw [dif_neg (by unfold Nat.isValidChar; omega), if_neg (by omega)])
    unfold search searchInRange
    rw [this]; exact ⟨rfl, rfl⟩

/-- **C62 (part).** Among the results yielded by an iteration over the result set, the first 20 are numbered by
their position. What is missing is false, see `C62_false`. -/
theorem C62_first_page_partial (h : TitleList t entries) (ha : t.nonarticles = false) (term : String)
    (hs : Searchable term) :
    ∃ rounds results, t.iter term rounds 1 = some (.ok results) ∧
      ∀ (i : Nat) r, i < 20 → results[i]? = some r → r.number = (i : Int) + 1 := by
  obtain ⟨rounds, hr⟩ := C47_iter h ha term hs
  refine ⟨rounds, _, hr rounds (Nat.le_refl _), ?_⟩
  intro i r hi hir
  unfold numberedByPage at hir
  rw [List.getElem?_mapIdx] at hir
  cases hg : (withPrefix Entry.title entries term)[i]? with
  | none => rw [hg] at hir; cases hir
  | some e =>
    rw [hg] at hir
    cases hir
    show ((i % 20 + 1 : Nat) : Int) = i + 1
    omega

/-- articles whose titles are `a`, `aa`, `aaa`, … -/
def demoEntry (i : Nat) : Entry :=
  { mimetypeId := 0, ns := "C", url := String.ofList (List.replicate (i + 1) 'a'), titleRaw := none
    kind := .content 0 0 }

/-- an archive with `n` such articles -/
def demo (n : Nat) : TitleStartSearch :=
  { list := { pointers := (List.range n).map Int.ofNat }, entryAt := fun i => .ok (demoEntry i.toNat) }

theorem codeLt_replicate (i j : Nat) (h : i ≤ j) :
    ¬ codeLt (List.replicate j 'a') (List.replicate i 'a') := by
  induction i generalizing j with
  | zero => cases j <;> exact id
  | succ i ih =>
    obtain ⟨j, rfl⟩ : ∃ k, j = k + 1 := ⟨j - 1, by omega⟩
    rw [List.replicate_succ, List.replicate_succ]
    rintro (h1 | ⟨-, h1⟩)
    · exact Nat.lt_irrefl _ h1
    · exact ih j (by omega) h1

theorem demo_list (n : Nat) : TitleList (demo n) ((List.range n).map demoEntry) where
  lists := by
    unfold demo
    simp only
    generalize List.range n = l
    induction l with
    | nil => rfl
    | cons a l ih =>
      rw [List.map_cons, List.mapM_cons, ih]; rfl
  sorted := by
    rw [List.pairwise_map]
    refine List.Pairwise.imp ?_ (List.pairwise_lt_range (n := n))
    intro a b hab
    refine List.not_lt.1 ?_
    rw [encode_lt]
    show ¬ codeLt (String.ofList (List.replicate (b + 1) 'a')).toList (String.ofList (List.replicate (a + 1) 'a')).toList
    rw [String.toList_ofList, String.toList_ofList]
    exact codeLt_replicate _ _ (by omega)
  named := by
    intro e he
    obtain ⟨i, -, rfl⟩ := List.mem_map.1 he
    constructor
    · intro h
      have : (demoEntry i).title.toList = [] := by rw [h]; rfl
      have h2 : (demoEntry i).title.toList = List.replicate (i + 1) 'a' := String.toList_ofList ..
      rw [h2] at this
      cases this
    · intro h
      have : ("C" ++ String.ofList (List.replicate (i + 1) 'a')).toList = [] := by
        show ((demoEntry i).ns ++ (demoEntry i).url).toList = []
        rw [h]; rfl
      rw [String.toList_append] at this
      cases this

theorem demo_matches (n : Nat) :
    withPrefix Entry.title ((List.range n).map demoEntry) "a" = (List.range n).map demoEntry := by
  unfold withPrefix
  rw [List.filter_eq_self]
  intro e he
  obtain ⟨i, -, rfl⟩ := List.mem_map.1 he
  have h2 : (demoEntry i).title.toList = List.replicate (i + 1) 'a' := String.toList_ofList ..
  rw [h2, List.replicate_succ]
  rfl

theorem demo_searchable : Searchable "a" := by
  intro c hc
  cases hc
  decide

/-- **C62 is false** for larger result sets: with 21 results, the last one yielded by the iteration has number 1. -/
theorem C62_false :
    ∃ (t : TitleStartSearch) (entries : List Entry) (term : String), TitleList t entries ∧ Searchable term ∧
      ∃ rounds results r, t.iter term rounds 1 = some (.ok results) ∧ results[20]? = some r ∧ r.number = 1 := by
  refine ⟨demo 21, _, "a", demo_list 21, demo_searchable, ?_⟩
  obtain ⟨rounds, hr⟩ := C47_iter (demo_list 21) rfl "a" demo_searchable
  refine ⟨rounds, _, resultFor "a" (demoEntry 20) 1, hr rounds (Nat.le_refl _), ?_, rfl⟩
  rw [demo_matches]
  rfl

/-- A result set of three pages. -/
example : ∃ rounds results, (demo 45).iter "a" rounds 1 = some (.ok results) ∧ results.length = 45 := by
  obtain ⟨rounds, hr⟩ := C47_iter (demo_list 45) rfl "a" demo_searchable
  refine ⟨rounds, _, hr rounds (Nat.le_refl _), ?_⟩
  rw [demo_matches]
  simp [numberedByPage]

/-- Finding: a search among all entries (`search_nonarticles=True`) for the exact namespace and title of an entry
announces a result, but fetching it raises `AssertionError`: the likelihood compares the term, which includes the
namespace, to the bare title. -/
theorem C47_nonarticles_fails :
    let t : TitleStartSearch := { demo 1 with nonarticles := true }
    t.search "Ca" = .ok 1 ∧ t.searchInRange "Ca" 1 20 = .error .assertionError := by
  decide +kernel

end TitleStartSearch
end Pyzim
