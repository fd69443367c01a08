import Verif.Lemmas.PointerList

/-!
# Properties C04–C08: pointer lists

`w` is the width of a pointer in bytes: 8 for url and cluster pointers, 4 for title pointers.
-/

namespace Pyzim.PointerList

/-! ## C04: round trip -/

/-- C04. A list whose pointers fit is written as `get_disk_size()` bytes which parse to the same
pointers. -/
theorem C04_write_read (w : Nat) (hw : 0 < w) (l : PointerList)
    (hfit : ∀ p ∈ l.pointers, FitsField w p) :
    ∃ b, l.toBytes w = .ok b ∧ b.length = l.diskSize w ∧
      fromBytes w b = .ok { pointers := l.pointers, dirty := false, mutable := true } := by
  have hmap : (l.pointers.map (fun p => leBytes w p.toNat)) =
      ((l.pointers.map Int.toNat).map (leBytes w)) := by simp
  refine ⟨_, packFields_map_ok w l.pointers hfit, ?_, ?_⟩
  · rw [hmap, flatten_leBytes_length]; simp [diskSize]
  · unfold fromBytes
    rw [hmap, flatten_leBytes_length, if_neg (by simp)]
    rw [Nat.mul_div_cancel_left _ hw, unpackFields_flatten]
    · simp only [bind, Except.bind, pure, Except.pure, List.map_map]
      congr 2
      conv => rhs; rw [← List.map_id l.pointers]
      apply List.map_congr_left
      intro p hp
      have := (hfit p hp).1
      simp only [Function.comp_apply, id]
      exact Int.toNat_of_nonneg this
    · intro v hv
      obtain ⟨p, hp, rfl⟩ := List.mem_map.1 hv
      have h1 := (hfit p hp).1
      have h2 := (hfit p hp).2
      have : ((p.toNat : Nat) : Int) < ((256 ^ w : Nat) : Int) := by
        rw [Int.toNat_of_nonneg h1, Int.natCast_pow]; exact h2
      exact Int.ofNat_lt.1 this

/-- C04. A list with a pointer that does not fit is never written: nothing is truncated silently. -/
theorem C04_no_truncation (w : Nat) (l : PointerList) (p : Int) (hp : p ∈ l.pointers)
    (hfit : ¬ FitsField w p) : ∃ e, l.toBytes w = .error e := by
  cases h : l.toBytes w with
  | error e => exact ⟨e, rfl⟩
  | ok b => exact absurd (packFields_map_fits w l.pointers b h p hp) hfit

/-- C04. Every byte string of a suitable length is the serialization of what it parses to. -/
theorem C04_read_write (w : Nat) (hw : 0 < w) (s : Bytes) (hs : s.length % w = 0) :
    ∃ l, fromBytes w s = .ok l ∧ l.toBytes w = .ok s ∧ l.len * w = s.length ∧ l.dirty = false := by
  obtain ⟨vs, h1, h2, h3, h4⟩ := unpackFields_total w (s.length / w) s
    (by rw [Nat.mul_div_cancel' (Nat.dvd_of_mod_eq_zero hs)])
  refine ⟨{ pointers := vs.map Int.ofNat }, ?_, ?_, ?_, rfl⟩
  · unfold fromBytes
    rw [if_neg (by simpa using hs), h1]; rfl
  · unfold toBytes
    rw [packFields_map_ok]
    · congr 1
      rw [← h4, List.map_map]
      congr 1
    · intro p hp
      obtain ⟨v, hv, rfl⟩ := List.mem_map.1 hp
      refine ⟨Int.natCast_nonneg v, ?_⟩
      have := Int.ofNat_lt.2 (h3 v hv)
      rwa [Int.natCast_pow] at this
  · simp only [len, List.length_map, h2]
    exact Nat.div_mul_cancel (Nat.dvd_of_mod_eq_zero hs)

/-- C04. Byte strings of any other length are rejected with a `ValueError`. -/
theorem C04_bad_length (w : Nat) (s : Bytes) (hs : s.length % w ≠ 0) :
    fromBytes w s = .error .valueError := by simp [fromBytes, hs]

/-- C04. Reading `n` pointers from a position of a file is parsing the bytes found there. -/
theorem C04_from_file (w : Nat) (hw : 0 < w) (before b after : Bytes) (pos n : Nat)
    (hb : b.length = w * n) :
    fromFile w ⟨before ++ b ++ after, pos⟩ n before.length = fromBytes w b := by
  have : ((PyFile.mk (before ++ b ++ after) pos).seek before.length).read (w * n) =
      (b, ⟨before ++ b ++ after, before.length + b.length⟩) := by
    simp [PyFile.seek, PyFile.read, List.append_assoc, ← hb]
  unfold fromFile fromBytes
  rw [this]
  simp only
  rw [if_neg (by simp [hb]), hb, Nat.mul_div_cancel_left _ hw]

example : ({ pointers := [80, 300, 2 ^ 40] } : PointerList).toBytes 8 =
    .ok [80,0,0,0,0,0,0,0, 44,1,0,0,0,0,0,0, 0,0,0,0,0,1,0,0] := by decide
example : ∀ p ∈ [(80 : Int), 300, 2 ^ 40], FitsField 8 p := by
  intro p hp; simp at hp; rcases hp with rfl | rfl | rfl <;> constructor <;> decide
example : fromBytes 4 [1, 0, 0, 0, 0, 1, 0, 0] = .ok { pointers := [1, 256] } := by decide
example : ¬ FitsField 4 (2 ^ 32) := by unfold FitsField; decide

/-! ## C05: ordered lists stay sorted -/

/-- C05. Whatever calls are made, a sorted list stays sorted, and `check_sorted` does not raise. -/
theorem C05_sorted_invariant (key : Int → Bytes) (l : PointerList)
    (h : SortedBy key l.pointers) (ops : List PointerOp) :
    SortedBy key (ops.foldl (PointerOp.run key) l).pointers ∧
    (ops.foldl (PointerOp.run key) l).checkSorted (fun q => .ok (key q)) = .ok () := by
  have hs : SortedBy key (ops.foldl (PointerOp.run key) l).pointers := by
    induction ops generalizing l with
    | nil => exact h
    | cons op ops ih =>
      rw [List.foldl_cons]
      apply ih
      cases hm : l.mutable with
      | false =>
        cases op with
        | add p =>
          simp only [PointerOp.run, add]
          rw [if_neg (by omega), if_pos (by simp [hm])]; exact h
        | remove k => simp only [PointerOp.run, remove]; rw [if_pos (by simp [hm])]; exact h
      | true =>
        cases op with
        | add p =>
          obtain ⟨r, _, h2, h3⟩ := add_spec l key p (by omega) hm h
          simp only [PointerOp.run, h2]; exact h3
        | remove k =>
          rcases remove_spec l key k hm h with ⟨pre, p, post, h1, _, _, h4⟩ | ⟨h1, _⟩
          · simp only [PointerOp.run, h4]
            rw [h1] at h
            obtain ⟨ha, hb, hab⟩ := List.pairwise_append.1 h
            exact List.pairwise_append.2 ⟨ha, (List.pairwise_cons.1 hb).2,
              fun a ha' b hb' => hab a ha' b (by simp [hb'])⟩
          · simp only [PointerOp.run, h1]; exact h
  exact ⟨hs, (checkSortedLoop_iff key none _).2 ⟨by simp, hs⟩⟩

/-- C05. `check_sorted` raises exactly on lists that are not sorted. -/
theorem C05_check_sorted (key : Int → Bytes) (l : PointerList) :
    l.checkSorted (fun q => .ok (key q)) = .ok () ↔ SortedBy key l.pointers := by
  unfold checkSorted; rw [checkSortedLoop_iff]; simp

/-- C05. Adding a pointer to a sorted mutable list inserts it, at the returned index, keeping all
other pointers in their order, behind all smaller and before all larger keys. -/
theorem C05_add (key : Int → Bytes) (l : PointerList) (h : SortedBy key l.pointers)
    (hm : l.mutable = true) (p : Nat) :
    ∃ pre post, l.pointers = pre ++ post ∧
      l.add (fun q => .ok (key q)) (key p) p =
        (.ok pre.length, { l with pointers := pre ++ (p : Int) :: post, dirty := true }) ∧
      (∀ q ∈ pre, key q < key p) ∧ (∀ q ∈ post, key p ≤ key q) := by
  obtain ⟨r, h1, h2, _⟩ := add_spec l key p (by omega) hm h
  obtain ⟨hlo, hhi⟩ := insPt_split h1
  refine ⟨l.pointers.take r, l.pointers.drop r, (List.take_append_drop _ _).symm, ?_, hlo,
    fun q hq => Std.not_lt.1 (hhi q hq)⟩
  rw [h2]
  have : (l.pointers.take r).length = r := by have := h1.1; simp; omega
  rw [this]

/-- C05. Removing a key from a sorted mutable list deletes exactly one pointer with this key, or
raises `KeyError` and changes nothing if there is none. -/
theorem C05_remove (key : Int → Bytes) (l : PointerList) (h : SortedBy key l.pointers)
    (hm : l.mutable = true) (k : Bytes) :
    ((∃ p ∈ l.pointers, key p = k) ∧ ∃ pre p post, l.pointers = pre ++ p :: post ∧ key p = k ∧
      l.remove (fun q => .ok (key q)) k = (.ok (), { l with pointers := pre ++ post, dirty := true })) ∨
    ((¬ ∃ p ∈ l.pointers, key p = k) ∧
      l.remove (fun q => .ok (key q)) k = (.error .keyError, l)) := by
  rcases remove_spec l key k hm h with ⟨pre, p, post, h1, h2, _, h4⟩ | ⟨h1, h2⟩
  · exact Or.inl ⟨⟨p, by rw [h1]; simp, h2⟩, pre, p, post, h1, h2, h4⟩
  · exact Or.inr ⟨fun ⟨p, hp, hk⟩ => h2 p hp hk, h1⟩

/-- a key function for the examples: the decimal digit sum decides -/
private def exKey : Int → Bytes := fun p => [UInt8.ofNat (p.toNat % 7)]

example : SortedBy exKey [7, 1, 9, 3, 13] := by
  unfold SortedBy; decide
example : ([PointerOp.add 4, .add 16, .remove [3]].foldl (PointerOp.run exKey)
    { pointers := [7, 1, 9, 3, 13] }).pointers = [7, 1, 16, 9, 4, 13] := by decide +kernel
example : ({ pointers := [7, 1, 9, 3, 13] } : PointerList).remove (fun q => .ok (exKey q)) [5] =
    (.error .keyError, { pointers := [7, 1, 9, 3, 13] }) := by decide +kernel

/-! ## C06: lookup -/

/-- C06. `has(k)` answers whether some pointer has the key `k`. -/
theorem C06_has (key : Int → Bytes) (l : PointerList) (h : SortedBy key l.pointers) (k : Bytes) :
    ∃ b, l.has (fun q => .ok (key q)) k = .ok b ∧ (b = true ↔ ∃ p ∈ l.pointers, key p = k) := by
  unfold has get
  rcases getIndex_spec l key k h with ⟨r, p, h1, h2, h3, _⟩ | ⟨h1, h2⟩
  · refine ⟨true, ?_, by simpa using ⟨p, List.mem_of_getElem? h2, h3⟩⟩
    rw [h1]
    simp only [bind, Except.bind, getByIndex, pyIndex_nat, h2]
  · refine ⟨false, by rw [h1]; rfl, by simpa using fun p hp => h2 p hp⟩

/-- C06. `get_index(k)` and `get(k)` find the first pointer with key `k`. -/
theorem C06_get_found (key : Int → Bytes) (l : PointerList) (h : SortedBy key l.pointers)
    (k : Bytes) (hex : ∃ p ∈ l.pointers, key p = k) :
    ∃ pre p post, l.pointers = pre ++ p :: post ∧ key p = k ∧ (∀ q ∈ pre, key q < k) ∧
      l.getIndex (fun q => .ok (key q)) k = .ok pre.length ∧
      l.get (fun q => .ok (key q)) k = .ok p := by
  rcases getIndex_spec l key k h with ⟨r, p, h1, h2, h3, h4⟩ | ⟨h1, h2⟩
  · obtain ⟨hr, hp⟩ := List.getElem?_eq_some_iff.1 h2
    refine ⟨l.pointers.take r, p, l.pointers.drop (r + 1), ?_, h3, ?_, ?_, ?_⟩
    · rw [← hp]; exact split_getElem _ _ hr
    · intro q hq
      obtain ⟨i, hi, hq'⟩ := List.getElem_of_mem hq
      have hi' : i < r ∧ i < l.pointers.length := by simp at hi; omega
      rw [List.getElem_take] at hq'
      exact h4 i q hi'.1 (by rw [List.getElem?_eq_getElem hi'.2, hq'])
    · rw [h1]; simp; omega
    · simp only [get, h1, bind, Except.bind, getByIndex, pyIndex_nat, h2]
  · obtain ⟨p, hp, hk⟩ := hex; exact absurd hk (h2 p hp)

/-- C06. `get_index(k)` and `get(k)` raise `KeyError` if no pointer has the key `k`. -/
theorem C06_get_missing (key : Int → Bytes) (l : PointerList) (h : SortedBy key l.pointers)
    (k : Bytes) (hex : ¬ ∃ p ∈ l.pointers, key p = k) :
    l.getIndex (fun q => .ok (key q)) k = .error .keyError ∧
    l.get (fun q => .ok (key q)) k = .error .keyError := by
  rcases getIndex_spec l key k h with ⟨r, p, h1, h2, h3, h4⟩ | ⟨h1, h2⟩
  · exact absurd ⟨p, List.mem_of_getElem? h2, h3⟩ hex
  · exact ⟨h1, by simp [get, h1, bind, Except.bind]⟩

/-- C06. `find_first_greater_equals(k)` returns the insertion point of `k`, and there is only
one. -/
theorem C06_find_first_greater_equals (key : Int → Bytes) (l : PointerList)
    (h : SortedBy key l.pointers) (k : Bytes) :
    ∃ r, l.findFirstGreaterEquals (fun q => .ok (key q)) k = .ok r ∧
      IsInsertionPoint key l.pointers k r ∧
      ∀ r', IsInsertionPoint key l.pointers k r' → r' = r := by
  obtain ⟨r, h1, h2⟩ := search_spec l key k h
  exact ⟨r, h1, h2, fun r' h' => insPt_unique h' h2⟩

example : ({ pointers := [7, 1, 9, 3, 13] } : PointerList).getIndex (fun q => .ok (exKey q)) [2] =
    .ok 2 := by decide +kernel
example : ({ pointers := [7, 1, 9, 3, 13] } : PointerList).get (fun q => .ok (exKey q)) [4] =
    .error .keyError := by decide +kernel
example : ({ pointers := [7, 1, 9, 3, 13] } : PointerList).findFirstGreaterEquals
    (fun q => .ok (exKey q)) [4] = .ok 4 := by decide +kernel

/-! ## C07: mass update -/

/-- C07. `mass_update(diff, start, end)` changes every pointer `p` with `start ≤ p < end` to
`p + diff` and no other, at unchanged positions; the list is dirty afterwards iff it was dirty
before or some pointer lies in the range. A missing bound does not restrict. -/
theorem C07_mass_update (l : PointerList) (diff : Int) (start end_ : Option Int)
    (hse : ∀ s ∈ start, ∀ e ∈ end_, s ≤ e) :
    ∃ l', l.massUpdate diff start end_ = (.ok (), l') ∧
      l'.pointers.length = l.pointers.length ∧
      (∀ (i : Nat) (p : Int), l.pointers[i]? = some p →
        (((∀ s ∈ start, s ≤ p) ∧ (∀ e ∈ end_, p < e)) → l'.pointers[i]? = some (p + diff)) ∧
        (¬ ((∀ s ∈ start, s ≤ p) ∧ (∀ e ∈ end_, p < e)) → l'.pointers[i]? = some p)) ∧
      (l'.dirty = true ↔ l.dirty = true ∨
        ∃ p ∈ l.pointers, (∀ s ∈ start, s ≤ p) ∧ (∀ e ∈ end_, p < e)) := by
  have hsel : ∀ p, massSelected start end_ p = true ↔
      ((∀ s ∈ start, s ≤ p) ∧ (∀ e ∈ end_, p < e)) := by
    intro p
    cases start <;> cases end_ <;> simp [massSelected]
  unfold massUpdate
  rw [if_neg (by
    cases start with
    | none => simp
    | some s =>
      cases end_ with
      | none => simp
      | some e => have := hse s (by simp) e (by simp); simp; omega)]
  refine ⟨_, rfl, by simp, ?_, ?_⟩
  · intro i p hip
    constructor
    · intro hc; simp [hip, (hsel p).2 hc]
    · intro hc
      have : massSelected start end_ p = false := by
        cases hb : massSelected start end_ p with
        | false => rfl
        | true => exact absurd ((hsel p).1 hb) hc
      simp [hip, this]
  · simp only [Bool.or_eq_true, List.any_eq_true]
    constructor
    · rintro (h | ⟨p, hp, hs⟩)
      · exact Or.inl h
      · exact Or.inr ⟨p, hp, (hsel p).1 hs⟩
    · rintro (h | ⟨p, hp, hs⟩)
      · exact Or.inl h
      · exact Or.inr ⟨p, hp, (hsel p).2 hs⟩

example : ({ pointers := [5, 2, 9, 3] } : PointerList).massUpdate 1 (some 3) (some 9) =
    (.ok (), { pointers := [6, 2, 9, 4], dirty := true }) := by decide
example : ({ pointers := [5, 2] } : PointerList).massUpdate (-1) (some 6) none =
    (.ok (), { pointers := [5, 2], dirty := false }) := by decide

end Pyzim.PointerList

namespace Pyzim.OnDiskList

/-! ## C08: on-disk lists -/

/-- The on-disk list and the in-memory list loaded from the same place of the same file. -/
structure SameSource (d : OnDiskList) (m : PointerList) : Prop where
  width : 0 < d.w
  inFile : d.offset + d.w * d.n ≤ d.file.length
  loaded : PointerList.fromFile d.w ⟨d.file, 0⟩ d.n d.offset = .ok m

theorem unpack_get (w n : Nat) (s : Bytes) (hs : s.length = w * n) (vs : List Nat)
    (h : unpackFields (List.replicate n w) s = .ok vs) (i : Nat) (hi : i < n) :
    unpackFields [w] ((s.drop (i * w)).take w) = .ok [vs.getD i 0] := by
  induction n generalizing s vs i with
  | zero => omega
  | succ n ih =>
    have hlen : s.length = w * n + w := by rw [hs, Nat.mul_succ]
    simp only [List.replicate_succ, unpackFields] at h
    rw [if_neg (by omega)] at h
    cases hr : unpackFields (List.replicate n w) (s.drop w) with
    | error e => rw [hr] at h; cases h
    | ok rest =>
      rw [hr] at h
      have hvs : vs = leNat (s.take w) :: rest := by injection h with h; exact h.symm
      subst hvs
      cases i with
      | zero =>
        have hd : ((s.take w).drop w) = [] := by simp
        simp only [Nat.zero_mul, List.drop_zero, unpackFields]
        rw [if_neg (by simp; omega), hd]
        simp [unpackFields, bind, Except.bind, pure, Except.pure, List.take_take]
      | succ i =>
        have := ih (s.drop w) (by simp; omega) rest hr i (by omega)
        rw [List.drop_drop] at this
        have he : (i + 1) * w = w + i * w := by rw [Nat.add_mul]; omega
        rw [he, this]
        simp

/-- C08. Both lists have the same length, and the same pointer at every index. -/
theorem C08_same_pointers {d : OnDiskList} {m : PointerList} (h : SameSource d m) :
    d.len = m.len ∧ (∀ i : Nat, d.getByIndex i = m.getByIndex i) ∧
    (∀ i : Int, i < 0 ∨ d.len ≤ i → d.getByIndex i = .error .indexError) := by
  obtain ⟨hw, hin, hld⟩ := h
  have hdata : (((PyFile.mk d.file 0).seek d.offset).read (d.w * d.n)).1 =
      (d.file.drop d.offset).take (d.w * d.n) := rfl
  have hlen : ((d.file.drop d.offset).take (d.w * d.n)).length = d.w * d.n := by simp; omega
  unfold PointerList.fromFile at hld
  simp only [hdata] at hld
  obtain ⟨vs, h1, h2, h3, h4⟩ := unpackFields_total d.w d.n _ hlen
  rw [h1] at hld
  have hm : m = { pointers := vs.map Int.ofNat } := by
    simp only [bind, Except.bind, pure, Except.pure] at hld
    injection hld with hld; exact hld.symm
  subst hm
  have hneg : ∀ i : Int, i < 0 ∨ d.len ≤ i → d.getByIndex i = .error .indexError := by
    intro i hi
    unfold getByIndex
    rw [if_pos]; simp only [len] at hi; omega
  refine ⟨by simp [len, PointerList.len, h2], fun i => ?_, hneg⟩
  by_cases hi : i < d.n
  · have hiv : i < vs.length := by omega
    have hget : ({ pointers := vs.map Int.ofNat } : PointerList).getByIndex i =
        .ok (Int.ofNat vs[i]) := by
      unfold PointerList.getByIndex
      rw [pyIndex_lt _ _ (by simpa using hiv)]; simp
    rw [hget]
    unfold getByIndex
    rw [if_neg (by omega)]
    have hrd : (((PyFile.mk d.file 0).seek (d.offset + (i : Int).toNat * d.w)).read d.w).1 =
        (((d.file.drop d.offset).take (d.w * d.n)).drop (i * d.w)).take d.w := by
      simp only [PyFile.seek, PyFile.read, Int.toNat_natCast]
      rw [List.drop_take, List.take_take, List.drop_drop]
      congr 1
      have : (i + 1) * d.w ≤ d.n * d.w := Nat.mul_le_mul_right _ (by omega)
      rw [Nat.add_mul, Nat.one_mul] at this
      rw [Nat.mul_comm d.w d.n]
      omega
    simp only [hrd, unpack_get d.w d.n _ hlen vs h1 i hi]
    simp [List.getD, List.getElem?_eq_getElem hiv]
  · rw [hneg i (by simp only [len]; omega)]
    unfold PointerList.getByIndex
    rw [pyIndex_nat, List.getElem?_eq_none (by simp; omega)]

theorem keyAt_eq {d : OnDiskList} {m : PointerList} (h : SameSource d m)
    (keyf : Int → PyRes Bytes) : d.keyAt keyf = m.keyAt keyf := by
  funext i; simp only [keyAt, PointerList.keyAt, (C08_same_pointers h).2.1]

/-- C08. All lookups by key give the same result, for every key function (even one that raises). -/
theorem C08_same_lookups {d : OnDiskList} {m : PointerList} (h : SameSource d m)
    (keyf : Int → PyRes Bytes) (k : Bytes) :
    d.getIndex keyf k = m.getIndex keyf k ∧ d.get keyf k = m.get keyf k ∧
    d.has keyf k = m.has keyf k ∧
    d.findFirstGreaterEquals keyf k = m.findFirstGreaterEquals keyf k := by
  have hl := (C08_same_pointers h).1
  have hg := (C08_same_pointers h).2.1
  have hk := keyAt_eq h keyf
  have h1 : d.getIndex keyf k = m.getIndex keyf k := by
    simp only [getIndex, PointerList.getIndex, hl, hk]
  have h2 : d.get keyf k = m.get keyf k := by
    simp only [get, PointerList.get, h1]
    cases m.getIndex keyf k with
    | error e => rfl
    | ok i => simp only [bind, Except.bind, hg]
  exact ⟨h1, h2, by simp only [has, PointerList.has, h2],
    by simp only [findFirstGreaterEquals, PointerList.findFirstGreaterEquals, hl, hk]⟩

/-- C08. Iterating over the pointers of any index range gives the same pointers. -/
theorem C08_same_iteration {d : OnDiskList} {m : PointerList} (h : SameSource d m)
    (start end_ : Option Nat) : d.iterPointers start end_ = m.iterPointers start end_ := by
  have hl := (C08_same_pointers h).1
  have hg := (C08_same_pointers h).2.1
  simp only [iterPointers, PointerList.iterPointers, hl, hg]

/-- C08. An on-disk list cannot be modified. -/
theorem C08_immutable (d : OnDiskList) (p : Int) (hp : 0 ≤ p) :
    d.append p = (.error .nonMutable, inherited) := by
  unfold append inherited PointerList.append
  rw [if_neg (by omega)]; rfl

private def exFile : Bytes := [9, 9, 9] ++ [1, 0, 0, 0, 7, 0, 0, 0, 0, 1, 0, 0] ++ [5]

/-- three 4-byte pointers at offset 3 of a file -/
example : SameSource ⟨exFile, 3, 3, 4⟩ { pointers := [1, 7, 256] } :=
  ⟨by decide, by decide, by decide⟩

/-! ## C55: the remaining reading methods of on-disk lists (violated by the code) -/

/-- C55 is false: on an on-disk list `get_by_pointer` raises `IndexError` for a pointer that is in
the list, `iter_values` yields nothing, and `to_bytes` returns the empty string. -/
theorem C55_on_disk_inherited_methods_broken :
    ∃ (d : OnDiskList) (m : PointerList), SameSource d m ∧
      (∃ p, m.getByPointer p = .ok 1 ∧ d.getByPointer p = .error .indexError) ∧
      (∃ keyf vals, m.iterValues keyf = .ok vals ∧ vals ≠ [] ∧ d.iterValues keyf = .ok []) ∧
      m.toBytes d.w ≠ d.toBytes := by
  refine ⟨⟨exFile, 3, 3, 4⟩, { pointers := [1, 7, 256] }, ⟨by decide, by decide, by decide⟩,
    ⟨7, by decide, by decide⟩, ⟨fun p => .ok [UInt8.ofNat p.toNat], [[1], [7], [0]], by decide,
      by decide, by decide⟩, by decide⟩

/-- C55, what remains true: on the empty list these methods agree. -/
theorem C55_empty_on_disk_partial (d : OnDiskList) (m : PointerList) (h : SameSource d m)
    (hn : d.n = 0) (keyf : Int → PyRes Bytes) (p : Int) :
    d.getByPointer p = m.getByPointer p ∧ d.iterValues keyf = m.iterValues keyf ∧
      d.toBytes = m.toBytes d.w := by
  have hl := (C08_same_pointers h).1
  have hm : m.pointers = [] := List.eq_nil_of_length_eq_zero (by
    simpa [len, PointerList.len, hn] using hl.symm)
  refine ⟨?_, ?_, ?_⟩
  · simp [getByPointer, getByPointer.loop, len, hn, PointerList.getByPointer,
      PointerList.getByPointerLoop, hm]
  · simp [iterValues, PointerList.iterValues, inherited, hm]
  · simp [toBytes, PointerList.toBytes, inherited, hm]

end Pyzim.OnDiskList
