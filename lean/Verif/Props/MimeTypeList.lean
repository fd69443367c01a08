import Verif.Model.MimeTypeList
import Verif.Lemmas.Ioutil

/-!
# Properties C09, C10: the mimetype list
-/

namespace Pyzim.MimeTypeList

/-! ## Helpers -/

/-- the serialization of a non-empty list: every mimetype followed by a zero, then a zero -/
theorem toBytes_eq (l : List Bytes) (h : l ≠ []) :
    joinZero l ++ [0, 0] = (l.map (· ++ [0])).flatten ++ [0] := by
  induction l with
  | nil => exact absurd rfl h
  | cons a rest ih =>
    cases rest with
    | nil => simp [joinZero]
    | cons b rest => have := ih (by simp); simp [joinZero] at this ⊢; rw [this]

theorem foldl_size (l : List Bytes) (n : Nat) :
    l.foldl (fun s mt => s + (mt.length + 1)) n = n + (l.map (· ++ [0])).flatten.length := by
  induction l generalizing n with
  | nil => simp
  | cons a rest ih => simp only [List.foldl_cons, ih]; simp; omega

theorem fromFileLoop_spec (l acc : List Bytes) (tail : Bytes)
    (hl : ∀ mt ∈ l, mt ≠ [] ∧ (0 : UInt8) ∉ mt) (f : PyFile)
    (hf : f.data.drop f.pos = (l.map (· ++ [0])).flatten ++ 0 :: tail)
    (fuel : Nat) (hfuel : l.length < fuel) :
    fromFileLoop fuel acc f =
      some (acc ++ l, { f with pos := f.pos + ((l.map (· ++ [0])).flatten.length + 1) }) := by
  induction l generalizing acc f fuel with
  | nil =>
    cases fuel with
    | zero => simp at hfuel
    | succ n =>
      unfold fromFileLoop
      rw [readUntilZero_ok [] tail (by simp) f (by simpa using hf)]
      simp
  | cons a rest ih =>
    cases fuel with
    | zero => simp at hfuel
    | succ n =>
      unfold fromFileLoop
      have ha := hl a (by simp)
      rw [readUntilZero_ok a ((rest.map (· ++ [0])).flatten ++ 0 :: tail) ha.2 f (by
        rw [hf]; simp)]
      simp only
      rw [if_neg ha.1, ih (acc ++ [a]) (fun mt h => hl mt (by simp [h]))
        { f with pos := f.pos + a.length + 1 } (by
          have : f.data.drop (f.pos + a.length + 1) = (f.data.drop f.pos).drop (a.length + 1) := by
            rw [List.drop_drop]; congr 1
          simp only [this, hf]
          have : ((a :: rest).map (· ++ [0])).flatten ++ 0 :: tail =
              (a ++ [0]) ++ ((rest.map (· ++ [0])).flatten ++ 0 :: tail) := by simp
          rw [this, List.drop_left' (by simp)]) n (by simp at hfuel; omega)]
      simp; omega

theorem search_spec (mt : Bytes) (i : Nat) (l : List Bytes) :
    (∀ j, search mt i l = some j → i ≤ j ∧ l[j - i]? = some mt ∧ ∀ k, k < j - i → l[k]? ≠ some mt) ∧
    (search mt i l = none ↔ mt ∉ l) := by
  induction l generalizing i with
  | nil => simp [search]
  | cons e rest ih =>
    unfold search
    by_cases he : e = mt
    · rw [if_pos he]
      refine ⟨?_, by simp [he]⟩
      intro j hj
      injection hj with hj
      subst hj
      simp [he]
    · rw [if_neg he]
      obtain ⟨h1, h2⟩ := ih (i + 1)
      refine ⟨?_, ?_⟩
      · intro j hj
        obtain ⟨a, b, c⟩ := h1 j hj
        refine ⟨by omega, ?_, ?_⟩
        · have : j - i = (j - (i + 1)) + 1 := by omega
          rw [this]; simpa using b
        · intro k hk
          cases k with
          | zero => simpa using he
          | succ k => simpa using c k (by omega)
      · rw [h2]
        simp only [List.mem_cons, not_or]
        exact ⟨fun h => ⟨fun h' => he h'.symm, h⟩, fun h => h.2⟩

/-! ## C09 -/

/-- C09. For every non-empty list of non-empty NUL-free mimetypes at any position of a file, with
anything behind it: reading returns the same mimetypes and leaves the file right behind the written
bytes; their number is `get_disk_size`. -/
theorem C09_round_trip (m : MimeTypeList) (hne : m.mimetypes ≠ [])
    (hm : ∀ mt ∈ m.mimetypes, mt ≠ [] ∧ (0 : UInt8) ∉ mt) (before tail : Bytes) :
    fromFile ⟨before ++ m.toBytes ++ tail, 0⟩ (some before.length) =
      some ({ mimetypes := m.mimetypes },
        ⟨before ++ m.toBytes ++ tail, before.length + m.toBytes.length⟩) ∧
    m.getDiskSize = m.toBytes.length := by
  have ht : m.toBytes = (m.mimetypes.map (· ++ [0])).flatten ++ [0] := toBytes_eq _ hne
  constructor
  · unfold fromFile
    simp only [PyFile.seek]
    have hlen : m.mimetypes.length ≤ (m.mimetypes.map (· ++ [0])).flatten.length := by
      clear hne hm ht
      induction m.mimetypes with
      | nil => simp
      | cons a r ih => simp at ih ⊢; omega
    rw [fromFileLoop_spec m.mimetypes [] tail hm _ (by simp [ht, List.append_assoc]) _ (by
      rw [ht]; simp only [List.length_append]; omega)]
    simp [ht]
  · unfold getDiskSize
    rw [foldl_size, ht]; simp; omega

/-- C09. Hence different lists have different serializations. -/
theorem C09_injective (m m' : MimeTypeList) (hne : m.mimetypes ≠ []) (hne' : m'.mimetypes ≠ [])
    (hm : ∀ mt ∈ m.mimetypes, mt ≠ [] ∧ (0 : UInt8) ∉ mt)
    (hm' : ∀ mt ∈ m'.mimetypes, mt ≠ [] ∧ (0 : UInt8) ∉ mt) (h : m.toBytes = m'.toBytes) :
    m.mimetypes = m'.mimetypes := by
  have h1 := (C09_round_trip m hne hm [] []).1
  have h2 := (C09_round_trip m' hne' hm' [] []).1
  rw [h] at h1
  rw [h1] at h2
  injection h2 with h2
  injection h2 with h2 _
  injection h2

/-- C09, the empty list. It is read back as the empty list, but two bytes are written, one is
consumed, and `get_disk_size` announces one byte: the size claim fails for the empty list. -/
theorem C09_empty_list_size_wrong (before tail : Bytes) :
    let m : MimeTypeList := { mimetypes := [] }
    m.toBytes.length = 2 ∧ m.getDiskSize = 1 ∧
    fromFile ⟨before ++ m.toBytes ++ tail, 0⟩ (some before.length) =
      some (m, ⟨before ++ m.toBytes ++ tail, before.length + 1⟩) := by
  refine ⟨rfl, rfl, ?_⟩
  unfold fromFile
  simp only [PyFile.seek]
  rw [fromFileLoop_spec [] [] (0 :: tail) (by simp) _ (by simp [toBytes, joinZero]) _ (by simp)]
  simp

/-- witness for the hypotheses -/
example : let m : MimeTypeList := { mimetypes := ["text/html".toUTF8.data.toList, [65]] }
    m.mimetypes ≠ [] ∧ (∀ mt ∈ m.mimetypes, mt ≠ [] ∧ (0 : UInt8) ∉ mt) ∧ m.toBytes.length = 13 := by
  decide +kernel

/-! ## C10 -/

/-- An operation of a user on the list. -/
inductive Op
  | register (mt : Bytes)
  | getIndex (mt : Bytes) (reg : Bool)
deriving Repr, DecidableEq

/-- effect of an operation -/
def apply (m : MimeTypeList) : Op → MimeTypeList
  | .register mt => (m.register mt).2
  | .getIndex mt reg => (m.getIndex mt reg).2

theorem register_cases (m : MimeTypeList) (mt : Bytes) :
    (m.register mt).2 = m ∨
    (m.mutable = true ∧ mt ∉ m.mimetypes ∧
      (m.register mt).2 = { m with mimetypes := m.mimetypes ++ [mt], dirty := true }) := by
  unfold register has
  by_cases hm : m.mutable = true
  · by_cases hh : mt ∈ m.mimetypes
    · left; simp [hm, hh]
    · right; simp [hm, hh]
  · left; simp [hm]

theorem apply_cases (m : MimeTypeList) (op : Op) :
    m.apply op = m ∨ ∃ mt, m.mutable = true ∧ mt ∉ m.mimetypes ∧
      m.apply op = { m with mimetypes := m.mimetypes ++ [mt], dirty := true } := by
  cases op with
  | register mt =>
    rcases register_cases m mt with h | h
    · exact .inl h
    · exact .inr ⟨mt, h⟩
  | getIndex mt reg =>
    simp only [apply, getIndex]
    split
    · exact .inl rfl
    · cases reg with
      | false => simp
      | true =>
        simp only [if_true]
        rcases register_cases m mt with h | h
        · left; split <;> simp_all
        · right; refine ⟨mt, h.1, h.2.1, ?_⟩; rw [← h.2.2]; split <;> simp_all

/-- C10. Whatever is done to the list, an id keeps denoting its mimetype: histories only append.
Distinctness of the mimetypes is preserved. A history on a clean list leaves it clean iff it
changed nothing. -/
theorem C10_ids_stable (ops : List Op) (m : MimeTypeList) :
    (∀ i mt, m.get i = .ok mt → (ops.foldl apply m).get i = .ok mt) ∧
    (m.mimetypes.Nodup → (ops.foldl apply m).mimetypes.Nodup) ∧
    ((ops.foldl apply m).dirty = true ↔ m.dirty = true ∨ (ops.foldl apply m).mimetypes ≠ m.mimetypes) := by
  have key : ∀ m : MimeTypeList, ∃ added : List Bytes,
      (ops.foldl apply m).mimetypes = m.mimetypes ++ added ∧
      (m.mimetypes.Nodup → (m.mimetypes ++ added).Nodup) ∧
      ((ops.foldl apply m).dirty = true ↔ m.dirty = true ∨ added ≠ []) := by
    induction ops with
    | nil => intro m; exact ⟨[], by simp⟩
    | cons op ops ih =>
      intro m
      simp only [List.foldl_cons]
      obtain ⟨added, h1, h2, h3⟩ := ih (m.apply op)
      rcases apply_cases m op with h | ⟨mt, _, hmt, h⟩
      · rw [h] at h1 h2 h3 ⊢; exact ⟨added, h1, h2, h3⟩
      · rw [h] at h1 h2 h3 ⊢
        refine ⟨mt :: added, by simpa using h1, ?_, by simpa using h3⟩
        intro hn
        have := h2 (by
          simp only [List.nodup_append, hn, true_and]
          refine ⟨by simp, ?_⟩
          intro a ha b hb
          simp at hb; subst hb
          exact fun h => hmt (h ▸ ha))
        simpa using this
  obtain ⟨added, h1, h2, h3⟩ := key m
  refine ⟨?_, ?_, ?_⟩
  · intro i mt h
    unfold get at h ⊢
    rw [h1]
    split at h
    · cases h
    · rename_i hi
      have hi' : i.toNat < m.mimetypes.length := by omega
      rw [if_neg (by simp; omega), List.getElem?_append_left hi']
      exact h
  · rw [h1]; exact h2
  · rw [h3, h1]; simp

/-- C10. On a mutable list, `get_index(mt, register=True)` returns an index, below the new length,
which denotes `mt` and nothing before it does; a known mimetype changes nothing at all. -/
theorem C10_register (m : MimeTypeList) (hm : m.mutable = true) (mt : Bytes) :
    ∃ i, (m.getIndex mt true).1 = .ok (some i) ∧
      i < (m.getIndex mt true).2.len ∧ (m.getIndex mt true).2.get i = .ok mt ∧
      (mt ∈ m.mimetypes → (m.getIndex mt true).2 = m) ∧
      (mt ∉ m.mimetypes → i = m.len ∧ (m.getIndex mt true).2.len = m.len + 1) := by
  unfold getIndex
  cases hs : search mt 0 m.mimetypes with
  | some i =>
    have h := (search_spec mt 0 m.mimetypes).1 i hs
    have hmem : mt ∈ m.mimetypes := by
      by_cases h' : mt ∈ m.mimetypes
      · exact h'
      · rw [(search_spec mt 0 m.mimetypes).2.2 h'] at hs; cases hs
    have hlt : i < m.mimetypes.length := by
      have := h.2.1
      simp at this
      exact (List.getElem?_eq_some_iff.1 this).1
    refine ⟨i, rfl, hlt, ?_, fun _ => rfl, fun hn => absurd hmem hn⟩
    have := h.2.1
    simp at this
    unfold get
    simp only
    rw [if_neg (by omega)]
    simp [this]
  | none =>
    have hn : mt ∉ m.mimetypes := (search_spec mt 0 m.mimetypes).2.1 hs
    have hr : m.register mt = (.ok (), { m with mimetypes := m.mimetypes ++ [mt], dirty := true }) := by
      simp [register, has, hm, hn]
    simp only [hr, if_true]
    have hs' : search mt 0 (m.mimetypes ++ [mt]) = some m.mimetypes.length := by
      have hsp := search_spec mt 0 (m.mimetypes ++ [mt])
      cases hx : search mt 0 (m.mimetypes ++ [mt]) with
      | none => exact absurd (by simp) (hsp.2.1 hx)
      | some j =>
        have hj := hsp.1 j hx
        simp only [Nat.sub_zero] at hj
        by_cases hlt : j < m.mimetypes.length
        · have := hj.2.1
          rw [List.getElem?_append_left hlt] at this
          exact absurd (List.mem_of_getElem? this) hn
        · by_cases hgt : m.mimetypes.length < j
          · exact absurd (by simp) (hj.2.2 _ hgt)
          · congr 1; omega
    refine ⟨m.mimetypes.length, by rw [hs'], by simp [len], ?_, fun h => absurd h hn,
      fun _ => ⟨rfl, by simp [len]⟩⟩
    unfold get
    rw [if_neg (by simp; omega)]
    simp

/-- C10. `get_index` without registering returns the id iff the mimetype is known, and never
changes the list; `has` says whether it is known. -/
theorem C10_lookup (m : MimeTypeList) (mt : Bytes) :
    (m.getIndex mt false).2 = m ∧
    ((m.getIndex mt false).1 = .ok none ↔ mt ∉ m.mimetypes) ∧
    (∀ i, (m.getIndex mt false).1 = .ok (some i) → m.get i = .ok mt) ∧
    (m.has mt = true ↔ ∃ i, m.get i = .ok mt) := by
  have hsp := search_spec mt 0 m.mimetypes
  refine ⟨?_, ?_, ?_, ?_⟩
  · unfold getIndex; split <;> simp
  · unfold getIndex
    split
    · rename_i i hs; simp only [Except.ok.injEq, reduceCtorEq, ← hsp.2, hs]
    · rename_i hs; simpa using hsp.2.1 hs
  · intro i h
    unfold getIndex at h
    split at h
    · rename_i j hs
      simp only [Except.ok.injEq, Option.some.injEq] at h
      subst h
      have := (hsp.1 j hs).2.1
      simp only [Nat.sub_zero] at this
      have hlt := (List.getElem?_eq_some_iff.1 this).1
      unfold get
      rw [if_neg (by omega)]
      simp [this]
    · simp at h
  · unfold has
    simp only [decide_eq_true_eq]
    constructor
    · intro h
      obtain ⟨i, hi, he⟩ := List.mem_iff_getElem.1 h
      refine ⟨i, ?_⟩
      unfold get
      rw [if_neg (by omega)]
      simp [hi, he]
    · rintro ⟨i, h⟩
      unfold get at h
      split at h
      · cases h
      · split at h
        · rename_i h2
          injection h with h; subst h
          exact List.mem_of_getElem? h2
        · cases h

/-- C10. With distinct mimetypes (which every history preserves), ids and mimetypes determine each
other. -/
theorem C10_ids_unique (m : MimeTypeList) (hn : m.mimetypes.Nodup) (i j : Int) (a b : Bytes)
    (hi : m.get i = .ok a) (hj : m.get j = .ok b) : i = j ↔ a = b := by
  have aux : ∀ i a, m.get i = .ok a → 0 ≤ i ∧ m.mimetypes[i.toNat]? = some a := by
    intro i a h
    unfold get at h
    split at h
    · cases h
    · split at h
      · rename_i h1 _ h2; injection h with h; subst h; exact ⟨by omega, h2⟩
      · cases h
  obtain ⟨hi0, hi1⟩ := aux i a hi
  obtain ⟨hj0, hj1⟩ := aux j b hj
  constructor
  · intro h; subst h; rw [hi1] at hj1; injection hj1
  · intro h; subst h
    have := (List.getElem?_inj (List.getElem?_eq_some_iff.1 hi1).1 hn).1 (hi1.trans hj1.symm)
    omega

/-- C10. On an immutable list, registering raises and nothing changes. -/
theorem C10_immutable (m : MimeTypeList) (hm : m.mutable = false) (mt : Bytes) :
    m.register mt = (.error .nonMutable, m) ∧ (m.getIndex mt true).2 = m := by
  have h : m.register mt = (.error .nonMutable, m) := by simp [register, hm]
  refine ⟨h, ?_⟩
  unfold getIndex
  split
  · rfl
  · simp [h]

example : ([Op.register [65], .getIndex [66] true, .register [65], .getIndex [67] false].foldl apply
    { mimetypes := [[70]] }) = { mimetypes := [[70], [65], [66]], dirty := true } := by decide

end Pyzim.MimeTypeList
