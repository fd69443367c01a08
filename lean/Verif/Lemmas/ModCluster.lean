import Verif.Lemmas.Cluster
import Verif.Spec.ModCluster

namespace Pyzim
namespace MCluster
variable {D : Type} {X : Codecs D} {orig : List Bytes} {ext : Bool} {comp : CompressionType}

/-- The wrapped cluster has the blobs `orig`. -/
def InnerIs (X : Codecs D) (orig : List Bytes) (ext : Bool) (comp : CompressionType) :
    Inner D → Prop
  | .empty => orig = [] ∧ ext = false ∧ comp = .none
  | .real s => ∃ (file : Bytes) (o : Nat) (A : ClusterAt X file o orig),
      Cluster.Good A s ∧ A.ext = ext ∧ A.comp = comp

/-- The attributes of the wrapped cluster are known. -/
def Knows (ext : Bool) (comp : CompressionType) : Inner D → Prop
  | .empty => True
  | .real s => s.c.isExtended = some ext ∧ s.c.compression = some comp

abbrev setInner (m : MCluster D) (i : Inner D) : MCluster D := { m with inner := i }

theorem innerNumBlobs_spec {m : MCluster D} (h : InnerIs X orig ext comp m.inner) :
    ∃ i', innerNumBlobs X m = (.ok (orig.length : Int), m.setInner i') ∧ InnerIs X orig ext comp i' ∧
      Knows ext comp i' := by
  unfold innerNumBlobs onInner
  cases hm : m.inner with
  | empty =>
    rw [hm] at h
    refine ⟨.empty, ?_, h, trivial⟩
    rw [h.1]; cases m; simp_all
  | real s =>
    rw [hm] at h
    obtain ⟨file, o, A, hg, he, hc⟩ := h
    obtain ⟨s', h1, h2, h3⟩ := Cluster.getNumberOfBlobs_spec A hg
    refine ⟨.real s', by simp only [h1], ⟨file, o, A, h2.toGood, he, hc⟩, ?_⟩
    exact ⟨by rw [← he]; exact h2.ext, by rw [← hc]; exact h2.comp⟩

theorem innerBlobSize_spec {m : MCluster D} (h : InnerIs X orig ext comp m.inner) (i : Nat) :
    ∃ i', innerBlobSize X i m = ((match orig[i]? with
        | some b => .ok (b.length : Int) | none => .error .blobNotFound), m.setInner i') ∧
      InnerIs X orig ext comp i' ∧ Knows ext comp i' := by
  unfold innerBlobSize onInner
  cases hm : m.inner with
  | empty =>
    rw [hm] at h
    refine ⟨.empty, ?_, h, trivial⟩
    rw [h.1]; cases m; simp_all
  | real s =>
    rw [hm] at h
    obtain ⟨file, o, A, hg, he, hc⟩ := h
    obtain ⟨s', h1, h2, h3⟩ := Cluster.getBlobSize_spec A hg i
    refine ⟨.real s', by simp only [h1]; cases orig[i]? <;> rfl, ⟨file, o, A, h2.toGood, he, hc⟩, ?_⟩
    exact ⟨by rw [← he]; exact h2.ext, by rw [← hc]; exact h2.comp⟩

theorem readInfobyteIfNeeded_spec {m : MCluster D} (h : InnerIs X orig ext comp m.inner) :
    ∃ i', readInfobyteIfNeeded m = (.ok (), m.setInner i') ∧
      InnerIs X orig ext comp i' ∧ Knows ext comp i' := by
  unfold readInfobyteIfNeeded onInner
  cases hm : m.inner with
  | empty =>
    rw [hm] at h
    refine ⟨.empty, ?_, h, trivial⟩
    cases m; simp_all
  | real s =>
    rw [hm] at h
    obtain ⟨file, o, A, hg, he, hc⟩ := h
    obtain ⟨s', h1, h2, h3⟩ := Cluster.readInfobyteIfNeeded_spec A hg
    refine ⟨.real s', by simp only [h1], ⟨file, o, A, h2.toGood, he, hc⟩, ?_⟩
    exact ⟨by rw [← he]; exact h2.ext, by rw [← hc]; exact h2.comp⟩

theorem innerReadBlob_spec {m : MCluster D} (h : InnerIs X orig ext comp m.inner) (i : Nat)
    (start stop : Option Nat) (hr : Cluster.rangeOk start stop = true)
    (hs : ∀ b, orig[i]? = some b → start.getD 0 ≤ b.length) :
    ∃ i', innerReadBlob X i start stop m = ((match orig[i]? with
        | some b => .ok (partOf b start stop) | none => .error .blobNotFound), m.setInner i') ∧
      InnerIs X orig ext comp i' := by
  unfold innerReadBlob onInner
  cases hm : m.inner with
  | empty =>
    rw [hm] at h
    refine ⟨.empty, ?_, h⟩
    rw [h.1]; cases m; simp_all
  | real s =>
    rw [hm] at h
    obtain ⟨file, o, A, hg, he, hc⟩ := h
    obtain ⟨res, s', h1, h2, h3, h4, h5⟩ := Cluster.readBlob_spec A hg i start stop
    refine ⟨.real s', ?_, ⟨file, o, A, h2, he, hc⟩⟩
    simp only [h1]
    by_cases hi : i < orig.length
    · rw [List.getElem?_eq_getElem hi]
      rcases h5 hi hr with h | ⟨_, _, _, h⟩
      · rw [h]
      · have := hs _ (List.getElem?_eq_getElem hi); omega
    · rw [List.getElem?_eq_none (by omega), h4 hr (by omega)]

theorem innerIterReadBlob_spec {m : MCluster D} (h : InnerIs X orig ext comp m.inner) (i bs : Nat)
    (start stop : Option Nat) (calls : Nat) (hbs : 0 < bs)
    (hr : Cluster.rangeOk start stop = true)
    (hs : ∀ b, orig[i]? = some b → start.getD 0 ≤ b.length) :
    ∃ res i', innerIterReadBlob X i bs start stop calls m = (res, m.setInner i') ∧
      InnerIs X orig ext comp i' ∧
      (orig[i]? = none → 0 < calls → res = .error .blobNotFound) ∧
      ∀ b, orig[i]? = some b → ∃ cs fin, res = .ok (cs, fin) ∧
        Cluster.Chunks (partOf b start stop) bs calls cs fin := by
  unfold innerIterReadBlob onInner
  cases hm : m.inner with
  | empty =>
    rw [hm] at h
    obtain ⟨h1, h2⟩ := h
    subst h1
    refine ⟨if calls = 0 then .ok ([], false) else .error .blobNotFound, .empty, ?_, ⟨rfl, h2⟩, ?_,
      fun b hb => by simp at hb⟩
    · cases m; simp only at hm; subst hm; rfl
    · intro _ hc; rw [if_neg (by omega)]
  | real s =>
    rw [hm] at h
    obtain ⟨file, o, A, hg, he, hc⟩ := h
    obtain ⟨res, s', h1, h2, h3, h4, h5⟩ := Cluster.iterReadBlob_spec A hg i bs start stop calls
    refine ⟨res, .real s', by simp only [h1], ⟨file, o, A, h2, he, hc⟩, ?_, ?_⟩
    · intro hi hcalls
      exact h4 hbs hcalls hr (List.getElem?_eq_none_iff.1 hi)
    · intro b hb
      obtain ⟨hi, rfl⟩ := List.getElem?_eq_some_iff.1 hb
      exact h5 hbs hr hi (.inl (hs _ hb))

/-- The wrapper shows the blobs `view`. -/
structure Repr (X : Codecs D) (orig : List Bytes) (ext : Bool) (comp : CompressionType)
    (view : List Bytes) (m : MCluster D) : Prop where
  inner : InnerIs X orig ext comp m.inner
  bound : m.bound = true
  count : (orig.length : Int) - m.removed.length + m.added.length = view.length
  get : ∀ i, match m.blobs.lookup i with
    | some src => ∃ c, view[i]? = some c ∧ Delivers src c
    | none => orig[adjustIndex m.removed i]? = view[i]?

variable {view : List Bytes}

theorem Repr.setInner {m : MCluster D} (h : Repr X orig ext comp view m) {i : Inner D}
    (hi : InnerIs X orig ext comp i) : Repr X orig ext comp view (m.setInner i) :=
  ⟨hi, h.bound, h.count, h.get⟩

theorem Repr.unmodified {m : MCluster D} (h : Repr X orig ext comp view m)
    (hm : m.hasModifications = false) : view = orig := by
  unfold hasModifications at hm
  simp only [Bool.or_eq_false_iff, Bool.not_eq_false', List.isEmpty_iff] at hm
  obtain ⟨⟨h1, h2⟩, h3⟩ := hm
  apply List.ext_getElem?
  intro i
  have := h.get i
  rw [h1, h3] at this
  exact this.symm

theorem getNumberOfOffsets_spec {m : MCluster D} (h : Repr X orig ext comp view m) :
    ∃ i', getNumberOfOffsets X m = (.ok ((view.length : Int) + 1), m.setInner i') ∧
      InnerIs X orig ext comp i' ∧ Knows ext comp i' := by
  unfold getNumberOfOffsets
  obtain ⟨i', h1, h2, h3⟩ := innerNumBlobs_spec h.inner
  rw [PyM.bind_ok h1]
  simp only [PyM.get_bind, PyM.pure_apply]
  exact ⟨i', by rw [h.count], h2, h3⟩

theorem getNumberOfBlobs_spec {m : MCluster D} (h : Repr X orig ext comp view m) :
    ∃ i', getNumberOfBlobs X m = (.ok (view.length : Int), m.setInner i') ∧
      InnerIs X orig ext comp i' ∧ Knows ext comp i' := by
  unfold getNumberOfBlobs
  obtain ⟨i', h1, h2, h3⟩ := getNumberOfOffsets_spec h
  rw [PyM.bind_ok h1]
  refine ⟨i', ?_, h2, h3⟩
  simp only [PyM.pure_apply]
  congr 2; omega

theorem setInner_self (m : MCluster D) : m = m.setInner m.inner := rfl

theorem getBlobSize_spec {m : MCluster D} (h : Repr X orig ext comp view m) (i : Nat) :
    ∃ i', getBlobSize X i m = ((match view[i]? with
        | some b => .ok (b.length : Int) | none => .error .blobNotFound), m.setInner i') ∧
      InnerIs X orig ext comp i' ∧ (Knows ext comp m.inner → Knows ext comp i') := by
  unfold getBlobSize
  simp only [PyM.get_bind]
  have hg := h.get i
  cases hl : m.blobs.lookup i with
  | some src =>
    rw [hl] at hg
    obtain ⟨c, hc, hd⟩ := hg
    refine ⟨m.inner, ?_, h.inner, id⟩
    simp only [hc, PyM.pure_apply, hd.size]
  | none =>
    rw [hl] at hg
    obtain ⟨i', h1, h2, h3⟩ := innerBlobSize_spec h.inner (adjustIndex m.removed i)
    refine ⟨i', ?_, h2, fun _ => h3⟩
    simp only [h1]
    rw [← hg]

theorem sizesLoop_spec : ∀ (l : List Nat) {m : MCluster D}, Repr X orig ext comp view m →
    (∀ i ∈ l, i < view.length) →
    ∃ i', sizesLoop X l m =
        (.ok (l.map fun i => (((view[i]?).getD []).length : Int)), m.setInner i') ∧
      InnerIs X orig ext comp i' ∧ (Knows ext comp m.inner → Knows ext comp i') := by
  intro l
  induction l with
  | nil => intro m h _; exact ⟨m.inner, rfl, h.inner, id⟩
  | cons i l ih =>
    intro m h hl
    unfold sizesLoop
    obtain ⟨i1, h1, h2, h3⟩ := getBlobSize_spec h i
    have hi := hl i (by simp)
    rw [List.getElem?_eq_getElem hi] at h1
    rw [PyM.bind_ok h1]
    obtain ⟨i2, g1, g2, g3⟩ := ih (h.setInner h2) (fun j hj => hl j (by simp [hj]))
    rw [PyM.bind_ok g1]
    refine ⟨i2, ?_, g2, fun hk => g3 (h3 hk)⟩
    simp only [PyM.pure_apply, List.map_cons, List.getElem?_eq_getElem hi, Option.getD_some]

theorem sum_sizes (view : List Bytes) :
    ((List.range view.length).map fun i => (((view[i]?).getD []).length : Int)).sum =
      (view.flatten.length : Int) := by
  have h1 : (List.range view.length).map (fun i => (((view[i]?).getD []).length : Int)) =
      view.map (fun b => (b.length : Int)) := by
    apply List.ext_getElem
    · simp
    · intro n a b
      simp only [List.getElem_map, List.getElem_range]
      rw [List.getElem?_eq_getElem (by simpa using b)]
      rfl
  rw [h1]
  clear h1
  induction view with
  | nil => rfl
  | cons b bs ih =>
    simp only [List.map_cons, List.sum_cons, ih, List.flatten_cons, List.length_append]
    omega

theorem blobSizes_spec {m : MCluster D} (h : Repr X orig ext comp view m) :
    ∃ i', blobSizes X m = (.ok ((List.range view.length).map
        fun i => (((view[i]?).getD []).length : Int)), m.setInner i') ∧
      InnerIs X orig ext comp i' ∧ Knows ext comp i' := by
  unfold blobSizes
  obtain ⟨i1, h1, h2, h3⟩ := getNumberOfBlobs_spec h
  rw [PyM.bind_ok h1]
  obtain ⟨i2, g1, g2, g3⟩ := sizesLoop_spec (List.range view.length) (h.setInner h2)
    (fun i hi => List.mem_range.1 hi)
  rw [Int.toNat_natCast]
  exact ⟨i2, g1, g2, g3 h3⟩

/-- Whether 8 byte offsets are used. -/
def extOf (ext : Bool) (view : List Bytes) (m : MCluster D) : Bool :=
  match m.forceExt with
  | some b => b
  | none =>
    if m.hasModifications = false then ext
    else decide (2 ^ 32 ≤ 4 * (view.length + 1) + view.flatten.length)

/-- The width is determined without having to read the information byte first. -/
def Known (ext : Bool) (comp : CompressionType) (m : MCluster D) : Prop :=
  m.forceExt.isSome = true ∨ m.hasModifications = true ∨ Knows ext comp m.inner

theorem Known.setInner {m : MCluster D} (h : Known ext comp m) {i : Inner D}
    (hi : Knows ext comp m.inner → Knows ext comp i) : Known ext comp (m.setInner i) := by
  rcases h with h | h | h
  · exact .inl h
  · exact .inr (.inl h)
  · exact .inr (.inr (hi h))

theorem isExtended_spec {m : MCluster D} (h : Repr X orig ext comp view m)
    (hk : Known ext comp m) :
    ∃ i', isExtended X m = (.ok (some (extOf ext view m)), m.setInner i') ∧
      InnerIs X orig ext comp i' ∧ (Knows ext comp m.inner → Knows ext comp i') := by
  unfold isExtended extOf
  simp only [PyM.get_bind]
  cases hf : m.forceExt with
  | some b => exact ⟨m.inner, rfl, h.inner, id⟩
  | none =>
    simp only
    by_cases hm : m.hasModifications = false
    · rw [if_pos hm, if_pos hm]
      refine ⟨m.inner, ?_, h.inner, id⟩
      have hkn : Knows ext comp m.inner := by
        rcases hk with hk | hk | hk
        · rw [hf] at hk; simp at hk
        · rw [hm] at hk; simp at hk
        · exact hk
      have : m.innerIsExtended = some ext := by
        unfold innerIsExtended
        have hin := h.inner
        cases hi : m.inner with
        | empty => rw [hi] at hin; rw [hin.2.1]
        | real s => rw [hi] at hkn; exact hkn.1
      rw [this]; rfl
    · rw [if_neg hm, if_neg hm]
      obtain ⟨i1, h1, h2, h3⟩ := readInfobyteIfNeeded_spec h.inner
      rw [PyM.bind_ok h1]
      obtain ⟨i2, g1, g2, g3⟩ := getNumberOfOffsets_spec (h.setInner h2)
      rw [PyM.bind_ok g1]
      obtain ⟨i3, k1, k2, k3⟩ := blobSizes_spec ((h.setInner h2).setInner g2)
      rw [PyM.bind_ok k1]
      refine ⟨i3, ?_, k2, fun _ => k3⟩
      simp only [PyM.pure_apply, sum_sizes]
      congr 3
      simp only [decide_eq_decide]
      omega

abbrev widthOf (ext : Bool) (view : List Bytes) (m : MCluster D) : Nat :=
  if extOf ext view m then 8 else 4

theorem extOf_setInner (m : MCluster D) (i : Inner D) :
    extOf ext view (m.setInner i) = extOf ext view m := rfl

theorem pointerSize_spec {m : MCluster D} (h : Repr X orig ext comp view m)
    (hk : Known ext comp m) :
    ∃ i', pointerSize X m = (.ok (widthOf ext view m), m.setInner i') ∧
      InnerIs X orig ext comp i' ∧ (Knows ext comp m.inner → Knows ext comp i') := by
  unfold pointerSize
  obtain ⟨i1, h1, h2, h3⟩ := isExtended_spec h hk
  rw [PyM.bind_ok h1]
  unfold widthOf
  cases extOf ext view m <;> exact ⟨i1, rfl, h2, h3⟩

theorem getTotalOffsetSize_spec {m : MCluster D} (h : Repr X orig ext comp view m)
    (hk : Known ext comp m) :
    ∃ i', getTotalOffsetSize X m =
        (.ok ((widthOf ext view m * (view.length + 1) : Nat) : Int), m.setInner i') ∧
      InnerIs X orig ext comp i' ∧ Knows ext comp i' := by
  unfold getTotalOffsetSize
  simp only [PyM.get_bind, h.bound, PyM.require_true_bind]
  obtain ⟨i1, h1, h2, h3⟩ := pointerSize_spec h hk
  rw [PyM.bind_ok h1]
  obtain ⟨i2, g1, g2, g3⟩ := getNumberOfOffsets_spec (h.setInner h2)
  rw [PyM.bind_ok g1]
  refine ⟨i2, ?_, g2, g3⟩
  simp only [PyM.pure_apply]
  congr 2

theorem getContentSize_spec {m : MCluster D} (h : Repr X orig ext comp view m) :
    ∃ i', getContentSize X m = (.ok (view.flatten.length : Int), m.setInner i') ∧
      InnerIs X orig ext comp i' ∧ Knows ext comp i' := by
  unfold getContentSize
  obtain ⟨i1, h1, h2, h3⟩ := blobSizes_spec h
  rw [PyM.bind_ok h1]
  exact ⟨i1, by simp only [PyM.pure_apply, sum_sizes], h2, h3⟩

theorem getTotalDecompressedSize_spec {m : MCluster D} (h : Repr X orig ext comp view m)
    (hk : Known ext comp m) :
    ∃ i', getTotalDecompressedSize X m =
        (.ok ((clusterBody (widthOf ext view m) view).length : Int), m.setInner i') ∧
      InnerIs X orig ext comp i' ∧ Knows ext comp i' := by
  unfold getTotalDecompressedSize
  obtain ⟨i1, h1, h2, h3⟩ := getTotalOffsetSize_spec h hk
  rw [PyM.bind_ok h1]
  obtain ⟨i2, g1, g2, g3⟩ := getContentSize_spec (h.setInner h2)
  rw [PyM.bind_ok g1]
  refine ⟨i2, ?_, g2, g3⟩
  simp only [PyM.pure_apply, clusterBody_length]
  congr 2
  simp only [blobOffset, List.take_length]
  omega

/-! ### Offsets -/

theorem offsetsLoop_spec (numbers : Option (List Nat)) (w : Nat) (len : Nat) :
    ∀ (k : Nat) {m : MCluster D}, Repr X orig ext comp view m → k ≤ view.length →
    ∃ i', offsetsLoop X numbers false ((view.length : Int) + 1) (List.range' k len)
        (blobOffset w view k : Int) m =
        (.ok (((List.range' k (min len (view.length + 1 - k))).filter (Cluster.wanted numbers)).map
          fun j => (blobOffset w view j : Int)), m.setInner i') ∧
      InnerIs X orig ext comp i' ∧ (Knows ext comp m.inner → Knows ext comp i') := by
  induction len with
  | zero => intro k m h _; exact ⟨m.inner, by simp [offsetsLoop], h.inner, id⟩
  | succ len ih =>
    intro k m h hk
    rw [List.range'_succ]
    unfold offsetsLoop
    simp only [Bool.and_false, Bool.false_eq_true, if_false]
    have hmin : min (len + 1) (view.length + 1 - k) = min len (view.length + 1 - (k + 1)) + 1 := by
      omega
    rw [hmin, List.range'_succ, List.filter_cons]
    by_cases hlast : k = view.length
    · rw [if_pos (by omega)]
      simp only [PyM.pure_bind']
      refine ⟨m.inner, ?_, h.inner, id⟩
      rw [show min len (view.length + 1 - (k + 1)) = 0 by omega]
      simp only [List.range'_zero, List.filter_nil, PyM.pure_apply]
      cases numbers with
      | none => rfl
      | some ns => simp only [Cluster.wanted]; by_cases hc : ns.contains k = true <;> simp only [hc] <;> rfl
    · rw [if_neg (by omega)]
      obtain ⟨i1, h1, h2, h3⟩ := getBlobSize_spec h k
      have hk' : k < view.length := by omega
      rw [List.getElem?_eq_getElem hk'] at h1
      rw [PyM.bind_ok h1]
      obtain ⟨i2, g1, g2, g3⟩ := ih (k + 1) (h.setInner h2) (by omega)
      have hsz : (blobOffset w view k : Int) + (view[k].length : Int) =
          (blobOffset w view (k + 1) : Int) := by
        rw [blobOffset_succ w view k hk']; omega
      rw [hsz, PyM.bind_ok g1]
      refine ⟨i2, ?_, g2, fun hk => g3 (h3 hk)⟩
      simp only [PyM.pure_apply]
      cases numbers with
      | none => rfl
      | some ns => simp only [Cluster.wanted]; by_cases hc : ns.contains k = true <;> simp only [hc] <;> rfl

theorem offsetsLoop_first (i w : Nat) (len : Nat) :
    ∀ (k : Nat) {m : MCluster D}, Repr X orig ext comp view m → k ≤ view.length → k ≤ i →
    i < k + len →
    ∃ i', offsetsLoop X (some [i]) true ((view.length : Int) + 1) (List.range' k len)
        (blobOffset w view k : Int) m =
        (.ok (if i ≤ view.length then [(blobOffset w view i : Int)] else []), m.setInner i') ∧
      InnerIs X orig ext comp i' := by
  induction len with
  | zero => intro k m h _ _ _; omega
  | succ len ih =>
    intro k m h hk hki hlt
    rw [List.range'_succ]
    unfold offsetsLoop
    simp only [Bool.and_true]
    by_cases heq : k = i
    · subst heq
      simp only [List.contains_cons, List.contains_nil, beq_self_eq_true, Bool.true_or, if_true]
      exact ⟨m.inner, by simp only [hk, if_true]; rfl, h.inner⟩
    · have hc : ([i] : List Nat).contains k = false := by simp; omega
      simp only [hc, Bool.false_eq_true, if_false]
      by_cases hlast : k = view.length
      · rw [if_pos (by omega)]
        simp only [PyM.pure_bind', PyM.pure_apply]
        exact ⟨m.inner, by rw [if_neg (by omega)], h.inner⟩
      · rw [if_neg (by omega)]
        obtain ⟨i1, h1, h2, h3⟩ := getBlobSize_spec h k
        have hk' : k < view.length := by omega
        rw [List.getElem?_eq_getElem hk'] at h1
        rw [PyM.bind_ok h1]
        obtain ⟨i2, g1, g2⟩ := ih (k + 1) (h.setInner h2) (by omega) (by omega) (by omega)
        have hsz : (blobOffset w view k : Int) + (view[k].length : Int) =
            (blobOffset w view (k + 1) : Int) := by
          rw [blobOffset_succ w view k hk']; omega
        rw [hsz, PyM.bind_ok g1]
        exact ⟨i2, rfl, g2⟩

theorem getOffset_spec {m : MCluster D} (h : Repr X orig ext comp view m)
    (hk : Known ext comp m) (i : Nat) :
    ∃ i', getOffset X i m = (if i ≤ view.length then .ok (blobOffset (widthOf ext view m) view i : Int)
        else .error .indexError, m.setInner i') ∧ InnerIs X orig ext comp i' := by
  unfold getOffset
  simp only [PyM.get_bind, h.bound, PyM.require_true_bind]
  unfold iterBlobOffsets
  rw [PyM.bind_assoc']
  simp only [PyM.get_bind, h.bound]
  rw [PyM.bind_assoc']
  simp only [PyM.require_true_bind]
  rw [PyM.bind_assoc']
  obtain ⟨i1, h1, h2, h3⟩ := getTotalOffsetSize_spec h hk
  rw [PyM.bind_ok h1, PyM.bind_assoc']
  obtain ⟨i2, g1, g2, g3⟩ := getNumberOfOffsets_spec (h.setInner h2)
  rw [PyM.bind_ok g1]
  simp only [List.foldl_nil]
  obtain ⟨i3, k1, k2⟩ := offsetsLoop_first i (widthOf ext view m) (i + 1) 0
    ((h.setInner h2).setInner g2) (by omega) (by omega) (by omega)
  rw [blobOffset_zero, ← List.range_eq_range'] at k1
  rw [show ((i : Int) + 1).toNat = i + 1 by omega, PyM.bind_ok k1]
  refine ⟨i3, ?_, k2⟩
  by_cases hi : i ≤ view.length
  · simp only [if_pos hi]; rfl
  · simp only [if_neg hi]; rfl

theorem iterBlobOffsets_all {m : MCluster D} (h : Repr X orig ext comp view m)
    (hk : Known ext comp m) :
    ∃ i', iterBlobOffsets X none false m = (.ok ((List.range (view.length + 1)).map
        fun j => (blobOffset (widthOf ext view m) view j : Int)), m.setInner i') ∧
      InnerIs X orig ext comp i' := by
  unfold iterBlobOffsets
  simp only [PyM.get_bind, h.bound, PyM.require_true_bind]
  obtain ⟨i1, h1, h2, h3⟩ := getTotalOffsetSize_spec h hk
  rw [PyM.bind_ok h1]
  obtain ⟨i2, g1, g2, g3⟩ := getNumberOfOffsets_spec (h.setInner h2)
  rw [PyM.bind_ok g1]
  obtain ⟨i3, k1, k2, _⟩ := offsetsLoop_spec none (widthOf ext view m) (view.length + 1 + 1) 0
    ((h.setInner h2).setInner g2) (by omega)
  rw [blobOffset_zero, ← List.range_eq_range', ← List.range_eq_range',
    List.filter_eq_self (p := Cluster.wanted none) |>.2 (fun _ _ => rfl)] at k1
  rw [show ((view.length : Int) + 1 + 1).toNat = view.length + 1 + 1 by omega, k1]
  refine ⟨i3, ?_, k2⟩
  rw [show min (view.length + 1 + 1) (view.length + 1 - 0) = view.length + 1 by omega]

/-! ### Reading -/

theorem partOf_slice (data : Bytes) (start stop : Option Nat) :
    pySlice data ((start.getD 0 : Nat) : Int) ((stop.getD data.length : Nat) : Int) =
      partOf data start stop := by
  unfold pySlice partOf
  simp only
  rw [if_neg (by omega), if_neg (by omega)]
  simp only [Int.toNat_natCast]
  by_cases hs : start.getD 0 ≤ data.length
  · rw [Nat.min_eq_left hs]
    cases stop with
    | none => simp
    | some e => simp
  · rw [Nat.min_eq_right (show data.length ≤ start.getD 0 by omega), List.drop_length,
      List.drop_eq_nil_of_le (show data.length ≤ start.getD 0 by omega)]
    simp

theorem readBlob_spec {m : MCluster D} (h : Repr X orig ext comp view m) (i : Nat)
    (start stop : Option Nat) (hr : Cluster.rangeOk start stop = true)
    (hs : ∀ b, view[i]? = some b → start.getD 0 ≤ b.length) :
    ∃ i', readBlob X i start stop m = ((match view[i]? with
        | some b => .ok (partOf b start stop) | none => .error .blobNotFound), m.setInner i') ∧
      InnerIs X orig ext comp i' := by
  unfold readBlob
  simp only [PyM.get_bind]
  have hg := h.get i
  cases hl : m.blobs.lookup i with
  | some src =>
    rw [hl] at hg
    obtain ⟨c, hc, hd⟩ := hg
    refine ⟨m.inner, ?_, h.inner⟩
    simp only [hc, PyM.pure_apply, hd.content 8192 (by omega), partOf_slice]
  | none =>
    rw [hl] at hg
    simp only at hg
    obtain ⟨i', h1, h2⟩ := innerReadBlob_spec h.inner (adjustIndex m.removed i) start stop hr
      (fun b hb => hs b (by rw [← hg, hb]))
    refine ⟨i', ?_, h2⟩
    simp only [h1]
    rw [← hg]

/-- The chunks of a modified blob, for a range. -/
theorem rangeChunks_flatten (start stop : Nat) (hss : start ≤ stop) :
    ∀ (l : List Bytes) (cur : Nat),
      (rangeChunks start stop l cur).flatten =
        (l.flatten.drop (start - cur)).take (stop - max start cur) := by
  intro l
  induction l with
  | nil => intro cur; simp [rangeChunks]
  | cons r rest ih =>
    intro cur
    unfold rangeChunks
    simp only
    have ih := ih (cur + r.length)
    rw [List.flatten_cons]
    by_cases h1 : cur + r.length < start
    · rw [if_pos h1, ih, List.drop_append]
      rw [List.drop_eq_nil_of_le (show r.length ≤ start - cur by omega), List.nil_append]
      rw [show start - (cur + r.length) = start - cur - r.length by omega,
        show max start (cur + r.length) = max start cur by omega]
    · rw [if_neg h1]
      by_cases h2 : stop ≤ cur
      · rw [if_pos h2, ih, show stop - max start (cur + r.length) = 0 by omega,
          show stop - max start cur = 0 by omega]
        simp
      · rw [if_neg h2, List.flatten_cons, ih]
        have e1 : max 0 ((start : Int) - (cur : Int)) = ((start - cur : Nat) : Int) := by omega
        have e2 : min (r.length : Int) ((stop : Int) - (cur : Int)) =
            ((min r.length (stop - cur) : Nat) : Int) := by omega
        rw [e1, e2, Cluster.pySlice_nat _ _ _ (by omega) (by omega)]
        rw [List.drop_append_of_le_length (by omega), List.take_append]
        rw [show start - (cur + r.length) = 0 by omega, List.drop_zero]
        have hl : (r.drop (start - cur)).length = r.length - (start - cur) := List.length_drop
        congr 1
        · by_cases h3 : stop - cur ≤ r.length
          · congr 1; omega
          · rw [List.take_of_length_le (by omega), List.take_of_length_le (by omega)]
        · congr 1; omega

theorem rangeChunks_small (start stop bs : Nat) :
    ∀ (l : List Bytes) (cur : Nat), (∀ p ∈ l, p.length ≤ bs) →
      ∀ c ∈ rangeChunks start stop l cur, c.length ≤ bs := by
  intro l
  induction l with
  | nil => intro cur _ c hc; simp [rangeChunks] at hc
  | cons r rest ih =>
    intro cur hp c hc
    have hrest := ih (cur + r.length) (fun p hp' => hp p (by simp [hp'])) c
    unfold rangeChunks at hc
    simp only at hc
    split at hc
    · exact hrest hc
    · split at hc
      · exact hrest hc
      · rcases List.mem_cons.1 hc with rfl | hc
        · have := hp r (by simp)
          unfold pySlice
          simp only
          rw [List.length_take, List.length_drop]; omega
        · exact hrest hc

theorem rangeChunks_length (start stop : Nat) :
    ∀ (l : List Bytes) (cur : Nat), (rangeChunks start stop l cur).length ≤ l.length := by
  intro l
  induction l with
  | nil => intro cur; simp [rangeChunks]
  | cons r rest ih =>
    intro cur
    have := ih (cur + r.length)
    unfold rangeChunks
    simp only
    split
    · simp; omega
    · split
      · simp; omega
      · simp; omega

theorem take_flatten_prefix (ys : List Bytes) (n : Nat) : (ys.take n).flatten <+: ys.flatten := by
  refine ⟨(ys.drop n).flatten, ?_⟩
  rw [← List.flatten_append, List.take_append_drop]

theorem iterReadBlob_spec {m : MCluster D} (h : Repr X orig ext comp view m) (i bs : Nat)
    (start stop : Option Nat) (calls : Nat) (hbs : 0 < bs)
    (hr : Cluster.rangeOk start stop = true)
    (hs : ∀ b, view[i]? = some b → start.getD 0 ≤ b.length) :
    ∃ res i', iterReadBlob X i bs start stop calls m = (res, m.setInner i') ∧
      InnerIs X orig ext comp i' ∧
      (view[i]? = none → 0 < calls → res = .error .blobNotFound) ∧
      ∀ b, view[i]? = some b → ∃ cs fin, res = .ok (cs, fin) ∧
        cs.flatten <+: partOf b start stop ∧
        (fin = true → cs.flatten = partOf b start stop) ∧
        (fin = false → calls ≤ b.length + 1) ∧
        ((∀ src, m.blobs.lookup i = some src → ∀ p ∈ src.pieces bs, p.length ≤ bs) →
          ∀ c ∈ cs, c.length ≤ bs) := by
  unfold iterReadBlob
  simp only [PyM.get_bind]
  have hg := h.get i
  cases hl : m.blobs.lookup i with
  | some src =>
    rw [hl] at hg
    obtain ⟨c, hc, hd⟩ := hg
    refine ⟨_, m.inner, rfl, h.inner, by simp [hc], fun b hb => ?_⟩
    rw [hc] at hb
    injection hb with hb
    subst hb
    have hsc := hs c hc
    generalize hys : rangeChunks (start.getD 0) (stop.getD src.size) (src.pieces bs) 0 = ys
    have hyf : ys.flatten = partOf c start stop := by
      rw [← hys, rangeChunks_flatten _ _ ?_, hd.content bs hbs]
      · unfold partOf
        rw [Nat.sub_zero, Nat.max_eq_left (Nat.zero_le _)]
        cases stop with
        | none => simp only [Option.getD_none, hd.size]
        | some e =>
          simp only [Option.getD_some]
          by_cases he : e ≤ c.length
          · rw [Nat.min_eq_left he]
          · rw [Nat.min_eq_right (by omega), List.take_of_length_le, List.take_of_length_le]
            · rw [List.length_drop]; omega
            · rw [List.length_drop]; omega
      · cases stop with
        | none => simp only [Option.getD_none, hd.size]; exact hsc
        | some e =>
          cases start with
          | none => simp
          | some a => simpa [Cluster.rangeOk] using hr
    refine ⟨_, _, rfl, ?_, fun hf => ?_, fun hf => ?_, fun hp => ?_⟩
    · rw [← hyf]; exact take_flatten_prefix _ _
    · rw [← hyf, List.take_of_length_le (by simp at hf; omega)]
    · simp only [decide_eq_false_iff_not, Nat.not_lt] at hf
      have h1 := rangeChunks_length (start.getD 0) (stop.getD src.size) (src.pieces bs) 0
      rw [hys] at h1
      have h2 := Cluster.chunks_count (hd.nonempty bs hbs)
      rw [hd.content bs hbs] at h2
      omega
    · intro c' hc'
      have := List.mem_of_mem_take hc'
      rw [← hys] at this
      exact rangeChunks_small _ _ bs _ _ (hp src rfl) c' this
  | none =>
    rw [hl] at hg
    simp only at hg
    obtain ⟨res, i', h1, h2, h3, h4⟩ := innerIterReadBlob_spec h.inner (adjustIndex m.removed i) bs
      start stop calls hbs hr (fun b hb => hs b (by rw [← hg, hb]))
    refine ⟨res, i', h1, h2, fun hn => h3 (by rw [hg, hn]), fun b hb => ?_⟩
    obtain ⟨cs, fin, rfl, hch⟩ := h4 b (by rw [hg, hb])
    refine ⟨cs, fin, rfl, hch.prefix_, hch.complete, fun hf => ?_, fun _ => hch.small⟩
    have h5 := hch.unfinished hf
    have h6 : (partOf b start stop).length ≤ b.length := by
      unfold partOf; rw [List.length_take, List.length_drop]; omega
    omega

/-! ### Writing -/

theorem packUInt_large {w n : Nat} (h : ¬ n < 256 ^ w) : packUInt w (n : Int) = .error .structError := by
  unfold packUInt
  rw [if_neg]
  intro hc
  apply h
  have h2 := hc.2
  rw [show (256 : Int) = ((256 : Nat) : Int) from rfl, ← Int.natCast_pow] at h2
  exact Int.ofNat_lt.1 h2

theorem packOffsetsLoop_spec (w : Nat) (len : Nat) :
    ∀ (k : Nat) {m : MCluster D}, Repr X orig ext comp view m → Known ext comp m →
    widthOf ext view m = w → k + len = view.length →
    ∃ i', packOffsetsLoop X (List.range' k len) (blobOffset w view k : Int) m =
        (if blobOffset w view view.length < 256 ^ w then
          .ok ((List.range' k (len + 1)).map fun j => leBytes w (blobOffset w view j)).flatten
         else .error .structError, m.setInner i') ∧
      InnerIs X orig ext comp i' := by
  induction len with
  | zero =>
    intro k m h hk hw hl
    simp only [List.range'_zero]
    unfold packOffsetsLoop
    obtain ⟨i1, h1, h2, h3⟩ := pointerSize_spec h hk
    rw [PyM.bind_ok h1, hw]
    have hkl : k = view.length := by omega
    subst hkl
    refine ⟨i1, ?_, h2⟩
    by_cases hf : blobOffset w view view.length < 256 ^ w
    · rw [if_pos hf, packUInt_nat hf]; simp [PyM.lift_apply]
    · rw [if_neg hf]
      rw [packUInt_large hf]
      rfl
  | succ len ih =>
    intro k m h hk hw hl
    rw [List.range'_succ]
    unfold packOffsetsLoop
    obtain ⟨i1, h1, h2, h3⟩ := getBlobSize_spec h k
    have hk' : k < view.length := by omega
    rw [List.getElem?_eq_getElem hk'] at h1
    rw [PyM.bind_ok h1]
    obtain ⟨i2, g1, g2, g3⟩ := pointerSize_spec (h.setInner h2) (hk.setInner h3)
    rw [PyM.bind_ok g1]
    have hw' : widthOf ext view (m.setInner i1) = w := hw
    rw [hw']
    by_cases hfk : blobOffset w view k < 256 ^ w
    · rw [packUInt_nat hfk]
      simp only [PyM.lift_ok_bind]
      have hsz : (blobOffset w view k : Int) + (view[k].length : Int) =
          (blobOffset w view (k + 1) : Int) := by
        rw [blobOffset_succ w view k hk']; omega
      obtain ⟨i3, k1, k2⟩ := ih (k + 1) ((h.setInner h2).setInner g2)
        ((hk.setInner h3).setInner g3) hw (by omega)
      rw [hsz]
      by_cases hf : blobOffset w view view.length < 256 ^ w
      · rw [if_pos hf] at k1 ⊢
        rw [PyM.bind_ok k1]
        refine ⟨i3, ?_, k2⟩
        rw [List.range'_succ (n := len + 1), List.map_cons, List.flatten_cons]
        rfl
      · rw [if_neg hf] at k1 ⊢
        rw [PyM.bind_err k1]
        exact ⟨i3, rfl, k2⟩
    · have hf : ¬ blobOffset w view view.length < 256 ^ w := by
        have := blobOffset_le_last w view k
        omega
      rw [if_neg hf]
      refine ⟨i2, ?_, g2⟩
      rw [packUInt_large hfk]
      rfl

theorem dataLoop_spec : ∀ (l : List Nat) {m : MCluster D}, Repr X orig ext comp view m →
    (∀ i ∈ l, i < view.length) →
    ∃ cs i', dataLoop X l m = (.ok cs, m.setInner i') ∧ InnerIs X orig ext comp i' ∧
      cs.flatten = (l.map fun i => (view[i]?).getD []).flatten := by
  intro l
  induction l with
  | nil => intro m h _; exact ⟨[], m.inner, rfl, h.inner, rfl⟩
  | cons i l ih =>
    intro m h hl
    unfold dataLoop
    simp only [PyM.get_bind]
    have hi := hl i (by simp)
    have hg := h.get i
    cases hlk : m.blobs.lookup i with
    | some src =>
      rw [hlk] at hg
      obtain ⟨c, hc, hd⟩ := hg
      simp only [PyM.pure_bind']
      obtain ⟨cs, i2, g1, g2, g3⟩ := ih h (fun j hj => hl j (by simp [hj]))
      rw [PyM.bind_ok g1]
      refine ⟨_, i2, rfl, g2, ?_⟩
      rw [List.flatten_append, hd.content 8192 (by omega), g3, List.map_cons, List.flatten_cons, hc]
      rfl
    | none =>
      rw [hlk] at hg
      simp only at hg
      simp only
      obtain ⟨i1, h1, h2⟩ := innerReadBlob_spec h.inner (adjustIndex m.removed i) none none rfl
        (fun b _ => by simp)
      rw [hg, List.getElem?_eq_getElem hi] at h1
      rw [PyM.bind_ok h1]
      simp only [PyM.pure_bind']
      obtain ⟨cs, i2, g1, g2, g3⟩ := ih (h.setInner h2) (fun j hj => hl j (by simp [hj]))
      rw [PyM.bind_ok g1]
      refine ⟨_, i2, rfl, g2, ?_⟩
      rw [List.flatten_append, g3, List.map_cons, List.flatten_cons, List.getElem?_eq_getElem hi]
      simp [partOf]

theorem map_getD (view : List Bytes) :
    (List.range view.length).map (fun i => (view[i]?).getD []) = view := by
  apply List.ext_getElem
  · simp
  · intro n a b
    simp only [List.getElem_map, List.getElem_range]
    rw [List.getElem?_eq_getElem b]; rfl

theorem iterWriteRaw_spec {m : MCluster D} (h : Repr X orig ext comp view m)
    (hk : Known ext comp m) :
    ∃ res i', iterWriteRaw X m = (res, m.setInner i') ∧ InnerIs X orig ext comp i' ∧
      (blobOffset (widthOf ext view m) view view.length < 256 ^ widthOf ext view m →
        ∃ cs, res = .ok cs ∧ cs.flatten = clusterBody (widthOf ext view m) view) ∧
      (¬ blobOffset (widthOf ext view m) view view.length < 256 ^ widthOf ext view m →
        res = .error .structError) := by
  unfold iterWriteRaw
  obtain ⟨i1, h1, h2, h3⟩ := getTotalOffsetSize_spec h hk
  rw [PyM.bind_ok h1]
  obtain ⟨i2, g1, g2, g3⟩ := getNumberOfBlobs_spec (h.setInner h2)
  rw [PyM.bind_ok g1]
  obtain ⟨i3, k1, k2⟩ := packOffsetsLoop_spec (widthOf ext view m) view.length 0
    ((h.setInner h2).setInner g2) (.inr (.inr g3)) rfl (by omega)
  rw [blobOffset_zero, ← List.range_eq_range', ← List.range_eq_range'] at k1
  rw [Int.toNat_natCast]
  by_cases hf : blobOffset (widthOf ext view m) view view.length < 256 ^ widthOf ext view m
  · rw [if_pos hf] at k1
    rw [PyM.bind_ok k1]
    obtain ⟨i4, l1, l2, l3⟩ := getNumberOfBlobs_spec (((h.setInner h2).setInner g2).setInner k2)
    rw [PyM.bind_ok l1, Int.toNat_natCast]
    obtain ⟨cs, i5, m1, m2, m3⟩ := dataLoop_spec (List.range view.length)
      ((((h.setInner h2).setInner g2).setInner k2).setInner l2) (fun i hi => List.mem_range.1 hi)
    rw [PyM.bind_ok m1]
    refine ⟨_, i5, rfl, m2, fun _ => ⟨_, rfl, ?_⟩, fun h => absurd hf h⟩
    rw [List.flatten_cons, m3, map_getD]
    rfl
  · rw [if_neg hf] at k1
    rw [PyM.bind_err k1]
    exact ⟨_, i3, rfl, k2, fun h => absurd h hf, fun _ => rfl⟩

/-- What the wrapper is compressed with. -/
def compOf (comp : CompressionType) (m : MCluster D) : CompressionType := m.forceComp.getD comp

theorem iterWrite_full {K : Type} {C : Compressors K} {m : MCluster D}
    (h : Repr X orig ext comp view m) :
    ∃ res i', iterWrite X C m = (res, m.setInner i') ∧ InnerIs X orig ext comp i' ∧
      (∀ info, Cluster.generateInfobyte (compOf comp m) (extOf ext view m) = .ok info →
      ∀ k, C.new (compOf comp m) = .ok k →
      (blobOffset (widthOf ext view m) view view.length < 256 ^ widthOf ext view m →
        ∃ cs, cs.flatten = clusterBody (widthOf ext view m) view ∧
          res = (compressAll C k cs).map (info :: ·)) ∧
      (¬ blobOffset (widthOf ext view m) view view.length < 256 ^ widthOf ext view m →
        res = .error .structError)) ∧
      ∀ out, res = .ok out → ∃ info k,
        Cluster.generateInfobyte (compOf comp m) (extOf ext view m) = .ok info ∧
        C.new (compOf comp m) = .ok k := by
  unfold iterWrite
  obtain ⟨i1, h1, h2, h3⟩ := readInfobyteIfNeeded_spec h.inner
  rw [PyM.bind_ok h1]
  obtain ⟨i2, g1, g2, g3⟩ := isExtended_spec (h.setInner h2) (.inr (.inr h3))
  rw [PyM.bind_ok g1]
  simp only [PyM.get_bind]
  have hcomp : compression ((m.setInner i1).setInner i2) = some (compOf comp m) := by
    unfold compression compOf
    cases hf : m.forceComp with
    | some t => rfl
    | none =>
      simp only [innerCompression, Option.getD_none]
      have hk := g3 h3
      cases i2 with
      | empty => simp only; rw [g2.2.2]
      | real s => exact hk.2
  rw [hcomp]
  simp only [PyM.lift_ok_bind, Option.getD_some]
  rw [show extOf ext view (m.setInner i1) = extOf ext view m from rfl]
  cases hi : Cluster.generateInfobyte (compOf comp m) (extOf ext view m) with
  | error e =>
    simp only [PyM.lift_err_bind]
    exact ⟨_, i2, rfl, g2, by simp, by simp⟩
  | ok info =>
    simp only [PyM.lift_ok_bind]
    cases hc : C.new (compOf comp m) with
    | error e =>
      simp only [PyM.lift_err_bind]
      exact ⟨_, i2, rfl, g2, by simp, by simp⟩
    | ok k =>
      simp only [PyM.lift_ok_bind]
      obtain ⟨res, i3, k1, k2, k3, k4⟩ := iterWriteRaw_spec ((h.setInner h2).setInner g2)
        (.inr (.inr (g3 h3)))
      have hw : widthOf ext view ((m.setInner i1).setInner i2) = widthOf ext view m := rfl
      rw [hw] at k3 k4
      by_cases hf : blobOffset (widthOf ext view m) view view.length < 256 ^ widthOf ext view m
      · obtain ⟨cs, rfl, hcs⟩ := k3 hf
        rw [PyM.bind_ok k1]
        cases hca : compressAll C k cs with
        | error e =>
          simp only [PyM.lift_err_bind]
          refine ⟨_, i3, rfl, k2, fun info' hi' k' hk' => ⟨fun _ => ⟨cs, hcs, ?_⟩, fun h => absurd hf h⟩,
            fun _ _ => ⟨info, k, rfl, rfl⟩⟩
          injection hi' with hi'; injection hk' with hk'
          subst hi'; subst hk'
          rw [hca]; rfl
        | ok out =>
          simp only [PyM.lift_ok_bind]
          refine ⟨_, i3, rfl, k2, fun info' hi' k' hk' => ⟨fun _ => ⟨cs, hcs, ?_⟩, fun h => absurd hf h⟩,
            fun _ _ => ⟨info, k, rfl, rfl⟩⟩
          injection hi' with hi'; injection hk' with hk'
          subst hi'; subst hk'
          rw [hca]; rfl
      · have := k4 hf
        subst this
        rw [PyM.bind_err k1]
        exact ⟨_, i3, rfl, k2, fun _ _ _ _ => ⟨fun h => absurd h hf, fun _ => rfl⟩,
          fun _ _ => ⟨info, k, rfl, rfl⟩⟩

theorem iterWrite_spec {K : Type} {C : Compressors K} {m : MCluster D}
    (h : Repr X orig ext comp view m) :
    ∃ res i', iterWrite X C m = (res, m.setInner i') ∧ InnerIs X orig ext comp i' ∧
      ∀ info, Cluster.generateInfobyte (compOf comp m) (extOf ext view m) = .ok info →
      ∀ k, C.new (compOf comp m) = .ok k →
      (blobOffset (widthOf ext view m) view view.length < 256 ^ widthOf ext view m →
        ∃ cs, cs.flatten = clusterBody (widthOf ext view m) view ∧
          res = (compressAll C k cs).map (info :: ·)) ∧
      (¬ blobOffset (widthOf ext view m) view view.length < 256 ^ widthOf ext view m →
        res = .error .structError) := by
  obtain ⟨res, i', h1, h2, h3, _⟩ := iterWrite_full (C := C) h
  exact ⟨res, i', h1, h2, h3⟩

theorem iterWrite_ok {K : Type} {C : Compressors K} {m : MCluster D}
    (h : Repr X orig ext comp view m) {out : List Bytes} (ho : (iterWrite X C m).1 = .ok out) :
    ∃ info k cs outs, Cluster.generateInfobyte (compOf comp m) (extOf ext view m) = .ok info ∧
      C.new (compOf comp m) = .ok k ∧
      blobOffset (widthOf ext view m) view view.length < 256 ^ widthOf ext view m ∧
      cs.flatten = clusterBody (widthOf ext view m) view ∧ compressAll C k cs = .ok outs ∧
      out = info :: outs := by
  obtain ⟨res, i', h1, h2, h3, h4⟩ := iterWrite_full (C := C) h
  rw [h1] at ho
  simp only at ho
  subst ho
  obtain ⟨info, k, hi, hk⟩ := h4 out rfl
  obtain ⟨a, b⟩ := h3 info hi k hk
  by_cases hf : blobOffset (widthOf ext view m) view view.length < 256 ^ widthOf ext view m
  · obtain ⟨cs, hcs, hr⟩ := a hf
    cases hca : compressAll C k cs with
    | error e => rw [hca] at hr; simp [Except.map] at hr
    | ok outs =>
      rw [hca] at hr
      simp only [Except.map, Except.ok.injEq] at hr
      exact ⟨info, k, cs, outs, hi, hk, hf, hcs, hca, hr⟩
  · have := b hf; simp at this

/-! ### Modifications -/

theorem lookup_dictSet (i : Nat) (x : BlobSource) (j : Nat) : ∀ l : List (Nat × BlobSource),
    (dictSet i x l).lookup j = if j = i then some x else l.lookup j := by
  intro l
  induction l with
  | nil =>
    unfold dictSet
    by_cases h : j = i
    · simp [h]
    · have : (j == i) = false := by simpa using h
      simp [List.lookup, h, this]
  | cons p l ih =>
    obtain ⟨k, y⟩ := p
    unfold dictSet
    by_cases hk : k = i
    · rw [if_pos hk]
      subst hk
      by_cases h : j = k
      · simp [h]
      · have : (j == k) = false := by simpa using h
        simp [List.lookup, h, this]
    · rw [if_neg hk]
      by_cases h : j = k
      · subst h; simp [List.lookup, hk]
      · have : (j == k) = false := by simpa using h
        simp only [List.lookup, this, ih]

/-- What a state looks like in which no blob has been removed. -/
structure Plain (X : Codecs D) (orig : List Bytes) (ext : Bool) (comp : CompressionType)
    (view : List Bytes) (m : MCluster D) : Prop extends Repr X orig ext comp view m where
  removed : m.removed = []
  added : m.added = List.range' orig.length m.added.length
  mutable : m.isMutable = true

theorem Plain.setInner {m : MCluster D} (h : Plain X orig ext comp view m) {i : Inner D}
    (hi : InnerIs X orig ext comp i) : Plain X orig ext comp view (m.setInner i) :=
  ⟨h.toRepr.setInner hi, h.removed, h.added, h.mutable⟩

/-- The list after `blobs[i] = c`, for `i` up to the length. -/
def putBlob (view : List Bytes) (i : Nat) (c : Bytes) : List Bytes :=
  if i < view.length then view.set i c else view ++ [c]

theorem setBlob_spec {m : MCluster D} (h : Plain X orig ext comp view m) (i : Nat)
    {src : BlobSource} {c : Bytes} (hd : Delivers src c) :
    (i ≤ view.length → ∃ m', setBlob X i src m = (.ok (), m') ∧
      Plain X orig ext comp (putBlob view i c) m' ∧ m'.forceExt = m.forceExt ∧
      m'.forceComp = m.forceComp ∧ m'.hasModifications = true ∧ m'.dirty = true) ∧
    (view.length < i → ∃ i', setBlob X i src m = (.error .assertionError, m.setInner i') ∧
      InnerIs X orig ext comp i') := by
  unfold setBlob
  obtain ⟨i1, h1, h2, h3⟩ := getNumberOfBlobs_spec h.toRepr
  rw [PyM.bind_ok h1]
  constructor
  · intro hi
    rw [show decide ((i : Int) ≤ (view.length : Int)) = true by simpa using hi]
    simp only [PyM.require_true_bind, PyM.get_bind, h.mutable, PyM.modify_apply, h.removed,
      List.erase_nil]
    refine ⟨_, rfl, ⟨⟨h2, h.bound, ?_, fun j => ?_⟩, rfl, ?_, rfl⟩, rfl, rfl, ?_, rfl⟩
    · have hc := h.count
      rw [h.removed] at hc
      simp only [List.length_nil] at hc ⊢
      unfold putBlob
      by_cases hlt : i < view.length
      · rw [if_neg (by omega), if_pos hlt, List.length_set]; exact hc
      · rw [if_pos (by omega), if_neg hlt]
        simp only [List.length_append, List.length_cons, List.length_nil]
        omega
    · simp only [lookup_dictSet]
      unfold putBlob
      by_cases hj : j = i
      · subst hj
        simp only [if_true]
        refine ⟨c, ?_, hd⟩
        by_cases hlt : j < view.length
        · rw [if_pos hlt]; simp [hlt]
        · rw [if_neg hlt, List.getElem?_append_right (by omega)]
          rw [show j - view.length = 0 by omega]; rfl
      · simp only [if_neg hj]
        have hg := h.get j
        rw [h.removed] at hg
        have hv : (if i < view.length then view.set i c else view ++ [c])[j]? = view[j]? := by
          by_cases hlt : i < view.length
          · rw [if_pos hlt, List.getElem?_set_ne (by omega)]
          · rw [if_neg hlt]
            by_cases hjl : j < view.length
            · rw [List.getElem?_append_left hjl]
            · rw [List.getElem?_append_right (by omega), List.getElem?_eq_none (l := view) (by omega)]
              rw [List.getElem?_eq_none]
              simp only [List.length_cons, List.length_nil]; omega
        rw [hv]
        exact hg
    · simp only
      have hc := h.count
      rw [h.removed] at hc
      simp only [List.length_nil] at hc
      by_cases hlt : i < view.length
      · rw [if_neg (by omega)]; exact h.added
      · rw [if_pos (by omega)]
        rw [List.length_append, List.length_singleton, List.range'_concat]
        rw [show orig.length + 1 * m.added.length = i by omega]
        congr 1
        exact h.added
    · unfold hasModifications
      cases hb : m.blobs with
      | nil => simp [dictSet]
      | cons p l =>
        obtain ⟨a, b⟩ := p
        simp only [dictSet]
        split <;> simp
  · intro hi
    rw [show decide ((i : Int) ≤ (view.length : Int)) = false by simp; omega]
    simp only [PyM.require_false_bind]
    exact ⟨i1, rfl, h2⟩

/-! ### Calls that only read leave everything but the wrapped cluster as it is -/

def Reads (X : Codecs D) (orig : List Bytes) (ext : Bool) (comp : CompressionType) {α : Type}
    (g : PyM (MCluster D) α) : Prop :=
  ∀ m : MCluster D, InnerIs X orig ext comp m.inner →
    ∃ i', (g m).2 = m.setInner i' ∧ InnerIs X orig ext comp i'

theorem Reads.bind {α β : Type} {g : PyM (MCluster D) α} {k : α → PyM (MCluster D) β}
    (hg : Reads X orig ext comp g) (hk : ∀ a, Reads X orig ext comp (k a)) :
    Reads X orig ext comp (g >>= k) := by
  intro m hm
  obtain ⟨i1, h1, h2⟩ := hg m hm
  generalize hgm : g m = r at h1
  obtain ⟨res, m1⟩ := r
  simp only at h1
  subst h1
  cases res with
  | error e => rw [PyM.bind_err hgm]; exact ⟨i1, rfl, h2⟩
  | ok a =>
    rw [PyM.bind_ok hgm]
    obtain ⟨i2, g1, g2⟩ := hk a (m.setInner i1) h2
    exact ⟨i2, g1, g2⟩

theorem Reads.pure {α : Type} (a : α) : Reads X orig ext comp (Pure.pure a : PyM (MCluster D) α) :=
  fun m hm => ⟨m.inner, rfl, hm⟩

theorem Reads.get : Reads X orig ext comp (PyM.get : PyM (MCluster D) (MCluster D)) :=
  fun m hm => ⟨m.inner, rfl, hm⟩

theorem Reads.raise {α : Type} (e : PyErr) :
    Reads X orig ext comp (PyM.raise e : PyM (MCluster D) α) := fun m hm => ⟨m.inner, rfl, hm⟩

theorem Reads.lift {α : Type} (r : PyRes α) :
    Reads X orig ext comp (PyM.lift r : PyM (MCluster D) α) := fun m hm => ⟨m.inner, rfl, hm⟩

theorem Reads.require (b : Bool) (e : PyErr) :
    Reads X orig ext comp (PyM.require b e : PyM (MCluster D) Unit) := by
  intro m hm
  cases b <;> exact ⟨m.inner, rfl, hm⟩

theorem reads_innerNumBlobs : Reads X orig ext comp (innerNumBlobs X) := fun m hm => by
  obtain ⟨i', h1, h2, _⟩ := innerNumBlobs_spec hm
  rw [h1]; exact ⟨i', rfl, h2⟩

theorem reads_innerBlobSize (i : Nat) : Reads X orig ext comp (innerBlobSize X i) := fun m hm => by
  obtain ⟨i', h1, h2, _⟩ := innerBlobSize_spec hm i
  rw [h1]; exact ⟨i', rfl, h2⟩

theorem reads_readInfobyteIfNeeded : Reads X orig ext comp (readInfobyteIfNeeded (D := D)) :=
  fun m hm => by
  obtain ⟨i', h1, h2, _⟩ := readInfobyteIfNeeded_spec hm
  rw [h1]; exact ⟨i', rfl, h2⟩

theorem reads_innerReadBlob (i : Nat) (start stop : Option Nat) :
    Reads X orig ext comp (innerReadBlob X i start stop) := fun m hm => by
  unfold innerReadBlob onInner
  cases hmi : m.inner with
  | empty => exact ⟨m.inner, rfl, hm⟩
  | real s =>
    rw [hmi] at hm
    obtain ⟨file, o, A, hg, he, hc⟩ := hm
    obtain ⟨res, s', h1, h2, _⟩ := Cluster.readBlob_spec A hg i start stop
    exact ⟨.real s', by simp only [h1], file, o, A, h2, he, hc⟩

theorem reads_innerIterReadBlob (i bs : Nat) (start stop : Option Nat) (calls : Nat) :
    Reads X orig ext comp (innerIterReadBlob X i bs start stop calls) := fun m hm => by
  unfold innerIterReadBlob onInner
  cases hmi : m.inner with
  | empty => exact ⟨m.inner, rfl, hm⟩
  | real s =>
    rw [hmi] at hm
    obtain ⟨file, o, A, hg, he, hc⟩ := hm
    obtain ⟨res, s', h1, h2, _⟩ := Cluster.iterReadBlob_spec A hg i bs start stop calls
    exact ⟨.real s', by simp only [h1], file, o, A, h2, he, hc⟩

theorem reads_getNumberOfOffsets : Reads X orig ext comp (getNumberOfOffsets X) :=
  reads_innerNumBlobs.bind fun _ => Reads.get.bind fun _ => .pure _

theorem reads_getNumberOfBlobs : Reads X orig ext comp (getNumberOfBlobs X) :=
  reads_getNumberOfOffsets.bind fun _ => .pure _

theorem reads_getBlobSize (i : Nat) : Reads X orig ext comp (getBlobSize X i) := by
  refine Reads.get.bind fun m => ?_
  cases m.blobs.lookup i with
  | some src => exact .pure _
  | none => exact reads_innerBlobSize _

theorem reads_sizesLoop : ∀ l : List Nat, Reads X orig ext comp (sizesLoop X l)
  | [] => .pure _
  | i :: l => (reads_getBlobSize i).bind fun _ => (reads_sizesLoop l).bind fun _ => .pure _

theorem reads_blobSizes : Reads X orig ext comp (blobSizes X) :=
  reads_getNumberOfBlobs.bind fun _ => reads_sizesLoop _

theorem reads_isExtended : Reads X orig ext comp (isExtended X) := by
  refine Reads.get.bind fun m => ?_
  cases m.forceExt with
  | some b => exact .pure _
  | none =>
    simp only
    split
    · exact .pure _
    · exact reads_readInfobyteIfNeeded.bind fun _ => reads_getNumberOfOffsets.bind fun _ =>
        reads_blobSizes.bind fun _ => .pure _

theorem reads_pointerSize : Reads X orig ext comp (pointerSize X) := by
  refine reads_isExtended.bind fun e => ?_
  rcases e with _ | _ | _
  · exact .raise _
  · exact .pure _
  · exact .pure _

theorem reads_getContentSize : Reads X orig ext comp (getContentSize X) :=
  reads_blobSizes.bind fun _ => .pure _

theorem reads_getTotalOffsetSize : Reads X orig ext comp (getTotalOffsetSize X) :=
  Reads.get.bind fun _ => (Reads.require _ _).bind fun _ => reads_pointerSize.bind fun _ =>
    reads_getNumberOfOffsets.bind fun _ => .pure _

theorem reads_getTotalDecompressedSize : Reads X orig ext comp (getTotalDecompressedSize X) :=
  reads_getTotalOffsetSize.bind fun _ => reads_getContentSize.bind fun _ => .pure _

theorem reads_offsetsLoop (numbers : Option (List Nat)) (first : Bool) (n : Int) (l : List Nat) :
    ∀ cur : Int, Reads X orig ext comp (offsetsLoop X numbers first n l cur) := by
  induction l with
  | nil => intro _; exact .pure _
  | cons i l ih =>
    intro cur
    unfold offsetsLoop
    cases numbers with
    | none =>
      simp only
      split
      · exact .pure _
      · split
        · exact (Reads.pure _).bind fun _ => .pure _
        · exact (reads_getBlobSize i).bind fun _ => (ih _).bind fun _ => .pure _
    | some ns =>
      simp only
      split
      · exact .pure _
      · split
        · exact (Reads.pure _).bind fun _ => .pure _
        · exact (reads_getBlobSize i).bind fun _ => (ih _).bind fun _ => .pure _

theorem reads_iterBlobOffsets (numbers : Option (List Nat)) (first : Bool) :
    Reads X orig ext comp (iterBlobOffsets X numbers first) :=
  Reads.get.bind fun _ => (Reads.require _ _).bind fun _ => reads_getTotalOffsetSize.bind fun _ =>
    reads_getNumberOfOffsets.bind fun _ => reads_offsetsLoop _ _ _ _ _

theorem reads_getOffset (i : Nat) : Reads X orig ext comp (getOffset X i) := by
  refine Reads.get.bind fun _ => (Reads.require _ _).bind fun _ =>
    (reads_iterBlobOffsets _ _).bind fun l => ?_
  cases l with
  | nil => exact .raise _
  | cons a l => exact .pure _

theorem reads_readBlob (i : Nat) (start stop : Option Nat) :
    Reads X orig ext comp (readBlob X i start stop) := by
  refine Reads.get.bind fun m => ?_
  cases m.blobs.lookup i with
  | some src => exact .pure _
  | none => exact reads_innerReadBlob _ _ _

theorem reads_iterReadBlob (i bs : Nat) (start stop : Option Nat) (calls : Nat) :
    Reads X orig ext comp (iterReadBlob X i bs start stop calls) := by
  refine Reads.get.bind fun m => ?_
  cases m.blobs.lookup i with
  | some src => exact .pure _
  | none => exact reads_innerIterReadBlob _ _ _ _ _

theorem Plain.reads {α : Type} {m : MCluster D} (h : Plain X orig ext comp view m)
    {g : PyM (MCluster D) α} (hg : Reads X orig ext comp g) :
    Plain X orig ext comp view (g m).2 := by
  obtain ⟨i', h1, h2⟩ := hg m h.inner
  rw [h1]; exact h.setInner h2

theorem _root_.Pyzim.Cluster.Good.reset {file : Bytes} {o : Nat} {blobs : List Bytes}
    {A : ClusterAt X file o blobs} {s : CSt D} (ih : Cluster.Good A s) :
    Cluster.Good A { s with c := s.c.reset } := by
  refine ⟨ih.bound, ih.offset, ih.data, .inl ⟨rfl, rfl⟩, ih.reader, ?_, ?_, ?_⟩
  · intro l hl
    simp only [Cluster.reset] at hl
    by_cases hk : s.c.kind = .onDisk
    · rw [if_pos hk, ih.kindOff hk] at hl; simp at hl
    · rw [if_neg hk] at hl; simp at hl
  · intro d hd
    simp only [Cluster.reset] at hd
    by_cases hk : s.c.kind = .inMemory
    · rw [if_pos hk] at hd; simp at hd
    · rw [if_neg hk] at hd; exact ih.mem d hd
  · intro hk
    simp only [Cluster.reset] at hk ⊢
    rw [if_pos hk]; exact ih.kindOff hk

/-! ### Removal -/

theorem adjustIndex_cons (r : Nat) (R : List Nat) (i : Nat) :
    adjustIndex (r :: R) i = adjustIndex R (if r ≤ i then i + 1 else i) := rfl

theorem le_adjustIndex : ∀ (R : List Nat) (i : Nat), i ≤ adjustIndex R i := by
  intro R
  induction R with
  | nil => intro i; exact Nat.le_refl _
  | cons r R ih =>
    intro i
    rw [adjustIndex_cons]
    split
    · have := ih (i + 1); omega
    · exact ih i

theorem adjustIndex_low : ∀ (R : List Nat) (i : Nat), (∀ r ∈ R, i < r) → adjustIndex R i = i := by
  intro R
  induction R with
  | nil => intro i _; rfl
  | cons r R ih =>
    intro i h
    rw [adjustIndex_cons, if_neg (by have := h r (by simp); omega)]
    exact ih i (fun r hr => h r (by simp [hr]))

/-- Removing the blob that is shown at `i` makes the later ones move up by one. -/
theorem adjustIndex_insert : ∀ (R : List Nat), R.Pairwise (· < ·) → ∀ i j : Nat,
    adjustIndex (insertSorted (adjustIndex R i) R) j =
      if j < i then adjustIndex R j else adjustIndex R (j + 1) := by
  intro R
  induction R with
  | nil =>
    intro _ i j
    simp only [insertSorted, adjustIndex, List.foldl_cons, List.foldl_nil]
    by_cases h : j < i
    · rw [if_neg (by omega), if_pos h]
    · rw [if_pos (by omega), if_neg h]
  | cons r R ih =>
    intro hp i j
    rw [List.pairwise_cons] at hp
    by_cases hri : r ≤ i
    · have h1 : adjustIndex (r :: R) i = adjustIndex R (i + 1) := by
        rw [adjustIndex_cons, if_pos hri]
      have h2 := le_adjustIndex R (i + 1)
      have h3 : insertSorted (adjustIndex R (i + 1)) (r :: R) =
          r :: insertSorted (adjustIndex R (i + 1)) R := by
        simp only [insertSorted]
        rw [if_neg (by omega)]
      rw [h1, h3, adjustIndex_cons, ih hp.2, adjustIndex_cons, adjustIndex_cons]
      by_cases hrj : r ≤ j
      · rw [if_pos hrj, if_pos (show r ≤ j + 1 by omega)]
        by_cases hji : j < i
        · rw [if_pos (show j + 1 < i + 1 by omega), if_pos hji]
        · rw [if_neg (show ¬ j + 1 < i + 1 by omega), if_neg hji]
      · rw [if_neg hrj, if_pos (show j < i + 1 by omega), if_pos (show j < i by omega)]
    · have h1 : adjustIndex (r :: R) i = i := by
        apply adjustIndex_low
        intro x hx
        rcases List.mem_cons.1 hx with rfl | hx
        · omega
        · have := hp.1 x hx; omega
      rw [h1]
      have h3 : insertSorted i (r :: R) = i :: r :: R := by
        simp only [insertSorted]; rw [if_pos (by omega)]
      rw [h3, adjustIndex_cons]
      by_cases hji : j < i
      · rw [if_neg (by omega), if_pos hji]
      · rw [if_pos (by omega), if_neg hji]

theorem adjustIndex_notMem : ∀ (R : List Nat), R.Pairwise (· < ·) → ∀ i, adjustIndex R i ∉ R := by
  intro R
  induction R with
  | nil => intro _ i; simp
  | cons r R ih =>
    intro hp i hm
    rw [List.pairwise_cons] at hp
    by_cases hri : r ≤ i
    · rw [adjustIndex_cons, if_pos hri] at hm
      have := le_adjustIndex R (i + 1)
      rcases List.mem_cons.1 hm with h | h
      · omega
      · exact ih hp.2 _ h
    · have h1 : adjustIndex (r :: R) i = i := by
        apply adjustIndex_low
        intro x hx
        rcases List.mem_cons.1 hx with rfl | hx
        · omega
        · have := hp.1 x hx; omega
      rw [h1] at hm
      rcases List.mem_cons.1 hm with h | h
      · omega
      · have := hp.1 _ h; omega

theorem mem_insertSorted (i x : Nat) : ∀ R : List Nat, x ∈ insertSorted i R ↔ x = i ∨ x ∈ R := by
  intro R
  induction R with
  | nil => simp [insertSorted]
  | cons r R ih =>
    simp only [insertSorted]
    split
    · simp
    · simp only [List.mem_cons, ih]
      constructor
      · rintro (h | h | h) <;> simp [h]
      · rintro (h | h | h) <;> simp [h]

theorem pairwise_insertSorted (i : Nat) : ∀ R : List Nat, R.Pairwise (· < ·) → i ∉ R →
    (insertSorted i R).Pairwise (· < ·) := by
  intro R
  induction R with
  | nil => intro _ _; simp [insertSorted]
  | cons r R ih =>
    intro hp hn
    have hp' := List.pairwise_cons.1 hp
    simp only [List.mem_cons, not_or] at hn
    simp only [insertSorted]
    split
    · rw [List.pairwise_cons]
      refine ⟨fun x hx => ?_, hp⟩
      rcases List.mem_cons.1 hx with rfl | hx
      · omega
      · have := hp'.1 x hx; omega
    · rw [List.pairwise_cons]
      refine ⟨fun x hx => ?_, ih hp'.2 hn.2⟩
      rcases (mem_insertSorted i x R).1 hx with rfl | hx
      · omega
      · exact hp'.1 x hx

theorem length_insertSorted (i : Nat) : ∀ R : List Nat, (insertSorted i R).length = R.length + 1 := by
  intro R
  induction R with
  | nil => rfl
  | cons r R ih =>
    simp only [insertSorted]
    split
    · simp
    · simp [ih]

/-- The keys after a removal. -/
theorem lookup_removed (i j : Nat) : ∀ l : List (Nat × BlobSource),
    (((l.filter (fun p => p.1 != i)).map
      (fun p => (if i < p.1 then p.1 - 1 else p.1, p.2))).lookup j) =
      l.lookup (if j < i then j else j + 1) := by
  intro l
  induction l with
  | nil => rfl
  | cons p l ih =>
    obtain ⟨k, x⟩ := p
    by_cases hk : k = i
    · subst hk
      rw [List.filter_cons_of_neg (by simp), ih]
      have : ((if j < k then j else j + 1) == k) = false := by
        simp only [beq_eq_false_iff_ne]; split <;> omega
      simp only [List.lookup, this]
    · rw [List.filter_cons_of_pos (by simpa using hk), List.map_cons]
      simp only [List.lookup]
      have : (j == (if i < k then k - 1 else k)) = ((if j < i then j else j + 1) == k) := by
        rw [Bool.eq_iff_iff]
        simp only [beq_iff_eq]
        split <;> split <;> omega
      rw [this, ih]

theorem eraseIdx_get (view : List Bytes) (i j : Nat) :
    (view.eraseIdx i)[j]? = view[if j < i then j else j + 1]? := by
  rw [List.getElem?_eraseIdx]
  split <;> rfl

/-- One removal, with nothing removed before, is right whatever else has been modified. -/
theorem removeBlob_first {m : MCluster D} (h : Plain X orig ext comp view m) (i : Nat)
    (hi : i < view.length) :
    ∃ m', removeBlob i m = (.ok (), m') ∧ Repr X orig ext comp (view.eraseIdx i) m' ∧
      m'.dirty = true := by
  unfold removeBlob
  simp only [PyM.get_bind, h.mutable, PyM.require_true_bind, PyM.modify_apply]
  refine ⟨_, rfl, ⟨h.inner, h.bound, ?_, fun j => ?_⟩, rfl⟩
  · have hc := h.count
    simp only [h.removed, List.length_nil] at hc ⊢
    rw [show adjustIndex [] i = i from rfl, List.length_eraseIdx_of_lt hi]
    by_cases ha : m.added.contains i = true
    · rw [if_pos ha]
      have hm : i ∈ m.added := by simpa using ha
      rw [List.length_erase_of_mem hm]
      have := List.length_pos_of_mem hm
      simp only [List.length_nil]
      omega
    · rw [if_neg ha, List.erase_of_not_mem (by simpa using ha)]
      simp only [insertSorted, List.length_cons, List.length_nil]
      omega
  · simp only [h.removed]
    rw [show adjustIndex [] i = i from rfl, lookup_removed, eraseIdx_get]
    have hg := h.get (if j < i then j else j + 1)
    rw [h.removed] at hg
    cases hl : m.blobs.lookup (if j < i then j else j + 1) with
    | some src => rw [hl] at hg; exact hg
    | none =>
      rw [hl] at hg
      simp only [show ∀ x, adjustIndex [] x = x from fun _ => rfl] at hg ⊢
      rw [← hg]
      by_cases ha : m.added.contains i = true
      · rw [if_pos ha]
        have hm : i ∈ m.added := by simpa using ha
        rw [h.added] at hm
        have hio := (List.mem_range'_1.1 hm).1
        show orig[j]? = _
        by_cases hji : j < i
        · rw [if_pos hji]
        · rw [if_neg hji, List.getElem?_eq_none (by omega), List.getElem?_eq_none (by omega)]
      · rw [if_neg ha]
        simp only [insertSorted, adjustIndex, List.foldl_cons, List.foldl_nil]
        by_cases hji : j < i
        · rw [if_neg (by omega), if_pos hji]
        · rw [if_pos (by omega), if_neg hji]

/-- A state reached by removals only. -/
structure OnlyRemoved (X : Codecs D) (orig : List Bytes) (ext : Bool) (comp : CompressionType)
    (view : List Bytes) (m : MCluster D) : Prop extends Repr X orig ext comp view m where
  blobs : m.blobs = []
  added : m.added = []
  sorted : m.removed.Pairwise (· < ·)
  mutable : m.isMutable = true

theorem OnlyRemoved.setInner {m : MCluster D} (h : OnlyRemoved X orig ext comp view m) {i : Inner D}
    (hi : InnerIs X orig ext comp i) : OnlyRemoved X orig ext comp view (m.setInner i) :=
  ⟨h.toRepr.setInner hi, h.blobs, h.added, h.sorted, h.mutable⟩

theorem removeBlob_only {m : MCluster D} (h : OnlyRemoved X orig ext comp view m) (i : Nat)
    (hi : i < view.length) :
    ∃ m', removeBlob i m = (.ok (), m') ∧ OnlyRemoved X orig ext comp (view.eraseIdx i) m' := by
  unfold removeBlob
  simp only [PyM.get_bind, h.mutable, PyM.require_true_bind, PyM.modify_apply]
  refine ⟨_, rfl, ⟨⟨h.inner, h.bound, ?_, fun j => ?_⟩, ?_, ?_, ?_, rfl⟩⟩
  · have hc := h.count
    simp only [h.added, List.contains_nil, Bool.false_eq_true, if_false, List.erase_nil,
      List.length_nil] at hc ⊢
    rw [length_insertSorted, List.length_eraseIdx_of_lt hi]
    omega
  · have hg := h.get (if j < i then j else j + 1)
    rw [h.blobs] at hg
    simp only [h.added, h.blobs, List.contains_nil, Bool.false_eq_true, if_false, List.filter_nil,
      List.map_nil]
    rw [show ([] : List (Nat × BlobSource)).lookup j = none from rfl]
    simp only
    rw [adjustIndex_insert _ h.sorted, eraseIdx_get, ← hg]
    split <;> rfl
  · simp [h.blobs]
  · simp [h.added]
  · simp only [h.added, List.contains_nil, Bool.false_eq_true, if_false]
    exact pairwise_insertSorted _ _ h.sorted (adjustIndex_notMem _ h.sorted i)

end MCluster
end Pyzim
