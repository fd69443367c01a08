import Verif.Spec.ModCluster

/-!
# Properties of blob sources (C52)
-/

namespace Pyzim
namespace BlobSourceObj

/-- The data a source stands for. -/
def content : BlobSourceObj → Bytes
  | inMemory s => s
  | file c => c
  | empty => []
  | entry _ chunks => chunks.flatten

/-- What is expected of the entry behind an `EntryBlobSource`: the right size and no empty chunks (see
C22; nothing is expected of the other sources). -/
def Sound : BlobSourceObj → Prop
  | entry size chunks => size = chunks.flatten.length ∧ ∀ c ∈ chunks, c ≠ []
  | _ => True

end BlobSourceObj

namespace Blob

/-- The results of a sequence of `read` calls with the given sizes. -/
def readAll : List Nat → Blob → List Bytes
  | [], _ => []
  | n :: ns, b => (b.read n).1 :: readAll ns (b.read n).2

/-- The blob has delivered the first `p` bytes. -/
def At (content : Bytes) (p : Nat) : Blob → Prop
  | bytes f => f.data = content ∧ f.pos = p ∧ p ≤ content.length
  | empty => content = [] ∧ p = 0
  | entry rest closed => rest.flatten = content.drop p ∧ p ≤ content.length ∧
      (∀ c ∈ rest, c ≠ []) ∧ (closed = true → p = content.length)

theorem At.le {content : Bytes} {p : Nat} {b : Blob} (h : At content p b) : p ≤ content.length := by
  cases b with
  | bytes f => exact h.2.2
  | empty => rw [h.1, h.2]; simp
  | entry rest closed => exact h.2.1

theorem read_at {content : Bytes} {p : Nat} {b : Blob} (h : At content p b) (n : Nat) (hn : 0 < n) :
    (b.read n).1 <+: content.drop p ∧ At content (p + (b.read n).1.length) (b.read n).2 ∧
      ((b.read n).1 = [] → p = content.length) := by
  cases b with
  | bytes f =>
    obtain ⟨data, pos⟩ := f
    obtain ⟨h1, h2, h3⟩ := h
    simp only at h1 h2
    subst h1; subst h2
    have hl : ((data.drop pos).take n).length = min n (data.length - pos) := by
      rw [List.length_take, List.length_drop]
    refine ⟨List.take_prefix _ _, ⟨rfl, rfl, ?_⟩, fun he => ?_⟩
    · simp only [read, PyFile.read] at *
      rw [hl]; omega
    · simp only [read, PyFile.read] at he
      rw [he] at hl
      simp only [List.length_nil] at hl
      omega
  | empty =>
    obtain ⟨h1, h2⟩ := h
    subst h1; subst h2
    exact ⟨by simp [read], ⟨rfl, rfl⟩, fun _ => rfl⟩
  | entry rest closed =>
    obtain ⟨h1, h2, h3, h4⟩ := h
    unfold read
    cases closed with
    | true => exact ⟨by simp, ⟨h1, h2, h3, h4⟩, fun _ => h4 rfl⟩
    | false =>
      cases rest with
      | nil =>
        have hp : p = content.length := by
          have := congrArg List.length h1
          simp only [List.flatten_nil, List.length_nil, List.length_drop] at this
          omega
        exact ⟨by simp, ⟨h1, h2, h3, fun _ => hp⟩, fun _ => hp⟩
      | cons c cs =>
        rw [List.flatten_cons] at h1
        refine ⟨⟨_, h1⟩, ⟨?_, ?_, fun x hx => h3 x (by simp [hx]), by simp⟩,
          fun he => absurd he (h3 c (by simp))⟩
        · simp only [Bool.false_eq_true, if_false]
          rw [← List.drop_drop, ← h1, List.drop_left]
        · simp only [Bool.false_eq_true, if_false]
          have := congrArg List.length h1
          rw [List.length_append, List.length_drop] at this
          omega

theorem getBlob_at (o : BlobSourceObj) (ho : o.Sound) : At o.content 0 o.getBlob := by
  cases o with
  | inMemory s => exact ⟨rfl, rfl, Nat.zero_le _⟩
  | file c => exact ⟨rfl, rfl, Nat.zero_le _⟩
  | empty => exact ⟨rfl, rfl⟩
  | entry size chunks => exact ⟨rfl, Nat.zero_le _, ho.2, by simp⟩

theorem readAll_at {content : Bytes} (ns : List Nat) :
    ∀ {p : Nat} {b : Blob}, At content p b → (∀ n ∈ ns, 0 < n) →
      (readAll ns b).length = ns.length ∧
      (readAll ns b).flatten <+: content.drop p ∧
      (∀ k : Nat, (readAll ns b)[k]? = some [] →
        ((readAll ns b).take k).flatten = content.drop p ∧
        ∀ j : Nat, k ≤ j → j < ns.length → (readAll ns b)[j]? = some []) ∧
      (content.length - p < ns.length → (readAll ns b).flatten = content.drop p) := by
  induction ns with
  | nil => intro p b h _; exact ⟨rfl, by simp [readAll], by simp [readAll], by simp⟩
  | cons n ns ih =>
    intro p b h hn
    obtain ⟨h1, h2, h3⟩ := read_at h n (hn n (by simp))
    obtain ⟨g0, g1, g2, g3⟩ := ih h2 (fun x hx => hn x (by simp [hx]))
    obtain ⟨t, ht⟩ := h1
    have hdrop : content.drop (p + (b.read n).1.length) = t := by
      rw [← List.drop_drop, ← ht, List.drop_left]
    have hle := h.le
    have hlt : (b.read n).1.length + t.length = content.length - p := by
      rw [← List.length_append, ht, List.length_drop]
    rw [hdrop] at g1 g2 g3
    simp only [readAll, List.length_cons, List.flatten_cons]
    refine ⟨by rw [g0], ?_, ?_, ?_⟩
    · obtain ⟨u, hu⟩ := g1
      exact ⟨u, by rw [← ht, ← hu, List.append_assoc]⟩
    · intro k hk
      cases k with
      | zero =>
        simp only [List.getElem?_cons_zero, Option.some.injEq] at hk
        have hp := h3 hk
        refine ⟨?_, ?_⟩
        · rw [hp, List.drop_length]; rfl
        · intro j _ hj
          cases j with
          | zero => simpa using hk
          | succ j =>
            rw [List.getElem?_cons_succ]
            have ht0 : t = [] := List.eq_nil_of_length_eq_zero (by omega)
            subst ht0
            have hf := List.prefix_nil.1 g1
            have hj' : j < (readAll ns (b.read n).2).length := by rw [g0]; omega
            rw [List.getElem?_eq_getElem hj']
            exact congrArg some (List.flatten_eq_nil_iff.1 hf _ (List.getElem_mem hj'))
      | succ k =>
        rw [List.getElem?_cons_succ] at hk
        obtain ⟨a1, a2⟩ := g2 k hk
        refine ⟨by rw [List.take_succ_cons, List.flatten_cons, a1, ht], ?_⟩
        intro j hkj hj
        cases j with
        | zero => omega
        | succ j => rw [List.getElem?_cons_succ]; exact a2 j (by omega) (by omega)
    · intro hl
      by_cases he : (b.read n).1 = []
      · have hp := h3 he
        have ht0 : t = [] := List.eq_nil_of_length_eq_zero (by omega)
        rw [ht0] at g1
        rw [List.prefix_nil.1 g1, he, hp, List.drop_length]; rfl
      · have := List.length_pos_iff.2 he
        rw [g3 (by omega), ht]

/-- **C52.** A blob of any of the package's sources, read with any sequence of positive sizes,
returns consecutive pieces of the content; an empty result comes only when everything has been
returned, and then all further results are empty. -/
theorem C52_read_sequence (o : BlobSourceObj) (ho : o.Sound) (ns : List Nat) (hn : ∀ n ∈ ns, 0 < n) :
    (readAll ns o.getBlob).flatten <+: o.content ∧
    ∀ k : Nat, (readAll ns o.getBlob)[k]? = some [] →
      ((readAll ns o.getBlob).take k).flatten = o.content ∧
      ∀ j : Nat, k ≤ j → j < ns.length → (readAll ns o.getBlob)[j]? = some [] := by
  obtain ⟨_, h1, h2, _⟩ := readAll_at ns (getBlob_at o ho) hn
  exact ⟨h1, h2⟩

/-- **C52.** Enough calls deliver everything: at most one per byte and one more. -/
theorem C52_read_everything (o : BlobSourceObj) (ho : o.Sound) (ns : List Nat) (hn : ∀ n ∈ ns, 0 < n)
    (hl : o.content.length < ns.length) : (readAll ns o.getBlob).flatten = o.content :=
  (readAll_at ns (getBlob_at o ho) hn).2.2.2 (by simpa using hl)

/-- **C52.** The announced size is the length of the content. -/
theorem C52_size (o : BlobSourceObj) (ho : o.Sound) : o.getSize = o.content.length := by
  cases o with
  | entry size chunks => exact ho.1
  | _ => rfl

/-- **C52.** In-memory, file and empty sources never return more than asked for. -/
theorem C52_respects_size (o : BlobSourceObj) (h : ∀ size cs, o ≠ .entry size cs) (ns : List Nat)
    (k : Nat) (r : Bytes) (hr : (readAll ns o.getBlob)[k]? = some r) :
    ∃ n, ns[k]? = some n ∧ r.length ≤ n := by
  have key : ∀ (ns : List Nat) (b : Blob), (∀ l c, b ≠ .entry l c) → ∀ (k : Nat) (r : Bytes),
      (readAll ns b)[k]? = some r → ∃ n, ns[k]? = some n ∧ r.length ≤ n := by
    intro ns
    induction ns with
    | nil => intro b _ k r hr; simp [readAll] at hr
    | cons n ns ih =>
      intro b hb k r hr
      have hread : (b.read n).1.length ≤ n ∧ ∀ l c, (b.read n).2 ≠ .entry l c := by
        cases b with
        | bytes f =>
          refine ⟨?_, by simp [read]⟩
          simp only [read, PyFile.read, List.length_take]
          omega
        | empty => exact ⟨by simp [read], by simp [read]⟩
        | entry l c => exact absurd rfl (hb l c)
      cases k with
      | zero =>
        simp only [readAll, List.getElem?_cons_zero, Option.some.injEq] at hr
        subst hr
        exact ⟨n, rfl, hread.1⟩
      | succ k =>
        simp only [readAll, List.getElem?_cons_succ] at hr
        obtain ⟨m, h1, h2⟩ := ih _ hread.2 k r hr
        exact ⟨m, by simpa using h1, h2⟩
  refine key ns _ ?_ k r hr
  cases o <;> simp_all [BlobSourceObj.getBlob]

/-- **C52, finding.** The blob of an `EntryBlobSource` ignores the size it is asked for. -/
theorem C52_entry_ignores_size :
    ((BlobSourceObj.entry 3 [[1, 2, 3]]).getBlob.read 1).1 = [1, 2, 3] := rfl

theorem pieces_at {content : Bytes} (n : Nat) (hn : 0 < n) : ∀ (fuel p : Nat) (b : Blob),
    At content p b →
      (match b with | .entry rest _ => rest.length < fuel | _ => content.length - p < fuel) →
      (pieces n fuel b).flatten = content.drop p ∧ ∀ c ∈ pieces n fuel b, c ≠ [] := by
  intro fuel
  induction fuel with
  | zero => intro p b _ hf; cases b <;> simp only at hf <;> omega
  | succ fuel ih =>
    intro p b h hf
    obtain ⟨h1, h2, h3⟩ := read_at h n hn
    unfold pieces
    simp only
    by_cases he : (b.read n).1 = []
    · rw [if_pos (by simp [he]), h3 he, List.drop_length]
      exact ⟨rfl, by simp⟩
    · rw [if_neg (by simpa using he)]
      have hpos := List.length_pos_iff.2 he
      obtain ⟨t, ht⟩ := h1
      have hdrop : content.drop (p + (b.read n).1.length) = t := by
        rw [← List.drop_drop, ← ht, List.drop_left]
      have hlen : (b.read n).1.length ≤ content.length - p := by
        rw [← List.length_drop, ← ht, List.length_append]; omega
      have hfuel : (match (b.read n).2 with
          | .entry rest _ => rest.length < fuel
          | _ => content.length - (p + (b.read n).1.length) < fuel) := by
        cases b with
        | bytes f => simp only [read] at *; omega
        | empty => simp [read] at he
        | entry rest closed =>
          unfold read at he ⊢
          cases closed with
          | true => simp at he
          | false =>
            cases rest with
            | nil => simp at he
            | cons c cs =>
              simp only [List.length_cons] at hf
              simp only [Bool.false_eq_true, if_false]
              omega
      obtain ⟨g1, g2⟩ := ih _ _ h2 hfuel
      rw [hdrop] at g1
      refine ⟨by rw [List.flatten_cons, g1, ht], fun c hc => ?_⟩
      rcases List.mem_cons.1 hc with rfl | hc
      · exact he
      · exact g2 c hc

/-- **C52.** Every source of the package, as its users see it, delivers its content: reading with any
positive buffer size until the first empty result gives all of it. -/
theorem C52_pieces_complete (o : BlobSourceObj) (ho : o.Sound) : Delivers o.toSource o.content := by
  have h : ∀ n, 0 < n → (o.toSource.pieces n).flatten = o.content ∧ ∀ c ∈ o.toSource.pieces n, c ≠ [] := by
    intro n hn
    cases o with
    | entry size cs =>
      have := pieces_at n hn (cs.length + 1) 0 _ (getBlob_at (.entry size cs) ho) (Nat.lt_succ_self _)
      rwa [List.drop_zero] at this
    | inMemory s =>
      have := pieces_at n hn (s.length + 1) 0 _ (getBlob_at (.inMemory s) ho) (Nat.lt_succ_self _)
      rwa [List.drop_zero] at this
    | file s =>
      have := pieces_at n hn (s.length + 1) 0 _ (getBlob_at (.file s) ho) (Nat.lt_succ_self _)
      rwa [List.drop_zero] at this
    | empty =>
      have := pieces_at n hn 1 0 _ (getBlob_at .empty ho) (Nat.lt_succ_self _)
      rwa [List.drop_zero] at this
  exact ⟨C52_size o ho, fun n hn => (h n hn).1, fun n hn => (h n hn).2⟩

example : readAll [2, 5, 1] (BlobSourceObj.inMemory [1, 2, 3]).getBlob = [[1, 2], [3], []] := by
  decide
example : (BlobSourceObj.entry 3 [[1, 2], [3]]).Sound := by unfold BlobSourceObj.Sound; decide
example : (BlobSourceObj.entry 3 [[1, 2], [3]]).toSource.pieces 1 = [[1, 2], [3]] := by decide

end Blob
end Pyzim
