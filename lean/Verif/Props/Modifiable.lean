import Verif.Spec.Modifiable

/-!
# C49: dirty tracking; C50: bindings
-/

namespace Pyzim
namespace ModHeap

/-- Objects as they are constructed. -/
def Fresh (h : ModHeap) : Prop := ∀ i, (h i).dirtyFlag = false ∧ (h i).children = [] ∧ (h i).oldSize = none

theorem snoc_split {α : Type} {l a b : List α} {x y : α} (h : l ++ [x] = a ++ y :: b) :
    (b = [] ∧ x = y ∧ l = a) ∨ ∃ b', b = b' ++ [x] ∧ l = a ++ y :: b' := by
  rcases List.eq_nil_or_concat b with rfl | ⟨b', z, rfl⟩
  · left
    have := List.append_inj' h rfl
    exact ⟨rfl, by simpa using this.2, this.1⟩
  · right
    rw [List.concat_eq_append] at *
    have h' : l ++ [x] = (a ++ y :: b') ++ [z] := by simpa using h
    have := List.append_inj' h' rfl
    exact ⟨b', by rw [show x = z by simpa using this.2], this.1⟩

theorem unsaved_snoc (evs : List ModEvent) (e : ModEvent) (i : Nat) :
    UnsavedChanges (evs ++ [e]) i ↔ (∃ n, e = .modified i n) ∨ (UnsavedChanges evs i ∧ e ≠ .flushed i) := by
  constructor
  · rintro ⟨a, b, n, h, hf⟩
    rcases snoc_split h with ⟨-, rfl, -⟩ | ⟨b', rfl, rfl⟩
    · exact .inl ⟨n, rfl⟩
    · refine .inr ⟨⟨a, b', n, rfl, fun hb => hf (List.mem_append_left _ hb)⟩, ?_⟩
      rintro rfl
      exact hf (List.mem_append_right _ (List.mem_singleton.2 rfl))
  · rintro (⟨n, rfl⟩ | ⟨⟨a, b, n, rfl, hf⟩, he⟩)
    · exact ⟨evs, [], n, rfl, List.not_mem_nil⟩
    · refine ⟨a, b ++ [e], n, by simp, ?_⟩
      intro h
      rcases List.mem_append.1 h with h | h
      · exact hf h
      · exact he (List.mem_singleton.1 h).symm

theorem component_snoc (evs : List ModEvent) (e : ModEvent) (i c : Nat) :
    ComponentOf (evs ++ [e]) i c ↔ e = .attached i c ∨ (ComponentOf evs i c ∧ e ≠ .detached i c) := by
  constructor
  · rintro ⟨a, b, h, hf⟩
    rcases snoc_split h with ⟨-, rfl, -⟩ | ⟨b', rfl, rfl⟩
    · exact .inl rfl
    · refine .inr ⟨⟨a, b', rfl, fun hb => hf (List.mem_append_left _ hb)⟩, ?_⟩
      rintro rfl
      exact hf (List.mem_append_right _ (List.mem_singleton.2 rfl))
  · rintro (rfl | ⟨⟨a, b, rfl, hf⟩, he⟩)
    · exact ⟨evs, [], rfl, List.not_mem_nil⟩
    · refine ⟨a, b ++ [e], by simp, ?_⟩
      intro h
      rcases List.mem_append.1 h with h | h
      · exact hf h
      · exact he (List.mem_singleton.1 h).symm

theorem snoc_ind {α : Type} {P : List α → Prop} (nil : P []) (snoc : ∀ l a, P l → P (l ++ [a])) :
    ∀ l, P l := by
  intro l
  rw [← List.reverse_reverse l]
  generalize l.reverse = r
  induction r with
  | nil => exact nil
  | cons a r ih => rw [List.reverse_cons]; exact snoc _ _ ih

/-- An event seen from one object. -/
def stepObj (i : Nat) (o : ModObj) : ModEvent → ModObj
  | .modified j n => if i = j then { o with size := n, dirtyFlag := true } else o
  | .flushed j => if i = j then
      { o with oldSize := (match o.oldSize with | none => some o.initialSize | some _ => some o.size)
               dirtyFlag := false } else o
  | .attached j c => if i = j ∧ c ∉ o.children then { o with children := o.children ++ [c] } else o
  | .detached j c => if i = j then { o with children := o.children.erase c } else o

theorem run_apply (g : ModHeap) (e : ModEvent) (i : Nat) : e.run g i = stepObj i (g i) e := by
  cases e with
  | modified j n =>
    simp only [ModEvent.run, modify, markDirty, upd, stepObj]
    by_cases hj : i = j <;> simp [hj]
  | flushed j =>
    simp only [ModEvent.run, afterFlushOrRead, upd, stepObj]
    by_cases hj : i = j
    · subst hj; simp only [if_true]; cases (g i).oldSize <;> rfl
    · simp [hj]
  | attached j c =>
    simp only [ModEvent.run, addSub, stepObj]
    by_cases hj : i = j
    · subst hj
      by_cases hc : c ∈ (g i).children <;> simp [hc, upd]
    · by_cases hc : c ∈ (g j).children <;> simp [hc, hj, upd]
  | detached j c =>
    simp only [ModEvent.run, removeSub, stepObj]
    by_cases hj : i = j
    · subst hj
      by_cases hc : c ∈ (g i).children
      · simp [hc, upd]
      · simp [hc, List.erase_of_not_mem]
    · by_cases hc : c ∈ (g j).children <;> simp [hc, hj, upd]

/-- The flags and the lists of children record the history. -/
theorem run_spec (h : ModHeap) (hf : Fresh h) : ∀ evs : List ModEvent,
    let g := evs.foldl ModEvent.run h
    (∀ i, (g i).dirtyFlag = true ↔ UnsavedChanges evs i) ∧
    (∀ i, (g i).children.Nodup) ∧
    (∀ i c, c ∈ (g i).children ↔ ComponentOf evs i c) ∧
    (∀ i, (g i).initialSize = (h i).initialSize) ∧
    (∀ i, (g i).size = sizeAfter i (h i).size evs) := by
  apply snoc_ind
  · refine ⟨fun i => ?_, fun i => ?_, fun i c => ?_, fun i => rfl, fun i => rfl⟩
    · simp only [List.foldl_nil, (hf i).1]
      constructor
      · intro h; cases h
      · rintro ⟨a, b, n, h, -⟩; simp at h
    · simp only [List.foldl_nil, (hf i).2.1]; exact List.nodup_nil
    · simp only [List.foldl_nil, (hf i).2.1]
      constructor
      · intro h; cases h
      · rintro ⟨a, b, h, -⟩; simp at h
  · intro evs e ih
    simp only [List.foldl_append, List.foldl_cons, List.foldl_nil, run_apply]
    generalize evs.foldl ModEvent.run h = g at ih
    obtain ⟨ih1, ih2, ih3, ih4, ih5⟩ := ih
    have sz : ∀ i, sizeAfter i (h i).size (evs ++ [e]) =
        match e with | .modified j n => if j = i then n else (g i).size | _ => (g i).size := by
      intro i
      simp only [sizeAfter, List.foldl_append, List.foldl_cons, List.foldl_nil]
      rw [ih5 i]; rfl
    refine ⟨fun i => ?_, fun i => ?_, fun i c => ?_, fun i => ?_, fun i => ?_⟩
    · rw [unsaved_snoc, ← ih1 i]
      cases e <;> simp only [stepObj]
      case modified j n =>
        by_cases hj : i = j
        · simp [hj]
        · have : j ≠ i := fun h => hj h.symm
          simp [hj, this]
      case flushed j =>
        by_cases hj : i = j
        · simp [hj]
        · have : j ≠ i := fun h => hj h.symm
          simp [hj, this]
      case attached j c => split <;> simp
      case detached j c => split <;> simp
    · cases e <;> simp only [stepObj]
      case modified j n => split <;> exact ih2 i
      case flushed j => split <;> exact ih2 i
      case attached j c =>
        split
        · rename_i hc
          simp only
          rw [List.nodup_append]
          refine ⟨ih2 i, by simp, ?_⟩
          intro a ha b hb
          rw [List.mem_singleton.1 hb]
          rintro rfl; exact hc.2 ha
        · exact ih2 i
      case detached j c =>
        split
        · exact (ih2 i).erase _
        · exact ih2 i
    · rw [component_snoc, ← ih3 i c]
      cases e <;> simp only [stepObj]
      case modified j n => split <;> simp
      case flushed j => split <;> simp
      case attached j c' =>
        by_cases hj : i = j
        · subst hj
          by_cases hc : c' ∈ (g i).children
          · rw [if_neg (by simp [hc])]
            constructor
            · intro hm; exact .inr ⟨hm, by simp⟩
            · rintro (⟨⟨⟩⟩ | ⟨hm, -⟩)
              · exact hc
              · exact hm
          · rw [if_pos ⟨rfl, hc⟩]
            simp only [List.mem_append, List.mem_singleton]
            constructor
            · rintro (hm | rfl)
              · exact .inr ⟨hm, by simp⟩
              · exact .inl rfl
            · rintro (⟨⟨⟩⟩ | ⟨hm, -⟩)
              · exact .inr rfl
              · exact .inl hm
        · have : j ≠ i := fun h => hj h.symm
          simp [hj, this]
      case detached j c' =>
        by_cases hj : i = j
        · subst hj
          simp only [if_true, (ih2 i).mem_erase_iff]
          constructor
          · rintro ⟨hne, hm⟩
            refine .inr ⟨hm, ?_⟩
            rintro ⟨⟩
            exact hne rfl
          · rintro (⟨⟨⟩⟩ | ⟨hm, hne⟩)
            refine ⟨?_, hm⟩
            rintro rfl
            exact hne rfl
        · have : j ≠ i := fun h => hj h.symm
          simp [hj, this]
    · rw [← ih4 i]
      cases e <;> simp only [stepObj] <;> split <;> rfl
    · rw [sz i]
      cases e <;> simp only [stepObj]
      case modified j n =>
        by_cases hj : i = j
        · simp [hj]
        · have : j ≠ i := fun h => hj h.symm
          simp [hj, this]
      all_goals split <;> rfl

/-- `isDirty` looks through the object and everything below it. -/
theorem isDirty_spec (g : ModHeap) (evs : List ModEvent) (h1 : ∀ i, (g i).dirtyFlag = true ↔ UnsavedChanges evs i)
    (h3 : ∀ i c, c ∈ (g i).children ↔ ComponentOf evs i c)
    (rank : Nat → Nat) (hr : ∀ i c, ComponentOf evs i c → rank c < rank i) :
    ∀ n i, rank i < n → ∃ b, isDirty g n i = some b ∧
      (b = true ↔ ∃ j, Within evs i j ∧ UnsavedChanges evs j) := by
  intro n
  induction n with
  | zero => intro i h; omega
  | succ n ih =>
    intro i hi
    have any : ∀ cs : List Nat, (∀ c ∈ cs, rank c < n) → ∃ b, anyOf (isDirty g n) cs = some b ∧
        (b = true ↔ ∃ c ∈ cs, ∃ j, Within evs c j ∧ UnsavedChanges evs j) := by
      intro cs
      induction cs with
      | nil => intro _; exact ⟨false, by unfold anyOf; rfl, by simp⟩
      | cons c cs ihc =>
        intro hc
        obtain ⟨a, ha, ha'⟩ := ih c (hc c (List.mem_cons_self ..))
        obtain ⟨b, hb, hb'⟩ := ihc (fun x hx => hc x (List.mem_cons_of_mem _ hx))
        refine ⟨a || b, by unfold anyOf; rw [ha, hb], ?_⟩
        rw [Bool.or_eq_true, ha', hb']
        simp only [List.mem_cons, exists_eq_or_imp]
    unfold isDirty
    by_cases hd : (g i).dirtyFlag = true
    · rw [if_pos hd]
      exact ⟨true, rfl, fun _ => ⟨i, .refl i, (h1 i).1 hd⟩, fun _ => rfl⟩
    · rw [if_neg hd]
      obtain ⟨b, hb, hb'⟩ := any (g i).children (fun c hc => by
        have := hr i c ((h3 i c).1 hc); omega)
      refine ⟨b, hb, hb'.trans ?_⟩
      constructor
      · rintro ⟨c, hc, j, hw, hu⟩
        exact ⟨j, .step ((h3 i c).1 hc) hw, hu⟩
      · rintro ⟨j, hw, hu⟩
        cases hw with
        | refl => exact absurd ((h1 i).2 hu) hd
        | step hc hw => exact ⟨_, (h3 i _).2 hc, j, hw, hu⟩

/-- C49. After any history of modifications, flushes and (de)registrations of components, an object
is dirty iff it, or one of its components at any depth, was modified and not flushed since. The
components must not form a cycle; `limit` is the recursion limit, which their depth must not exceed. -/
theorem C49_dirty (h : ModHeap) (hf : Fresh h) (evs : List ModEvent) (depth : Nat → Nat)
    (acyclic : ∀ i c, ComponentOf evs i c → depth c < depth i) (limit i : Nat) (hl : depth i < limit) :
    ∃ b, isDirty (evs.foldl ModEvent.run h) limit i = some b ∧
      (b = true ↔ ∃ j, Within evs i j ∧ UnsavedChanges evs j) := by
  obtain ⟨h1, -, h3, -, -⟩ := run_spec h hf evs
  exact isDirty_spec _ evs h1 h3 depth acyclic limit i hl

/-- C49. Before the first flush or read, no old size is remembered; the first one remembers the initial
size, every later one the size at that moment. -/
theorem C49_old_size (h : ModHeap) (hf : Fresh h) (i : Nat) :
    (∀ evs : List ModEvent, .flushed i ∉ evs → unmodifiedSize (evs.foldl ModEvent.run h) i = none) ∧
    (∀ before after : List ModEvent, .flushed i ∉ before → .flushed i ∉ after →
      unmodifiedSize ((before ++ .flushed i :: after).foldl ModEvent.run h) i = some (h i).initialSize) ∧
    (∀ before after : List ModEvent, .flushed i ∈ before → .flushed i ∉ after →
      unmodifiedSize ((before ++ .flushed i :: after).foldl ModEvent.run h) i
        = some (sizeAfter i (h i).size before)) := by
  have keep : ∀ (evs : List ModEvent) (g : ModHeap), .flushed i ∉ evs →
      (evs.foldl ModEvent.run g i).oldSize = (g i).oldSize := by
    intro evs
    induction evs with
    | nil => intro g _; rfl
    | cons e evs ih =>
      intro g hn
      rw [List.foldl_cons, ih _ (fun h => hn (List.mem_cons_of_mem _ h))]
      have hne : ModEvent.flushed i ≠ e := fun h => hn (h ▸ List.mem_cons_self ..)
      rw [run_apply]
      cases e <;> simp only [stepObj]
      case flushed j =>
        have : i ≠ j := by rintro rfl; exact hne rfl
        rw [if_neg this]
      all_goals split <;> rfl
  have set : ∀ evs : List ModEvent, .flushed i ∈ evs →
      ∃ s, (evs.foldl ModEvent.run h i).oldSize = some s := by
    intro evs hm
    obtain ⟨a, b, rfl⟩ := List.append_of_mem hm
    clear hm
    rw [List.foldl_append, List.foldl_cons]
    have : ∀ (b : List ModEvent) (g : ModHeap), (∃ s, (g i).oldSize = some s) →
        ∃ s, (b.foldl ModEvent.run g i).oldSize = some s := by
      intro b
      induction b with
      | nil => intro g hg; exact hg
      | cons e b ih =>
        intro g hg
        rw [List.foldl_cons]
        apply ih
        by_cases he : e = .flushed i
        · subst he
          simp only [ModEvent.run, afterFlushOrRead, upd, if_true]
          cases (g i).oldSize <;> exact ⟨_, rfl⟩
        · have := keep [e] g (fun h => he (List.mem_singleton.1 h).symm)
          rw [List.foldl_cons, List.foldl_nil] at this
          rw [this]; exact hg
    apply this
    simp only [ModEvent.run, afterFlushOrRead, upd, if_true]
    cases (List.foldl ModEvent.run h a i).oldSize <;> exact ⟨_, rfl⟩
  refine ⟨fun evs hn => ?_, fun a b ha hb => ?_, fun a b ha hb => ?_⟩
  · unfold unmodifiedSize; rw [keep evs h hn, (hf i).2.2]
  · unfold unmodifiedSize
    rw [List.foldl_append, List.foldl_cons, keep b _ hb]
    simp only [ModEvent.run, afterFlushOrRead, upd, if_true]
    rw [keep a h ha, (hf i).2.2, (run_spec h hf a).2.2.2.1 i]
  · unfold unmodifiedSize
    rw [List.foldl_append, List.foldl_cons, keep b _ hb]
    simp only [ModEvent.run, afterFlushOrRead, upd, if_true]
    obtain ⟨s, hs⟩ := set a ha
    rw [hs, (run_spec h hf a).2.2.2.2 i]

/-- C49. Removing a component that is not registered raises `ValueError` and changes nothing;
removing a registered one succeeds. -/
theorem C49_detach (h : ModHeap) (hf : Fresh h) (evs : List ModEvent) (i c : Nat) :
    (ComponentOf evs i c → (removeSub (evs.foldl ModEvent.run h) i c).1 = .ok ()) ∧
    (¬ ComponentOf evs i c → removeSub (evs.foldl ModEvent.run h) i c
      = (.error .valueError, evs.foldl ModEvent.run h)) := by
  have h3 := (run_spec h hf evs).2.2.1 i c
  constructor
  · intro hc
    unfold removeSub
    rw [if_neg (by simpa using h3.2 hc)]
  · intro hc
    unfold removeSub
    rw [if_pos (fun hm => hc (h3.1 hm))]

/-- objects of 10 bytes, 7 bytes when they were read -/
def demo : ModHeap := fun _ => { size := 10, initialSize := 7 }

theorem demo_fresh : Fresh demo := fun _ => ⟨rfl, rfl, rfl⟩

/-- An archive (0) with the component 1, which has the component 2: modifying 2 makes 0 dirty, and
flushing 0 alone does not make it clean. -/
example :
    let evs := [ModEvent.attached 0 1, .attached 1 2, .flushed 2, .modified 2 12, .flushed 0]
    (∃ depth : Nat → Nat, ∀ i c, ComponentOf evs i c → depth c < depth i) ∧
    isDirty (evs.foldl ModEvent.run demo) 5 0 = some true ∧
    isDirty ((evs ++ [ModEvent.flushed 2]).foldl ModEvent.run demo) 5 0 = some false ∧
    unmodifiedSize (evs.foldl ModEvent.run demo) 2 = some 7 ∧
    unmodifiedSize ((evs ++ [ModEvent.flushed 2]).foldl ModEvent.run demo) 2 = some 12 := by
  refine ⟨⟨fun i => 5 - i, fun i c h => ?_⟩, by decide +kernel, by decide +kernel, by decide +kernel,
    by decide +kernel⟩
  obtain ⟨a, b, h, -⟩ := h
  have : ModEvent.attached i c ∈ [ModEvent.attached 0 1, .attached 1 2, .flushed 2, .modified 2 12, .flushed 0] := by
    rw [h]; exact List.mem_append_right _ (List.mem_cons_self ..)
  simp only [List.mem_cons, ModEvent.attached.injEq, reduceCtorEq, List.not_mem_nil, or_false] at this
  show 5 - c < 5 - i
  omega

/-- C49. The components must indeed not form a cycle: a clean object that is its own component has no
dirty state at any recursion limit. -/
theorem C49_cycle (limit : Nat) : isDirty ([ModEvent.attached 0 0].foldl ModEvent.run demo) limit 0 = none := by
  have hd : (([ModEvent.attached 0 0].foldl ModEvent.run demo) 0).dirtyFlag = false := rfl
  have hc : (([ModEvent.attached 0 0].foldl ModEvent.run demo) 0).children = [0] := rfl
  generalize [ModEvent.attached 0 0].foldl ModEvent.run demo = g at hd hc
  induction limit with
  | zero => unfold isDirty; rfl
  | succ n ih => unfold isDirty; rw [hd, hc]; simp only [Bool.false_eq_true, if_false]; unfold anyOf; rw [ih]

end ModHeap

namespace Bindable

/-- Calls of `bind` and `unbind`. -/
inductive Call
  | bind (z : Nat)
  | unbind

/-- The effect of a call. -/
def Call.run (b : Bindable) : Call → Bindable
  | .bind z => (b.bind z).2
  | .unbind => b.unbind

/-- C50. `bind` succeeds iff the object is unbound or bound to this archive, and then it is bound to it;
otherwise nothing changes. -/
theorem C50_bind (b : Bindable) (z : Nat) :
    (b.zim = none ∨ b.zim = some z → b.bind z = (.ok (), { zim := some z })) ∧
    (∀ y, b.zim = some y → y ≠ z → b.bind z = (.error .bindingError, b)) ∧
    b.unbind.zim = none ∧ (b.bound = true ↔ ∃ y, b.zim = some y) := by
  refine ⟨?_, ?_, rfl, by unfold bound; rw [Option.isSome_iff_exists]⟩
  · rintro (h | h) <;> simp [bind, bound, h]
  · intro y h hne; simp [bind, bound, h, hne]

/-- Is it a call of `bind`? -/
def Call.isBind : Call → Bool
  | .bind _ => true
  | .unbind => false

/-- What an object is bound to after a history of calls: the archive of the first `bind` after the
last `unbind`. -/
def boundTo (calls : List Call) : Option Nat :=
  match (calls.reverse.takeWhile Call.isBind).reverse with
  | .bind z :: _ => some z
  | _ => none

/-- C50. After any history of calls the object is bound to the archive of the first `bind` after the last
`unbind` (or unbound if there is none): no sequence without an `unbind` changes the binding. -/
theorem C50_history (calls : List Call) : (calls.foldl Call.run {}).zim = boundTo calls := by
  refine ModHeap.snoc_ind (P := fun calls => (calls.foldl Call.run {}).zim = boundTo calls) rfl ?_ calls
  intro calls c ih
  rw [List.foldl_append, List.foldl_cons, List.foldl_nil]
  cases c with
  | unbind =>
    have hrev : (calls ++ [Call.unbind]).reverse = Call.unbind :: calls.reverse := by simp
    unfold boundTo
    rw [hrev]
    rfl
  | bind z =>
    have h : boundTo (calls ++ [.bind z]) = some ((boundTo calls).getD z) := by
      have hrev : (calls ++ [Call.bind z]).reverse = Call.bind z :: calls.reverse := by simp
      have htake : (Call.bind z :: calls.reverse).takeWhile Call.isBind
          = Call.bind z :: calls.reverse.takeWhile Call.isBind := rfl
      simp only [boundTo]
      rw [hrev, htake, List.reverse_cons]
      generalize hl : calls.reverse.takeWhile Call.isBind = l
      have hall : ∀ c ∈ l, ∃ y, c = Call.bind y := by
        intro c hc
        rw [← hl] at hc
        have := List.all_eq_true.1 (List.all_takeWhile (p := Call.isBind) (l := calls.reverse)) c hc
        cases c with
        | bind y => exact ⟨y, rfl⟩
        | unbind => cases this
      cases hr : l.reverse with
      | nil => rfl
      | cons x xs =>
        obtain ⟨y, rfl⟩ := hall x (by rw [← List.mem_reverse, hr]; exact List.mem_cons_self ..)
        rfl
    rw [h, ← ih]
    show ((calls.foldl Call.run {}).bind z).2.zim = _
    cases hb : (calls.foldl Call.run {}).zim with
    | none => simp [bind, bound, hb]
    | some y =>
      by_cases hy : y = z
      · simp [bind, bound, hb, hy]
      · simp [bind, bound, hb, hy]

/-- C50. After the last successful `bind` and with no `unbind` since, the object is bound to its archive. -/
theorem C50_last_bind (b : Bindable) (z : Nat) (later : List Call) (hok : (b.bind z).1 = .ok ())
    (hl : Call.unbind ∉ later) : (later.foldl Call.run (b.bind z).2).zim = some z := by
  have h0 : (b.bind z).2.zim = some z := by
    unfold bind at hok ⊢
    split
    · rename_i h; rw [if_pos h] at hok; cases hok
    · rfl
  generalize (b.bind z).2 = c at h0
  clear hok
  induction later generalizing c with
  | nil => exact h0
  | cons x later ih =>
    rw [List.foldl_cons]
    refine ih (fun h => hl (List.mem_cons_of_mem _ h)) _ ?_
    cases x with
    | unbind => exact absurd (List.mem_cons_self ..) hl
    | bind y =>
      by_cases hy : z = y
      · simp [Call.run, bind, bound, h0, hy]
      · simp [Call.run, bind, bound, h0, hy]

example : (([.bind 1, .bind 2, .unbind, .bind 3, .bind 1] : List Call).foldl Call.run {}).zim = some 3 := by
  decide

end Bindable

namespace BoundWrapper

/-- C50. Binding a modifiable cluster binds the cluster below it to the same archive unless that one is
bound already; a refused bind changes neither. -/
theorem C50_wrapper (b : BoundWrapper) (z : Nat) :
    (b.outer.zim = none ∨ b.outer.zim = some z →
      (b.bind z).1 = .ok () ∧ (b.bind z).2.outer.zim = some z ∧
      (b.bind z).2.inner.zim = some (b.inner.zim.getD z)) ∧
    (∀ y, b.outer.zim = some y → y ≠ z → b.bind z = (.error .bindingError, b)) ∧
    (b.unbind.outer.zim = none ∧ b.unbind.inner.zim = none) := by
  refine ⟨fun h => ?_, fun y h hne => ?_, rfl, rfl⟩
  · have := (Bindable.C50_bind b.outer z).1 h
    unfold bind
    rw [this]
    cases hi : b.inner.zim with
    | none => simp [Bindable.bound, hi, Bindable.bind]
    | some w => simp [Bindable.bound, hi]
  · have := (Bindable.C50_bind b.outer z).2.1 y h hne
    unfold bind
    rw [this]

example : (BoundWrapper.bind { outer := {}, inner := { zim := some 7 } } 1)
    = (.ok (), { outer := { zim := some 1 }, inner := { zim := some 7 } }) := by decide

end BoundWrapper
end Pyzim
