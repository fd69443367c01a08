import Verif.Model.Cache
import Batteries.Data.List.Perm

/-! # The double linked list represents a list -/

namespace Pyzim
namespace DList
variable {α : Type}

/-- The number of the first element, or `nx`. -/
def firstId : List (Nat × α) → Option Nat → Option Nat
  | [], nx => nx
  | p :: _, _ => some p.1

/-- The number of the last element, or `pv`. -/
def lastId : Option Nat → List (Nat × α) → Option Nat
  | pv, [] => pv
  | _, p :: rest => lastId (some p.1) rest

/-- The heap links the elements of the list, between `pv` and `nx`. -/
def Seg (h : Nat → Option (DNode α)) : Option Nat → List (Nat × α) → Option Nat → Prop
  | _, [], _ => True
  | pv, p :: rest, nx => h p.1 = some ⟨true, p.2, firstId rest nx, pv⟩ ∧ Seg h (some p.1) rest nx

/-- The list `d` holds the elements `l` (with their numbers). -/
structure Rep (d : DList α) (l : List (Nat × α)) : Prop where
  nodup : (l.map Prod.fst).Nodup
  lt : ∀ p ∈ l, p.1 < d.fresh
  seg : Seg d.heap none l none
  head : d.head = firstId l none
  tail : d.tail = lastId none l
  length : d.length = l.length

theorem lastId_append (pv : Option Nat) (a b : List (Nat × α)) :
    lastId pv (a ++ b) = lastId (lastId pv a) b := by
  induction a generalizing pv with
  | nil => rfl
  | cons p a ih => exact ih _

@[simp] theorem lastId_concat (pv : Option Nat) (a : List (Nat × α)) (p : Nat × α) :
    lastId pv (a ++ [p]) = some p.1 := by
  rw [lastId_append]; rfl

@[simp] theorem firstId_append_cons (a b : List (Nat × α)) (p : Nat × α) (nx : Option Nat) :
    firstId (a ++ p :: b) nx = firstId a (some p.1) := by
  cases a <;> rfl

theorem firstId_append (a b : List (Nat × α)) (nx : Option Nat) :
    firstId (a ++ b) nx = firstId a (firstId b nx) := by
  cases a <;> rfl

theorem seg_append {h : Nat → Option (DNode α)} {pv nx : Option Nat} {a b : List (Nat × α)} :
    Seg h pv (a ++ b) nx ↔ Seg h pv a (firstId b nx) ∧ Seg h (lastId pv a) b nx := by
  induction a generalizing pv with
  | nil => simp [Seg, lastId]
  | cons p a ih =>
    simp only [List.cons_append, Seg, ih, firstId_append, lastId, and_assoc]

theorem seg_frame {h h' : Nat → Option (DNode α)} {pv nx : Option Nat} {l : List (Nat × α)}
    (he : ∀ p ∈ l, h' p.1 = h p.1) (hs : Seg h pv l nx) : Seg h' pv l nx := by
  induction l generalizing pv with
  | nil => trivial
  | cons p l ih =>
    exact ⟨(he p List.mem_cons_self).trans hs.1,
      ih (fun q hq => he q (List.mem_cons_of_mem _ hq)) hs.2⟩

theorem lastId_mem {a : List (Nat × α)} {x : Nat} (h : lastId none a = some x) :
    x ∈ a.map Prod.fst := by
  rcases List.eq_nil_or_concat a with rfl | ⟨a', p, rfl⟩
  · cases h
  · simp at h ⊢; exact .inr h.symm

theorem firstId_mem {a : List (Nat × α)} {x : Nat} (h : firstId a none = some x) :
    x ∈ a.map Prod.fst := by
  cases a with
  | nil => cases h
  | cons p a => simp [firstId] at h ⊢; exact .inl h.symm

/-- Attribute assignment in a heap. -/
def hset (h : Nat → Option (DNode α)) (i : Nat) (g : DNode α → DNode α) :
    Nat → Option (DNode α) := fun j => if j = i then (h j).map g else h j

/-- Attribute assignment to an element, if there is one. -/
def hsetO (h : Nat → Option (DNode α)) (o : Option Nat) (g : DNode α → DNode α) :
    Nat → Option (DNode α) := match o with | some i => hset h i g | none => h

theorem seg_setNext {h : Nat → Option (DNode α)} {nx : Option Nat} {a : List (Nat × α)}
    (hn : (a.map Prod.fst).Nodup) (hs : Seg h none a nx) (nx' : Option Nat) :
    Seg (hsetO h (lastId none a) fun n => { n with next := nx' }) none a nx' := by
  rcases List.eq_nil_or_concat a with rfl | ⟨a, p, rfl⟩
  · trivial
  · rw [List.concat_eq_append] at *
    rw [lastId_concat, seg_append]
    rw [seg_append] at hs
    obtain ⟨h1, h2, -⟩ := hs
    simp only [List.map_append, List.map_cons, List.map_nil] at hn
    rw [List.nodup_append] at hn
    refine ⟨seg_frame ?_ h1, ?_, trivial⟩
    · intro q hq
      have : q.1 ≠ p.1 := hn.2.2 q.1 (List.mem_map_of_mem hq) p.1 (by simp)
      simp [hsetO, hset, this]
    · simp only [hsetO, hset, if_pos, h2, Option.map]; rfl

theorem seg_setPrev {h : Nat → Option (DNode α)} {pv : Option Nat} {b : List (Nat × α)}
    (hn : (b.map Prod.fst).Nodup) (hs : Seg h pv b none) (pv' : Option Nat) :
    Seg (hsetO h (firstId b none) fun n => { n with prev := pv' }) pv' b none := by
  cases b with
  | nil => trivial
  | cons p b =>
    simp only [List.map_cons, List.nodup_cons] at hn
    refine ⟨?_, seg_frame ?_ hs.2⟩
    · simp only [hsetO, firstId, hset, if_pos, hs.1, Option.map]
    · intro q hq
      have : q.1 ≠ p.1 := fun e => hn.1 (e ▸ List.mem_map_of_mem hq)
      simp [hsetO, firstId, hset, this]

theorem hsetO_of_ne {h : Nat → Option (DNode α)} {o : Option Nat} {g : DNode α → DNode α} {j : Nat}
    (hj : o ≠ some j) : hsetO h o g j = h j := by
  cases o with
  | none => rfl
  | some i =>
    have : j ≠ i := fun e => hj (by rw [e])
    simp [hsetO, hset, this]

theorem rep_nil : Rep ({} : DList α) [] := by
  constructor <;> simp [Seg, firstId, lastId]

theorem rep_clear (d : DList α) : Rep d.clear [] := by
  constructor <;> simp [Seg, firstId, lastId, clear]

theorem valueOf_rep {d : DList α} {l : List (Nat × α)} (hr : Rep d l) {p : Nat × α} (hp : p ∈ l) :
    d.heap p.1 = d.heap p.1 ∧ d.valueOf p.1 = some p.2 := by
  obtain ⟨a, b, rfl⟩ := List.append_of_mem hp
  have := (seg_append.1 hr.seg).2.1
  simp [valueOf, this]

theorem heap_rep {d : DList α} {a b : List (Nat × α)} {p : Nat × α} (hr : Rep d (a ++ p :: b)) :
    d.heap p.1 = some ⟨true, p.2, firstId b none, lastId none a⟩ := (seg_append.1 hr.seg).2.1

/-! ### Adding -/

/-- A free-standing element: it exists and is not in the list. -/
theorem prependElement_rep {d : DList α} {l : List (Nat × α)} {i : Nat} {v : α} (hr : Rep d l)
    (hi : d.heap i = some ⟨true, v, none, none⟩) (hlt : i < d.fresh) (hn : i ∉ l.map Prod.fst) :
    Rep (d.prependElement i) ((i, v) :: l) := by
  unfold prependElement
  rw [hr.head]
  cases l with
  | nil =>
    refine ⟨by simp, ?_, ⟨hi, trivial⟩, rfl, rfl, rfl⟩
    intro p hp; simp at hp; subst hp; exact hlt
  | cons q l =>
    have hne : q.1 ≠ i := fun e => hn (by simp [e])
    refine ⟨List.nodup_cons.2 ⟨hn, hr.nodup⟩, ?_, ?_, rfl, ?_, ?_⟩
    · intro p hp
      rcases List.mem_cons.1 hp with rfl | hp
      · exact hlt
      · exact hr.lt p hp
    · refine ⟨?_, seg_frame ?_ (seg_setPrev (pv := none) hr.nodup hr.seg (some i))⟩
      · simp [upd, firstId, Ne.symm hne, hi]
      · intro p hp
        have : p.1 ≠ i := fun e => hn (by rw [← e]; exact List.mem_map_of_mem hp)
        simp [upd, firstId, hsetO, hset, this]
    · exact hr.tail
    · show d.length + 1 = _
      rw [hr.length]; rfl

theorem appendElement_rep {d : DList α} {l : List (Nat × α)} {i : Nat} {v : α} (hr : Rep d l)
    (hi : d.heap i = some ⟨true, v, none, none⟩) (hlt : i < d.fresh) (hn : i ∉ l.map Prod.fst) :
    Rep (d.appendElement i) (l ++ [(i, v)]) := by
  unfold appendElement
  rw [hr.tail]
  rcases List.eq_nil_or_concat l with rfl | ⟨l, q, rfl⟩
  · refine ⟨by simp, ?_, ⟨hi, trivial⟩, rfl, rfl, rfl⟩
    intro p hp; simp at hp; subst hp; exact hlt
  · rw [List.concat_eq_append] at *
    have hne : q.1 ≠ i := fun e => hn (by simp [e])
    rw [lastId_concat]
    refine ⟨?_, ?_, ?_, ?_, ?_, ?_⟩
    · rw [List.map_append, List.nodup_append]
      refine ⟨hr.nodup, by simp, ?_⟩
      intro a ha b hb
      simp at hb; subst hb
      exact fun e => hn (e ▸ ha)
    · intro p hp
      rcases List.mem_append.1 hp with hp | hp
      · exact hr.lt p hp
      · simp at hp; subst hp; exact hlt
    · refine seg_append.2 ⟨?_, ?_, trivial⟩
      · refine seg_frame ?_ (seg_setNext hr.nodup hr.seg (some i))
        intro p hp
        have : p.1 ≠ i := fun e => hn (by rw [← e]; exact List.mem_map_of_mem hp)
        simp [upd, hsetO, hset, this]
      · simp [upd, firstId, Ne.symm hne, hi]
    · rw [firstId_append]
      have := hr.head
      rw [show (upd (upd d q.1 fun n => { n with next := some i }) i
        fun n => { n with prev := some q.1 }).head = d.head from rfl, this]
      cases l <;> rfl
    · rw [lastId_concat]
    · show d.length + 1 = _
      rw [hr.length, List.length_append, List.length_append, List.length_append]; rfl

theorem newElement_rep {d : DList α} {l : List (Nat × α)} (hr : Rep d l) (v : α) :
    Rep (d.newElement v).2 l := by
  refine ⟨hr.nodup, ?_, seg_frame ?_ hr.seg, hr.head, hr.tail, hr.length⟩
  · intro p hp
    exact Nat.lt_succ_of_lt (hr.lt p hp)
  · intro p hp
    have := Nat.ne_of_lt (hr.lt p hp)
    simp [newElement, this]

theorem fresh_not_mem {d : DList α} {l : List (Nat × α)} (hr : Rep d l) :
    d.fresh ∉ l.map Prod.fst := by
  intro h
  obtain ⟨p, hp, e⟩ := List.mem_map.1 h
  exact absurd (hr.lt p hp) (by omega)

theorem prepend_rep {d : DList α} {l : List (Nat × α)} (hr : Rep d l) (v : α) :
    (d.prepend v).1 = d.fresh ∧ Rep (d.prepend v).2 ((d.fresh, v) :: l) := by
  refine ⟨rfl, ?_⟩
  refine prependElement_rep (newElement_rep hr v) ?_ ?_ (fresh_not_mem hr)
  · simp [newElement]
  · simp [newElement]

theorem append_rep {d : DList α} {l : List (Nat × α)} (hr : Rep d l) (v : α) :
    (d.append v).1 = d.fresh ∧ Rep (d.append v).2 (l ++ [(d.fresh, v)]) := by
  refine ⟨rfl, ?_⟩
  refine appendElement_rep (newElement_rep hr v) ?_ ?_ (fresh_not_mem hr)
  · simp [newElement]
  · simp [newElement]

/-! ### Removing -/

theorem nodup_mid {a b : List (Nat × α)} {p : Nat × α} (h : ((a ++ p :: b).map Prod.fst).Nodup) :
    (a.map Prod.fst).Nodup ∧ (b.map Prod.fst).Nodup ∧ ((a ++ b).map Prod.fst).Nodup ∧
    p.1 ∉ a.map Prod.fst ∧ p.1 ∉ b.map Prod.fst ∧ (∀ x ∈ a.map Prod.fst, x ∉ b.map Prod.fst) := by
  rw [List.map_append, List.map_cons, List.nodup_append] at h
  obtain ⟨h1, h2, h3⟩ := h
  rw [List.nodup_cons] at h2
  refine ⟨h1, h2.2, ?_, ?_, h2.1, ?_⟩
  · rw [List.map_append, List.nodup_append]
    exact ⟨h1, h2.2, fun x hx y hy => h3 x hx y (List.mem_cons_of_mem _ hy)⟩
  · exact fun hx => h3 _ hx _ List.mem_cons_self rfl
  · exact fun x hx hy => h3 x hx x (List.mem_cons_of_mem _ hy) rfl

theorem removeElement_eq {d : DList α} {a b : List (Nat × α)} {p : Nat × α}
    (hr : Rep d (a ++ p :: b)) :
    d.removeElement p.1 = (.ok (),
      { heap := hset (hsetO (hsetO d.heap (lastId none a) fun n => { n with next := firstId b none })
          (firstId b none) fun n => { n with prev := lastId none a }) p.1
          fun n => { n with parent := false }
        fresh := d.fresh
        head := firstId (a ++ b) none
        tail := lastId none (a ++ b)
        length := d.length - 1 }) := by
  have hp := heap_rep hr
  have hnd := nodup_mid hr.nodup
  have hla : lastId none a ≠ some p.1 := fun e => hnd.2.2.2.1 (lastId_mem e)
  have hfb : firstId b none ≠ some p.1 := fun e => hnd.2.2.2.2.1 (firstId_mem e)
  unfold removeElement
  have hpar : (d.heap p.1).map (·.parent) = some true := by rw [hp]; rfl
  have hprev : d.prevOf p.1 = lastId none a := by simp [prevOf, hp]
  have hnext : d.nextOf p.1 = firstId b none := by simp [nextOf, hp]
  rw [if_neg (by simp [hpar])]
  simp only [hprev, hnext]
  have hhead : d.head = firstId a (some p.1) := by rw [hr.head]; simp
  have htail : d.tail = lastId (some p.1) b := by rw [hr.tail, lastId_append]; rfl
  rcases List.eq_nil_or_concat a with rfl | ⟨a', q, rfl⟩
  · cases b with
    | nil =>
      simp [lastId, firstId, upd, nextOf, prevOf, hp, hsetO]
      rfl
    | cons x b =>
      simp only [lastId, firstId] at *
      have hx : x.1 ≠ p.1 := fun e => hfb (by rw [e])
      simp only [nextOf, hp, prevOf, Option.bind, firstId]
      rw [Prod.mk.injEq]
      refine ⟨rfl, ?_⟩
      simp only [upd, DList.mk.injEq, hsetO, List.nil_append, firstId, true_and]
      refine ⟨?_, ?_⟩
      · funext j; simp [hset, lastId]
      · simpa [lastId] using htail
  · rw [List.concat_eq_append] at *
    simp only [lastId_concat] at *
    have hq : q.1 ≠ p.1 := fun e => hla (by rw [e])
    cases b with
    | nil =>
      simp only [firstId, nextOf, upd, prevOf, hp, if_neg (Ne.symm hq), Option.bind, List.append_nil,
        lastId_concat, hsetO]
      rw [Prod.mk.injEq]
      refine ⟨rfl, ?_⟩
      simp only [DList.mk.injEq, and_true, true_and]
      refine ⟨?_, ?_⟩
      · funext j; simp [hset]
      · rw [hhead]; cases a' <;> rfl
    | cons x b =>
      have hx : x.1 ≠ p.1 := fun e => hfb (by simp [firstId, e])
      simp only [firstId, nextOf, upd, prevOf, hp, if_neg (Ne.symm hq), Option.bind, hsetO]
      rw [Prod.mk.injEq]
      refine ⟨rfl, ?_⟩
      simp only [DList.mk.injEq, and_true, true_and]
      refine ⟨?_, ?_, ?_⟩
      · funext j; simp [hset]
      · rw [hhead]; cases a' <;> rfl
      · rw [htail, lastId_append]; rfl

theorem removeElement_rep {d : DList α} {a b : List (Nat × α)} {p : Nat × α}
    (hr : Rep d (a ++ p :: b)) :
    ∃ d', d.removeElement p.1 = (.ok (), d') ∧ Rep d' (a ++ b) ∧ d'.fresh = d.fresh ∧
      d'.valueOf p.1 = some p.2 ∧ (∃ n, d'.heap p.1 = some n ∧ n.value = p.2) := by
  have hnd := nodup_mid hr.nodup
  have hp := heap_rep hr
  have hla : lastId none a ≠ some p.1 := fun e => hnd.2.2.2.1 (lastId_mem e)
  have hfb : firstId b none ≠ some p.1 := fun e => hnd.2.2.2.2.1 (firstId_mem e)
  have hval : ∃ n, (hset (hsetO (hsetO d.heap (lastId none a) fun n => { n with next := firstId b none })
          (firstId b none) fun n => { n with prev := lastId none a }) p.1
          fun n => { n with parent := false }) p.1 = some n ∧ n.value = p.2 := by
    refine ⟨{ parent := false, value := p.2, next := firstId b none, prev := lastId none a }, ?_, rfl⟩
    simp [hset, hsetO_of_ne hfb, hsetO_of_ne hla, hp]
  refine ⟨_, removeElement_eq hr, ⟨hnd.2.2.1, ?_, ?_, rfl, rfl, ?_⟩, rfl, ?_, hval⟩
  · intro q hq
    refine hr.lt q ?_
    rcases List.mem_append.1 hq with h | h
    · exact List.mem_append_left _ h
    · exact List.mem_append_right _ (List.mem_cons_of_mem _ h)
  · obtain ⟨h1, -, h2⟩ := seg_append.1 hr.seg
    refine seg_append.2 ⟨seg_frame ?_ (seg_setNext hnd.1 h1 (firstId b none)),
      seg_frame ?_ (seg_setPrev hnd.2.1 h2 (lastId none a))⟩
    · intro q hq
      have h1 : q.1 ∈ a.map Prod.fst := List.mem_map_of_mem hq
      have h2 : q.1 ≠ p.1 := fun e => hnd.2.2.2.1 (e ▸ h1)
      have h3 : firstId b none ≠ some q.1 := fun e => hnd.2.2.2.2.2 _ h1 (firstId_mem e)
      show hset _ _ _ _ = _
      simp only [hset, if_neg h2, hsetO_of_ne h3]
    · intro q hq
      have h1 : q.1 ∈ b.map Prod.fst := List.mem_map_of_mem hq
      have h2 : q.1 ≠ p.1 := fun e => hnd.2.2.2.2.1 (e ▸ h1)
      have h3 : lastId none a ≠ some q.1 := fun e => hnd.2.2.2.2.2 _ (lastId_mem e) h1
      show hset _ _ _ _ = _
      simp only [hset, if_neg h2]
      cases hf : firstId b none with
      | none => exact hsetO_of_ne h3
      | some x =>
        show hset _ _ _ _ = hset _ _ _ _
        simp only [hset, hsetO_of_ne h3]
  · have := hr.length
    simp only [List.length_append, List.length_cons] at this ⊢
    omega
  · obtain ⟨n, hn, hv⟩ := hval
    show Option.map _ (hset _ _ _ _) = _
    rw [hn]; simp [hv]

theorem removeLast_rep {d : DList α} {l : List (Nat × α)} {p : Nat × α} (hr : Rep d (l ++ [p])) :
    ∃ d', d.removeLast = (.ok (), d') ∧ Rep d' l ∧ d'.fresh = d.fresh := by
  have hnd := nodup_mid hr.nodup
  have hp := heap_rep hr
  have ht : d.tail = some p.1 := by rw [hr.tail]; simp
  have hprev : d.prevOf p.1 = lastId none l := by simp [prevOf, hp]
  have hlen : d.length - 1 = (l.length : Int) := by
    have := hr.length
    simp only [List.length_append, List.length_cons, List.length_nil] at this
    omega
  have hseg : Seg (hsetO d.heap (lastId none l) fun n => { n with next := none }) none l none :=
    seg_setNext hnd.1 (seg_append.1 hr.seg).1 none
  unfold removeLast
  simp only [ht, hprev]
  rcases List.eq_nil_or_concat l with rfl | ⟨l', q, rfl⟩
  · refine ⟨_, rfl, ⟨by simp, by simp, trivial, rfl, rfl, ?_⟩, rfl⟩
    exact hlen
  · rw [List.concat_eq_append] at *
    simp only [lastId_concat] at *
    refine ⟨_, rfl, ⟨hnd.1, ?_, ?_, ?_, ?_, ?_⟩, rfl⟩
    · exact fun q hq => hr.lt q (List.mem_append_left _ hq)
    · exact hseg
    · show d.head = _
      rw [hr.head]; cases l' <;> rfl
    · simp
    · exact hlen

theorem removeLast_nil {d : DList α} (hr : Rep d []) : d.removeLast = (.error .indexError, d) := by
  unfold removeLast
  rw [hr.tail]; rfl

/-! ### Moving and changing elements -/

theorem relink_prepend_rep {d : DList α} {l : List (Nat × α)} {i : Nat} {v : α} (hr : Rep d l)
    (hi : ∃ n, d.heap i = some n ∧ n.value = v) (hlt : i < d.fresh) (hn : i ∉ l.map Prod.fst) :
    Rep ((d.relink i).prependElement i) ((i, v) :: l) := by
  obtain ⟨n, hi, rfl⟩ := hi
  refine prependElement_rep (d := d.relink i) ⟨hr.nodup, hr.lt, seg_frame ?_ hr.seg, hr.head, hr.tail,
    hr.length⟩ ?_ hlt hn
  · intro p hp
    have : p.1 ≠ i := fun e => hn (by rw [← e]; exact List.mem_map_of_mem hp)
    simp [relink, upd, this]
  · simp [relink, upd, hi]

theorem setValue_rep {d : DList α} {a b : List (Nat × α)} {p : Nat × α} (hr : Rep d (a ++ p :: b))
    (v : α) : Rep (d.upd p.1 fun n => { n with value := v }) (a ++ (p.1, v) :: b) := by
  have hnd := nodup_mid hr.nodup
  refine ⟨by simpa using hr.nodup, ?_, ?_, ?_, ?_, ?_⟩
  · intro q hq
    rcases List.mem_append.1 hq with h | h
    · exact hr.lt q (List.mem_append_left _ h)
    · rcases List.mem_cons.1 h with rfl | h
      · exact hr.lt p (by simp)
      · exact hr.lt q (by simp [h])
  · obtain ⟨h1, h2, h3⟩ := seg_append.1 hr.seg
    refine seg_append.2 ⟨seg_frame ?_ h1, ?_, seg_frame ?_ h3⟩
    · intro q hq
      have : q.1 ≠ p.1 := fun e => hnd.2.2.2.1 (e ▸ List.mem_map_of_mem hq)
      simp [upd, this]
    · simp [upd, h2]
    · intro q hq
      have : q.1 ≠ p.1 := fun e => hnd.2.2.2.2.1 (e ▸ List.mem_map_of_mem hq)
      simp [upd, this]
  · have := hr.head
    simp at this ⊢
    exact this
  · have := hr.tail
    rw [lastId_append] at this ⊢
    exact this
  · show d.length = _
    rw [hr.length, List.length_append, List.length_append]; rfl

theorem swapForward_head {d : DList α} {b : List (Nat × α)} {p : Nat × α} (hr : Rep d (p :: b)) :
    d.swapForward p.1 = d := by
  have := heap_rep (a := []) hr
  simp [swapForward, prevOf, this, lastId]

/-- A cheap way to reason about the heap after `swap_forward`. -/
theorem swapForward_rep {d : DList α} {a b : List (Nat × α)} {p i : Nat × α}
    (hr : Rep d (a ++ p :: i :: b)) : Rep (d.swapForward i.1) (a ++ i :: p :: b) ∧
      (d.swapForward i.1).fresh = d.fresh := by
  have hr' : Rep d ((a ++ [p]) ++ i :: b) := by simpa using hr
  have hi := heap_rep hr'
  have hp := heap_rep hr
  rw [lastId_concat] at hi
  have hndp := nodup_mid hr.nodup
  have hndi := nodup_mid hr'.nodup
  have hip : i.1 ≠ p.1 := fun e => hndi.2.2.2.1 (by simp [e])
  have hla : lastId none a ≠ some p.1 := fun e => hndp.2.2.2.1 (lastId_mem e)
  have hla' : lastId none a ≠ some i.1 := fun e => hndi.2.2.2.1 (by
    have := lastId_mem e
    simp only [List.map_append, List.mem_append]
    exact .inl this)
  have hfb : firstId b none ≠ some p.1 := fun e => hndp.2.2.2.2.1 (by
    have := firstId_mem e
    simp only [List.map_cons, List.mem_cons]
    exact .inr this)
  have hfb' : firstId b none ≠ some i.1 := fun e => hndi.2.2.2.2.1 (firstId_mem e)
  have hab : ∀ x, lastId none a = some x → firstId b none ≠ some x := fun x e e' =>
    hndi.2.2.2.2.2 x (by simp only [List.map_append, List.mem_append]; exact .inl (lastId_mem e)) (firstId_mem e')
  have hhead : d.head = firstId a (some p.1) := by rw [hr.head]; simp
  have htail : d.tail = lastId (some i.1) b := by rw [hr.tail, lastId_append]; rfl
  -- the heap afterwards
  have key : ∃ h', d.swapForward i.1 =
      { d with heap := h', head := firstId a (some i.1), tail := lastId (some p.1) b } ∧
      h' i.1 = some ⟨true, i.2, some p.1, lastId none a⟩ ∧
      h' p.1 = some ⟨true, p.2, firstId b none, some i.1⟩ ∧
      (∀ j, j ≠ i.1 → j ≠ p.1 → h' j = hsetO (hsetO d.heap (lastId none a) fun n => { n with next := some i.1 })
        (firstId b none) (fun n => { n with prev := some p.1 }) j) := by
    rw [firstId] at hp
    have e1 : d.prevOf i.1 = some p.1 := by simp [prevOf, hi]
    unfold swapForward
    simp only [e1]
    cases hA : lastId none a with
    | none =>
      have ha : a = [] := by
        rcases List.eq_nil_or_concat a with rfl | ⟨a', q, rfl⟩
        · rfl
        · simp at hA
      subst ha
      cases b with
      | nil =>
        rw [firstId] at hi
        refine ⟨(upd (upd (upd (upd d i.1 fun n => { n with prev := none }) p.1 fun n => { n with next := none }) i.1
            fun n => { n with next := some p.1 }) p.1 fun n => { n with prev := some i.1 }).heap, ?_, ?_, ?_, ?_⟩
        · simp [upd, prevOf, nextOf, hi, hp, hip, Ne.symm hip, lastId, firstId]
        · simp [upd, hip, Ne.symm hip, hi]
        · simp [upd, hip, Ne.symm hip, hp, firstId]
        · intro j h1 h2; simp [upd, h1, h2, hsetO, firstId]
      | cons x b =>
        rw [firstId] at hi
        have hxi : x.1 ≠ i.1 := fun e => hfb' (by simp [firstId, e])
        have hxp : x.1 ≠ p.1 := fun e => hfb (by simp [firstId, e])
        refine ⟨(upd (upd (upd (upd (upd d i.1 fun n => { n with prev := none }) p.1
            fun n => { n with next := some x.1 }) x.1 fun n => { n with prev := some p.1 }) i.1
            fun n => { n with next := some p.1 }) p.1 fun n => { n with prev := some i.1 }).heap, ?_, ?_, ?_, ?_⟩
        · simp [upd, prevOf, nextOf, hi, hp, hip, Ne.symm hip, hxi, hxp, Ne.symm hxi, Ne.symm hxp, lastId, firstId,
            htail]
        · simp [upd, hip, Ne.symm hip, hi, Ne.symm hxi]
        · simp [upd, hip, Ne.symm hip, hp, Ne.symm hxp, firstId]
        · intro j h1 h2; simp [upd, h1, h2, hsetO, firstId, hset]
    | some q =>
      have hqi : q ≠ i.1 := fun e => hla' (by rw [hA, e])
      have hqp : q ≠ p.1 := fun e => hla (by rw [hA, e])
      rw [hA] at hp
      have hfa : ∀ y z, firstId a y = firstId a z := by
        cases a with
        | nil => cases hA
        | cons _ _ => exact fun _ _ => rfl
      cases b with
      | nil =>
        rw [firstId] at hi
        refine ⟨(upd (upd (upd (upd (upd d i.1 fun n => { n with prev := some q }) p.1
            fun n => { n with next := none }) i.1 fun n => { n with next := some p.1 }) q
            fun n => { n with next := some i.1 }) p.1 fun n => { n with prev := some i.1 }).heap, ?_, ?_, ?_, ?_⟩
        · simp [upd, prevOf, nextOf, hi, hp, hip, Ne.symm hip, hqi, hqp, Ne.symm hqi, Ne.symm hqp, lastId, firstId,
            hhead]
          exact hfa _ _
        · simp [upd, hip, Ne.symm hip, hi, Ne.symm hqi]
        · simp [upd, hip, Ne.symm hip, hp, Ne.symm hqp, firstId]
        · intro j h1 h2; simp [upd, h1, h2, hsetO, firstId, hset]
      | cons x b =>
        rw [firstId] at hi
        have hxi : x.1 ≠ i.1 := fun e => hfb' (by simp [firstId, e])
        have hxp : x.1 ≠ p.1 := fun e => hfb (by simp [firstId, e])
        have hxq : x.1 ≠ q := fun e => hab q hA (by simp [firstId, e])
        refine ⟨(upd (upd (upd (upd (upd (upd d i.1 fun n => { n with prev := some q }) p.1
            fun n => { n with next := some x.1 }) x.1 fun n => { n with prev := some p.1 }) i.1
            fun n => { n with next := some p.1 }) q
            fun n => { n with next := some i.1 }) p.1 fun n => { n with prev := some i.1 }).heap, ?_, ?_, ?_, ?_⟩
        · simp [upd, prevOf, nextOf, hi, hp, hip, Ne.symm hip, hqi, hqp, Ne.symm hqi, Ne.symm hqp, hxi, hxp,
            Ne.symm hxi, Ne.symm hxp, hxq, Ne.symm hxq, lastId, firstId, hhead, htail]
          exact hfa _ _
        · simp [upd, hip, Ne.symm hip, hi, Ne.symm hqi, Ne.symm hxi]
        · simp [upd, hip, Ne.symm hip, hp, Ne.symm hqp, Ne.symm hxp, firstId]
        · intro j h1 h2
          by_cases hjx : j = x.1
          · subst hjx; simp [upd, h1, h2, hsetO, firstId, hset, hxq]
          · simp [upd, h1, h2, hsetO, firstId, hset, hjx]
  obtain ⟨h', hk, hki, hkp, hkj⟩ := key
  rw [hk]
  refine ⟨⟨?_, ?_, ?_, ?_, ?_, ?_⟩, rfl⟩
  · have := hr.nodup
    refine (List.Perm.nodup_iff ?_).1 this
    exact ((List.Perm.swap i p b).append_left a).map _
  · intro q hq
    refine hr.lt q ?_
    simp only [List.mem_append, List.mem_cons] at hq ⊢
    rcases hq with h | h | h | h
    · exact .inl h
    · exact .inr (.inr (.inl h))
    · exact .inr (.inl h)
    · exact .inr (.inr (.inr h))
  · obtain ⟨h1, h2, h3, h4⟩ := seg_append.1 hr.seg
    refine seg_append.2 ⟨seg_frame ?_ (seg_setNext hndp.1 h1 (some i.1)), hki, hkp,
      seg_frame ?_ (seg_setPrev hndi.2.1 h4 (some p.1))⟩
    · intro q hq
      have m1 : q.1 ∈ a.map Prod.fst := List.mem_map_of_mem hq
      have n1 : q.1 ≠ p.1 := fun e => hndp.2.2.2.1 (e ▸ m1)
      have n2 : q.1 ≠ i.1 := fun e => hndi.2.2.2.1 (by
        simp only [List.map_append, List.mem_append]; exact .inl (e ▸ m1))
      have n3 : firstId b none ≠ some q.1 := fun e => hndi.2.2.2.2.2 q.1 (by
        simp only [List.map_append, List.mem_append]; exact .inl m1) (firstId_mem e)
      show h' q.1 = _
      rw [hkj q.1 n2 n1, hsetO_of_ne n3]
    · intro q hq
      have m1 : q.1 ∈ b.map Prod.fst := List.mem_map_of_mem hq
      have n1 : q.1 ≠ p.1 := fun e => hndp.2.2.2.2.1 (by
        simp only [List.map_cons, List.mem_cons]; exact .inr (e ▸ m1))
      have n2 : q.1 ≠ i.1 := fun e => hndi.2.2.2.2.1 (e ▸ m1)
      have n3 : lastId none a ≠ some q.1 := fun e => hndi.2.2.2.2.2 q.1 (by
        simp only [List.map_append, List.mem_append]; exact .inl (lastId_mem e)) m1
      show h' q.1 = _
      rw [hkj q.1 n2 n1]
      cases hf : firstId b none with
      | none => exact hsetO_of_ne n3
      | some x =>
        show hset _ _ _ _ = hset _ _ _ _
        simp only [hset, hsetO_of_ne n3]
  · simp
  · rw [lastId_append]; rfl
  · have := hr.length
    simpa using this

/-! ### Reading -/

theorem valuesFrom_seg {d : DList α} {l : List (Nat × α)} {pv : Option Nat} {fuel : Nat}
    (hs : Seg d.heap pv l none) (hf : l.length ≤ fuel) :
    d.valuesFrom fuel (firstId l none) = l.map Prod.snd := by
  induction l generalizing pv fuel with
  | nil => cases fuel <;> rfl
  | cons p l ih =>
    cases fuel with
    | zero => simp at hf
    | succ fuel =>
      show (match d.heap p.1 with
        | none => []
        | some n => n.value :: d.valuesFrom fuel n.next) = _
      rw [hs.1, List.map_cons, ← ih hs.2 (by simpa using hf)]

theorem length_le_fresh {d : DList α} {l : List (Nat × α)} (hr : Rep d l) : l.length ≤ d.fresh := by
  have : (l.map Prod.fst).Subperm (List.range d.fresh) := List.subperm_of_subset hr.nodup (by
    intro x hx
    obtain ⟨p, hp, rfl⟩ := List.mem_map.1 hx
    exact List.mem_range.2 (hr.lt p hp))
  simpa using this.length_le

theorem toList_spec {d : DList α} {l : List (Nat × α)} (hr : Rep d l) :
    d.toList = l.map Prod.snd := by
  unfold toList
  rw [hr.head]
  exact valuesFrom_seg hr.seg (length_le_fresh hr)

end DList
end Pyzim
