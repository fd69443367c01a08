import Mathlib.Data.List.Forall2
import Verif.Spec.Processors

/-!
# Lemmas about processors when reading
-/

namespace Pyzim
variable {σ D α β : Type}

/-- the result does not depend on the state -/
def PyM.Like (m : PyM σ α) (x : PyRes α) : Prop := ∀ s, (m s).1 = x

namespace PyM

theorem Like.bind {m : PyM σ α} {x : PyRes α} {k : α → PyM σ β} {y : α → PyRes β} (h : Like m x)
    (hk : ∀ a, x = .ok a → Like (k a) (y a)) : Like (m >>= k) (x >>= y) := by
  intro s
  have h1 := h s
  show (PyM.bind m k s).1 = _
  unfold PyM.bind
  rcases hm : m s with ⟨r, s'⟩
  rw [hm] at h1
  simp only at h1
  subst h1
  cases r with
  | error x => rfl
  | ok a => exact hk a rfl s'

theorem like_pure (a : α) : Like (pure a : PyM σ α) (.ok a) := fun _ => rfl
theorem like_lift (x : PyRes α) : Like (lift x : PyM σ α) x := fun _ => rfl
theorem like_raise (x : PyErr) : Like (raise x : PyM σ α) (.error x) := fun _ => rfl

/-- the exception of a result, turned into another one -/
def errTo (f : PyErr → PyErr) (x : PyRes α) : PyRes α :=
  match x with
  | .ok a => .ok a
  | .error e => .error (f e)

theorem Like.catching {m : PyM σ α} {x : PyRes α} (h : Like m x) (f : PyErr → PyErr) :
    Like (m.catching f) (errTo f x) := by
  intro s
  have h1 := h s
  unfold PyM.catching
  rcases hm : m s with ⟨r, s'⟩
  rw [hm] at h1
  simp only at h1
  subst h1
  cases r <;> rfl

end PyM

open PyM

theorem tellAll_like {ms : List (PyM σ Unit)} (h : ∀ m ∈ ms, Like m (.ok ())) : Like (tellAll ms) (.ok ()) := by
  induction ms with
  | nil => exact like_pure ()
  | cons m ms ih =>
    unfold tellAll
    exact (h m List.mem_cons_self).bind (y := fun _ => .ok ()) fun _ _ => ih fun m' hm' => h m' (List.mem_cons_of_mem _ hm')

theorem passOn_same {fs : List (α → PyM σ α)} (a : α) (h : ∀ f ∈ fs, Like (f a) (.ok a)) : Like (passOn fs a) (.ok a) := by
  induction fs with
  | nil => exact like_pure a
  | cons f fs ih =>
    unfold passOn
    refine (h f List.mem_cons_self).bind (y := fun _ => .ok a) fun b hb => ?_
    injection hb with hb
    subst hb
    exact ih fun f' hf' => h f' (List.mem_cons_of_mem _ hf')

theorem collect_like {f : α → PyM σ β} {g : α → PyRes β} (h : ∀ a, Like (f a) (g a)) (as : List α) :
    Like (collect f as) (as.mapM g) := by
  induction as with
  | nil => exact like_pure []
  | cons a as ih =>
    rw [List.mapM_cons]
    unfold collect
    exact (h a).bind fun b _ => ih.bind fun bs _ => like_pure _

theorem mapM_map {g : α → PyRes β} {F : β → β} (as : List α) :
    as.mapM (fun a => (g a).map F) = (as.mapM g).map (List.map F) := by
  induction as with
  | nil => rfl
  | cons a as ih =>
    rw [List.mapM_cons, List.mapM_cons, ih]
    rcases g a with x | b
    · rfl
    · rcases as.mapM g with x | bs <;> rfl

theorem search_like {keyAt : Nat → PyM σ Bytes} {g : Nat → PyRes Bytes} (h : ∀ i, Like (keyAt i) (g i)) (key : Bytes)
    (start stop : Nat) : Like (searchLoopM keyAt key start stop) (binarysearchLoop g key start stop) := by
  induction hn : stop - start using Nat.strongRecOn generalizing start stop with
  | ind n ih =>
    unfold searchLoopM binarysearchLoop
    by_cases hlt : start < stop
    · rw [dif_pos hlt, dif_pos hlt]
      have := (h ((start + stop) / 2)).bind (k := fun k =>
        if k < key then searchLoopM keyAt key ((start + stop) / 2 + 1) stop else searchLoopM keyAt key start ((start + stop) / 2))
        (y := fun k => if k < key then binarysearchLoop g key ((start + stop) / 2 + 1) stop
          else binarysearchLoop g key start ((start + stop) / 2)) (fun k _ => by
          by_cases hk : k < key
          · rw [if_pos hk, if_pos hk]; exact ih _ (by omega) _ _ rfl
          · rw [if_neg hk, if_neg hk]; exact ih _ (by omega) _ _ rfl)
      intro s
      rw [this s]
      rcases g ((start + stop) / 2) with x | k <;> rfl
    · rw [dif_neg hlt, dif_neg hlt]
      exact like_pure _

namespace Processed
variable {a : Processed σ D} {fs : List (Entry → Entry)} {X : Codecs D}

theorem passOn_turned {ps : List (Processor σ D)} (h : List.Forall₂ Processor.Turns ps fs) (l : Int) (e : Entry) :
    Like (passOn (ps.map fun p => p.afterEntry l) e) (.ok (turnedBy fs e)) := by
  induction h generalizing e with
  | nil => exact like_pure e
  | @cons p f ps fs h _ ih =>
    rw [List.map_cons]
    unfold passOn
    refine (show Like (p.afterEntry l e) (.ok (f e)) from h.afterEntry l e).bind (y := fun _ => .ok (turnedBy (f :: fs) e))
      fun b hb => ?_
    injection hb with hb
    subst hb
    exact ih (f e)

theorem all_turn {ps : List (Processor σ D)} (h : List.Forall₂ Processor.Turns ps fs) : ∀ p ∈ ps, ∃ f, p.Turns f := by
  induction h with
  | nil => intro p hp; cases hp
  | cons h _ ih =>
    intro p hp
    rcases List.mem_cons.1 hp with rfl | hp
    · exact ⟨_, h⟩
    · exact ih p hp

theorem entryAt_like (h : List.Forall₂ Processor.Turns a.processors fs) (l : Int) :
    Like (a.entryAt l) ((a.arch.entryAt l).map (turnedBy fs)) := by
  intro s
  unfold entryAt
  by_cases hl : 0 ≤ l
  · have h1 : Like (tellAll (a.processors.map fun p => p.beforeEntry l)) (.ok ()) := tellAll_like fun m hm => by
      obtain ⟨p, hp, rfl⟩ := List.mem_map.1 hm
      obtain ⟨f, hf⟩ := all_turn h p hp
      exact hf.beforeEntry l
    have h2 := h1.bind (k := fun _ => PyM.lift (a.arch.entryAt l) >>= passOn (a.processors.map fun p => p.afterEntry l))
      (y := fun _ => a.arch.entryAt l >>= fun e => .ok (turnedBy fs e))
      (fun _ _ => (like_lift _).bind fun e _ => passOn_turned h l e)
    have h3 : Like (PyM.require (σ := σ) (decide (0 ≤ l)) .assertionError) (.ok ()) := by
      intro s
      unfold PyM.require
      rw [decide_eq_true hl]
      rfl
    rw [(h3.bind (y := fun _ => (Except.ok () : PyRes Unit) >>= fun _ => a.arch.entryAt l >>= fun e => .ok (turnedBy fs e))
      fun _ _ => h2) s]
    rcases a.arch.entryAt l with x | e <;> rfl
  · have h3 : Like (PyM.require (σ := σ) (decide (0 ≤ l)) .assertionError) (.error .assertionError) := by
      intro s
      unfold PyM.require
      rw [decide_eq_false hl]
      rfl
    rw [(h3.bind (y := fun _ => (Except.error .assertionError : PyRes Entry)) fun _ h => by cases h) s]
    unfold Embedded.entryAt
    rw [if_pos (by omega)]
    rfl

theorem entryByIndex_like (h : List.Forall₂ Processor.Turns a.processors fs) (i : Int) :
    Like (a.entryByIndex i) ((a.arch.entryByIndex i).map (turnedBy fs)) := by
  unfold entryByIndex Embedded.entryByIndex
  by_cases hi : i < 0
  · rw [if_pos hi, if_pos hi]; exact like_raise _
  · rw [if_neg hi, if_neg hi]
    intro s
    rw [(((like_lift (a.arch.zim.urls.getByIndex i)).catching _).bind fun l _ => entryAt_like h l) s]
    rcases a.arch.zim.urls.getByIndex i with x | l
    · cases x <;> rfl
    · rfl

theorem key_like (h : List.Forall₂ Processor.Turns a.processors fs) (hu : ∀ e, (turnedBy fs e).fullUrl = e.fullUrl) (i : Nat) :
    Like (a.keyAt i) (a.arch.zim.urls.keyAt a.arch.urlKey i) := by
  unfold keyAt PointerList.keyAt
  refine (like_lift _).bind fun p _ => ?_
  intro s
  unfold urlKey
  rw [((entryAt_like h p).bind (y := fun e => .ok (encode e.fullUrl)) fun e _ => like_pure _) s]
  unfold Embedded.urlKey
  rcases a.arch.entryAt p with x | e
  · rfl
  · show Except.ok (encode (turnedBy fs e).fullUrl) = _
    rw [hu]

theorem urlPointer_like (h : List.Forall₂ Processor.Turns a.processors fs) (hu : ∀ e, (turnedBy fs e).fullUrl = e.fullUrl)
    (key : Bytes) : Like (a.urlPointer key) (a.arch.zim.urls.get a.arch.urlKey key) := by
  unfold urlPointer PointerList.get
  refine Like.bind ?_ fun i _ => like_lift _
  unfold urlIndex PointerList.getIndex
  refine Like.bind ?_ fun i _ => ?_
  · unfold binarysearch search
    by_cases h0 : a.arch.zim.urls.len - 0 = 0
    · rw [if_pos h0, if_pos h0]; exact like_pure _
    · rw [if_neg h0, if_neg h0]; exact search_like (key_like h hu) key _ _
  · by_cases hi : i ≠ a.arch.zim.urls.len
    · simp only [if_pos hi]
      refine (key_like h hu i).bind fun k _ => ?_
      by_cases hk : k = key
      · simp only [if_pos hk]; exact like_pure _
      · simp only [if_neg hk]; exact like_raise _
    · simp only [if_neg hi]
      exact like_raise _

theorem entryByFullUrl_like (h : List.Forall₂ Processor.Turns a.processors fs) (hu : ∀ e, (turnedBy fs e).fullUrl = e.fullUrl)
    (u : String) : Like (a.entryByFullUrl u) ((a.arch.entryByFullUrl u).map (turnedBy fs)) := by
  intro s
  unfold entryByFullUrl
  rw [(((urlPointer_like h hu (encode u)).catching _).bind fun l _ => entryAt_like h l) s]
  unfold Embedded.entryByFullUrl
  rcases a.arch.zim.urls.get a.arch.urlKey (encode u) with x | l
  · cases x <;> rfl
  · rfl

theorem hasEntry_like (h : List.Forall₂ Processor.Turns a.processors fs) (hu : ∀ e, (turnedBy fs e).fullUrl = e.fullUrl)
    (u : String) : Like (a.hasEntry u) (a.arch.hasEntry u) := by
  intro s
  have h1 := urlPointer_like h hu (encode u) s
  unfold hasEntry Embedded.hasEntry PointerList.has
  rcases hm : a.urlPointer (encode u) s with ⟨r, s'⟩
  rw [hm] at h1
  simp only at h1
  rw [← h1]
  cases r with
  | ok v => rfl
  | error x => cases x <;> rfl

theorem resolve_like (h : List.Forall₂ Processor.Turns a.processors fs)
    (hk : ∀ e, (turnedBy fs e).kind = e.kind ∧ (turnedBy fs e).isRedirect = e.isRedirect) (n : Nat) (e : Entry) :
    Like (a.resolve n (turnedBy fs e)) ((a.arch.resolve n e).map (turnedBy fs)) := by
  have hl : ∀ n e, Like (a.resolveLoop n (turnedBy fs e)) ((a.arch.resolveLoop n e).map (turnedBy fs)) := by
    intro n
    induction n with
    | zero => intro e; exact like_raise _
    | succ n ih =>
      intro e
      unfold resolveLoop Embedded.resolveLoop
      rw [(hk e).2]
      by_cases hr : e.isRedirect = true
      · simp only [if_pos hr, (hk e).1]
        rcases hkind : e.kind with ⟨c, b⟩ | i
        · exact like_raise _
        · intro s
          have h1 := entryByIndex_like h (i : Int)
          simp only
          rcases he : a.arch.entryByIndex (i : Int) with x | e'
          · rw [he] at h1
            exact (h1.bind (k := fun e' => a.resolveLoop n e') (y := fun _ => .error x) fun _ h => by cases h) s
          · rw [he] at h1
            refine ((h1.bind (k := fun e' => a.resolveLoop n e')
              (y := fun _ => (a.arch.resolveLoop n e').map (turnedBy fs)) fun b hb => ?_) s)
            injection hb with hb
            subst hb
            exact ih e'
      · simp only [if_neg hr]
        exact like_pure _
  unfold resolve Embedded.resolve
  rw [(hk e).1]
  rcases hkind : e.kind with ⟨c, b⟩ | i
  · exact like_pure _
  · exact hl n e

theorem cluster_like (h : List.Forall₂ Processor.Turns a.processors fs) (kind : ClusterKind) (i : Nat) :
    Like (a.clusterByIndex kind i) (a.arch.clusterByIndex kind i) := by
  intro s
  unfold clusterByIndex
  have h1 : ∀ l, Like (tellAll (a.processors.map fun p => p.beforeCluster l)) (.ok ()) := fun l => tellAll_like fun m hm => by
    obtain ⟨p, hp, rfl⟩ := List.mem_map.1 hm
    obtain ⟨f, hf⟩ := all_turn h p hp
    exact hf.beforeCluster l
  have h2 : ∀ c : CSt D, Like (passOn (a.processors.map fun p => p.afterCluster) c) (.ok c) := fun c => passOn_same c fun m hm => by
    obtain ⟨p, hp, rfl⟩ := List.mem_map.1 hm
    obtain ⟨f, hf⟩ := all_turn h p hp
    exact hf.afterCluster c
  rw [((like_lift (a.arch.zim.clusters.getByIndex i)).bind fun l _ => (h1 l).bind fun _ _ =>
    (like_lift (a.arch.clusterByIndex kind i)).bind fun c _ => h2 c) s]
  unfold Embedded.clusterByIndex
  rcases a.arch.zim.clusters.getByIndex i with x | l
  · rfl
  · cases a.arch.zim.closed <;> rfl

theorem shows_turned (h : List.Forall₂ Processor.Turns a.processors fs) : ShowsTurned X a (turnedBy fs) where
  byIndex := entryByIndex_like h
  mainPage := by
    unfold mainpageEntry Embedded.mainpageEntry
    cases a.arch.zim.header.mainPage with
    | none => exact like_raise _
    | some i =>
      intro s
      rw [((like_lift (a.arch.zim.urls.getByIndex i)).bind fun l _ => entryAt_like h l) s]
      simp only
      rcases a.arch.zim.urls.getByIndex i with x | l <;> rfl
  entries start stop s := by
    unfold iterEntries Embedded.iterEntries
    rw [((like_lift (a.arch.zim.urls.iterPointers start stop)).bind fun ps _ => collect_like (entryAt_like h) ps) s]
    rcases a.arch.zim.urls.iterPointers start stop with x | ps
    · rfl
    · exact mapM_map ps
  articles start stop s := by
    unfold iterArticles Embedded.iterArticles
    rw [((like_lift (a.arch.zim.articles.iterPointers start stop)).bind fun ps _ => collect_like (entryByIndex_like h) ps) s]
    rcases a.arch.zim.articles.iterPointers start stop with x | ps
    · rfl
    · exact mapM_map ps
  byUrl hu := entryByFullUrl_like h hu
  has hu := hasEntry_like h hu
  resolved hk := resolve_like h hk
  contents kind e start stop s := by
    unfold readContent Embedded.readContent
    rcases e.kind with ⟨c, b⟩ | i
    · exact ((like_lift (Zim.checkRange start stop)).bind fun r _ => (cluster_like h kind c).bind fun st _ => like_lift _) s
    · rfl
  sizes kind e s := by
    unfold contentSize Embedded.contentSize
    rcases e.kind with ⟨c, b⟩ | i
    · exact ((cluster_like h kind c).bind fun st _ => like_lift _) s
    · rfl

end Processed
end Pyzim
