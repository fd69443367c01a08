import Verif.Lemmas.Processors
import Verif.Props.LowRam

/-!
# C97: processors when reading
-/

namespace Pyzim
namespace Processed
open PyM
variable {σ D : Type} {X : Codecs D} {a : Processed σ D} {fs gs : List (Entry → Entry)} {f : Entry → Entry}
  {ps qs : List (Processor σ D)} {p : Processor σ D} {log : σ → List (Int × Entry)}

/-- **C97, in full:** processors that do not raise change nothing but the entries that the caller gets. -/
def C97Full (σ D : Type) : Prop := ∀ (X : Codecs D) (a : Processed σ D) (fs : List (Entry → Entry)),
  List.Forall₂ Processor.Turns a.processors fs → ShowsTurned X a (turnedBy fs) ∧
    ∀ u s, (a.entryByFullUrl u s).1 = (a.arch.entryByFullUrl u).map (turnedBy fs)

/-- **C97.** With processors that turn entries into other ones, the caller gets what they make of the entries of the archive: each
processor gets what the one that was installed before it returned. Contents stay as they are. If they keep the urls, the same
entries are found by url. -/
theorem C97_turned_partial (h : List.Forall₂ Processor.Turns a.processors fs) : ShowsTurned X a (turnedBy fs) := shows_turned h

theorem turnedBy_ids {ps : List (Processor σ D)} (e : Entry) : turnedBy (ps.map fun _ => id) e = e := by
  unfold turnedBy
  induction ps with
  | nil => rfl
  | cons p ps ih => exact ih

/-- **C97.** Processors that only observe change nothing, whatever they remember: an archive shows the same as without them. -/
theorem C97_observers (h : ∀ p ∈ a.processors, p.Observes) : ShowsTurned X a id ∧
    (∀ u s, (a.entryByFullUrl u s).1 = a.arch.entryByFullUrl u) ∧ (∀ u s, (a.hasEntry u s).1 = a.arch.hasEntry u) ∧
    ∀ follow e s, (a.resolve follow e s).1 = a.arch.resolve follow e := by
  have hall : ∀ ps : List (Processor σ D), (∀ p ∈ ps, p.Observes) → List.Forall₂ Processor.Turns ps (ps.map fun _ => id) := by
    intro ps
    induction ps with
    | nil => intro _; exact .nil
    | cons p ps ih =>
      intro h
      exact .cons (h p List.mem_cons_self) (ih fun q hq => h q (List.mem_cons_of_mem _ hq))
  have h1 := shows_turned (X := X) (hall _ h)
  rw [show turnedBy (a.processors.map fun _ => id) = id from funext turnedBy_ids] at h1
  have hid : ∀ x : PyRes Entry, x.map id = x := fun x => by cases x <;> rfl
  exact ⟨h1, fun u s => (h1.byUrl (fun _ => rfl) u s).trans (hid _), h1.has fun _ => rfl,
    fun n e s => (h1.resolved (fun _ => ⟨rfl, rfl⟩) n e s).trans (hid _)⟩

/-- A processor is installed behind the others: it gets what they return. -/
theorem C97_installed (h : List.Forall₂ Processor.Turns a.processors fs) (hp : p.Turns f) :
    ShowsTurned X (a.install p) fun e => f (turnedBy fs e) := by
  have h1 := shows_turned (X := X) (a := a.install p) (fs := fs ++ [f])
    (List.rel_append h (.cons hp .nil))
  rwa [show turnedBy (fs ++ [f]) = fun e => f (turnedBy fs e) from funext fun e => by
    unfold turnedBy; rw [List.foldl_append]; rfl] at h1

/-- **C97.** Whoever gets a cluster gets what the processors make of it, each getting what the one before returned. -/
theorem C97_clusters {ks : List (CSt D → CSt D)} (h : List.Forall₂ Processor.TurnsClusters a.processors ks) (kind : ClusterKind) (i : Nat)
    (s : σ) : (a.clusterByIndex kind i s).1 = (a.arch.clusterByIndex kind i).map fun c => ks.foldl (fun c g => g c) c := by
  have hall : ∀ {ps : List (Processor σ D)} {ks : List (CSt D → CSt D)}, List.Forall₂ Processor.TurnsClusters ps ks →
      (∀ l, Like (tellAll (ps.map fun p => p.beforeCluster l)) (.ok ())) ∧
      ∀ c, Like (passOn (ps.map fun p => p.afterCluster) c) (.ok (ks.foldl (fun c g => g c) c)) := by
    intro ps ks h
    induction h with
    | nil => exact ⟨fun _ => like_pure (), fun c => like_pure c⟩
    | @cons p g ps ks h _ ih =>
      refine ⟨fun l => ?_, fun c => ?_⟩
      · exact (show Like (p.beforeCluster l) (.ok ()) from h.beforeCluster l).bind (y := fun _ => .ok ()) fun _ _ => ih.1 l
      · refine (show Like (p.afterCluster c) (.ok (g c)) from h.afterCluster c).bind
          (y := fun _ => .ok (ks.foldl (fun c g => g c) (g c))) fun b hb => ?_
        injection hb with hb
        subst hb
        exact ih.2 _
  unfold clusterByIndex
  rw [((like_lift (a.arch.zim.clusters.getByIndex i)).bind fun l _ => ((hall h).1 l).bind fun _ _ =>
    (like_lift (a.arch.clusterByIndex kind i)).bind fun c _ => (hall h).2 c) s]
  unfold Embedded.clusterByIndex
  rcases a.arch.zim.clusters.getByIndex i with x | l
  · rfl
  · cases a.arch.zim.closed <;> rfl

theorem passOn_append {α : Type} (xs ys : List (α → PyM σ α)) (x : α) :
    passOn (xs ++ ys) x = fun s => PyM.bind (passOn xs x) (passOn ys) s := by
  induction xs generalizing x with
  | nil => rfl
  | cons g xs ih =>
    funext s
    show (PyM.bind (g x) fun y => passOn (xs ++ ys) y) s = PyM.bind (PyM.bind (g x) fun y => passOn xs y) (passOn ys) s
    unfold PyM.bind
    rcases g x s with ⟨r, s'⟩
    cases r with
    | error e => rfl
    | ok y => exact congrFun (ih y) s'

theorem tellAll_log {ms : List (PyM σ Unit)} (h : ∀ m ∈ ms, ∀ s, log (m s).2 = log s) (s : σ) : log (tellAll ms s).2 = log s := by
  induction ms generalizing s with
  | nil => rfl
  | cons m ms ih =>
    show log (PyM.bind m (fun _ => tellAll ms) s).2 = _
    unfold PyM.bind
    have h1 := h m List.mem_cons_self s
    rcases hm : m s with ⟨r, s'⟩
    rw [hm] at h1
    cases r with
    | error e => exact h1
    | ok y => exact (ih (fun m' hm' => h m' (List.mem_cons_of_mem _ hm')) s').trans h1

theorem passOn_log (h : ∀ p ∈ ps, p.Silent log) (l : Int) (e : Entry) (s : σ) :
    log (passOn (ps.map fun p => p.afterEntry l) e s).2 = log s := by
  induction ps generalizing e s with
  | nil => rfl
  | cons p ps ih =>
    show log (PyM.bind (p.afterEntry l e) (fun e => passOn (ps.map fun p => p.afterEntry l) e) s).2 = _
    unfold PyM.bind
    have h1 := (h p List.mem_cons_self).afterEntry l e s
    rcases hm : p.afterEntry l e s with ⟨r, s'⟩
    rw [hm] at h1
    cases r with
    | error e => exact h1
    | ok y => exact (ih (fun q hq => h q (List.mem_cons_of_mem _ hq)) y s').trans h1

/-- what is noted when one entry is got -/
theorem entryAt_log (ha : a.processors = ps ++ p :: qs) (h1 : List.Forall₂ Processor.Turns ps fs) (h2 : p.Turns f)
    (h3 : List.Forall₂ Processor.Turns qs gs) (hps : ∀ q ∈ ps, q.Silent log) (hp : p.Notes log) (hqs : ∀ q ∈ qs, q.Silent log)
    {l : Int} {e : Entry} (he : a.arch.entryAt l = .ok e) (s : σ) :
    log (a.entryAt l s).2 = log s ++ [(l, turnedBy fs e)] := by
  have hl : 0 ≤ l := by
    by_contra hl
    unfold Embedded.entryAt at he
    rw [if_pos (by omega)] at he
    cases he
  have hall : List.Forall₂ Processor.Turns a.processors (fs ++ f :: gs) := by
    rw [ha]; exact List.rel_append h1 (.cons h2 h3)
  have t1 : Like (tellAll (a.processors.map fun p => p.beforeEntry l)) (.ok ()) := tellAll_like fun m hm => by
    obtain ⟨p, hp, rfl⟩ := List.mem_map.1 hm
    obtain ⟨f, hf⟩ := all_turn hall p hp
    exact hf.beforeEntry l
  have t2 : log (tellAll (a.processors.map fun p => p.beforeEntry l) s).2 = log s := tellAll_log (fun m hm s => by
    obtain ⟨q, hq, rfl⟩ := List.mem_map.1 hm
    rw [ha] at hq
    rcases List.mem_append.1 hq with hq | hq
    · exact (hps q hq).beforeEntry l s
    · rcases List.mem_cons.1 hq with rfl | hq
      · exact hp.beforeEntry l s
      · exact (hqs q hq).beforeEntry l s) s
  have t3 : a.entryAt l s = passOn (a.processors.map fun p => p.afterEntry l) e
      (tellAll (a.processors.map fun p => p.beforeEntry l) s).2 := by
    have u := t1 s
    unfold entryAt
    show PyM.bind (PyM.require _ _) (fun _ => PyM.bind (tellAll _) fun _ => PyM.bind (PyM.lift _) fun e => passOn _ e) s = _
    unfold PyM.bind PyM.require PyM.lift
    rw [decide_eq_true hl, he]
    simp only [if_true]
    rcases hm : tellAll (a.processors.map fun p => p.beforeEntry l) s with ⟨r, s'⟩
    rw [hm] at u
    simp only at u
    subst u
    simp only [hm]
  rw [t3, ← t2]
  generalize (tellAll (a.processors.map fun p => p.beforeEntry l) s).2 = s1
  rw [ha, List.map_append, passOn_append, List.map_cons]
  have u1 := passOn_turned h1 l e s1
  have u2 := passOn_log hps l e s1
  unfold PyM.bind
  rcases hm : passOn (ps.map fun p => p.afterEntry l) e s1 with ⟨r, s2⟩
  rw [hm] at u1 u2
  simp only at u1
  subst u1
  simp only [hm]
  show log (PyM.bind (p.afterEntry l (turnedBy fs e)) (fun x => passOn (qs.map fun p => p.afterEntry l) x) s2).2 = _
  unfold PyM.bind
  have v1 := h2.afterEntry l (turnedBy fs e) s2
  have v2 := hp.afterEntry l (turnedBy fs e) s2
  rcases hm : p.afterEntry l (turnedBy fs e) s2 with ⟨r, s3⟩
  rw [hm] at v1 v2
  simp only at v1
  subst v1
  simp only
  rw [passOn_log hqs, v2, u2]

/-- **C97.** A processor that notes the entries is told about exactly the entries that are got, in order, with their locations, as
the processors before it turned them: when iterating over the archive, each entry once. -/
theorem C97_told (ha : a.processors = ps ++ p :: qs) (h1 : List.Forall₂ Processor.Turns ps fs) (h2 : p.Turns f)
    (h3 : List.Forall₂ Processor.Turns qs gs) (hps : ∀ q ∈ ps, q.Silent log) (hp : p.Notes log) (hqs : ∀ q ∈ qs, q.Silent log)
    {start stop : Option Nat} {ls : List Int} {es : List Entry} (hls : a.arch.zim.urls.iterPointers start stop = .ok ls)
    (hes : a.arch.iterEntries start stop = .ok es) (s : σ) :
    log (a.iterEntries start stop s).2 = log s ++ ls.zip (es.map (turnedBy fs)) := by
  have hes' : ls.mapM a.arch.entryAt = .ok es := by
    unfold Embedded.iterEntries at hes
    rw [hls] at hes
    exact hes
  have hc : log (collect a.entryAt ls s).2 = log s ++ ls.zip (es.map (turnedBy fs)) := by
    clear hls hes
    induction ls generalizing es s with
    | nil =>
      cases hes'
      simp [collect, pure, PyM.pure]
    | cons l ls ih =>
      rw [List.mapM_cons] at hes'
      rcases he : a.arch.entryAt l with x | e
      · rw [he] at hes'; cases hes'
      rw [he] at hes'
      rcases hr : ls.mapM a.arch.entryAt with x | es'
      · rw [hr] at hes'; cases hes'
      rw [hr] at hes'
      injection hes' with hes'
      subst hes'
      have g1 := entryAt_log ha h1 h2 h3 hps hp hqs he s
      have g2 : (a.entryAt l s).1 = .ok (turnedBy (fs ++ f :: gs) e) := by
        rw [entryAt_like (fs := fs ++ f :: gs) (by rw [ha]; exact List.rel_append h1 (.cons h2 h3)) l s, he]
        rfl
      show log (PyM.bind (a.entryAt l) (fun b => PyM.bind (collect a.entryAt ls) fun bs => pure (b :: bs)) s).2 = _
      unfold PyM.bind
      rcases hm : a.entryAt l s with ⟨r, s'⟩
      rw [hm] at g1 g2
      simp only at g2
      subst g2
      have g3 := ih s' hr
      simp only at g1 ⊢
      rcases hm' : collect a.entryAt ls s' with ⟨r', s''⟩
      rw [hm'] at g3
      have g4 : log s'' = log s ++ (l :: ls).zip ((e :: es').map (turnedBy fs)) := by
        rw [show log s'' = _ from g3, g1]
        simp
      cases r' <;> exact g4
  show log (PyM.bind (PyM.lift (a.arch.zim.urls.iterPointers start stop)) (fun ps => collect a.entryAt ps) s).2 = _
  unfold PyM.bind PyM.lift
  rw [hls]
  exact hc

/-- **C97.** What a processor raises, the caller gets. -/
theorem C97_raises (ha : a.processors = ps ++ p :: qs) (h1 : List.Forall₂ Processor.Turns ps fs)
    (hb : ∀ q ∈ p :: qs, ∀ l s, (q.beforeEntry l s).1 = .ok ()) {i : Int} {e : Entry} {x : PyErr}
    (he : a.arch.entryByIndex i = .ok e) (hx : ∀ l s, (p.afterEntry l (turnedBy fs e) s).1 = .error x) (s : σ) :
    (a.entryByIndex i s).1 = .error x := by
  unfold Embedded.entryByIndex at he
  unfold entryByIndex
  by_cases hi : i < 0
  · rw [if_pos hi] at he; cases he
  rw [if_neg hi] at he ⊢
  rcases hl : a.arch.zim.urls.getByIndex i with y | l
  · rw [hl] at he
    cases y <;> cases he
  rw [hl] at he
  simp only at he
  have hl0 : 0 ≤ l := by
    by_contra hl
    unfold Embedded.entryAt at he
    rw [if_pos (by omega)] at he
    cases he
  have t1 : Like (tellAll (a.processors.map fun p => p.beforeEntry l)) (.ok ()) := tellAll_like fun m hm => by
    obtain ⟨q, hq, rfl⟩ := List.mem_map.1 hm
    rw [ha] at hq
    rcases List.mem_append.1 hq with hq | hq
    · obtain ⟨g, hg⟩ := all_turn h1 q hq
      exact hg.beforeEntry l
    · exact hb q hq l
  have t2 : Like (passOn (a.processors.map fun p => p.afterEntry l) e) (.error x) := by
    rw [ha, List.map_append, passOn_append, List.map_cons]
    have := (passOn_turned h1 l e).bind (k := fun e' => passOn (p.afterEntry l :: qs.map fun p => p.afterEntry l) e')
      (y := fun _ => .error x) (fun e' he' => by
        injection he' with he'
        subst he'
        exact (show Like (p.afterEntry l (turnedBy fs e)) (.error x) from hx l).bind
          (k := fun e' => passOn (qs.map fun p => p.afterEntry l) e') (y := fun _ => .error x) fun _ h => by cases h)
    exact this
  have t3 : Like (PyM.require (σ := σ) (decide (0 ≤ l)) .assertionError) (.ok ()) := by
    intro s
    unfold PyM.require
    rw [decide_eq_true hl0]
    rfl
  have t4 : Like (PyM.lift (σ := σ) (a.arch.entryAt l)) (.ok e) := by rw [he]; exact like_lift _
  have t5 : Like (a.entryAt l) (.error x) :=
    t3.bind (y := fun _ => .error x) fun _ _ => t1.bind (y := fun _ => .error x) fun _ _ => t4.bind (y := fun _ => .error x) fun e' he' => by
      injection he' with he'
      subst he'
      exact t2
  exact (((like_lift (Except.ok l : PyRes Int)).catching _).bind (y := fun _ => .error x) fun l' hl' => by
    injection hl' with hl'
    subst hl'
    exact t5) s

/-! ### Concrete cases -/

/-- a number, and notes -/
abbrev Notebook := Nat × List (Int × Entry)

/-- a processor that counts the entries it sees, in the first part of the state -/
def counting : Processor Notebook (Bytes ⊕ Toy.Esc) where
  afterEntry := fun _ e s => (.ok e, (s.1 + 1, s.2))

/-- a processor that changes the titles -/
def shouting : Processor Notebook (Bytes ⊕ Toy.Esc) where
  afterEntry := fun _ e s => (.ok { e with titleRaw := some (e.url ++ "!") }, s)

/-- a processor that notes the entries -/
def noting : Processor Notebook (Bytes ⊕ Toy.Esc) where
  afterEntry := fun l e s => (.ok e, (s.1, s.2 ++ [(l, e)]))

/-- a processor that changes the urls -/
def relocating : Processor Notebook (Bytes ⊕ Toy.Esc) where
  afterEntry := fun _ e s => (.ok { e with url := e.url ++ "x" }, s)

/-- a processor that raises -/
def raising : Processor Notebook (Bytes ⊕ Toy.Esc) where
  afterEntry := fun _ _ s => (.error .valueError, s)

theorem counting_observes : counting.Observes :=
  ⟨fun _ _ => rfl, fun _ _ _ => rfl, fun _ _ => rfl, fun _ _ => rfl⟩
theorem shouting_turns : shouting.Turns fun e => { e with titleRaw := some (e.url ++ "!") } :=
  ⟨fun _ _ => rfl, fun _ _ _ => rfl, fun _ _ => rfl, fun _ _ => rfl⟩
theorem noting_observes : noting.Observes :=
  ⟨fun _ _ => rfl, fun _ _ _ => rfl, fun _ _ => rfl, fun _ _ => rfl⟩
theorem relocating_turns : relocating.Turns fun e => { e with url := e.url ++ "x" } :=
  ⟨fun _ _ => rfl, fun _ _ _ => rfl, fun _ _ => rfl, fun _ _ => rfl⟩

/-- the archive of C96, with some processors -/
def withProcessors (ps : List (Processor Notebook (Bytes ⊕ Toy.Esc))) : Option (Processed Notebook (Bytes ⊕ Toy.Esc)) :=
  match Embedded.load Toy.codecs .inMemory 3 0 LowRam.lrPlain with
  | .ok z => some { arch := z, processors := ps }
  | .error _ => none

/-- what is seen of an entry: url and title -/
def seen (r : PyRes Entry) : PyRes (String × String) := r.map fun e => (e.fullUrl, e.title)

theorem processors_facts :
    (match withProcessors [counting, shouting, noting, counting] with
      | some a => decide (seen (a.entryByFullUrl "Ca" (0, [])).1 = .ok ("Ca", "a!") ∧
          a.arch.zim.urls.iterPointers none none = .ok [107, 126] ∧
          LowRam.urlsOf (a.arch.iterEntries none none) = .ok ["Ca", "Xlisting/titleOrdered/v1"] ∧
          (a.iterEntries none none (0, [])).2.1 = 4 ∧
          (a.iterEntries none none (0, [])).2.2.map (fun q => (q.1, q.2.fullUrl, q.2.title)) =
            [(107, "Ca", "a!"), (126, "Xlisting/titleOrdered/v1", "listing/titleOrdered/v1!")])
      | none => false) = true ∧
    (match withProcessors [relocating] with
      | some a => decide (seen (a.arch.entryByFullUrl "Ca") = .ok ("Ca", "a") ∧
          seen (a.entryByFullUrl "Ca" (0, [])).1 = .error .entryNotFound)
      | none => false) = true ∧
    (match withProcessors [counting, raising] with
      | some a => decide (seen (a.arch.entryByIndex 0) = .ok ("Ca", "a") ∧ seen (a.entryByIndex 0 (0, [])).1 = .error .valueError)
      | none => false) = true := by decide +kernel

/-- **C97, finding.** The processors are called for the entries that a search compares with, too: with a processor that changes the
urls of the entries that are returned, entries can not be found by the urls they have. -/
theorem C97_url_fails : ∃ (a : Processed Notebook (Bytes ⊕ Toy.Esc)) (s : Notebook),
    a.processors = [relocating] ∧ seen (a.arch.entryByFullUrl "Ca") = .ok ("Ca", "a") ∧
    (a.entryByFullUrl "Ca" s).1 = .error .entryNotFound := by
  have h := processors_facts.2.1
  unfold withProcessors at h
  cases hz : Embedded.load Toy.codecs .inMemory 3 0 LowRam.lrPlain with
  | error x => rw [hz] at h; cases h
  | ok z =>
    rw [hz] at h
    obtain ⟨h1, h2⟩ := of_decide_eq_true h
    refine ⟨{ arch := z, processors := [relocating] }, (0, []), rfl, h1, ?_⟩
    revert h2
    show seen (entryByFullUrl { arch := z, processors := [relocating] } "Ca" (0, [])).1 = _ → _
    generalize (entryByFullUrl { arch := z, processors := [relocating] } "Ca" (0, [])).1 = r
    intro h2
    cases r with
    | error x =>
      have h2 : (Except.error x : PyRes (String × String)) = .error .entryNotFound := h2
      rw [Except.error.inj h2]
    | ok e => cases h2

theorem C97_full_fails : ¬ C97Full Notebook (Bytes ⊕ Toy.Esc) := by
  intro h
  obtain ⟨a, s, h1, h2, h3⟩ := C97_url_fails
  have h4 := (h Toy.codecs a [fun e => { e with url := e.url ++ "x" }] (by rw [h1]; exact .cons relocating_turns .nil)).2 "Ca" s
  rw [h3] at h4
  rcases hr : a.arch.entryByFullUrl "Ca" with x | e
  · rw [hr] at h2; cases h2
  · rw [hr] at h4; cases h4

/-- The conditions of `C97_turned_partial` and `C97_installed` can be met, with a processor that changes titles, as the documentation
of processors suggests. -/
example (a : Processed Notebook (Bytes ⊕ Toy.Esc)) (ha : a.processors = [counting, shouting]) (u : String)
    (s : Notebook) : (a.entryByFullUrl u s).1 =
      (a.arch.entryByFullUrl u).map fun e => { e with titleRaw := some (e.url ++ "!") } :=
  (C97_turned_partial (X := Toy.codecs) (fs := [id, fun e => { e with titleRaw := some (e.url ++ "!") }])
    (by rw [ha]; exact .cons counting_observes (.cons shouting_turns .nil))).byUrl (fun _ => rfl) u s

/-- The conditions of `C97_observers` can be met. -/
example (z : Embedded) (u : String) (s : Notebook) :
    (entryByFullUrl { arch := z, processors := [counting, noting] } u s).1 = z.entryByFullUrl u :=
  (C97_observers (X := Toy.codecs) (a := { arch := z, processors := [counting, noting] }) (fun p hp => by
    simp only [List.mem_cons, List.not_mem_nil, or_false] at hp
    rcases hp with rfl | rfl
    · exact counting_observes
    · exact noting_observes)).2.1 u s

/-- a processor that reads clusters into memory -/
def loading : Processor Notebook (Bytes ⊕ Toy.Esc) where
  afterCluster := fun c s => (.ok { c with c := { c.c with kind := .inMemory } }, (s.1 + 1, s.2))

/-- The conditions of `C97_clusters` can be met. -/
example (z : Embedded) (i : Nat) (s : Notebook) :
    (clusterByIndex .onDisk { arch := z, processors := [counting, loading] } i s).1 = z.clusterByIndex .inMemory i := by
  rw [C97_clusters (a := { arch := z, processors := [counting, loading] })
    (ks := [id, fun c => { c with c := { c.c with kind := .inMemory } }])
    (.cons ⟨fun _ _ => rfl, fun _ _ => rfl⟩ (.cons ⟨fun _ _ => rfl, fun _ _ => rfl⟩ .nil)) .onDisk i s]
  unfold Embedded.clusterByIndex
  rcases z.zim.clusters.getByIndex i with x | l
  · rfl
  · cases z.zim.closed <;> rfl

/-- The conditions of `C97_told` can be met. -/
example : ∃ (a : Processed Notebook (Bytes ⊕ Toy.Esc)) (es : List Entry), es.map Entry.fullUrl = ["Ca", "Xlisting/titleOrdered/v1"] ∧
    (a.iterEntries none none (0, [])).2.2 = [107, 126].zip (es.map fun e => { e with titleRaw := some (e.url ++ "!") }) := by
  have h := processors_facts.1
  unfold withProcessors at h
  cases hz : Embedded.load Toy.codecs .inMemory 3 0 LowRam.lrPlain with
  | error x => rw [hz] at h; cases h
  | ok z =>
    rw [hz] at h
    obtain ⟨-, hp, h2, -, -⟩ := of_decide_eq_true h
    rcases he : z.iterEntries none none with x | es
    · rw [he] at h2; cases h2
    · rw [he] at h2
      injection h2 with h2
      exact ⟨_, es, h2, C97_told (a := { arch := z, processors := [counting, shouting, noting, counting] })
        (ps := [counting, shouting]) (p := noting) (qs := [counting]) (log := Prod.snd)
        (fs := [id, fun e => { e with titleRaw := some (e.url ++ "!") }])
        (f := id) (gs := [id]) rfl (.cons counting_observes (.cons shouting_turns .nil)) noting_observes
        (.cons counting_observes .nil) (by
          intro q hq
          simp only [List.mem_cons, List.not_mem_nil, or_false] at hq
          rcases hq with rfl | rfl <;> exact ⟨fun _ _ => rfl, fun _ _ _ => rfl⟩)
        ⟨fun _ _ => rfl, fun _ _ _ => rfl⟩ (by
          intro q hq
          simp only [List.mem_cons, List.not_mem_nil, or_false] at hq
          rcases hq with rfl
          exact ⟨fun _ _ => rfl, fun _ _ _ => rfl⟩) hp he (0, [])⟩

/-- The conditions of `C97_raises` can be met. -/
example (z : Embedded) (e : Entry) (he : z.entryByIndex 0 = .ok e) (s : Notebook) :
    (entryByIndex { arch := z, processors := [counting, raising] } 0 s).1 = .error .valueError :=
  C97_raises (ps := [counting]) (p := raising) (qs := []) rfl (.cons counting_observes .nil) (by
    intro q hq l s
    simp only [List.mem_cons, List.not_mem_nil, or_false] at hq
    rcases hq with rfl
    rfl) he (fun _ _ => rfl) s

end Processed
end Pyzim
