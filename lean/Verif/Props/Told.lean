import Verif.Props.Interrupted
import Verif.Props.Refused
import Verif.Spec.Told

/-!
# C99: what processors are told when an archive is flushed and closed
-/

namespace Pyzim
namespace Creator
open Zim (Redirect)

variable {σ D K : Type} {S : Setup D K} {c c' c1 : Creator D} {hs hs' : List (Listener σ D)} {h : Listener σ D} {m m0 : Moment} {x : PyErr}
  {s : σ} {is : List Nat} {d : Diary D}

theorem tellAll_calm : ∀ (ms : List (PyM σ Unit)), (∀ g ∈ ms, ∀ s, (g s).1 = .ok ()) → ∀ s, ∃ s', tellAll ms s = (.ok (), s') := by
  intro ms
  induction ms with
  | nil => intro _ s; exact ⟨s, rfl⟩
  | cons g ms ih =>
    intro hm s
    obtain ⟨s2, h2⟩ := ih (fun g hg => hm g (List.mem_cons_of_mem _ hg)) (g s).2
    exact ⟨s2, by rw [← h2]; exact PyM.bind_ok (Prod.ext (hm g List.mem_cons_self s) rfl)⟩

theorem tellAll_raises {g : PyM σ Unit} {ms ms' : List (PyM σ Unit)} (hm : ∀ g ∈ ms, ∀ s, (g s).1 = .ok ())
    (hg : ∀ s, (g s).1 = .error x) (s : σ) : ∃ s', tellAll (ms ++ g :: ms') s = (.error x, s') := by
  induction ms generalizing s with
  | nil => exact ⟨(g s).2, PyM.bind_err (Prod.ext (hg s) rfl)⟩
  | cons f ms ih =>
    obtain ⟨s2, h2⟩ := ih (fun g hg => hm g (List.mem_cons_of_mem _ hg)) (f s).2
    exact ⟨s2, by rw [← h2]; exact PyM.bind_ok (Prod.ext (hm f List.mem_cons_self s) rfl)⟩

theorem tell_calm (hc : ∀ h ∈ hs, ∀ c s, (h m c s).1 = .ok ()) (s : σ) (c : Creator D) :
    ∃ s', tell hs m (s, c) = (.ok (), (s', c)) := by
  obtain ⟨s', h'⟩ := tellAll_calm (hs.map fun h => h m c) (by
    intro g hg
    obtain ⟨h, hh, rfl⟩ := List.mem_map.1 hg
    exact hc h hh c) s
  exact ⟨s', by simp only [tell, PyM.of_apply, h']⟩

/-- **C99.** What a processor raises, the caller gets, if those before it do not raise; the archive is as it was. -/
theorem C99_moment_raises (hc : ∀ h ∈ hs, h.Calm) (hx : h.RaisesIn m x) (s : σ) (c : Creator D) :
    ∃ s', tell (hs ++ h :: hs') m (s, c) = (.error x, (s', c)) := by
  obtain ⟨s', h'⟩ := tellAll_raises (g := h m c) (ms := hs.map fun h => h m c) (ms' := hs'.map fun h => h m c) (x := x) (by
    intro g hg
    obtain ⟨h, hh, rfl⟩ := List.mem_map.1 hg
    exact hc h hh m c) (fun s => by rw [hx m c s, if_pos rfl]) s
  exact ⟨s', by simp only [tell, PyM.of_apply, List.map_append, List.map_cons, h']⟩

theorem tell_other (hc : ∀ h ∈ hs, h.Calm) (hc' : ∀ h ∈ hs', h.Calm) (hx : h.RaisesIn m0 x) (hm : m ≠ m0) (s : σ) (c : Creator D) :
    ∃ s', tell (hs ++ h :: hs') m (s, c) = (.ok (), (s', c)) := by
  refine tell_calm (fun g hg c s => ?_) s c
  rcases List.mem_append.1 hg with hg | hg
  · exact hc g hg m c s
  · rcases List.mem_cons.1 hg with rfl | hg
    · rw [hx m c s, if_neg hm]
    · exact hc' g hg m c s

theorem tellAll_noting (is : List Nat) : ∀ d : Diary D,
    tellAll ((is.map Listener.noting).map fun h => h m c) d = (.ok (), d ++ told is m c) := by
  induction is with
  | nil => intro d; simp [told, tellAll]
  | cons i is ih =>
    intro d
    refine (PyM.bind_ok (show Listener.noting i m c d = (.ok (), d ++ [(i, m, c)]) from rfl)).trans ?_
    rw [ih]
    simp [told]

/-- **C99.** Each processor is told once, in the order of the list. -/
theorem C99_moment_told (is : List Nat) (d : Diary D) (c : Creator D) :
    tell (is.map Listener.noting) m (d, c) = (.ok (), (d ++ told is m c, c)) := by
  simp only [tell, PyM.of_apply, tellAll_noting]

/-- **C99.** Without processors, a flush is the flush of the contents, and then of the lists. -/
theorem C99_content_then_lists (ho : c.arch.zim.closed = false) (hm : c.arch.zim.mutable = true) (hd : c.arch.isDirty = true) :
    flush S c = (flushContent S >>= fun _ => flushLists S) c := by
  unfold flush
  rw [PyM.get_bind, ho, hm, hd, PyM.bind_ok (show PyM.require (!false) .zimFileClosed c = (.ok (), c) from rfl),
    PyM.bind_ok (show PyM.require true .nonMutable c = (.ok (), c) from rfl), if_pos rfl]
  unfold flushContent flushLists Archive.flushDirty
  simp only [onArch_bind, PyM.bind_assoc_fn]
  rfl

theorem content_parts : flushContent S c = interrupted S 3 c := by
  unfold flushContent interrupted flushParts
  simp only [List.take_succ_cons, List.take_zero, runParts]
  have : ∀ (g : PyM (Creator D) Unit), (g >>= fun _ => pure ()) = g := by
    intro g
    funext s
    show PyM.bind g _ s = _
    unfold PyM.bind
    cases g s with
    | mk r s' => cases r <;> rfl
  rw [this]

theorem quietly_eq {g : PyM (Creator D) Unit} {r : PyRes Unit} (e : g c = (r, c')) :
    quietly g (s, c) = (r, (s, c')) := by
  simp only [quietly, PyM.of_apply, e]

theorem quietly_modify (f : Creator D → Creator D) (s : σ) (c : Creator D) : quietly (PyM.modify f) (s, c) = (.ok (), (s, f c)) := rfl

/-- the checks at the beginning of a flush -/
theorem flushTold_open (ho : c.arch.zim.closed = false) (hm : c.arch.zim.mutable = true) (s : σ) :
    flushTold S hs (s, c) = (tell hs .beforeFlush >>= fun _ => if c.arch.isDirty then (do
      quietly (flushContent S)
      tell hs .afterContentFlush
      quietly (flushLists S)
      tell hs .afterFlush) else pure () : PyM (σ × Creator D) Unit) (s, c) := by
  unfold flushTold
  rw [PyM.get_bind]
  simp only [ho, hm]
  rw [PyM.bind_ok (show PyM.require (!false) .zimFileClosed (s, c) = (.ok (), (s, c)) from rfl),
    PyM.bind_ok (show PyM.require true .nonMutable (s, c) = (.ok (), (s, c)) from rfl)]

/-- **C99.** A flush of an archive that is closed or cannot be changed raises the same error as without processors, and these
are not called. -/
theorem C99_refused (hc : c.arch.zim.closed = true ∨ c.arch.zim.mutable = false) (hs : List (Listener σ D)) (s : σ) :
    flushTold S hs (s, c) = ((flush S c).1, (s, c)) ∧ (flush S c).1 ≠ .ok () := by
  unfold flushTold flush
  simp only [PyM.get_bind]
  cases ho : c.arch.zim.closed with
  | true => exact ⟨rfl, by rintro ⟨⟩⟩
  | false =>
    cases hm : c.arch.zim.mutable with
    | false => exact ⟨rfl, by rintro ⟨⟩⟩
    | true => rw [ho, hm] at hc; rcases hc with hc | hc <;> cases hc

/-- **C99.** Processors whose methods do not raise change nothing: `flush` returns or raises what it does without them, and the
archive is the same afterwards. -/
theorem C99_flush_same (hc : ∀ h ∈ hs, h.Calm) (s : σ) (c : Creator D) :
    (flushTold S hs (s, c)).1 = (flush S c).1 ∧ (flushTold S hs (s, c)).2.2 = (flush S c).2 := by
  by_cases ho : c.arch.zim.closed = true ∨ c.arch.zim.mutable = false
  · rw [(C99_refused (S := S) ho hs s).1]
    refine ⟨rfl, ?_⟩
    unfold flush
    rw [PyM.get_bind]
    rcases ho with ho | ho
    · rw [ho]; rfl
    · rw [ho]; cases c.arch.zim.closed <;> rfl
  · rw [not_or, Bool.not_eq_true, Bool.not_eq_false] at ho
    obtain ⟨s1, e1⟩ := tell_calm (m := .beforeFlush) (fun h hh => hc h hh _) s c
    rw [flushTold_open ho.1 ho.2, PyM.bind_ok e1]
    cases hd : c.arch.isDirty with
    | false =>
      unfold flush
      rw [PyM.get_bind, ho.1, ho.2, hd]
      exact ⟨rfl, rfl⟩
    | true =>
      rw [if_pos rfl, C99_content_then_lists ho.1 ho.2 hd]
      cases e2 : flushContent S c with
      | mk r2 c2 =>
      cases r2 with
      | error y =>
        rw [PyM.bind_err (quietly_eq e2), PyM.bind_err e2]
        exact ⟨rfl, rfl⟩
      | ok u =>
        rw [PyM.bind_ok (quietly_eq e2), PyM.bind_ok e2]
        obtain ⟨s3, e3⟩ := tell_calm (m := .afterContentFlush) (fun h hh => hc h hh _) s1 c2
        rw [PyM.bind_ok e3]
        cases e4 : flushLists S c2 with
        | mk r4 c4 =>
        cases r4 with
        | error y =>
          rw [PyM.bind_err (quietly_eq e4)]
          exact ⟨rfl, rfl⟩
        | ok u =>
          rw [PyM.bind_ok (quietly_eq e4)]
          obtain ⟨s5, e5⟩ := tell_calm (m := .afterFlush) (fun h hh => hc h hh _) s3 c4
          rw [e5]
          exact ⟨rfl, rfl⟩

/-- **C99.** … and so does `close`. -/
theorem C99_close_same (hc : ∀ h ∈ hs, h.Calm) (s : σ) (c : Creator D) :
    (closeTold S hs (s, c)).1 = (close S c).1 ∧ (closeTold S hs (s, c)).2.2 = (close S c).2 := by
  unfold closeTold close
  obtain ⟨s1, e1⟩ := tell_calm (m := .beforeClose) (fun h hh => hc h hh _) s c
  rw [PyM.bind_ok e1, PyM.get_bind]
  obtain ⟨r2, s2, c2, e2, e2'⟩ : ∃ r2 s2 c2, flushIfDirty S hs (s1, c) = (r2, (s2, c2)) ∧
      (if c.arch.isDirty then flush S else pure () : PyM (Creator D) Unit) c = (r2, c2) := by
    unfold flushIfDirty
    rw [PyM.get_bind]
    cases hd : c.arch.isDirty with
    | false => exact ⟨_, _, _, rfl, rfl⟩
    | true =>
      obtain ⟨k1, k2⟩ := C99_flush_same (S := S) hc s1 c
      exact ⟨_, _, _, Prod.ext rfl rfl, Prod.ext k1.symm k2.symm⟩
  cases r2 with
  | error y =>
    rw [PyM.bind_err e2, PyM.bind_err e2']
    exact ⟨rfl, rfl⟩
  | ok u =>
    rw [PyM.bind_ok e2, PyM.bind_ok e2', PyM.bind_ok (quietly_modify _ s2 c2)]
    obtain ⟨s3, e3⟩ := tell_calm (m := .afterClose) (fun h hh => hc h hh _) s2
      { c2 with arch := { c2.arch with zim := { c2.arch.zim with closed := true } } }
    rw [e3]
    exact ⟨rfl, rfl⟩

/-- **C99, in full.** Whenever `flush` returns, each processor was told before and after it. -/
def C99Full (D K : Type) : Prop := ∀ (S : Setup D K) (md5 : Bytes → Bytes) (r : Nat) (c : Creator D) (done : List (List Sourced))
  (recent : List Sourced) (rs : List Redirect) (is : List Nat) (d d' : Diary D) (c' : Creator D), 2 ≤ r → S.Good md5 (some r) →
  CreatorHist S c done recent rs → flushTold S (is.map Listener.noting) (d, c) = (.ok (), (d', c')) →
  ∀ i ∈ is, (∃ c1, (i, .beforeFlush, c1) ∈ d'.drop d.length) ∧ ∃ c2, (i, .afterFlush, c2) ∈ d'.drop d.length

/-- **C99, partial.** While an archive with unsaved changes is flushed, each processor is told three times, in the order in
which they were installed: before anything is written, once all contents are written and none of the lists, and at the end, when
the archive is as it is when `flush` returns. -/
theorem C99_told_partial (ho : c.arch.zim.closed = false) (hm : c.arch.zim.mutable = true) (hd : c.arch.isDirty = true)
    (hf : flush S c = (.ok (), c')) (is : List Nat) (d : Diary D) :
    ∃ c1, interrupted S 3 c = (.ok (), c1) ∧
      flushTold S (is.map Listener.noting) (d, c) =
        (.ok (), (d ++ told is .beforeFlush c ++ told is .afterContentFlush c1 ++ told is .afterFlush c', c')) := by
  rw [C99_content_then_lists ho hm hd] at hf
  obtain ⟨⟨⟩, c1, e1, e2⟩ := PyM.bind_ok_iff.1 hf
  refine ⟨c1, content_parts.symm.trans e1, ?_⟩
  rw [flushTold_open ho hm, PyM.bind_ok (C99_moment_told is d c), hd, if_pos rfl, PyM.bind_ok (quietly_eq e1), PyM.bind_ok (C99_moment_told is _ c1),
    PyM.bind_ok (quietly_eq e2), C99_moment_told]

/-- **C99.** If a flush raises an error, no processor is told that the archive was flushed. -/
theorem C99_failed (hf : flush S c = (.error x, c')) (is : List Nat) (d : Diary D) :
    ∃ d', flushTold S (is.map Listener.noting) (d, c) = (.error x, (d ++ d', c')) ∧ ∀ i c2, (i, .afterFlush, c2) ∉ d' := by
  by_cases hh : c.arch.zim.closed = true ∨ c.arch.zim.mutable = false
  · have h1 := (C99_flush_same (S := S) (hs := is.map Listener.noting) (by
      intro h hh
      obtain ⟨i, -, rfl⟩ := List.mem_map.1 hh
      exact fun _ _ _ => rfl) d c).2
    rw [(C99_refused (S := S) hh (is.map Listener.noting) d).1, hf] at h1 ⊢
    simp only at h1
    exact ⟨[], by rw [h1, List.append_nil], by simp⟩
  · rw [not_or, Bool.not_eq_true, Bool.not_eq_false] at hh
    cases hd : c.arch.isDirty with
    | false =>
      unfold flush at hf
      rw [PyM.get_bind, hh.1, hh.2, hd] at hf
      cases hf
    | true =>
      rw [C99_content_then_lists hh.1 hh.2 hd] at hf
      rw [flushTold_open hh.1 hh.2, PyM.bind_ok (C99_moment_told is d c), hd, if_pos rfl]
      cases e2 : flushContent S c with
      | mk r2 c2 =>
      cases r2 with
      | error y =>
        rw [PyM.bind_err e2] at hf
        rw [PyM.bind_err (quietly_eq e2)]
        injection hf with h1 h2
        injection h1 with h1
        subst h1 h2
        exact ⟨told is .beforeFlush c, rfl, by simp [told]⟩
      | ok u =>
        rw [PyM.bind_ok e2] at hf
        rw [PyM.bind_ok (quietly_eq e2), PyM.bind_ok (C99_moment_told is _ c2), PyM.bind_err (quietly_eq hf)]
        exact ⟨told is .beforeFlush c ++ told is .afterContentFlush c2, by rw [List.append_assoc], by simp [told]⟩

/-- **C99.** `close` tells each processor before anything else, then those of `flush` if there are unsaved changes, and at the end,
when the archive is closed. -/
theorem C99_close_told (ho : c.arch.zim.closed = false) (hm : c.arch.zim.mutable = true) (hf : close S c = (.ok (), c')) (is : List Nat)
    (d : Diary D) :
    c'.arch.zim.closed = true ∧
    ((c.arch.isDirty = false ∧ closeTold S (is.map Listener.noting) (d, c) =
      (.ok (), (d ++ told is .beforeClose c ++ told is .afterClose c', c'))) ∨
    c.arch.isDirty = true ∧ ∃ c1 c2, interrupted S 3 c = (.ok (), c1) ∧ flush S c = (.ok (), c2) ∧
      closeTold S (is.map Listener.noting) (d, c) = (.ok (), (d ++ told is .beforeClose c ++ told is .beforeFlush c ++
        told is .afterContentFlush c1 ++ told is .afterFlush c2 ++ told is .afterClose c', c'))) := by
  unfold closeTold
  rw [PyM.bind_ok (C99_moment_told is d c)]
  unfold close at hf
  rw [PyM.get_bind] at hf
  unfold flushIfDirty
  obtain ⟨⟨⟩, c2, e1, e2⟩ := PyM.bind_ok_iff.1 hf
  have e3 : c' = { c2 with arch := { c2.arch with zim := { c2.arch.zim with closed := true } } } := by
    injection e2 with _ e2
    exact e2.symm
  refine ⟨by rw [e3], ?_⟩
  cases hd : c.arch.isDirty with
  | false =>
    refine .inl ⟨rfl, ?_⟩
    rw [hd, if_neg (by simp)] at e1
    injection e1 with _ e1
    rw [PyM.bind_ok (a := ()) (s' := (d ++ told is .beforeClose c, c)) (by rw [PyM.get_bind]; simp only [hd]; rfl),
      PyM.bind_ok (quietly_modify _ _ c), C99_moment_told, e3, ← e1]
  | true =>
    rw [hd, if_pos rfl] at e1
    obtain ⟨c1, h1, h2⟩ := C99_told_partial ho hm hd e1 is (d ++ told is .beforeClose c)
    refine .inr ⟨rfl, c1, c2, h1, e1, ?_⟩
    rw [PyM.bind_ok (a := ()) (s' := _) (by rw [PyM.get_bind]; simp only [hd]; exact h2),
      PyM.bind_ok (quietly_modify _ _ c2), C99_moment_told, e3]

/-- **C99.** If a processor raises in `before_flush`, then `flush` raises that, and nothing was written or changed. -/
theorem C99_raises_before (ho : c.arch.zim.closed = false) (hm : c.arch.zim.mutable = true) (hc : ∀ h ∈ hs, h.Calm)
    (hx : h.RaisesIn .beforeFlush x) (hs' : List (Listener σ D)) (s : σ) :
    ∃ s', flushTold S (hs ++ h :: hs') (s, c) = (.error x, (s', c)) := by
  obtain ⟨s', e⟩ := C99_moment_raises (hs' := hs') hc hx s c
  exact ⟨s', by rw [flushTold_open ho hm, PyM.bind_err e]⟩

/-- **C99.** If it raises in `after_flush`, then `flush` raises that, and the archive is saved. -/
theorem C99_raises_after (ho : c.arch.zim.closed = false) (hm : c.arch.zim.mutable = true) (hd : c.arch.isDirty = true)
    (hc : ∀ h ∈ hs, h.Calm) (hc' : ∀ h ∈ hs', h.Calm) (hx : h.RaisesIn .afterFlush x) (hf : flush S c = (.ok (), c')) (s : σ) :
    ∃ s', flushTold S (hs ++ h :: hs') (s, c) = (.error x, (s', c')) := by
  rw [C99_content_then_lists ho hm hd] at hf
  obtain ⟨⟨⟩, c1, e1, e2⟩ := PyM.bind_ok_iff.1 hf
  obtain ⟨s1, t1⟩ := tell_other (m := .beforeFlush) hc hc' hx (by decide) s c
  obtain ⟨s2, t2⟩ := tell_other (m := .afterContentFlush) hc hc' hx (by decide) s1 c1
  obtain ⟨s3, t3⟩ := C99_moment_raises (hs' := hs') hc hx s2 c'
  refine ⟨s3, ?_⟩
  rw [flushTold_open ho hm, PyM.bind_ok t1, hd, if_pos rfl, PyM.bind_ok (quietly_eq e1), PyM.bind_ok t2, PyM.bind_ok (quietly_eq e2), t3]

/-- **C99.** Items and redirects are added to an archive without unsaved changes, none of them replacing an item. If a processor
raises in `after_content_flush`, then `flush` raises that, and opening the file shows exactly what it showed before. -/
theorem C99_raises_content {md5 : Bytes → Bytes} {r : Nat} {c0 : Creator D} {done : List (List Sourced)} {recent items : List Sourced}
    {rs rs' : List Redirect} {mts : List String} (hr : 2 ≤ r) (hS : S.Good md5 (some r)) (h0 : CreatorHist S c0 done recent rs)
    (hd0 : c0.arch.isDirty = false) (ha : AddedTo S c0 c items rs') (hA : Apart (rs ++ rs') (done ++ [recent ++ items]))
    (hnew : NothingReplaced items (done ++ [recent])) (hmts : mts.length < 65534)
    (hl : ∀ l ∈ done ++ [recent ++ items], Batch mts l)
    (ho : c.arch.zim.closed = false) (hm : c.arch.zim.mutable = true) (hd : c.arch.isDirty = true)
    (hc : ∀ h ∈ hs, h.Calm) (hc' : ∀ h ∈ hs', h.Calm) (hx : h.RaisesIn .afterContentFlush x) (hf : flush S c = (.ok (), c')) (s : σ)
    (kind : ClusterKind) (calls follow : Nat) (titles : Zim → PyRes PointerList) :
    ∃ s' c1, flushTold S (hs ++ h :: hs') (s, c) = (.error x, (s', c1)) ∧
      ∃ a, openArchive { S with kind := kind, calls := calls, follow := follow } titles false c1.arch.zim.file = .ok a ∧
        ShowsItems S.X kind calls a.zim (current (done ++ [recent])) rs := by
  rw [C99_content_then_lists ho hm hd] at hf
  obtain ⟨⟨⟩, c1, e1, e2⟩ := PyM.bind_ok_iff.1 hf
  obtain ⟨s1, t1⟩ := tell_other (m := .beforeFlush) hc hc' hx (by decide) s c
  obtain ⟨s2, t2⟩ := C99_moment_raises (hs' := hs') hc hx s1 c1
  refine ⟨s2, c1, ?_, C84_before_partial (n := 3) hr hS h0 hd0 ha hA hnew hmts hl (by decide) (content_parts.symm.trans e1) kind calls follow
    titles⟩
  rw [flushTold_open ho hm, PyM.bind_ok t1, hd, if_pos rfl, PyM.bind_ok (quietly_eq e1), PyM.bind_err t2]

/-! ### Concrete archives -/

open Strategy (item)

/-- a processor that raises in this method -/
def raisingIn (m0 : Moment) (x : PyErr) : Listener (Diary Bytes) Bytes := fun m c d =>
  (if m = m0 then .error x else .ok (), d ++ [(0, m, c)])

theorem raisingIn_raises (m0 : Moment) (x : PyErr) : (raisingIn m0 x).RaisesIn m0 x := fun _ _ _ => rfl

theorem noting_calm (is : List Nat) : ∀ h ∈ is.map (Listener.noting (D := D)), h.Calm := by
  intro h hh
  obtain ⟨i, -, rfl⟩ := List.mem_map.1 hh
  exact fun _ _ _ => rfl

theorem demoT_runs : demoG4.arch.zim.closed = false ∧ demoG4.arch.zim.mutable = true ∧ demoG4.arch.isDirty = true ∧
    demoG.arch.zim.closed = false ∧ demoG.arch.zim.mutable = true ∧ demoX1.arch.zim.closed = false ∧
    demoX1.arch.zim.mutable = true ∧ demoX1.arch.isDirty = true ∧ (flush demoSetup demoX1).1 = .ok () ∧
    (close demoSetup demoG4).1 = .ok () ∧ (step (close demoSetup) demoG4).arch.isDirty = false := by decide +kernel

/-- the archive with two redirects is flushed, with two processors -/
example : ∃ c1, interrupted demoSetup 3 demoG4 = (.ok (), c1) ∧
    flushTold demoSetup ([1, 2].map Listener.noting) ([], demoG4) = (.ok (), ([(1, .beforeFlush, demoG4), (2, .beforeFlush, demoG4),
      (1, .afterContentFlush, c1), (2, .afterContentFlush, c1), (1, .afterFlush, demoG), (2, .afterFlush, demoG)], demoG)) :=
  C99_told_partial demoT_runs.1 demoT_runs.2.1 demoT_runs.2.2.1 demoG_eq [1, 2] []

example : (flushTold demoSetup ([1, 2].map Listener.noting) ([], demoG4)).1 = (flush demoSetup demoG4).1 ∧
    (flushTold demoSetup ([1, 2].map Listener.noting) ([], demoG4)).2.2 = (flush demoSetup demoG4).2 :=
  C99_flush_same (noting_calm _) _ _

example : (closeTold demoSetup ([1, 2].map Listener.noting) ([], demoG4)).1 = (close demoSetup demoG4).1 ∧
    (closeTold demoSetup ([1, 2].map Listener.noting) ([], demoG4)).2.2 = (close demoSetup demoG4).2 :=
  C99_close_same (noting_calm _) _ _

/-- it is closed -/
example : (step (close demoSetup) demoG4).arch.zim.closed = true :=
  (C99_close_told demoT_runs.1 demoT_runs.2.1 (step_eq (g := close demoSetup) demoT_runs.2.2.2.2.2.2.2.2.2.1) [1, 2] []).1

/-- a closed archive -/
example : flushTold demoSetup ([1, 2].map Listener.noting) ([], step (close demoSetup) demoG4) =
    ((flush demoSetup (step (close demoSetup) demoG4)).1, ([], step (close demoSetup) demoG4)) :=
  (C99_refused (.inl (C99_close_told demoT_runs.1 demoT_runs.2.1 (step_eq (g := close demoSetup) demoT_runs.2.2.2.2.2.2.2.2.2.1)
    [1, 2] []).1) _ _).1

/-- an archive with a redirect that leads to nothing, … -/
def demoT1 : Creator Bytes := step (addRed ("Cx", "Cmissing", none)) demoX1
/-- whose flush is refused -/
def demoT2 : Creator Bytes := step (flush demoSetup) demoT1

theorem demoT_fails : (flush demoSetup demoT1).1 = .error .unresolvedRedirect := by decide +kernel

theorem demoT2_eq : flush demoSetup demoT1 = (.error .unresolvedRedirect, demoT2) :=
  step_raises (g := flush demoSetup) demoT_fails

example : ∃ d', flushTold demoSetup ([1, 2].map Listener.noting) ([], demoT1) = (.error .unresolvedRedirect, ([] ++ d', demoT2)) ∧
    ∀ i c2, (i, .afterFlush, c2) ∉ d' :=
  C99_failed demoT2_eq [1, 2] []

example : ∃ s', flushTold demoSetup ([1].map Listener.noting ++ raisingIn .beforeFlush .valueError :: [2].map Listener.noting) ([], demoG4) =
    (.error .valueError, (s', demoG4)) :=
  C99_raises_before demoT_runs.1 demoT_runs.2.1 (noting_calm _) (raisingIn_raises _ _) _ _

example : ∃ s', flushTold demoSetup ([1].map Listener.noting ++ raisingIn .afterFlush .valueError :: [2].map Listener.noting) ([], demoG4) =
    (.error .valueError, (s', demoG)) :=
  C99_raises_after demoT_runs.1 demoT_runs.2.1 demoT_runs.2.2.1 (noting_calm _) (noting_calm _) (raisingIn_raises _ _) demoG_eq _

example (kind : ClusterKind) : ∃ s' c1, flushTold demoSetup ([1].map Listener.noting ++ raisingIn .afterContentFlush .valueError ::
      [2].map Listener.noting) ([], demoX1) = (.error .valueError, (s', c1)) ∧
    ∃ a, openArchive { demoSetup with kind := kind, calls := 0, follow := 0 } (fun _ => .error .hang) false c1.arch.zim.file = .ok a ∧
      ShowsItems Cluster.rawCodecs kind 0 a.zim [item "0" "text/html" [9], item "a" "text/html" [1, 2, 3]]
        [("Cr", "Ca", none), ("Cq", "Cr", some "Q")] :=
  C99_raises_content (by omega) demoSetup_good demoG_hist demoG_clean demoX1_added demoX1_apart demoX1_new (by decide) demoX1_batches
    demoT_runs.2.2.2.2.2.1 demoT_runs.2.2.2.2.2.2.1 demoT_runs.2.2.2.2.2.2.2.1 (noting_calm _) (noting_calm _) (raisingIn_raises _ _)
    (step_eq (g := flush demoSetup) demoT_runs.2.2.2.2.2.2.2.2.1) _ kind 0 0 _

/-- **C99, finding.** If there are no unsaved changes, processors are told that the archive will be flushed, but never that it
was. -/
theorem C99_clean (ho : c.arch.zim.closed = false) (hm : c.arch.zim.mutable = true) (hd : c.arch.isDirty = false) (is : List Nat)
    (d : Diary D) : flushTold S (is.map Listener.noting) (d, c) = (.ok (), (d ++ told is .beforeFlush c, c)) := by
  rw [flushTold_open ho hm, PyM.bind_ok (C99_moment_told is d c), hd, if_neg (by simp)]
  rfl

theorem C99_full_fails : ¬ C99Full Bytes Unit := by
  intro h
  obtain ⟨-, c2, h2⟩ := h demoSetup Zim.toyHash 90 demoG _ _ _ [1] [] _ _ (by omega) demoSetup_good demoG_hist
    (C99_clean demoT_runs.2.2.2.1 demoT_runs.2.2.2.2.1 demoG_clean [1] []) 1 (by simp)
  simp [told] at h2

/-- **C99, finding.** `close` of an archive that is closed already tells the processors once more that it will be closed and was
closed. -/
theorem C99_close_again (ho : c.arch.zim.closed = true) (hd : c.arch.isDirty = false) (is : List Nat) (d : Diary D) :
    closeTold S (is.map Listener.noting) (d, c) = (.ok (), (d ++ told is .beforeClose c ++ told is .afterClose c, c)) := by
  have e : ({ c with arch := { c.arch with zim := { c.arch.zim with closed := true } } } : Creator D) = c := by rw [← ho]
  unfold closeTold flushIfDirty
  rw [PyM.bind_ok (C99_moment_told is d c), PyM.bind_ok (a := ()) (s' := (d ++ told is .beforeClose c, c)) (by
    rw [PyM.get_bind]; simp only [hd]; rfl), PyM.bind_ok (quietly_modify _ _ c), C99_moment_told, e]

/-- the archive that was closed above is closed again -/
example : closeTold demoSetup ([1, 2].map Listener.noting) ([], step (close demoSetup) demoG4) =
    (.ok (), ([] ++ told [1, 2] .beforeClose (step (close demoSetup) demoG4) ++ told [1, 2] .afterClose (step (close demoSetup) demoG4),
      step (close demoSetup) demoG4)) :=
  C99_close_again (C99_close_told demoT_runs.1 demoT_runs.2.1 (step_eq (g := close demoSetup) demoT_runs.2.2.2.2.2.2.2.2.2.1) [1, 2] []).1
    demoT_runs.2.2.2.2.2.2.2.2.2.2 [1, 2] []

end Creator
end Pyzim
