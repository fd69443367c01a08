import Verif.Lemmas.CounterOpen
import Verif.Props.Close

/-!
# Opening an archive with each of the policies for the counter (C88)
-/

namespace Pyzim
namespace Counting
open Zim (Redirect toyHash)
open Creator (openArchive placeholder Batch)
open Strategy (item)

variable {D K : Type} {S : Setup D K} {md5 : Bytes → Bytes} {r : Nat} {c : Counting D} {c0 c' : Creator D} {done : List (List Sourced)}
  {recent : List Sourced} {rs : List Redirect} {mts : List String} {how : Counter.How} {main plain : Strategy D} {k : Option Counter}

theorem fromString_bytes {text : Bytes} {n : Counter} (h : Counter.fromString (.bytes text) = .ok n) :
    ∃ s, decode text = .ok s ∧ Counter.fromString (.str s) = .ok n := by
  unfold Counter.fromString at h ⊢
  simp only [StrArg.both, bind, Except.bind] at h ⊢
  cases hd : decode text with
  | error x => rw [hd] at h; cases h
  | ok s => rw [hd] at h; exact ⟨s, rfl, h⟩

/-- **C88.** An archive that was filled with the default policy: whatever the policy says about the counter, opening its file
for reading succeeds and shows the items, the redirects and the entry of the counter. If there is a counter, it has the number
of items of each mimetype. -/
theorem C88_counted (hr : 2 ≤ r) (hS : S.Good md5 (some r)) (hR : Replaceable S.X S.C) (h : CountHist S c done recent rs)
    (hA : Apart rs ([counterPlace] :: (done ++ [recent]))) (hd : c.creator.arch.isDirty = false) (hmts : mts.length < 65534)
    (hl : ∀ l ∈ done ++ [recent], Batch mts (counterPlace :: l)) (hs : ∀ mt ∈ mts, MimetypeShape mt ∧ mt ≠ "<redirect>")
    (how : Counter.How) (kind : ClusterKind) (calls follow : Nat) (titles : Zim → PyRes PointerList) (main plain : Strategy D) :
    ∃ c' k, openAs { S with kind := kind, calls := calls, follow := follow } how titles false main plain c.creator.arch.zim.file = .ok (c', k) ∧
      (∃ src text, ShowsItems S.X kind calls c'.arch.zim (({ counterItem with source := src }, text) :: current (done ++ [recent])) rs) ∧
      (how = .ignore → k = none) ∧
      (how ≠ .ignore → ∃ n, k = some n ∧ ∀ mt, n.getCount mt = (itemsWith mt (current (done ++ [recent])) : Int)) := by
  obtain ⟨a, src, text, n, o1, o2, o3, o4⟩ := C78_counter hr hS hR h hA hd hmts hl hs kind calls follow titles
  obtain ⟨x, Gb, G, P1, P2, hx⟩ := counts_hist hr hS hR h hA hmts hl hs
  obtain ⟨src', hi⟩ := hx.item
  obtain ⟨⟨rows, cs, extra, es, L, m0, R, B, hc, hB⟩, -, -, -, -, hperm, hcl⟩ := hx.has
  obtain ⟨rfl, rfl, -⟩ := hcl hd
  have hlast := hx.last (by simpa using hperm) fun l hl' => counts1_of (hl l hl')
  have o5 := hc.opens (S := { S with kind := kind, calls := calls, follow := follow }) hS.passthrough hd titles false
  rw [o5] at o1
  injection o1 with o1
  obtain ⟨ls, k0, q1, q2, q3⟩ := hc.recount false { pointers := c.creator.arch.zim.articles.pointers }
  rw [o1] at q1 q2 o5
  have hk0 : ∀ mt, k0.getCount mt = (itemsWith mt (current (done ++ [recent])) : Int) := fun mt => by
    rw [q3, itemsWith_last (by rw [hi]; simp [counterItem]) hlast]
  obtain ⟨e, e1, -, -, -, -, -, e2⟩ := o2.item _ List.mem_cons_self
  have hst : ∃ s, stored { S with kind := kind, calls := calls, follow := follow } a.zim = .ok s ∧ Counter.fromString (.str s) = .ok n := by
    unfold stored
    rw [show a.zim.entryByFullUrl URL_COUNTER = .ok e from e1]
    simp only [bind, Except.bind]
    rw [e2]
    exact fromString_bytes o3
  obtain ⟨s, s1, s2⟩ := hst
  have hhas := Zim.hasEntry_found (show a.zim.entryByFullUrl URL_COUNTER = .ok e from e1)
  obtain ⟨l1, l2⟩ := loadBy_stored s1 s2 q1
  have l3 := loadBy_reinit (S := { S with kind := kind, calls := calls, follow := follow }) q1 q2
  cases how with
  | ignore =>
    refine ⟨{ arch := { a with dirty := false }, main := main, plain := plain }, _, ?_, ⟨src, text, o2⟩, fun _ => rfl, fun h => absurd rfl h⟩
    · unfold openAs; rw [o5]; rfl
  | load =>
    refine ⟨{ arch := { a with dirty := false }, main := main, plain := plain }, _, ?_, ⟨src, text, o2⟩, (fun h => by cases h), fun _ => ⟨n, rfl, o4⟩⟩
    · unfold openAs; rw [o5]; simp only [l1, hhas]
  | loadOrReinit =>
    refine ⟨{ arch := { a with dirty := false }, main := main, plain := plain }, _, ?_, ⟨src, text, o2⟩, (fun h => by cases h), fun _ => ⟨n, rfl, o4⟩⟩
    · unfold openAs; rw [o5]; simp only [l2, hhas]
  | reinit =>
    refine ⟨{ arch := { a with dirty := false }, main := main, plain := plain }, some { k0 with dirty := true }, ?_, ⟨src, text, o2⟩, (fun h => by cases h), fun _ => ⟨_, rfl, hk0⟩⟩
    · unfold openAs; rw [o5]; simp only [l3, hhas]

/-- what is known of an archive that has no counter -/
theorem uncounted (hr : 2 ≤ r) (hS : S.Good md5 (some r)) (h : CreatorHist S c0 done recent rs)
    (hA : Apart rs (done ++ [recent])) (hd : c0.arch.isDirty = false) (hmts : mts.length < 65534)
    (hl : ∀ l ∈ done ++ [recent], Batch mts l) (hno : ∀ p ∈ current (done ++ [recent]), p.1.fullUrl ≠ "MCounter")
    (hno' : ∀ x ∈ rs, x.1 ≠ "MCounter") (kind : ClusterKind) (calls follow : Nat) (titles : Zim → PyRes PointerList) (w : Bool) :
    ∃ a ls n, openArchive { S with kind := kind, calls := calls, follow := follow } titles w c0.arch.zim.file = .ok a ∧
      (w = false → ShowsItems S.X kind calls a.zim (current (done ++ [recent])) rs) ∧ a.zim.mutable = w ∧ a.zim.closed = false ∧
      a.zim.entryByFullUrl URL_COUNTER = .error .entryNotFound ∧ a.zim.hasEntry URL_COUNTER = .ok false ∧
      a.zim.iterEntries = .ok ls ∧ Counter.countAll a.zim.mimetypes {} ls = .ok n ∧
      ∀ mt, n.getCount mt = (itemsWith mt (current (done ++ [recent])) : Int) := by
  obtain ⟨a0, o1, o2⟩ := Creator.C70_items_survive hr hS h hA hd hmts hl kind calls follow titles
  obtain ⟨Gb, h1, G, P1, P2, hat⟩ := h.has hr hS hA (ML := encode placeholder.mimetype :: mts.map encode)
      (by rw [List.length_cons, List.length_map]; omega) List.mem_cons_self fun l h =>
        ⟨(hl l h).urls, (hl l h).size, fun p hp => ⟨List.mem_cons_of_mem _ (List.mem_map.2 ⟨_, (hl l h).mimetypes p hp, rfl⟩), (hl l h).other p hp⟩⟩
  obtain ⟨⟨rows, cs, extra, es, L, m0, R, B, hc, hB⟩, -, -, -, -, hperm, hcl⟩ := hat
  obtain ⟨rfl, rfl, -⟩ := hcl hd
  have o5 := fun w => hc.opens (S := { S with kind := kind, calls := calls, follow := follow }) hS.passthrough hd titles w
  rw [o5 false] at o1
  injection o1 with o1
  obtain ⟨ls, n, q1, q2, q3⟩ := hc.recount w { pointers := c0.arch.zim.articles.pointers }
  have hmiss : c0.arch.zim.entryByFullUrl URL_COUNTER = .error .entryNotFound := by
    have := o2.missing URL_COUNTER (by decide) hno hno'
    rw [← o1] at this
    exact this
  refine ⟨_, ls, n, o5 w, ?_, rfl, rfl, hmiss, ?_, q1, q2, fun mt => ?_⟩
  · rintro rfl
    rw [o1]; exact o2
  · refine hc.laid.content.rep.hasEntry_false ?_
    rintro ⟨r, hr', hru⟩
    have := hc.laid.content.rep.entryByFullUrl hr'
    rw [hru, hmiss] at this
    cases this
  · rw [q3]
    have := current_perm (List.rel_append h1 (.cons (show G.flatten.Perm recent by simpa using hperm) .nil)) fun l hl' => (hl l hl').urls
    rw [List.flatten_append] at this
    rw [(((show (lastOnes urlOf (Gb.flatten ++ G).flatten).Perm (current (done ++ [recent])) by simpa using this)).filter _).length_eq]
    unfold itemsWith
    congr 2
    refine List.filter_congr fun p _ => ?_
    rw [Bool.eq_iff_iff]
    simp [counted]

/-- **C88, partial.** An archive without the entry of the counter, in which no mimetypes were counted: opening it for reading
succeeds and shows the items and redirects, if the policy says that there is no counter. -/
theorem C88_ignore_partial (hr : 2 ≤ r) (hS : S.Good md5 (some r)) (h : CreatorHist S c0 done recent rs)
    (hA : Apart rs (done ++ [recent])) (hd : c0.arch.isDirty = false) (hmts : mts.length < 65534)
    (hl : ∀ l ∈ done ++ [recent], Batch mts l)
    (kind : ClusterKind) (calls follow : Nat) (titles : Zim → PyRes PointerList) (main plain : Strategy D) :
    ∃ c', openAs { S with kind := kind, calls := calls, follow := follow } .ignore titles false main plain c0.arch.zim.file = .ok (c', none) ∧
      ShowsItems S.X kind calls c'.arch.zim (current (done ++ [recent])) rs := by
  obtain ⟨a, o1, o2⟩ := Creator.C70_items_survive hr hS h hA hd hmts hl kind calls follow titles
  refine ⟨{ arch := { a with dirty := false }, main := main, plain := plain }, ?_, o2⟩
  unfold openAs
  rw [o1]
  rfl

/-- **C88, finding.** With each of the other values opening such an archive for reading raises an exception: `NoCounter` with
`"load"` (the documentation says that there is no counter then), and `NonMutable` with the default value and with `"reinit"`. -/
theorem C88_without (hr : 2 ≤ r) (hS : S.Good md5 (some r)) (h : CreatorHist S c0 done recent rs)
    (hA : Apart rs (done ++ [recent])) (hd : c0.arch.isDirty = false) (hmts : mts.length < 65534)
    (hl : ∀ l ∈ done ++ [recent], Batch mts l) (hno : ∀ p ∈ current (done ++ [recent]), p.1.fullUrl ≠ "MCounter")
    (hno' : ∀ x ∈ rs, x.1 ≠ "MCounter") (kind : ClusterKind) (calls follow : Nat) (titles : Zim → PyRes PointerList)
    (main plain : Strategy D) (how : Counter.How) (hhow : how ≠ .ignore) :
    openAs { S with kind := kind, calls := calls, follow := follow } how titles false main plain c0.arch.zim.file =
      .error (if how = .load then .noCounter else .nonMutable) := by
  obtain ⟨a, ls, n, o1, -, o3, o4, o5, o6, o7, o8, -⟩ := uncounted hr hS h hA hd hmts hl hno hno' kind calls follow titles false
  have hadd : Creator.addItem { S with kind := kind, calls := calls, follow := follow } counterItem false
      { arch := a, main := main, plain := plain } = (.error .nonMutable, { arch := a, main := main, plain := plain }) := by
    unfold Creator.addItem
    rw [PyM.get_bind]
    simp only [o3, o4]
    rfl
  obtain ⟨l1, l2⟩ := loadBy_missing (S := { S with kind := kind, calls := calls, follow := follow }) o5 o7 o8
  have l3 := loadBy_reinit (S := { S with kind := kind, calls := calls, follow := follow }) o7 o8
  unfold openAs
  rw [o1]
  cases how with
  | ignore => exact absurd rfl hhow
  | load => simp only [l1]; rfl
  | loadOrReinit => simp only [l2, o6, hadd]; rfl
  | reinit => simp only [l3, o6, hadd]; rfl

/-- **C88.** If such an archive is opened for updating, the counter has the number of items of each mimetype. -/
theorem C88_update (hr : 2 ≤ r) (hS : S.Good md5 (some r)) (h : CreatorHist S c0 done recent rs)
    (hA : Apart rs (done ++ [recent])) (hd : c0.arch.isDirty = false) (hmts : mts.length < 65534)
    (hl : ∀ l ∈ done ++ [recent], Batch mts l) (hno : ∀ p ∈ current (done ++ [recent]), p.1.fullUrl ≠ "MCounter")
    (hno' : ∀ x ∈ rs, x.1 ≠ "MCounter") (titles : Zim → PyRes PointerList) (hhow : how = .reinit ∨ how = .loadOrReinit)
    (hok : openAs S how titles true main plain c0.arch.zim.file = .ok (c', k)) :
    ∃ n, k = some n ∧ ∀ mt, n.getCount mt = (itemsWith mt (current (done ++ [recent])) : Int) := by
  obtain ⟨a, ls, n, o1, -, o3, o4, o5, o6, o7, o8, o9⟩ := uncounted hr hS h hA hd hmts hl hno hno' S.kind S.calls S.follow titles true
  obtain ⟨-, l2⟩ := loadBy_missing (S := S) o5 o7 o8
  have l3 := loadBy_reinit (S := S) o7 o8
  have hload : loadBy S how a.zim = .ok (some { n with dirty := true }) := by
    rcases hhow with rfl | rfl
    · exact l3
    · exact l2
  unfold openAs at hok
  rw [o1] at hok
  simp only [hload, o6] at hok
  refine ⟨{ n with dirty := true }, ?_, o9⟩
  cases hadd : Creator.addItem S counterItem false { arch := a, main := main, plain := plain } with
  | mk x c1 =>
    rw [hadd] at hok
    cases x with
    | error x => cases hok
    | ok u =>
      have := Except.ok.inj hok
      exact (congrArg Prod.snd this).symm

/-- **C88, in full.** Whatever the policy says about the counter, opening an archive for reading succeeds and shows its items
and redirects. -/
def C88Full (D K : Type) : Prop := ∀ (S : Setup D K) (md5 : Bytes → Bytes) (r : Nat) (c0 : Creator D) (done : List (List Sourced))
  (recent : List Sourced) (rs : List Redirect) (mts : List String), 2 ≤ r → S.Good md5 (some r) → CreatorHist S c0 done recent rs →
  Apart rs (done ++ [recent]) → c0.arch.isDirty = false → mts.length < 65534 → (∀ l ∈ done ++ [recent], Batch mts l) →
  ∀ (how : Counter.How) (titles : Zim → PyRes PointerList) (main plain : Strategy D),
    ∃ c' k, openAs S how titles false main plain c0.arch.zim.file = .ok (c', k) ∧
      ShowsItems S.X S.kind S.calls c'.arch.zim (current (done ++ [recent])) rs

/-! ### Concrete archives -/

open Creator (setupZ setupZ_good mainZ plainZ demoSetup demoSetup_good demoG demoG_hist demoG_apart demoG_clean demoG_batches)

theorem demoG_uncounted : (∀ p ∈ current ([[item "0" "text/html" [9], item "a" "text/html" [1, 2, 3]]] ++ [[]]), p.1.fullUrl ≠ "MCounter") ∧
    ∀ x ∈ [("Cr", "Ca", none), ("Cq", "Cr", some "Q")], (x : Redirect).1 ≠ "MCounter" := by decide +kernel

/-- The archive with the two items and the redirects: reading it with the default policy raises `NonMutable`. -/
example (main plain : Strategy Bytes) : openAs demoSetup .loadOrReinit (fun _ => .error .hang) false main plain demoG.arch.zim.file =
    .error .nonMutable :=
  C88_without (by omega) demoSetup_good demoG_hist demoG_apart demoG_clean (by decide) demoG_batches demoG_uncounted.1 demoG_uncounted.2
    .remembering 64 4 _ main plain .loadOrReinit (by decide)

/-- Without a counter it is readable. -/
example (main plain : Strategy Bytes) : ∃ c', openAs demoSetup .ignore (fun _ => .error .hang) false main plain demoG.arch.zim.file =
    .ok (c', none) ∧ ShowsItems Cluster.rawCodecs .remembering 64 c'.arch.zim [item "0" "text/html" [9], item "a" "text/html" [1, 2, 3]]
      [("Cr", "Ca", none), ("Cq", "Cr", some "Q")] :=
  C88_ignore_partial (by omega) demoSetup_good demoG_hist demoG_apart demoG_clean (by decide) demoG_batches
    .remembering 64 4 _ main plain

/-- the same archive opened for updating with the default policy -/
def demoUp : PyRes (Creator Bytes × Option Counter) :=
  openAs demoSetup .loadOrReinit (fun _ => .error .hang) true demoG.main demoG.plain demoG.arch.zim.file

/-- Opening it succeeds. -/
theorem demoUp_runs : demoUp.isOk = true := by decide +kernel

/-- The counter then has the right numbers. -/
example : ∃ c' n, demoUp = .ok (c', some n) ∧ n.getCount "text/html" = 2 ∧ n.getCount "text/plain" = 0 := by
  cases hu : demoUp with
  | error x => have := demoUp_runs; rw [hu] at this; cases this
  | ok p =>
    obtain ⟨c', k⟩ := p
    obtain ⟨n, rfl, hn⟩ := C88_update (by omega) demoSetup_good demoG_hist demoG_apart demoG_clean (by decide) demoG_batches
      demoG_uncounted.1 demoG_uncounted.2 _ (.inr rfl) hu
    exact ⟨c', n, rfl, (hn _).trans (by decide +kernel), (hn _).trans (by decide +kernel)⟩

/-- An archive with a counter, with each policy. -/
example (how : Counter.How) : ∃ c' k, openAs setupZ how (fun _ => .error .hang) false mainZ plainZ demoC7.creator.arch.zim.file = .ok (c', k) ∧
    (∃ src text, ShowsItems Toy.codecs setupZ.kind setupZ.calls c'.arch.zim [({ counterItem with source := src }, text),
      item "b" "text/html" [7, 8, 9, 10, 11], item "a" "image/png" [6]] []) ∧
    (how = .ignore → k = none) ∧ (how ≠ .ignore → ∃ n, k = some n ∧ n.getCount "text/html" = 1 ∧ n.getCount "image/png" = 1) := by
  have hs : ∀ mt ∈ ["text/html", "image/png", "text/plain"], MimetypeShape mt ∧ mt ≠ "<redirect>" := by
    intro mt hmt
    simp only [List.mem_cons, List.not_mem_nil, or_false] at hmt
    rcases hmt with rfl | rfl | rfl <;> exact ⟨Counter.shape_of _ (by decide +kernel) (by decide +kernel), by decide⟩
  have hd := (C78_after_flush (by omega) setupZ_good Toy.replaceable demoC_hist (Creator.apart_nil _) demoC7_eq
    (by decide) demoC_batches hs .remembering 0 0 (fun _ => .error .hang)).1
  obtain ⟨c', k, h1, ⟨src, text, h2⟩, h3, h4⟩ := C88_counted (by omega) setupZ_good Toy.replaceable (.flush demoC_hist demoC7_eq)
    (Creator.apart_nil _) hd (by decide) (fun l hl => by
      rcases List.mem_append.1 hl with hl | hl
      · exact demoC_batches l hl
      · rw [List.mem_singleton] at hl
        rw [hl]
        exact ⟨by decide +kernel, by decide +kernel, by decide +kernel, by unfold NotHuge; decide⟩) hs how
    setupZ.kind setupZ.calls setupZ.follow (fun _ => .error .hang) mainZ plainZ
  have e : current (demoSet ++ [[item "a" "image/png" [6]]] ++ [[]]) = [item "b" "text/html" [7, 8, 9, 10, 11], item "a" "image/png" [6]] := rfl
  rw [e] at h2 h4
  refine ⟨c', k, h1, ⟨src, text, h2⟩, h3, fun hh => ?_⟩
  obtain ⟨n, h5, h6⟩ := h4 hh
  exact ⟨n, h5, (h6 _).trans rfl, (h6 _).trans rfl⟩

/-- **C88, finding.** An archive without the entry `M/Counter` cannot be opened for reading with the default policy. -/
theorem C88_fails : ¬ C88Full Bytes Unit := by
  intro h
  obtain ⟨c', k, h1, -⟩ := h demoSetup toyHash 90 demoG _ _ _ ["text/html"] (by omega) demoSetup_good demoG_hist demoG_apart demoG_clean
    (by decide) demoG_batches .loadOrReinit (fun _ => .error .hang) demoG.main demoG.plain
  have := C88_without (by omega) demoSetup_good demoG_hist demoG_apart demoG_clean (by decide) demoG_batches demoG_uncounted.1 demoG_uncounted.2
    .remembering 64 4 (fun _ => .error .hang) demoG.main demoG.plain .loadOrReinit (by decide)
  rw [show openAs demoSetup .loadOrReinit (fun _ => .error .hang) false demoG.main demoG.plain demoG.arch.zim.file = _ from this] at h1
  cases h1

end Counting
end Pyzim
