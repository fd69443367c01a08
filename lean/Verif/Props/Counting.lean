import Verif.Lemmas.CountInv

/-!
# C78: the entry `M/Counter` counts the items
-/

namespace Pyzim
open Zim (Redirect)

namespace Counting
variable {D K : Type} {S : Setup D K} {md5 : Bytes → Bytes} {r : Nat} {c c' : Counting D} {done : List (List Sourced)}
  {recent : List Sourced} {rs : List Zim.Redirect} {mts : List String}

open Creator (Batch placeholder openArchive)

theorem counts1_of (h : Batch mts (counterPlace :: recent)) :
    Counts1 (encode placeholder.mimetype :: mts.map encode) recent :=
  ⟨h.urls, h.size, fun p hp => ⟨List.mem_cons_of_mem _ (List.mem_map.2 ⟨_, h.mimetypes p (List.mem_cons_of_mem _ hp), rfl⟩),
    h.other p (List.mem_cons_of_mem _ hp)⟩⟩

/-- the mimetypes of the archive -/
def Known (mts : List String) (mt : String) : Prop := mt = placeholder.mimetype ∨ mt ∈ mts

theorem placeholder_shape : MimetypeShape placeholder.mimetype := Counter.shape_of _ (by decide +kernel) (by decide +kernel)

/-- the invariant, for the mimetypes of the items -/
theorem counts_hist (hr : 2 ≤ r) (hS : S.Good md5 (some r)) (hR : Replaceable S.X S.C) (h : CountHist S c done recent rs)
    (hA : Apart rs ([counterPlace] :: (done ++ [recent]))) (hmts : mts.length < 65534)
    (hl : ∀ l ∈ done ++ [recent], Batch mts (counterPlace :: l)) (hs : ∀ mt ∈ mts, MimetypeShape mt ∧ mt ≠ "<redirect>") :
    ∃ x Gb G P1 P2, CountsAt S (encode placeholder.mimetype :: mts.map encode) (some r) (Known mts) c done recent rs x Gb G P1 P2 := by
  refine h.counts hr hS hR hA (by rw [List.length_cons, List.length_map]; omega) List.mem_cons_self ?_ ?_ ?_ ?_ fun l hl' => counts1_of (hl l hl')
  · have := hl recent (by simp)
    exact List.mem_cons_of_mem _ (List.mem_map.2 ⟨_, this.mimetypes counterPlace (by simp), rfl⟩)
  · intro b hb s hbs
    rcases List.mem_cons.1 hb with rfl | hb
    · rw [decode_encode] at hbs
      injection hbs with hbs
      exact .inl hbs.symm
    · obtain ⟨mt, hmt, rfl⟩ := List.mem_map.1 hb
      rw [decode_encode] at hbs
      injection hbs with hbs
      rw [← hbs]; exact .inr hmt
  · rintro mt (rfl | hmt)
    · exact placeholder_shape
    · exact (hs mt hmt).1
  · rintro (h | h)
    · exact absurd h (by decide +kernel)
    · exact (hs _ h).2 rfl

theorem itemsWith_last {x : Sourced} {l : List Sourced} (hx : x.1.ns ≠ "C") {m : List Sourced} (h : l.Perm (x :: m)) (mt : String) :
    (l.filter (counted mt)).length = itemsWith mt m := by
  rw [(h.filter _).length_eq, List.filter_cons_of_neg (by simp [counted, hx])]
  unfold itemsWith
  congr 1
  refine List.filter_congr fun p _ => ?_
  rw [Bool.eq_iff_iff]
  simp [counted]

/-- **C78.** However items and redirects were added to an archive, contents were set, and however often it was flushed and
opened again: once there are no unsaved changes, the file has, beside the items and the redirects, an entry `M/Counter`; what
it says is, for each mimetype, the number of items in the namespace `C` with this mimetype. -/
theorem C78_counter (hr : 2 ≤ r) (hS : S.Good md5 (some r)) (hR : Replaceable S.X S.C) (h : CountHist S c done recent rs)
    (hA : Apart rs ([counterPlace] :: (done ++ [recent]))) (hd : c.creator.arch.isDirty = false) (hmts : mts.length < 65534)
    (hl : ∀ l ∈ done ++ [recent], Batch mts (counterPlace :: l)) (hs : ∀ mt ∈ mts, MimetypeShape mt ∧ mt ≠ "<redirect>")
    (kind : ClusterKind) (calls follow : Nat) (titles : Zim → PyRes PointerList) :
    ∃ a src text n, openArchive { S with kind := kind, calls := calls, follow := follow } titles false c.creator.arch.zim.file = .ok a ∧
      ShowsItems S.X kind calls a.zim (({ counterItem with source := src }, text) :: current (done ++ [recent])) rs ∧
      Counter.fromString (.bytes text) = .ok n ∧ ∀ mt, n.getCount mt = (itemsWith mt (current (done ++ [recent])) : Int) := by
  obtain ⟨x, Gb, G, P1, P2, hx⟩ := counts_hist hr hS hR h hA hmts hl hs
  obtain ⟨n0, s1, s2⟩ := hx.saved (.inl hd)
  obtain ⟨src, hi⟩ := hx.item
  obtain ⟨⟨rows, cs, extra, es, L, m0, R, B, hc, hB⟩, -, -, -, -, hperm, hcl⟩ := hx.has
  obtain ⟨rfl, rfl, hb⟩ := hcl hd
  replace hb := hb rfl
  obtain rfl : B = [] := hc.redirects.symm.trans hb
  rw [List.append_nil] at hB
  have hG : G.flatten.Perm (recentC x done recent) := by simpa using hperm
  have hlast := hx.last hG fun l hl' => counts1_of (hl l hl')
  obtain ⟨n, k1, k2⟩ := Counter.C29_counts n0 s1.distinct fun p hp _ => by
    rcases s1.keys p hp with e | e
    · rw [e]; exact placeholder_shape
    · exact (hs _ e).1
  refine ⟨_, src, x.2, n, hc.opens (S := { S with kind := kind, calls := calls, follow := follow }) hS.passthrough hd titles false, ?_, ?_, ?_⟩
  · rw [← hi]
    exact hc.shows hd hlast hB hA.nodup (fun r hr => hc.apart (hx.separate hA h.valid) (fun p hp => hperm.subset (by simpa using hp)) hr)
      kind calls
  · rw [s2]
    unfold Counter.fromString at k1 ⊢
    simp only [StrArg.both, counterText, decode_encode] at k1 ⊢
    exact k1
  · intro mt
    rw [k2, s1.counts, itemsWith_last (by rw [hi]; simp [counterItem]) hlast]

/-- **C78.** The counter of the archive object, too, has these numbers once there are no unsaved changes; in particular
after the archive was opened again. -/
theorem C78_counts (hr : 2 ≤ r) (hS : S.Good md5 (some r)) (hR : Replaceable S.X S.C) (h : CountHist S c done recent rs)
    (hA : Apart rs ([counterPlace] :: (done ++ [recent]))) (hd : c.creator.arch.isDirty = false) (hmts : mts.length < 65534)
    (hl : ∀ l ∈ done ++ [recent], Batch mts (counterPlace :: l)) (hs : ∀ mt ∈ mts, MimetypeShape mt ∧ mt ≠ "<redirect>")
    (mt : String) : c.counter.getCount mt = (itemsWith mt (current (done ++ [recent])) : Int) := by
  obtain ⟨x, Gb, G, P1, P2, hx⟩ := counts_hist hr hS hR h hA hmts hl hs
  obtain ⟨src, hi⟩ := hx.item
  obtain ⟨-, -, -, -, -, hperm, hcl⟩ := hx.has
  obtain ⟨rfl, rfl, -⟩ := hcl hd
  have hG : G.flatten.Perm (recentC x done recent) := by simpa using hperm
  rw [hx.tally.counts, itemsWith_last (by rw [hi]; simp [counterItem]) (hx.last hG fun l hl' => counts1_of (hl l hl'))]

/-- **C78.** After a flush there are no unsaved changes, and the entry `M/Counter` has the numbers of all items that were
added. -/
theorem C78_after_flush (hr : 2 ≤ r) (hS : S.Good md5 (some r)) (hR : Replaceable S.X S.C) (h : CountHist S c done recent rs)
    (hA : Apart rs ([counterPlace] :: (done ++ [recent]))) (hf : flush S c = (.ok (), c')) (hmts : mts.length < 65534)
    (hl : ∀ l ∈ done ++ [recent], Batch mts (counterPlace :: l)) (hs : ∀ mt ∈ mts, MimetypeShape mt ∧ mt ≠ "<redirect>")
    (kind : ClusterKind) (calls follow : Nat) (titles : Zim → PyRes PointerList) :
    c'.creator.arch.isDirty = false ∧
    ∃ a src text n, openArchive { S with kind := kind, calls := calls, follow := follow } titles false c'.creator.arch.zim.file = .ok a ∧
      ShowsItems S.X kind calls a.zim (({ counterItem with source := src }, text) :: current (done ++ [recent])) rs ∧
      Counter.fromString (.bytes text) = .ok n ∧ ∀ mt, n.getCount mt = (itemsWith mt (current (done ++ [recent])) : Int) := by
  obtain ⟨x, Gb, G, P1, P2, hx⟩ := counts_hist hr hS hR h hA hmts hl hs
  have hl1 := counts1_of (hl recent (by simp))
  obtain ⟨q1, q2⟩ := hx.recentOnes hl1
  have hd : c'.creator.arch.isDirty = false := (flush_ok hS hR (M := Known mts) ?_ ?_ hx.has hx.tally q1 q2 (hx.separate hA h.valid) hf).1
  · refine ⟨hd, ?_⟩
    have hb0 : Batch mts [counterPlace] := by
      have := hl recent (by simp)
      exact ⟨by simp, fun p hp => this.mimetypes p (by simp at hp; simp [hp]), fun p hp => this.other p (by simp at hp; simp [hp]),
        by unfold NotHuge; decide⟩
    have := C78_counter hr hS hR (.flush h hf) (hA.sub (List.Sublist.refl _) fun x hx q hq => by
      rcases List.mem_cons.1 hx with rfl | hx
      · exact ⟨_, List.mem_cons_self, hq⟩
      rcases List.mem_append.1 hx with hx | hx
      · exact ⟨x, List.mem_cons_of_mem _ hx, hq⟩
      · rw [List.mem_singleton] at hx; rw [hx] at hq; cases hq) hd hmts (fun l hl' => by
      rcases List.mem_append.1 hl' with hl' | hl'
      · exact hl l hl'
      · rw [List.mem_singleton] at hl'; rw [hl']; exact hb0) hs kind calls follow titles
    rw [current_snoc (done ++ [recent]) []] at this
    simpa using this
  · rintro (h | h)
    · exact absurd h (by decide +kernel)
    · exact (hs _ h).2 rfl
  · intro b hb s hbs
    rcases List.mem_cons.1 hb with rfl | hb
    · rw [decode_encode] at hbs
      injection hbs with hbs
      exact .inl hbs.symm
    · obtain ⟨mt, hmt, rfl⟩ := List.mem_map.1 hb
      rw [decode_encode] at hbs
      injection hbs with hbs
      rw [← hbs]; exact .inr hmt

/-! ### An example -/

open Creator (setupZ setupZ_good mainZ plainZ item_admissible)
open Strategy (item)

abbrev DemoC := Counting (Bytes ⊕ Toy.Esc)

def stepC (g : PyM DemoC Unit) (c : DemoC) : DemoC := (g c).2

theorem stepC_eq {g : PyM DemoC Unit} {c : DemoC} (h : (g c).1 = .ok ()) : g c = (.ok (), stepC g c) := Prod.ext h rfl

def okOr (x : PyRes DemoC) (d : DemoC) : DemoC :=
  match x with
  | .ok c => c
  | .error _ => d

theorem okOr_eq {x : PyRes DemoC} {d : DemoC} (h : x.isOk = true) : x = .ok (okOr x d) := by
  cases x with
  | ok c => rfl
  | error e => cases h

/-- a new archive, … -/
def demoC0 : DemoC := okOr (new setupZ (List.replicate 16 1) mainZ plainZ)
  ⟨{ arch := Archive.demo0 (some 90), main := mainZ, plain := plainZ }, {}⟩
/-- with a page, … -/
def demoC1 : DemoC := stepC (addItem setupZ (item "a" "text/html" [1, 2, 3]).1 false) demoC0
/-- two pages, … -/
def demoC2 : DemoC := stepC (addItem setupZ (item "b" "text/html" [4, 5]).1 false) demoC1
/-- flushed, … -/
def demoC3 : DemoC := stepC (flush setupZ) demoC2
/-- opened again, … -/
def demoC4 : DemoC := okOr (reopen setupZ (fun _ => .error .hang) mainZ plainZ demoC3.creator.arch.zim.file) demoC3
/-- with an image in place of the first page, … -/
def demoC5 : DemoC := stepC (addItem setupZ (item "a" "image/png" [6]).1 true) demoC4
/-- with another content of the second page, … -/
def demoC6 : DemoC := stepC (setContent setupZ "Cb" (MCluster.mem [7, 8, 9, 10, 11])) demoC5
/-- and flushed. -/
def demoC7 : DemoC := stepC (flush setupZ) demoC6

/-- the archive that was opened again, with a redirect in place of the first page, and flushed -/
def demoR5 : DemoC := stepC (addFullUrlRedirect setupZ "Ca" "Cb" none) demoC4
def demoR6 : DemoC := stepC (flush setupZ) demoR5

theorem demoC_runs : (new setupZ (List.replicate 16 1) mainZ plainZ).isOk = true ∧
    (addItem setupZ (item "a" "text/html" [1, 2, 3]).1 false demoC0).1 = .ok () ∧
    (addItem setupZ (item "b" "text/html" [4, 5]).1 false demoC1).1 = .ok () ∧
    (flush setupZ demoC2).1 = .ok () ∧
    demoC3.creator.arch.isDirty = false ∧
    (reopen setupZ (fun _ => .error .hang) mainZ plainZ demoC3.creator.arch.zim.file).isOk = true ∧
    (addItem setupZ (item "a" "image/png" [6]).1 true demoC4).1 = .ok () ∧
    (setContent setupZ "Cb" (MCluster.mem [7, 8, 9, 10, 11]) demoC5).1 = .ok () ∧
    (flush setupZ demoC6).1 = .ok () ∧
    demoC4.counter.counts = [("text/html", 2)] ∧
    demoC7.counter.counts = [("text/html", 1), ("image/png", 1)] ∧
    (addFullUrlRedirect setupZ "Ca" "Cb" none demoC4).1 = .ok () ∧ demoR5.creator.arch.isDirty = true ∧ (flush setupZ demoR5).1 = .ok () ∧
    demoR6.creator.arch.isDirty = false ∧
    (demoR6.creator.arch.zim.entryByFullUrl "Ca").map Entry.isRedirect = .ok true ∧
    demoR6.counter.getCount "text/html" = 2 ∧ stored setupZ demoR6.creator.arch.zim = .ok "text/html=2" := by
  decide +kernel

def demoLists : List (List Sourced) := [[item "a" "text/html" [1, 2, 3], item "b" "text/html" [4, 5]]]

def demoSet : List (List Sourced) := setContentIn "Cb" (MCluster.mem [7, 8, 9, 10, 11]) [7, 8, 9, 10, 11] demoLists

theorem demoC_small : ∀ l ∈ demoLists, NotHuge (counterPlace :: l) := by
  intro l hl
  rw [demoLists, List.mem_singleton] at hl
  subst hl
  unfold NotHuge
  decide

theorem demoC4_hist : CountHist setupZ demoC4 demoLists [] [] := by
  obtain ⟨h0, h1, h2, h3, h4, h5, -⟩ := demoC_runs
  have k0 : CountHist setupZ demoC0 [] [] [] :=
    .new (by decide) Toy.zstd_working ⟨100, .inr rfl⟩ ⟨16, .inl rfl⟩ (okOr_eq h0)
  have k1 := CountHist.add k0 (item_admissible "a" "text/html" [1, 2, 3] (by decide +kernel) (by decide +kernel)) (stepC_eq h1)
  have k2 := CountHist.add k1 (item_admissible "b" "text/html" [4, 5] (by decide +kernel) (by decide +kernel)) (stepC_eq h2)
  have k3 : CountHist setupZ demoC3 demoLists [] [] := CountHist.flush k2 (stepC_eq h3)
  exact CountHist.reopen k3 h4 Toy.zstd_working ⟨100, .inr rfl⟩ ⟨16, .inl rfl⟩ (okOr_eq h5)

theorem demoC_hist : CountHist setupZ demoC6 demoSet [item "a" "image/png" [6]] [] := by
  obtain ⟨-, -, -, -, -, -, h6, h7, -⟩ := demoC_runs
  have k5 : CountHist setupZ demoC5 demoLists [item "a" "image/png" [6]] [] :=
    CountHist.add demoC4_hist (item_admissible "a" "image/png" [6] (by decide +kernel) (by decide +kernel)) (stepC_eq h6)
  exact CountHist.set k5 demoC_small (by decide +kernel) (by decide +kernel) (by decide +kernel) (MCluster.mem_delivers _) (stepC_eq h7)

theorem demoC7_eq : flush setupZ demoC6 = (.ok (), demoC7) := stepC_eq demoC_runs.2.2.2.2.2.2.2.2.1

theorem demoC_batches : ∀ l ∈ demoSet ++ [[item "a" "image/png" [6]]], Batch ["text/html", "image/png", "text/plain"] (counterPlace :: l) := by
  intro l hl
  rw [show demoSet ++ [[item "a" "image/png" [6]]] = [[item "a" "text/html" [1, 2, 3], item "b" "text/html" [7, 8, 9, 10, 11]],
    [item "a" "image/png" [6]]] from rfl] at hl
  simp only [List.mem_cons, List.not_mem_nil, or_false] at hl
  rcases hl with rfl | rfl <;>
    exact ⟨by decide +kernel, by decide +kernel, by decide +kernel, by unfold NotHuge; decide⟩

example (kind : ClusterKind) : ∃ a src text n, openArchive { setupZ with kind := kind, calls := 0, follow := 0 }
      (fun _ => .error .hang) false demoC7.creator.arch.zim.file = .ok a ∧
    ShowsItems Toy.codecs kind 0 a.zim [({ counterItem with source := src }, text), item "b" "text/html" [7, 8, 9, 10, 11],
      item "a" "image/png" [6]] [] ∧
    Counter.fromString (.bytes text) = .ok n ∧ n.getCount "text/html" = 1 ∧ n.getCount "image/png" = 1 ∧ n.getCount "text/plain" = 0 := by
  obtain ⟨-, a, src, text, n, h1, h2, h3, h4⟩ := C78_after_flush (by omega) setupZ_good Toy.replaceable demoC_hist (Creator.apart_nil _) demoC7_eq
    (by decide) demoC_batches (by
      intro mt hmt
      simp only [List.mem_cons, List.not_mem_nil, or_false] at hmt
      rcases hmt with rfl | rfl | rfl <;> exact ⟨Counter.shape_of _ (by decide +kernel) (by decide +kernel), by decide⟩)
    kind 0 0 (fun _ => .error .hang)
  have e : current (demoSet ++ [[item "a" "image/png" [6]]]) = [item "b" "text/html" [7, 8, 9, 10, 11], item "a" "image/png" [6]] := rfl
  rw [e] at h2 h4
  exact ⟨a, src, text, n, h1, h2, h3, (h4 _).trans rfl, (h4 _).trans rfl, (h4 _).trans rfl⟩

/-! ### A redirect in place of an item -/

/-- The url of a redirect has to differ from those of the items: if a redirect replaces an item, the item is still counted. -/
theorem C78_redirect_over_item : CountHist setupZ demoR6 (demoLists ++ [[]]) [] [("Ca", "Cb", none)] ∧
    demoR6.creator.arch.isDirty = false ∧
    (∃ e, demoR6.creator.arch.zim.entryByFullUrl "Ca" = .ok e ∧ e.isRedirect = true) ∧
    demoR6.counter.getCount "text/html" = 2 ∧
    stored setupZ demoR6.creator.arch.zim = .ok "text/html=2" := by
  obtain ⟨-, -, -, -, -, -, -, -, -, -, -, h1, h2, h3, h4, h5, h6, h7⟩ := demoC_runs
  refine ⟨.flush (.redirect (r := ("Ca", "Cb", none)) demoC4_hist ?_ (stepC_eq h1) h2) (stepC_eq h3), h4, ?_, h6, h7⟩
  · exact ⟨⟨'C', "a", by decide +kernel, by decide, by decide +kernel⟩, by decide, by simp, by decide⟩
  · cases he : demoR6.creator.arch.zim.entryByFullUrl "Ca" with
    | error x => rw [he] at h5; cases h5
    | ok e =>
      rw [he] at h5
      injection h5 with h5
      exact ⟨e, rfl, h5⟩

end Counting
end Pyzim
