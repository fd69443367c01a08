import Verif.Lemmas.Counter
import Verif.Lemmas.Str

/-!
# C29, C30, C60: the mimetype counter
-/

namespace Pyzim
namespace Counter

/-! ## C29 -/

/-- **C29.** Parsing the string of a counter gives back the same non-zero counts (in the same order),
if the mimetypes have the shape the string is made for. -/
theorem C29_round_trip (c : Counter) (hd : DistinctKeys c.counts)
    (hs : ∀ p ∈ c.counts, p.2 ≠ 0 → MimetypeShape p.1) :
    fromString (.str c.toString) = .ok { counts := c.counts.filter fun p => p.2 ≠ 0 } ∧
    fromString (.bytes (encode c.toString)) = .ok { counts := c.counts.filter fun p => p.2 ≠ 0 } := by
  have h1 : parse [] (pySplit ';' c.toString.toList) = .ok (c.counts.filter fun p => p.2 ≠ 0) := by
    unfold toString
    rw [String.toList_ofList]
    have := parse_components (c.counts.filter fun p => p.2 ≠ 0)
      (fun p hp => by
        have := List.mem_filter.1 hp
        exact hs p this.1 (by simpa using this.2)) []
    unfold component at this
    rw [this, foldl_dictSet]
    · rfl
    · exact List.Sublist.nodup ((List.filter_sublist).map _) hd
  refine ⟨?_, ?_⟩
  · simp only [fromString, StrArg.both, bind, Except.bind, h1]; rfl
  · have h2 : StrArg.both (.bytes (encode c.toString)) = .ok (encode c.toString, c.toString) := by
      simp only [StrArg.both, decode_encode]
    simp only [fromString, h2, bind, Except.bind, h1]; rfl

/-- **C29.** In terms of the counts: nothing changes for any mimetype. -/
theorem C29_counts (c : Counter) (hd : DistinctKeys c.counts)
    (hs : ∀ p ∈ c.counts, p.2 ≠ 0 → MimetypeShape p.1) :
    ∃ c', fromString (.str c.toString) = .ok c' ∧ ∀ mt, c'.getCount mt = c.getCount mt := by
  refine ⟨_, (C29_round_trip c hd hs).1, ?_⟩
  intro mt
  unfold getCount
  have : ∀ d : List (String × Int), DistinctKeys d →
      (dictGet mt (d.filter fun p => p.2 ≠ 0)).getD 0 = (dictGet mt d).getD 0 := by
    intro d
    induction d with
    | nil => intro _; rfl
    | cons p d ih =>
      intro hd
      obtain ⟨a, v⟩ := p
      have h' : a ∉ d.map Prod.fst ∧ DistinctKeys d := List.nodup_cons.1 hd
      by_cases hv : v = 0
      · subst hv
        have e : (List.filter (fun p : String × Int => decide (p.2 ≠ 0)) ((a, 0) :: d)) =
            List.filter (fun p => decide (p.2 ≠ 0)) d := by simp
        rw [e, ih h'.2]
        by_cases ha : a = mt
        · subst ha
          have : dictGet a d = none := by
            have gen : ∀ l : List (String × Int), a ∉ l.map Prod.fst → dictGet a l = none := by
              intro l
              induction l with
              | nil => intro _; rfl
              | cons q l ihl =>
                intro hq
                simp only [List.map_cons, List.mem_cons, not_or] at hq
                simp [dictGet, Ne.symm hq.1, ihl hq.2]
            exact gen d h'.1
          simp [dictGet, this]
        · simp [dictGet, ha]
      · have e : (List.filter (fun p : String × Int => decide (p.2 ≠ 0)) ((a, v) :: d)) =
            (a, v) :: List.filter (fun p => decide (p.2 ≠ 0)) d := by simp [hv]
        rw [e]
        by_cases ha : a = mt
        · simp [dictGet, ha]
        · simp only [dictGet, ha, if_false]; exact ih h'.2
  exact this c.counts hd

/-- **C29.** Whatever text could be parsed, not starting with a space: writing the counter and
parsing it again gives the same non-zero counts. -/
theorem C29_reparse (s : String) (hs : s.toList.head? ≠ some ' ') (c : Counter)
    (h : fromString (.str s) = .ok c) :
    fromString (.str c.toString) = .ok { counts := c.counts.filter fun p => p.2 ≠ 0 } := by
  simp only [fromString, StrArg.both, bind, Except.bind] at h
  cases hp : parse [] (pySplit ';' s.toList) with
  | error e => rw [hp] at h; cases h
  | ok out =>
    rw [hp] at h
    cases h
    refine (C29_round_trip _ (parse_distinct _ _ (Nat.le_refl _) _ _ (by simp [DistinctKeys]) hp) ?_).1
    intro p hpm _
    refine parse_shape _ _ (Nat.le_refl _) (pySplit_not_mem _ _) ?_ [] out (by simp) hp p hpm
    intro q hq
    cases hh : pySplit ';' s.toList with
    | nil => rw [hh] at hq; cases hq
    | cons a b =>
      rw [hh] at hq
      cases hq
      exact split_head _ _ _ _ hh hs

/-- A counter with parameters, an equals sign in a mimetype and a zero count. -/
def demo : Counter :=
  { counts := [("text/html; charset=utf-8", 12), ("image/png", 0), ("a/b; x=1; y=2", 3), ("text/css", 100)] }

example : demo.toString = "text/html; charset=utf-8=12;a/b; x=1; y=2=3;text/css=100" := by decide +kernel

/-- `MimetypeShape` of a concrete mimetype, by its split. -/
theorem shape_of (mt : String) (h : (pySplit ';' mt.toList).tail.all startsWithSpace = true)
    (h2 : mt.toList.head? ≠ some ' ') : MimetypeShape mt := by
  refine ⟨?_, h2⟩
  intro a b e
  rw [e, pySplit_append] at h
  obtain ⟨p, ps, hp⟩ : ∃ p ps, pySplit ';' a = p :: ps := by
    cases hh : pySplit ';' a with
    | nil => exact absurd hh (pySplit_ne_nil _ _)
    | cons p ps => exact ⟨p, ps, rfl⟩
  obtain ⟨q, qs, hq⟩ : ∃ p ps, pySplit ';' b = p :: ps := by
    cases hh : pySplit ';' b with
    | nil => exact absurd hh (pySplit_ne_nil _ _)
    | cons p ps => exact ⟨p, ps, rfl⟩
  rw [hp, hq] at h
  have h3 : startsWithSpace q = true := by
    have := List.all_eq_true.1 h q (by simp)
    exact this
  by_cases hb : b.head? = some ' '
  · exact hb
  · rw [split_head ';' b q qs hq hb] at h3
    cases h3

example : fromString (.str demo.toString) =
    .ok { counts := [("text/html; charset=utf-8", 12), ("a/b; x=1; y=2", 3), ("text/css", 100)] } :=
  (C29_round_trip demo (by unfold DistinctKeys; decide +kernel) (by
    intro p hp _
    simp only [demo, List.mem_cons, List.not_mem_nil, or_false] at hp
    rcases hp with rfl | rfl | rfl | rfl <;> exact shape_of _ (by decide +kernel) (by decide +kernel))).1

example : fromString (.str "a=1; b=2;c=0") =
    .ok { counts := [("a=1; b", 2), ("c", 0)] } := by decide +kernel

/-- The shape is needed: a `;` that is not followed by a space cannot be told from the end of a
component. -/
theorem C29_shape_needed :
    fromString (.str ({ counts := [("a/b;x", 1)] } : Counter).toString) = .error .valueError ∧
    fromString (.str ({ counts := [("a/b", 1), (" c", 2)] } : Counter).toString) ≠
      .ok { counts := [("a/b", 1), (" c", 2)] } := by
  refine ⟨?_, ?_⟩ <;> decide +kernel

/-! ## C30 -/

theorem numberOf_append (mts : MimeTypeList) (es es' : List Entry) (mt : String) :
    numberOf mts (es ++ es') mt = numberOf mts es mt + numberOf mts es' mt := by
  simp [numberOf]

theorem numberOf_cons (mts : MimeTypeList) (e : Entry) (es : List Entry) (mt : String) :
    numberOf mts (e :: es) mt = numberOf mts [e] mt + numberOf mts es mt :=
  numberOf_append mts [e] es mt

theorem numberOf_split (mts : MimeTypeList) {es : List Entry} {i : Nat} {o : Entry}
    (h : es[i]? = some o) (mt : String) :
    (∀ e, numberOf mts (es.set i e) mt + numberOf mts [o] mt = numberOf mts es mt + numberOf mts [e] mt) ∧
    numberOf mts (es.eraseIdx i) mt + numberOf mts [o] mt = numberOf mts es mt := by
  induction es generalizing i with
  | nil => simp at h
  | cons x xs ih =>
    cases i with
    | zero =>
      simp only [List.getElem?_cons_zero, Option.some.injEq] at h
      subst h
      refine ⟨fun e => ?_, ?_⟩
      · rw [List.set_cons_zero, numberOf_cons, numberOf_cons mts x xs]; omega
      · rw [List.eraseIdx_cons_zero, numberOf_cons mts x xs]; omega
    | succ i =>
      simp only [List.getElem?_cons_succ] at h
      obtain ⟨h1, h2⟩ := ih h
      refine ⟨fun e => ?_, ?_⟩
      · have := h1 e
        rw [List.set_cons_succ, numberOf_cons, numberOf_cons mts x xs]; omega
      · rw [List.eraseIdx_cons_succ, numberOf_cons, numberOf_cons mts x xs]; omega

theorem numberOf_single (mts : MimeTypeList) (e : Entry) (m : String) {mt : String}
    (h : mimetypeOf mts e = .ok mt) :
    numberOf mts [e] m = if shouldCount e = true ∧ m = mt then 1 else 0 := by
  unfold numberOf shouldCount
  have : decide (mimetypeOf mts e = .ok m) = decide (m = mt) := by
    rw [h]
    by_cases hm : m = mt
    · simp [hm]
    · have : mt ≠ m := Ne.symm hm
      simp [hm, this]
  rw [List.filter_cons, this]
  by_cases h1 : (!e.isRedirect && e.ns == "C") = true
  · by_cases h2 : m = mt
    · simp [h1, h2]
    · simp [h1, h2]
  · simp [h1]

/-- All entries of the archive have a valid mimetype. -/
def Resolved (mts : MimeTypeList) (es : List Entry) : Prop :=
  ∀ e ∈ es, ∃ mt, mimetypeOf mts e = .ok mt

theorem step (mts : MimeTypeList) (es : List Entry) (c : Counter) (op : EntryOp)
    (hr : Resolved mts es) (hc : Counts mts c es) (hv : op.Valid mts es) (hst : op.Stays mts es) :
    ∃ c', op.notify mts es c = (.ok (), c') ∧ Counts mts c' (op.apply es) ∧ Resolved mts (op.apply es) := by
  cases op with
  | add e =>
    obtain ⟨mt, hmt⟩ := hv
    have hr' : Resolved mts (es ++ [e]) := by
      intro x hx
      rcases List.mem_append.1 hx with h | h
      · exact hr x h
      · simp at h; subst h; exact ⟨mt, hmt⟩
    by_cases hs : shouldCount e = true
    · refine ⟨c.increment mt, ?_, ?_, hr'⟩
      · simp [EntryOp.notify, afterEntryWrite, hs, hmt]
      · intro m
        show (c.increment mt).getCount m = (numberOf mts (es ++ [e]) m : Int)
        rw [getCount_increment, hc m, numberOf_append, numberOf_single mts e m hmt]
        by_cases hm : m = mt <;> simp [hs, hm]
    · refine ⟨c, ?_, ?_, hr'⟩
      · simp [EntryOp.notify, afterEntryWrite, hs]
      · intro m
        show c.getCount m = (numberOf mts (es ++ [e]) m : Int)
        rw [hc m, numberOf_append, numberOf_single mts e m hmt]
        simp [hs]
  | remove i =>
    have hi : es[i]? = some es[i] := List.getElem?_eq_getElem hv
    generalize es[i] = o at hi
    obtain ⟨mt, hmt⟩ := hr o (List.mem_of_getElem? hi)
    have hr' : Resolved mts (es.eraseIdx i) := fun x hx => hr x (List.mem_of_mem_eraseIdx hx)
    have hn := fun m => (numberOf_split mts hi m).2
    by_cases hs : shouldCount o = true
    · have hpos : 0 < c.getCount mt := by
        have h1 := hn mt
        rw [numberOf_single mts o mt hmt] at h1
        simp only [hs, and_self, if_true] at h1
        rw [hc mt]
        omega
      obtain ⟨c', h1, h2⟩ := decrement_spec c mt hpos
      refine ⟨c', ?_, ?_, hr'⟩
      · simp [EntryOp.notify, hi, afterEntryRemove, hs, hmt, h1]
      · intro m
        show c'.getCount m = (numberOf mts (es.eraseIdx i) m : Int)
        have h3 := hn m
        rw [numberOf_single mts o m hmt] at h3
        rw [h2 m, hc m]
        by_cases hm : m = mt
        · simp only [hs, hm, and_self, if_true] at h3 ⊢
          omega
        · simp only [hm, and_false, if_false] at h3 ⊢
          omega
    · refine ⟨c, ?_, ?_, hr'⟩
      · simp [EntryOp.notify, hi, afterEntryRemove, hs]
      · intro m
        show c.getCount m = (numberOf mts (es.eraseIdx i) m : Int)
        have h3 := hn m
        rw [numberOf_single mts o m hmt] at h3
        simp only [hs, false_and, if_false] at h3
        rw [hc m]
        simp at h3
        rw [h3]
  | rewrite i e same =>
    obtain ⟨hlen, mte, hmte⟩ := hv
    have hi : es[i]? = some es[i] := List.getElem?_eq_getElem hlen
    generalize es[i] = o at hi
    obtain ⟨mto, hmto⟩ := hr o (List.mem_of_getElem? hi)
    obtain ⟨hkind, hsame⟩ := hst o hi
    have hkind' : shouldCount e = shouldCount o := hkind
    have hr' : Resolved mts (es.set i e) := by
      intro x hx
      rcases List.mem_or_eq_of_mem_set hx with h | h
      · exact hr x h
      · subst h; exact ⟨mte, hmte⟩
    have hn := fun m => (numberOf_split mts hi m).1 e
    by_cases hs : shouldCount e = true
    · have hold : ∃ x, (if same then some e else es[i]?) = some x ∧ mimetypeOf mts x = .ok mto := by
        cases same with
        | true => exact ⟨e, rfl, by rw [hsame rfl]; exact hmto⟩
        | false => exact ⟨o, hi, hmto⟩
      obtain ⟨x, hx, hxm⟩ := hold
      have hpos : 0 < (c.increment mte).getCount mto := by
        rw [getCount_increment, hc mto]
        have h1 := hn mto
        rw [numberOf_single mts o mto hmto, numberOf_single mts e mto hmte] at h1
        simp only [← hkind', hs, true_and, if_true] at h1
        by_cases hm : mto = mte
        · simp only [hm, if_true]; omega
        · simp only [hm, if_false] at h1 ⊢; omega
      obtain ⟨c', h1, h2⟩ := decrement_spec (c.increment mte) mto hpos
      refine ⟨c', ?_, ?_, hr'⟩
      · simp only [EntryOp.notify, hx, afterEntryWrite, hs, Bool.not_true, Bool.false_eq_true, if_false,
          hmte, hxm, h1]
      · intro m
        show c'.getCount m = (numberOf mts (es.set i e) m : Int)
        have h3 := hn m
        rw [numberOf_single mts o m hmto, numberOf_single mts e m hmte] at h3
        simp only [← hkind', hs, true_and] at h3
        rw [h2 m, getCount_increment, hc m]
        by_cases hm : m = mte <;> by_cases hm' : m = mto
        · simp only [hm, if_true] at h3 ⊢; rw [← hm, hm'] at h3 ⊢; simp only [if_true] at h3 ⊢; omega
        · simp only [hm, if_true] at h3 ⊢; rw [← hm] at h3 ⊢; simp only [hm', if_false] at h3 ⊢; omega
        · simp only [hm, if_false] at h3 ⊢; simp only [hm', if_true] at h3 ⊢; omega
        · simp only [hm, hm', if_false] at h3 ⊢; omega
    · refine ⟨c, ?_, ?_, hr'⟩
      · simp [EntryOp.notify, afterEntryWrite, hs]
      · intro m
        show c.getCount m = (numberOf mts (es.set i e) m : Int)
        have h3 := hn m
        rw [numberOf_single mts o m hmto, numberOf_single mts e m hmte] at h3
        simp only [← hkind', hs, false_and, if_false] at h3
        rw [hc m]
        simp at h3
        rw [h3]

/-- **C30**, for histories in which a rewritten entry neither becomes nor ceases to be a content
entry of namespace `C`, and in which an entry whose mimetype changed is not the cached object: if the
counter counts the entries of the archive, it never raises and still counts them after any sequence
of writing, rewriting and removing entries. In particular no count becomes negative.
The full property is false, see `C30_false`. -/
theorem C30_history_partial (mts : MimeTypeList) (ops : List EntryOp) (es : List Entry) (c : Counter)
    (hr : Resolved mts es) (hc : Counts mts c es)
    (hv : EntryOp.All (EntryOp.Valid mts) es ops) (hst : EntryOp.All (EntryOp.Stays mts) es ops) :
    ∃ es' c', EntryOp.run mts es c ops = some (es', c') ∧ Counts mts c' es' := by
  induction ops generalizing es c with
  | nil => exact ⟨es, c, rfl, hc⟩
  | cons op ops ih =>
    obtain ⟨c', h1, h2, h3⟩ := step mts es c op hr hc hv.1 hst.1
    obtain ⟨es'', c'', h4, h5⟩ := ih (op.apply es) c' h3 h2 hv.2 hst.2
    exact ⟨es'', c'', by simp only [EntryOp.run, h1, h4], h5⟩

/-- **C30.** Counts are never negative along such histories. -/
theorem C30_never_negative_partial (mts : MimeTypeList) (ops : List EntryOp) (es : List Entry) (c : Counter)
    (hr : Resolved mts es) (hc : Counts mts c es)
    (hv : EntryOp.All (EntryOp.Valid mts) es ops) (hst : EntryOp.All (EntryOp.Stays mts) es ops) :
    ∃ es' c', EntryOp.run mts es c ops = some (es', c') ∧ ∀ mt, 0 ≤ c'.getCount mt := by
  obtain ⟨es', c', h1, h2⟩ := C30_history_partial mts ops es c hr hc hv hst
  exact ⟨es', c', h1, fun mt => by rw [h2 mt]; omega⟩

/-! Witnesses -/

def demoMts : MimeTypeList := { mimetypes := [encode "text/html", encode "text/css"] }
def page (ns url : String) (mt : Nat) : Entry :=
  { mimetypeId := mt, ns := ns, url := url, titleRaw := none, kind := .content 0 0 }
def link (ns url : String) : Entry :=
  { mimetypeId := 0xffff, ns := ns, url := url, titleRaw := none, kind := .redirect 0 }

def demoOps : List EntryOp :=
  [.add (page "C" "a" 0), .add (link "C" "b"), .add (page "M" "x" 0), .add (page "C" "c" 0),
   .rewrite 0 (page "C" "a2" 1) false, .rewrite 3 (page "C" "c" 0) true, .remove 3, .remove 1]

theorem demoMts_get : mimetypeOf demoMts (page "C" "a" 0) = .ok "text/html" ∧
    mimetypeOf demoMts (page "C" "a" 1) = .ok "text/css" := by
  refine ⟨?_, ?_⟩
  · exact decode_encode "text/html"
  · exact decode_encode "text/css"

theorem demo_mt (ns url : String) : mimetypeOf demoMts (page ns url 0) = .ok "text/html" ∧
    mimetypeOf demoMts (page ns url 1) = .ok "text/css" := demoMts_get

example : ∃ es' c', EntryOp.run demoMts [] {} demoOps = some (es', c') ∧ Counts demoMts c' es' :=
  C30_history_partial demoMts demoOps [] {} (by simp [Resolved]) (fun _ => rfl)
    (by
      have h0 : ∀ ns url, ∃ mt, mimetypeOf demoMts (page ns url 0) = .ok mt := fun ns url => ⟨_, (demo_mt ns url).1⟩
      have h1 : ∀ ns url, ∃ mt, mimetypeOf demoMts (page ns url 1) = .ok mt := fun ns url => ⟨_, (demo_mt ns url).2⟩
      have h2 : ∀ ns url, ∃ mt, mimetypeOf demoMts (link ns url) = .ok mt := fun ns url => ⟨_, rfl⟩
      simp only [demoOps, EntryOp.All, EntryOp.Valid, EntryOp.apply]
      refine ⟨h0 _ _, h2 _ _, h0 _ _, h0 _ _, ⟨by decide, h1 _ _⟩, ⟨by decide, h0 _ _⟩, by decide, by decide, trivial⟩)
    (by
      simp only [demoOps, EntryOp.All, EntryOp.Stays, EntryOp.apply]
      refine ⟨trivial, trivial, trivial, trivial, ?_, ?_, trivial, trivial, trivial⟩
      · intro o ho; cases ho; exact ⟨by decide +kernel, by simp⟩
      · intro o ho; cases ho; exact ⟨by decide +kernel, fun _ => rfl⟩)

/-- **C30 is false in general**: the counter is wrong afterwards, or raises, if (1) an entry is
replaced by a redirect, (2) a redirect is replaced by an entry, (3) an entry moves out of namespace
`C`, (4) an entry moves into namespace `C`, (5) the mimetype of a cached entry was changed. -/
theorem C30_false :
    (∃ es c, EntryOp.run demoMts [] {} [.add (page "C" "a" 0), .rewrite 0 (link "C" "a") false] = some (es, c) ∧
      c.getCount "text/html" = 1 ∧ numberOf demoMts es "text/html" = 0) ∧
    EntryOp.run demoMts [] {} [.add (link "C" "a"), .rewrite 0 (page "C" "a" 0) false] = none ∧
    (∃ es c, EntryOp.run demoMts [] {} [.add (page "C" "a" 0), .rewrite 0 (page "M" "a" 0) false] = some (es, c) ∧
      c.getCount "text/html" = 1 ∧ numberOf demoMts es "text/html" = 0) ∧
    (∃ es c, EntryOp.run demoMts [] {} [.add (page "M" "a" 0), .rewrite 0 (page "C" "a" 0) false] = some (es, c) ∧
      c.getCount "text/html" = 0 ∧ numberOf demoMts es "text/html" = 1) ∧
    (∃ es c, EntryOp.run demoMts [] {} [.add (page "C" "a" 0), .rewrite 0 (page "C" "a" 1) true] = some (es, c) ∧
      c.getCount "text/html" = 1 ∧ numberOf demoMts es "text/html" = 0) := by
  have hp : ∀ ns url, (page ns url 0).isRedirect = false ∧ (page ns url 1).isRedirect = false := fun _ _ => ⟨rfl, rfl⟩
  have hl : ∀ ns url, (link ns url).isRedirect = true := fun _ _ => rfl
  have hm : ∀ ns url, mimetypeOf demoMts (link ns url) = .ok "<redirect>" := fun _ _ => rfl
  have n0 : ∀ ns url, numberOf demoMts [page ns url 0] "text/html" = if ns = "C" then 1 else 0 := by
    intro ns url
    rw [numberOf_single _ _ _ (demo_mt ns url).1]
    simp only [shouldCount, (hp ns url).1]
    by_cases h : ns = "C" <;> simp [page, h]
  have n1 : ∀ ns url, numberOf demoMts [page ns url 1] "text/html" = 0 := by
    intro ns url
    rw [numberOf_single _ _ _ (demo_mt ns url).2]
    simp
  have nl : ∀ ns url, numberOf demoMts [link ns url] "text/html" = 0 := by
    intro ns url
    rw [numberOf_single _ _ _ (hm ns url)]
    simp
  have s0 : ∀ url, shouldCount (page "C" url 0) = true ∧ shouldCount (page "C" url 1) = true ∧
      shouldCount (page "M" url 0) = false ∧ shouldCount (link "C" url) = false := by
    intro url; exact ⟨rfl, rfl, rfl, rfl⟩
  refine ⟨?_, ?_, ?_, ?_, ?_⟩
  · refine ⟨_, _, by simp [EntryOp.run, EntryOp.notify, EntryOp.apply, afterEntryWrite, s0, demo_mt]; exact ⟨rfl, rfl⟩, ?_, nl _ _⟩
    decide +kernel
  · simp [EntryOp.run, EntryOp.notify, EntryOp.apply, afterEntryWrite, s0, demo_mt, hm, increment, decrement, dictGet, dictSet]
  · refine ⟨_, _, by simp [EntryOp.run, EntryOp.notify, EntryOp.apply, afterEntryWrite, s0, demo_mt]; exact ⟨rfl, rfl⟩, ?_, ?_⟩
    · decide +kernel
    · rw [n0]; simp
  · refine ⟨_, _, by simp [EntryOp.run, EntryOp.notify, EntryOp.apply, afterEntryWrite, s0, demo_mt, increment, decrement, dictGet, dictSet]; exact ⟨rfl, rfl⟩, ?_, ?_⟩
    · decide +kernel
    · rw [n0]; simp
  · refine ⟨_, _, by simp [EntryOp.run, EntryOp.notify, EntryOp.apply, afterEntryWrite, s0, demo_mt, increment, decrement, dictGet, dictSet]; exact ⟨rfl, rfl⟩, ?_, n1 _ _⟩
    decide +kernel

/-! ## C60 -/

theorem countAll_spec (mts : MimeTypeList) (es : List Entry) (hr : Resolved mts es) (c : Counter)
    (es₀ : List Entry) (hc : Counts mts c es₀) :
    ∃ c', countAll mts c es = .ok c' ∧ Counts mts c' (es₀ ++ es) := by
  induction es generalizing c es₀ with
  | nil => exact ⟨c, rfl, by simpa using hc⟩
  | cons e es ih =>
    obtain ⟨mt, hmt⟩ := hr e (by simp)
    have hr' : Resolved mts es := fun x hx => hr x (by simp [hx])
    unfold countAll
    by_cases hs : shouldCount e = true
    · obtain ⟨c', h1, h2⟩ := ih hr' (c.increment mt) (es₀ ++ [e]) (by
        intro m
        rw [getCount_increment, hc m, numberOf_append, numberOf_single mts e m hmt]
        by_cases hm : m = mt <;> simp [hs, hm])
      exact ⟨c', by simp [hs, hmt, h1], by simpa using h2⟩
    · obtain ⟨c', h1, h2⟩ := ih hr' c (es₀ ++ [e]) (by
        intro m
        rw [hc m, numberOf_append, numberOf_single mts e m hmt]
        simp [hs])
      exact ⟨c', by simp [hs, h1], by simpa using h2⟩

/-- **C60.** When the archive has no readable counter, opening it counts its entries exactly; the
counter is then dirty, so that it will be written. -/
theorem C60_reinit (mts : MimeTypeList) (es : List Entry) (hr : Resolved mts es) (stored : PyRes String)
    (how : How) (hhow : how = .reinit ∨ how = .loadOrReinit ∧
      (stored = .error .entryNotFound ∨ stored = .error .blobNotFound ∨ stored = .error .unicodeError)) :
    ∃ c, loadFromArchive mts stored false es how = .ok (some c) ∧ Counts mts c es ∧ c.dirty = true := by
  obtain ⟨c', h1, h2⟩ := countAll_spec mts es hr {} [] (fun _ => rfl)
  refine ⟨{ c' with dirty := true }, ?_, by simpa [Counts, getCount] using h2, rfl⟩
  rcases hhow with rfl | ⟨rfl, rfl | rfl | rfl⟩ <;> simp [loadFromArchive, h1]

/-- **C60.** A counter stored by this library is loaded with the same counts and is not dirty. -/
theorem C60_load (mts : MimeTypeList) (es : List Entry) (isNew : Bool) (c : Counter)
    (hd : DistinctKeys c.counts) (hs : ∀ p ∈ c.counts, p.2 ≠ 0 → MimetypeShape p.1)
    (how : How) (hhow : how = .load ∨ how = .loadOrReinit) :
    ∃ c', loadFromArchive mts (.ok c.toString) isNew es how = .ok (some c') ∧
      (∀ mt, c'.getCount mt = c.getCount mt) ∧ c'.dirty = false := by
  obtain ⟨c', h1, h2⟩ := C29_counts c hd hs
  refine ⟨c', ?_, h2, ?_⟩
  · rcases hhow with rfl | rfl <;> simp [loadFromArchive, h1]
  · rw [(C29_round_trip c hd hs).1] at h1
    cases h1
    rfl

/-- **C60.** `how="load"` never counts anew: a missing or unreadable counter is an error. -/
theorem C60_load_only (mts : MimeTypeList) (es : List Entry) (isNew : Bool) (e : PyErr)
    (he : e = .entryNotFound ∨ e = .blobNotFound ∨ e = .valueError ∨ e = .unicodeError) :
    loadFromArchive mts (.error e) isNew es .load = .error .noCounter := by
  rcases he with rfl | rfl | rfl | rfl <;> rfl

/-- **C60.** `how="ignore"` installs no counter at all. -/
theorem C60_ignore (mts : MimeTypeList) (es : List Entry) (isNew : Bool) (stored : PyRes String) :
    loadFromArchive mts stored isNew es .ignore = .ok none := rfl

example : ∃ c, loadFromArchive demoMts (.error .entryNotFound) false
      [page "C" "a" 0, page "C" "b" 1, link "C" "c", page "M" "d" 0, page "C" "e" 0] .loadOrReinit = .ok (some c) ∧
    Counts demoMts c [page "C" "a" 0, page "C" "b" 1, link "C" "c", page "M" "d" 0, page "C" "e" 0] ∧
    c.dirty = true :=
  C60_reinit demoMts _ (by
    intro e he
    simp only [List.mem_cons, List.not_mem_nil, or_false] at he
    rcases he with rfl | rfl | rfl | rfl | rfl
    · exact ⟨_, (demo_mt _ _).1⟩
    · exact ⟨_, (demo_mt _ _).2⟩
    · exact ⟨_, rfl⟩
    · exact ⟨_, (demo_mt _ _).1⟩
    · exact ⟨_, (demo_mt _ _).1⟩) _ _ (Or.inr ⟨rfl, Or.inl rfl⟩)

/-- a call on the counter -/
def call (c : Counter) : CounterCall → PyRes Unit × Counter
  | .increment mt => (.ok (), c.increment mt)
  | .decrement mt => c.decrement mt

/-- a sequence of calls: all answers and the counter at the end -/
def callAll (c : Counter) : List CounterCall → List (PyRes Unit) × Counter
  | [] => ([], c)
  | a :: as =>
    let r := c.call a
    let rs := callAll r.2 as
    (r.1 :: rs.1, rs.2)

theorem call_spec (c : Counter) (a : CounterCall) :
    (c.call a).1 = (a.expected c.getCount).1 ∧ (c.call a).2.getCount = (a.expected c.getCount).2 := by
  cases a with
  | increment mt =>
    refine ⟨rfl, ?_⟩
    funext m
    show (c.increment mt).getCount m = if m = mt then c.getCount mt + 1 else c.getCount m
    rw [getCount_increment]
    by_cases h : m = mt
    · subst h; simp
    · simp [h]
  | decrement mt =>
    show (c.decrement mt).1 = (if 1 ≤ c.getCount mt then _ else _ : PyRes Unit × (String → Int)).1 ∧
      (c.decrement mt).2.getCount = (if 1 ≤ c.getCount mt then _ else _ : PyRes Unit × (String → Int)).2
    by_cases h : 1 ≤ c.getCount mt
    · obtain ⟨c', hc, hg⟩ := decrement_spec c mt (by omega)
      rw [if_pos h, hc]
      refine ⟨rfl, ?_⟩
      funext m
      show c'.getCount m = if m = mt then c.getCount mt - 1 else c.getCount m
      rw [hg]
      by_cases h : m = mt
      · subst h; simp
      · simp [h]
    · rw [if_neg h]
      have hd : c.decrement mt = (.error .valueError, c) := by
        unfold getCount at h
        unfold decrement
        cases hg : dictGet mt c.counts with
        | none => rfl
        | some n =>
          rw [hg] at h
          have : n ≤ 0 := by simp at h; omega
          simp only [if_pos this]
      rw [hd]
      exact ⟨rfl, rfl⟩

/-- **C61.** Any sequence of `increment_count` and `decrement_count` calls is answered, and leaves the
counts, as in a table of numbers in which decrementing needs at least one. -/
theorem C61_calls (c : Counter) (calls : List CounterCall) :
    (c.callAll calls).1 = (CounterCall.expectedAll c.getCount calls).1 ∧
      (c.callAll calls).2.getCount = (CounterCall.expectedAll c.getCount calls).2 := by
  induction calls generalizing c with
  | nil => exact ⟨rfl, rfl⟩
  | cons a as ih =>
    obtain ⟨h1, h2⟩ := call_spec c a
    obtain ⟨h3, h4⟩ := ih (c.call a).2
    rw [h2] at h3 h4
    exact ⟨List.cons_eq_cons.2 ⟨h1, h3⟩, h4⟩

/-- **C61.** A count that is not negative never becomes negative. -/
theorem C61_never_negative (c : Counter) (calls : List CounterCall) (h : ∀ m, 0 ≤ c.getCount m) (m : String) :
    0 ≤ (c.callAll calls).2.getCount m := by
  rw [(C61_calls c calls).2]
  generalize c.getCount = t at h
  induction calls generalizing t with
  | nil => exact h m
  | cons a as ih =>
    refine ih _ ?_
    intro m'
    have := h m'
    cases a with
    | increment mt =>
      show 0 ≤ if m' = mt then t mt + 1 else t m'
      have := h mt
      split <;> omega
    | decrement mt =>
      simp only [CounterCall.expected]
      by_cases hm : 1 ≤ t mt
      · rw [if_pos hm]
        show 0 ≤ if m' = mt then t mt - 1 else t m'
        split <;> omega
      · rw [if_neg hm]; exact this

/-- **C61.** A successful call marks the counter for writing, a failed call leaves it as it was. -/
theorem C61_dirty (c : Counter) (a : CounterCall) :
    ((c.call a).1 = .ok () → (c.call a).2.dirty = true) ∧ ((c.call a).1 ≠ .ok () → (c.call a).2 = c) := by
  cases a with
  | increment mt =>
    refine ⟨fun _ => ?_, fun h => absurd rfl h⟩
    show (c.increment mt).dirty = true
    unfold increment
    split <;> rfl
  | decrement mt =>
    show ((c.decrement mt).1 = _ → (c.decrement mt).2.dirty = true) ∧ ((c.decrement mt).1 ≠ _ → (c.decrement mt).2 = c)
    unfold decrement
    split
    · exact ⟨fun h => (by cases h), fun _ => rfl⟩
    · split
      · exact ⟨fun h => (by cases h), fun _ => rfl⟩
      · exact ⟨fun _ => rfl, fun h => absurd rfl h⟩

example : (callAll {} [.decrement "a", .increment "a", .increment "b", .decrement "a", .decrement "a"]).1 =
    [.error .valueError, .ok (), .ok (), .ok (), .error .valueError] := by decide +kernel

end Counter
end Pyzim
