import Verif.Lemmas.CreatorShows
import Verif.Model.Counting
import Verif.Props.Counter

/-!
# The counter and the entries
-/

namespace Pyzim
open Zim (Row Stored Clustered Lists Mirrored Mirrors catalogue catalogue_snoc)

/-! ### Numbers of entries -/

/-- the mimetype with a number -/
def mimetypeAt (mts : MimeTypeList) (id : Nat) : PyRes String := mts.get (id : Int) >>= decode

/-- what the counter counts for a mimetype -/
def countedView (mts : MimeTypeList) (mt : String) (v : View) : Bool :=
  v.mimetype ≠ 0xffff && v.ns == "C" && decide (mimetypeAt mts v.mimetype = .ok mt)

theorem mimetypeOf_content {mts : MimeTypeList} {e : Entry} (h : e.isRedirect = false) :
    Counter.mimetypeOf mts e = mimetypeAt mts e.mimetypeId := by
  unfold Counter.mimetypeOf mimetypeAt
  rw [if_neg (by rw [h]; simp)]

theorem isRedirect_view (e : Entry) : e.isRedirect = decide (e.view.mimetype = 0xffff) := rfl

theorem numberOf_views (mts : MimeTypeList) (es : List Entry) (mt : String) :
    numberOf mts es mt = ((es.map Entry.view).filter (countedView mts mt)).length := by
  unfold numberOf
  rw [List.filter_map, List.length_map]
  congr 1
  refine List.filter_congr fun e _ => ?_
  unfold countedView
  simp only [Function.comp]
  cases hr : e.isRedirect with
  | true =>
    have : e.view.mimetype = 0xffff := by simpa [isRedirect_view] using hr
    simp [this]
  | false =>
    have : ¬ e.view.mimetype = 0xffff := by simpa [isRedirect_view] using hr
    rw [mimetypeOf_content hr]
    simp only [Bool.not_false, Bool.true_and]
    rw [show (decide (e.view.mimetype ≠ 0xffff)) = true from by simpa using this, Bool.true_and]
    rfl

/-- the number depends only on what is seen of content entries -/
theorem numberOf_congr {mts : MimeTypeList} {es fs : List Entry} (h1 : (es.map Entry.fullUrl).Nodup)
    (h2 : (fs.map Entry.fullUrl).Nodup) (h : ∀ v : View, v.mimetype ≠ 0xffff → (v ∈ es.map Entry.view ↔ v ∈ fs.map Entry.view))
    (mt : String) : numberOf mts es mt = numberOf mts fs mt := by
  rw [numberOf_views, numberOf_views]
  have hn : ∀ l : List Entry, (l.map Entry.fullUrl).Nodup → (l.map Entry.view).Nodup := by
    intro l hl
    have : l.map Entry.fullUrl = (l.map Entry.view).map fun v => v.ns ++ v.url := by
      rw [List.map_map]; rfl
    rw [this] at hl
    exact List.Nodup.of_map _ hl
  refine ((List.perm_ext_iff_of_nodup ((hn _ h1).filter _) ((hn _ h2).filter _)).2 fun v => ?_).length_eq
  rw [List.mem_filter, List.mem_filter]
  refine and_congr_left fun hc => h v ?_
  unfold countedView at hc
  simp only [Bool.and_eq_true, decide_eq_true_eq] at hc
  exact hc.1.1

theorem numberOf_mono {mts mts' : MimeTypeList} (hp : mts.mimetypes <+: mts'.mimetypes) {es : List Entry}
    (h : ∀ e ∈ es, Counter.shouldCount e = true → ∃ mt, Counter.mimetypeOf mts e = .ok mt) (mt : String) :
    numberOf mts' es mt = numberOf mts es mt := by
  unfold numberOf
  congr 1
  refine List.filter_congr fun e he => ?_
  cases hc : Counter.shouldCount e with
  | false =>
    unfold Counter.shouldCount at hc
    rw [hc]; simp
  | true =>
    obtain ⟨s, hs⟩ := h e he hc
    have : Counter.mimetypeOf mts' e = .ok s := by
      unfold Counter.mimetypeOf at hs ⊢
      split
      · rename_i hr; rw [if_pos hr] at hs; exact hs
      · rename_i hr
        rw [if_neg hr] at hs
        cases hg : mts.get (e.mimetypeId : Int) with
        | error x => rw [hg] at hs; cases hs
        | ok b =>
          rw [hg] at hs
          rw [MimeTypeList.get_prefix hp hg]; exact hs
    rw [hs, this]

/-! ### The counter of an archive -/

/-- The counter counts the entries, its keys are different and have the property. -/
structure TalliedBy (M : String → Prop) (mts : MimeTypeList) (es : List Entry) (n : Counter) : Prop where
  counts : Counts mts n es
  resolved : ∀ e ∈ es, Counter.shouldCount e = true → ∃ mt, Counter.mimetypeOf mts e = .ok mt
  distinct : DistinctKeys n.counts
  keys : ∀ p ∈ n.counts, M p.1

theorem TalliedBy.congr {M : String → Prop} {mts mts' : MimeTypeList} {es fs : List Entry} {n : Counter} (h : TalliedBy M mts es n)
    (hp : mts.mimetypes <+: mts'.mimetypes) (h1 : (es.map Entry.fullUrl).Nodup) (h2 : (fs.map Entry.fullUrl).Nodup)
    (hv : ∀ v : View, v.mimetype ≠ 0xffff → (v ∈ es.map Entry.view ↔ v ∈ fs.map Entry.view)) : TalliedBy M mts' fs n := by
  have hr : ∀ e ∈ fs, Counter.shouldCount e = true → ∃ mt, Counter.mimetypeOf mts e = .ok mt := by
    intro e he hc
    unfold Counter.shouldCount at hc
    simp only [Bool.and_eq_true, Bool.not_eq_true'] at hc
    have hne : e.view.mimetype ≠ 0xffff := by simpa [isRedirect_view] using hc.1
    obtain ⟨d, hd, hde⟩ := List.mem_map.1 ((hv _ hne).2 (List.mem_map_of_mem he))
    have hid : d.mimetypeId = e.mimetypeId := congrArg View.mimetype hde
    have hdr : d.isRedirect = false := by rw [isRedirect_view, hde, ← isRedirect_view]; exact hc.1
    have hdn : d.ns = e.ns := congrArg View.ns hde
    obtain ⟨mt, hm⟩ := h.resolved d hd (by unfold Counter.shouldCount; rw [hdr, hdn, hc.2]; rfl)
    rw [mimetypeOf_content hdr, hid] at hm
    exact ⟨mt, by rw [mimetypeOf_content hc.1]; exact hm⟩
  refine ⟨fun mt => ?_, ?_, h.distinct, h.keys⟩
  · rw [h.counts mt, numberOf_mono hp hr, numberOf_congr h1 h2 hv]
  · intro e he hc
    obtain ⟨mt, hm⟩ := hr e he hc
    refine ⟨mt, ?_⟩
    unfold Counter.shouldCount at hc
    simp only [Bool.and_eq_true, Bool.not_eq_true'] at hc
    rw [mimetypeOf_content hc.1] at hm ⊢
    unfold mimetypeAt at hm ⊢
    cases hg : mts.get (e.mimetypeId : Int) with
    | error x => rw [hg] at hm; cases hm
    | ok b =>
      rw [hg] at hm
      rw [MimeTypeList.get_prefix hp hg]; exact hm

theorem increment_counts (n : Counter) (mt : String) : ∃ v, (n.increment mt).counts = dictSet mt v n.counts ∧ (n.increment mt).dirty = true := by
  unfold Counter.increment
  split
  · exact ⟨_, rfl, rfl⟩
  · exact ⟨_, rfl, rfl⟩

theorem decrement_ok {n n' : Counter} {mt : String} (h : n.decrement mt = (.ok (), n')) :
    0 < n.getCount mt ∧ (∃ v, n'.counts = dictSet mt v n.counts) ∧ n'.dirty = true := by
  unfold Counter.decrement at h
  cases hg : dictGet mt n.counts with
  | none => rw [hg] at h; cases h
  | some v =>
    rw [hg] at h
    simp only at h
    split at h
    · cases h
    · rename_i hv
      injection h with _ h
      subst h
      refine ⟨?_, ⟨_, rfl⟩, rfl⟩
      unfold Counter.getCount
      rw [hg]
      simp only [Option.getD_some]
      omega

theorem dictSet_all {V : Type} {M : String → Prop} {k : String} {v : V} {d : List (String × V)} (h : ∀ p ∈ d, M p.1) (hk : M k) :
    ∀ p ∈ dictSet k v d, M p.1 := by
  induction d with
  | nil => intro p hp; simp only [dictSet, List.mem_singleton] at hp; rw [hp]; exact hk
  | cons q d ih =>
    intro p hp
    unfold dictSet at hp
    split at hp
    · rename_i e
      rcases List.mem_cons.1 hp with rfl | hp
      · simp only; rw [e]; exact hk
      · exact h p (by simp [hp])
    · rcases List.mem_cons.1 hp with rfl | hp
      · exact h _ (by simp)
      · exact ih (fun p hp => h p (by simp [hp])) p hp

theorem getCount_zero {M : String → Prop} {n : Counter} (h : ∀ p ∈ n.counts, M p.1) {k : String} (hk : ¬ M k) : n.getCount k = 0 := by
  unfold Counter.getCount
  have : ∀ d : List (String × Int), (∀ p ∈ d, M p.1) → dictGet k d = none := by
    intro d
    induction d with
    | nil => intro _; rfl
    | cons q d ih =>
      intro hd
      unfold dictGet
      rw [if_neg (fun e => hk (by rw [← e]; exact hd q (by simp)))]
      exact ih fun p hp => hd p (by simp [hp])
  rw [this _ h]; rfl

theorem numberOf_filter (mts : MimeTypeList) (es : List Entry) (f : Entry → Bool) (mt : String) :
    numberOf mts es mt = numberOf mts (es.filter f) mt + numberOf mts (es.filter fun e => !f e) mt := by
  induction es with
  | nil => rfl
  | cons e es ih =>
    rw [Counter.numberOf_cons, ih]
    cases hf : f e with
    | true =>
      rw [List.filter_cons_of_pos hf, List.filter_cons_of_neg (by rw [hf]; simp), Counter.numberOf_cons mts e (es.filter f)]; omega
    | false =>
      rw [List.filter_cons_of_neg (by rw [hf]; simp), List.filter_cons_of_pos (by rw [hf]; rfl),
        Counter.numberOf_cons mts e (es.filter fun e => !f e)]; omega

theorem numberOf_other {mts : MimeTypeList} {e : Entry} (h : Counter.shouldCount e = false) (mt : String) : numberOf mts [e] mt = 0 := by
  unfold numberOf
  rw [List.filter_cons_of_neg]
  · rfl
  · unfold Counter.shouldCount at h
    rw [h]; simp

theorem filter_url {es : List Entry} (hn : (es.map Entry.fullUrl).Nodup) {o : Entry} (ho : o ∈ es) :
    es.filter (fun d => decide (d.fullUrl = o.fullUrl)) = [o] := by
  induction es with
  | nil => cases ho
  | cons d es ih =>
    rw [List.map_cons, List.nodup_cons] at hn
    rcases List.mem_cons.1 ho with rfl | ho
    · rw [List.filter_cons_of_pos (by simp)]
      congr 1
      rw [List.filter_eq_nil_iff]
      intro d hd he
      exact hn.1 (List.mem_map.2 ⟨d, hd, by simpa using he⟩)
    · rw [List.filter_cons_of_neg, ih hn.2 ho]
      intro he
      exact hn.1 (List.mem_map.2 ⟨o, ho, by simpa [eq_comm] using he⟩)

/-- The counter is told about an entry that was written. -/
theorem TalliedBy.write {M : String → Prop} {mts : MimeTypeList} {es fs : List Entry} {n n' : Counter} (h : TalliedBy M mts es n)
    (h1 : (es.map Entry.fullUrl).Nodup) (h2 : (fs.map Entry.fullUrl).Nodup) {e : Entry}
    (hv : ∀ v : View, v ∈ fs.map Entry.view ↔ v = e.view ∨ (v ∈ es.map Entry.view ∧ v.ns ++ v.url ≠ e.fullUrl))
    (he : e.isRedirect = false) {old : Option Entry} (hnone : old = none → ∀ d ∈ es, d.fullUrl ≠ e.fullUrl)
    (hsome : ∀ o, old = some o → o ∈ es ∧ o.fullUrl = e.fullUrl ∧ o.ns = e.ns) (hM : ¬ M "<redirect>")
    (hMe : ∀ mt, Counter.mimetypeOf mts e = .ok mt → M mt) (hok : n.afterEntryWrite mts e old = (.ok (), n')) :
    TalliedBy M mts fs n' ∧ (n' = n ∨ n'.dirty = true) := by
  have hN : ∀ mt, numberOf mts fs mt = numberOf mts [e] mt + numberOf mts (es.filter fun d => !decide (d.fullUrl = e.fullUrl)) mt := by
    intro mt
    rw [← Counter.numberOf_cons]
    refine numberOf_congr h2 ?_ (fun v _ => ?_) mt
    · rw [List.map_cons, List.nodup_cons]
      refine ⟨fun hm => ?_, h1.sublist (List.filter_sublist.map _)⟩
      obtain ⟨d, hd, hde⟩ := List.mem_map.1 hm
      have := (List.mem_filter.1 hd).2
      simp [hde] at this
    · rw [hv v, List.map_cons, List.mem_cons]
      refine or_congr Iff.rfl ?_
      constructor
      · rintro ⟨hm, hu⟩
        obtain ⟨d, hd, rfl⟩ := List.mem_map.1 hm
        refine List.mem_map.2 ⟨d, List.mem_filter.2 ⟨hd, ?_⟩, rfl⟩
        have : ¬ d.fullUrl = e.fullUrl := hu
        simp [this]
      · intro hm
        obtain ⟨d, hd, rfl⟩ := List.mem_map.1 hm
        obtain ⟨hd, hu⟩ := List.mem_filter.1 hd
        refine ⟨List.mem_map_of_mem hd, ?_⟩
        have : ¬ d.fullUrl = e.fullUrl := by simpa using hu
        exact this
  have hO : ∀ mt, numberOf mts es mt = numberOf mts old.toList mt +
      numberOf mts (es.filter fun d => !decide (d.fullUrl = e.fullUrl)) mt := by
    intro mt
    rw [numberOf_filter mts es (fun d => decide (d.fullUrl = e.fullUrl)) mt]
    congr 2
    cases old with
    | none =>
      rw [Option.toList_none, List.filter_eq_nil_iff]
      intro d hd hde
      exact hnone rfl d hd (by simpa using hde)
    | some o =>
      obtain ⟨k1, k2, -⟩ := hsome o rfl
      rw [← k2]
      exact filter_url h1 k1
  have hres : ∀ mt0, Counter.mimetypeOf mts e = .ok mt0 ∨ Counter.shouldCount e = false →
      ∀ d ∈ fs, Counter.shouldCount d = true → ∃ mt, Counter.mimetypeOf mts d = .ok mt := by
    intro mt0 h0 d hd hc
    unfold Counter.shouldCount at hc
    simp only [Bool.and_eq_true, Bool.not_eq_true'] at hc
    rw [mimetypeOf_content hc.1]
    rcases (hv _).1 (List.mem_map_of_mem hd) with hde | ⟨hm, -⟩
    · have hid : d.mimetypeId = e.mimetypeId := congrArg View.mimetype hde
      have hns : d.ns = e.ns := congrArg View.ns hde
      rcases h0 with h0 | h0
      · rw [mimetypeOf_content he] at h0
        exact ⟨mt0, by rw [hid]; exact h0⟩
      · unfold Counter.shouldCount at h0
        rw [he, ← hns, hc.2] at h0
        cases h0
    · obtain ⟨d', hd', hde⟩ := List.mem_map.1 hm
      have hid : d'.mimetypeId = d.mimetypeId := congrArg View.mimetype hde
      have hns : d'.ns = d.ns := congrArg View.ns hde
      have hr' : d'.isRedirect = false := by rw [isRedirect_view, hde, ← isRedirect_view]; exact hc.1
      obtain ⟨mt, hm⟩ := h.resolved d' hd' (by unfold Counter.shouldCount; rw [hr', hns, hc.2]; rfl)
      rw [mimetypeOf_content hr', hid] at hm
      exact ⟨mt, hm⟩
  unfold Counter.afterEntryWrite at hok
  cases hc : Counter.shouldCount e with
  | false =>
    rw [hc] at hok
    simp only [Bool.not_false, if_true] at hok
    injection hok with _ hok
    subst hok
    refine ⟨⟨fun mt => ?_, hres "" (.inr hc), h.distinct, h.keys⟩, .inl rfl⟩
    rw [h.counts mt, hN mt, hO mt, numberOf_other hc]
    congr 2
    cases old with
    | none => rfl
    | some o =>
      obtain ⟨-, -, k3⟩ := hsome o rfl
      refine numberOf_other ?_ mt
      unfold Counter.shouldCount at hc ⊢
      rw [he] at hc
      rw [k3]
      simp only [Bool.not_false, Bool.true_and] at hc
      rw [hc]; simp
  | true =>
    rw [hc] at hok
    simp only [Bool.not_true, Bool.false_eq_true, if_false] at hok
    cases hmt : Counter.mimetypeOf mts e with
    | error x => rw [hmt] at hok; cases hok
    | ok mt0 =>
    rw [hmt] at hok
    simp only at hok
    obtain ⟨v1, i1, i2⟩ := increment_counts n mt0
    have hI : DistinctKeys (n.increment mt0).counts ∧ ∀ p ∈ (n.increment mt0).counts, M p.1 := by
      rw [i1]
      exact ⟨dictSet_nodup _ _ _ h.distinct, dictSet_all h.keys (hMe mt0 hmt)⟩
    have hE : ∀ mt, numberOf mts [e] mt = if mt = mt0 then 1 else 0 := by
      intro mt
      rw [Counter.numberOf_single mts e mt hmt, hc]
      simp
    cases old with
    | none =>
      simp only at hok
      injection hok with _ hok
      subst hok
      refine ⟨⟨fun mt => ?_, hres mt0 (.inl hmt), hI.1, hI.2⟩, .inr i2⟩
      rw [Counter.getCount_increment, h.counts mt, hN mt, hO mt, hE mt]
      have : numberOf mts [] mt = 0 := rfl
      rw [Option.toList_none, this]
      split <;> simp [Int.add_comm]
    | some o =>
      obtain ⟨k1, k2, k3⟩ := hsome o rfl
      simp only at hok
      cases hmo : Counter.mimetypeOf mts o with
      | error x => rw [hmo] at hok; cases hok
      | ok mt1 =>
      rw [hmo] at hok
      simp only at hok
      obtain ⟨d1, ⟨v2, d2⟩, d3⟩ := decrement_ok hok
      have hmt1 : M mt1 := by
        by_contra hx
        rw [getCount_zero hI.2 hx] at d1
        omega
      have hor : o.isRedirect = false := by
        cases hr : o.isRedirect with
        | false => rfl
        | true =>
          unfold Counter.mimetypeOf at hmo
          rw [if_pos hr] at hmo
          injection hmo with hmo
          rw [← hmo] at hmt1
          exact absurd hmt1 hM
      have hoc : Counter.shouldCount o = true := by
        unfold Counter.shouldCount at hc ⊢
        rw [he] at hc
        rw [hor, k3]; exact hc
      have hP : ∀ mt, numberOf mts [o] mt = if mt = mt1 then 1 else 0 := by
        intro mt
        rw [Counter.numberOf_single mts o mt hmo, hoc]
        simp
      obtain ⟨n2, e1, e2⟩ := Counter.decrement_spec (n.increment mt0) mt1 d1
      rw [hok] at e1
      injection e1 with _ e1
      subst e1
      refine ⟨⟨fun mt => ?_, hres mt0 (.inl hmt), ?_, ?_⟩, .inr d3⟩
      · rw [e2, Counter.getCount_increment, h.counts mt, hN mt, hO mt, hE mt]
        rw [Option.toList_some, hP mt]
        split <;> split <;> simp <;> omega
      · rw [d2]; exact dictSet_nodup _ _ _ hI.1
      · rw [d2]; exact dictSet_all hI.2 hmt1

end Pyzim
