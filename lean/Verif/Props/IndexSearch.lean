import Verif.Spec.IndexSearch
import Verif.Lemmas.Str

/-!
# C94: searching with an index
-/

namespace Pyzim
namespace IndexSearch
variable {s : IndexSearch} {term : String} {found : List (Entry × Nat)}

theorem ns_one {n : String} (h : n.length = 1) : ∃ c, n.toList = [c] := by
  rw [← String.length_toList] at h
  exact List.length_eq_one_iff.1 h

/-- the full url of the document of an entry -/
theorem urlOf_data {n u : String} (h : n.length = 1) : urlOf (encode (n ++ "/" ++ u)) = .ok (n ++ u) := by
  obtain ⟨c, hc⟩ := ns_one h
  unfold urlOf
  rw [decode_encode]
  show (match (n ++ "/" ++ u).toList with
    | [] => .error .indexError
    | c :: cs => .ok (String.ofList (c :: cs.drop 1)) : PyRes String) = _
  rw [String.toList_append, String.toList_append, hc]
  show (.ok (String.ofList (c :: u.toList)) : PyRes String) = _
  congr 1
  apply String.toList_inj.1
  rw [String.toList_ofList, String.toList_append, hc]
  rfl

theorem resultOf_found (h : FindsAll s term found) {f : Entry × Nat} (hf : f ∈ found) (i : Nat) :
    s.resultOf { data := encode (f.1.ns ++ "/" ++ f.1.url), rank := i, percent := f.2 } = .ok (foundResult f (i + 1)) := by
  have hne : f.1.ns ++ f.1.url ≠ "" := by
    intro h0
    have h1 := h.namespaces f hf
    have := congrArg String.length h0
    rw [String.length_append] at this
    simp at this
    rw [this.1] at h1
    cases h1
  have hp := h.percents f hf
  unfold resultOf
  rw [urlOf_data (h.namespaces f hf)]
  show (do
    let e ← s.zim.entryByFullUrl (f.1.ns ++ f.1.url)
    SearchResult.new ((i : Int) + 1) (f.2, 100) (f.1.ns ++ f.1.url) e.title) = _
  rw [h.entries f hf]
  show SearchResult.new ((i : Int) + 1) (f.2, 100) (f.1.ns ++ f.1.url) f.1.title = _
  unfold SearchResult.new
  rw [if_neg (by omega), if_neg (by simp; omega), if_neg hne]
  rfl

theorem mapM_all {α β : Type} {f : α → PyRes β} {g : α → β} {l : List α} (h : ∀ x ∈ l, f x = .ok (g x)) :
    l.mapM f = .ok (l.map g) := by
  induction l with
  | nil => rfl
  | cons a l ih =>
    rw [List.mapM_cons, h a (by simp), ih fun x hx => h x (by simp [hx])]
    rfl

theorem range_at (h : FindsAll s term found) (start : Option Int) (a n : Nat) (hs : start.getD 1 = (a : Int) + 1) :
    s.searchInRange term start n = .ok (((foundResults found).drop a).take n) := by
  unfold searchInRange
  show (do
    let matched ← s.mset term (start.getD 1 - 1) n
    matched.mapM s.resultOf) = _
  rw [hs, show ((a : Int) + 1 - 1) = (a : Int) by omega, h.mset a n]
  show List.mapM s.resultOf _ = _
  let mk : Nat → Entry × Nat → IndexMatch := fun i f =>
    { data := encode (f.1.ns ++ "/" ++ f.1.url), rank := i, percent := f.2 }
  let g : IndexMatch → SearchResult := fun m => (s.resultOf m).toOption.getD ⟨0, (0, 0), "", ""⟩
  have hg : ∀ i f, f ∈ found → s.resultOf (mk i f) = .ok (foundResult f (i + 1)) ∧ g (mk i f) = foundResult f (i + 1) := by
    intro i f hf
    have h1 := resultOf_found h hf i
    refine ⟨h1, ?_⟩
    show (s.resultOf (mk i f)).toOption.getD _ = _
    rw [show s.resultOf (mk i f) = _ from h1]
    rfl
  have hmap : (found.mapIdx mk).map g = foundResults found := by
    refine List.ext_getElem? fun i => ?_
    unfold foundResults
    rw [List.getElem?_map, List.getElem?_mapIdx, List.getElem?_mapIdx]
    cases hf : found[i]? with
    | none => rfl
    | some f => simp only [Option.map_some, (hg i f (List.mem_of_getElem? hf)).2]
  rw [mapM_all (g := g), List.map_take, List.map_drop]
  · exact congrArg (fun l => Except.ok ((l.drop a).take n)) hmap
  · intro m hm
    obtain ⟨i, hi, rfl⟩ := List.mem_mapIdx.1 (List.mem_of_mem_drop (List.mem_of_mem_take hm))
    have := hg i found[i] (List.getElem_mem hi)
    rw [show g (mk i found[i]) = _ from this.2]
    exact this.1

/-- **C94.** A page of results lists the matches from the `start`-th on (from the first if no start is given), at most `n`, in
the order of the library, with the full urls and titles of the entries of the archive, and numbered by their places among all
matches. -/
theorem C94_range (h : FindsAll s term found) (start : Option Nat) (hs : start ≠ some 0) (n : Nat) :
    s.searchInRange term (start.map fun k : Nat => (k : Int)) n = .ok (((foundResults found).drop (start.getD 1 - 1)).take n) := by
  refine range_at h _ _ n ?_
  cases start with
  | none => rfl
  | some k =>
    have : k ≠ 0 := fun h0 => hs (by rw [h0])
    simp only [Option.map_some, Option.getD_some]
    omega

theorem foundResults_length (found : List (Entry × Nat)) : (foundResults found).length = found.length := by
  unfold foundResults; simp

theorem iter_at (h : FindsAll s term found) (fuel a : Nat) (hf : found.length - a < fuel) :
    s.iter term fuel ((a : Int) + 1) = some (.ok ((foundResults found).drop a)) := by
  have hl := foundResults_length found
  induction fuel generalizing a with
  | zero => omega
  | succ fuel ih =>
    unfold iter
    rw [show (20 : Int) = ((20 : Nat) : Int) from rfl, range_at h (some ((a : Int) + 1)) a 20 rfl]
    cases hd : ((foundResults found).drop a).take 20 with
    | nil =>
      have h0 : (((foundResults found).drop a).take 20).length = 0 := by rw [hd]; rfl
      rw [List.length_take, List.length_drop] at h0
      rw [List.drop_eq_nil_of_le (by omega)]
    | cons r rs =>
      have h1 : (r :: rs).length = min 20 (found.length - a) := by
        rw [← hd, List.length_take, List.length_drop, hl]
      have h2 : 0 < (r :: rs).length := by simp
      simp only
      rw [show (a : Int) + 1 + ((r :: rs).length : Int) = ((a + (r :: rs).length : Nat) : Int) + 1 by omega,
        ih (a + (r :: rs).length) (by omega)]
      simp only
      congr 2
      rw [← List.drop_drop, h1, ← hd]
      by_cases h20 : 20 ≤ found.length - a
      · rw [Nat.min_eq_left h20, List.take_append_drop]
      · rw [Nat.min_eq_right (by omega), List.take_of_length_le (by rw [List.length_drop]; omega),
          List.drop_eq_nil_of_le (i := found.length - a) (by rw [List.length_drop]; omega), List.append_nil]

/-- **C94.** Iterating over the results of a search ends and yields all matches, each once, in the order of the library and
numbered from 1. -/
theorem C94_iter (h : FindsAll s term found) : ∃ rounds, ∀ fuel, rounds ≤ fuel →
    s.iter term fuel 1 = some (.ok (foundResults found)) :=
  ⟨found.length + 1, fun fuel hf => iter_at h fuel 0 (by omega)⟩

/-- **C94.** `iter_in_range` ends and yields the matches from the `start`-th on, at most `n`. -/
theorem C94_iter_in_range (h : FindsAll s term found) (start n : Nat) (hs : 1 ≤ start) (fuel : Nat) (hf : 3 ≤ fuel) :
    s.iterInRange term start n fuel start = some (.ok (((foundResults found).drop (start - 1)).take n)) := by
  have hl := foundResults_length found
  obtain ⟨fuel, rfl⟩ : ∃ f, fuel = f + 3 := ⟨fuel - 3, by omega⟩
  unfold iterInRange
  by_cases hn : n = 0
  · subst hn
    rw [if_neg (by omega)]
    simp
  rw [if_pos (by omega), range_at h (some (start : Int)) (start - 1) n (by simp only [Option.getD_some]; omega)]
  cases hd : ((foundResults found).drop (start - 1)).take n with
  | nil => rfl
  | cons r rs =>
    have h1 : (r :: rs).length = min n (found.length - (start - 1)) := by
      rw [← hd, List.length_take, List.length_drop, hl]
    simp only
    unfold iterInRange
    by_cases hk : (r :: rs).length = n
    · rw [if_neg (by omega)]; simp
    · rw [if_pos (by omega), range_at h (some _) (start - 1 + (r :: rs).length) n (by simp only [Option.getD_some]; omega),
        List.drop_eq_nil_of_le (by omega)]
      simp

/-- **C94.** If one of the matches is no entry of the archive, then the page on which it is cannot be read. -/
theorem C94_not_in_archive {start : Option Int} {n : Int} {before after : List IndexMatch} {m : IndexMatch} {rs : List SearchResult}
    {e : Entry} (hm : s.mset term (start.getD 1 - 1) n = .ok (before ++ m :: after)) (hb : before.mapM s.resultOf = .ok rs)
    (hd : m.data = encode (e.ns ++ "/" ++ e.url)) (hns : e.ns.length = 1)
    (hno : s.zim.entryByFullUrl (e.ns ++ e.url) = .error .entryNotFound) :
    s.searchInRange term start n = .error .entryNotFound := by
  unfold searchInRange
  show (do
    let matched ← s.mset term (start.getD 1 - 1) n
    matched.mapM s.resultOf) = _
  rw [hm]
  show List.mapM s.resultOf _ = _
  rw [List.mapM_append, hb]
  show (do
    let y ← (m :: after).mapM s.resultOf
    pure (rs ++ y)) = _
  rw [List.mapM_cons]
  have : s.resultOf m = .error .entryNotFound := by
    unfold resultOf
    rw [hd, urlOf_data hns]
    show (do
      let e' ← s.zim.entryByFullUrl (e.ns ++ e.url)
      SearchResult.new (m.rank + 1) (m.percent, 100) (e.ns ++ e.url) e'.title) = _
    rw [hno]
    rfl
  rw [this]
  rfl

/-! ### Examples -/

/-- the bytes of an entry of namespace C -/
def fndEntry (u t : String) : Bytes := [0, 0, 0, 67, 0, 0, 0, 0, 0, 0, 0, 0, 0, 0, 0, 0] ++ encode u ++ [0] ++ encode t ++ [0]

/-- Two bytes of other data, and entries `Ca` and `Cb/é`. -/
def fndArchive : Embedded where
  base := 2
  zim := { file := [9, 9] ++ fndEntry "a" "T" ++ fndEntry "b/é" ""
           header := Header.placeholder (List.replicate 16 7)
           mimetypes := { mimetypes := [] }
           urls := { pointers := [0, 20] }
           clusters := { pointers := [] }
           articles := { pointers := [] }
           space := SpaceAllocator.new 0
           mutable := false }

/-- an entry as it is read -/
def fndFound (u t : String) : Entry :=
  { mimetypeId := 0, ns := "C", url := u, titleRaw := some t, kind := .content 0 0, oldFullUrl := some ("C" ++ u),
    forceIsArticle := none, dirty := false, mutable := true }

/-- the matches, the best first -/
def fndMatches : List (Entry × Nat) := [(fndFound "b/é" "", 100), (fndFound "a" "T", 42)]

/-- a search whose library finds both -/
def fndSearch : IndexSearch where
  zim := fndArchive
  mset := fun _ first n => .ok (((fndMatches.mapIdx fun i f =>
    { data := encode (f.1.ns ++ "/" ++ f.1.url), rank := i, percent := f.2 : IndexMatch }).drop first.toNat).take n.toNat)
  estimated := fun _ => .ok 2

theorem fnd_entries : ∀ f ∈ fndMatches, fndArchive.entryByFullUrl (f.1.ns ++ f.1.url) = .ok f.1 := by decide +kernel

theorem fnd_answers (term : String) : FindsAll fndSearch term fndMatches :=
  ⟨fun _ _ => rfl, fnd_entries, by decide +kernel, by decide⟩

example : ∃ rounds, ∀ fuel, rounds ≤ fuel → fndSearch.iter "t" fuel 1 = some (.ok
    [⟨1, (100, 100), "Cb/é", "b/é"⟩, ⟨2, (42, 100), "Ca", "T"⟩]) := C94_iter (fnd_answers "t")

example : fndSearch.searchInRange "t" (some 2) 5 = .ok [⟨2, (42, 100), "Ca", "T"⟩] :=
  C94_range (fnd_answers "t") (some 2) (by decide) 5

example : fndSearch.iterInRange "t" (1 : Nat) (1 : Nat) 3 (1 : Nat) = some (.ok [⟨1, (100, 100), "Cb/é", "b/é"⟩]) :=
  C94_iter_in_range (fnd_answers "t") 1 1 (by decide) 3 (by decide)

example : ({ fndSearch with mset := fun _ _ _ => .ok [⟨encode "C/a", 0, 50⟩, ⟨encode "C/x", 1, 20⟩] } : IndexSearch).searchInRange
    "t" none 20 = .error .entryNotFound :=
  C94_not_in_archive (before := [⟨encode "C/a", 0, 50⟩]) (after := []) (m := ⟨encode "C/x", 1, 20⟩)
    (rs := [⟨1, (50, 100), "Ca", "T"⟩]) (e := fndFound "x" "") rfl (by decide +kernel) (by decide +kernel) (by decide +kernel)
    (by decide +kernel)

end IndexSearch
end Pyzim
