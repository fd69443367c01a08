import Verif.Model.IterRange
import Verif.Lemmas.Clusters
import Verif.Lemmas.ArchiveRead
import Verif.Props.Clusters
import Verif.Props.Layout
import Verif.Props.Search

/-!
# C91: iterating over a part of an archive

`iter_entries(start, end)`, `iter_articles(start, end)` and `iter_clusters(start, end)`: "this behavior matches the
l[start:end] syntax".
-/

namespace Pyzim
open Zim (Ready HasClusters)
variable {z z' : Zim}

/-- `l[start:end]` for bounds that are not negative -/
def sliceOf {α : Type} (l : List α) (start stop : Option Nat) : List α := (l.take (stop.getD l.length)).drop (start.getD 0)

/-- The bounds are in the range of the list and in order. -/
def InRange (n : Nat) (start stop : Option Nat) : Prop := start.getD 0 ≤ stop.getD n ∧ stop.getD n ≤ n

/-- **C91, in full:** like a slice, for all bounds; and all clusters are visited. -/
def C91Full : Prop := ∀ z : Zim, Ready z → ∀ start stop : Option Nat,
  (∀ es, z.iterEntries = .ok es → z.iterEntries start stop = .ok (sliceOf es start stop)) ∧
  (∀ es, z.iterArticles = .ok es → z.iterArticles start stop = .ok (sliceOf es start stop)) ∧
  ∀ cs, z.clusters.pointers.mapM (fun p => (.ok p : PyRes Int)) = .ok cs → z.iterClusters (fun p => .ok p) = .ok cs

theorem mapM_slice {α β : Type} {f : α → PyRes β} : ∀ {l : List α} {r : List β}, l.mapM f = .ok r → ∀ s n,
    ((l.drop s).take n).mapM f = .ok ((r.drop s).take n) := by
  intro l
  induction l with
  | nil => intro r h s n; cases h; simp [pure, Except.pure]
  | cons a l ih =>
    intro r h s n
    rw [List.mapM_cons] at h
    cases ha : f a with
    | error e => rw [ha] at h; cases h
    | ok b =>
      cases hl : l.mapM f with
      | error e => rw [ha, hl] at h; cases h
      | ok bs =>
        rw [ha, hl] at h; cases h
        cases s with
        | zero =>
          cases n with
          | zero => rfl
          | succ n =>
            have := ih hl 0 n
            simp only [List.drop_zero] at this
            simp only [List.drop_zero, List.take_succ_cons, List.mapM_cons, ha, this]
            rfl
        | succ s => simpa using ih hl s n

theorem mapM_length {α β : Type} {f : α → PyRes β} : ∀ {l : List α} {r : List β}, l.mapM f = .ok r → r.length = l.length := by
  intro l
  induction l with
  | nil => intro r h; cases h; rfl
  | cons a l ih =>
    intro r h
    rw [List.mapM_cons] at h
    cases ha : f a with
    | error e => rw [ha] at h; cases h
    | ok b =>
      cases hl : l.mapM f with
      | error e => rw [ha, hl] at h; cases h
      | ok bs => rw [ha, hl] at h; cases h; simp [ih hl]

theorem pointers_range (l : PointerList) {s n : Nat} (h : s + n ≤ l.len) :
    (List.range' s n).mapM (fun i : Nat => l.getByIndex i) = .ok ((l.pointers.drop s).take n) := by
  have := Zim.range'_mapM_eq l.pointers (fun i => l.getByIndex i) id s n h (by
    intro i a hi
    show pyIndex l.pointers (i : Int) = _
    rw [pyIndex_nat, hi]
    rfl)
  simpa using this

theorem iterPointers_slice (l : PointerList) {start stop : Option Nat} (h : InRange l.len start stop) :
    l.iterPointers start stop = .ok (sliceOf l.pointers start stop) := by
  obtain ⟨h1, h2⟩ := h
  unfold PointerList.iterPointers
  simp only []
  rw [if_neg (by omega), if_neg (by omega), pointers_range l (by omega)]
  unfold sliceOf
  rw [List.drop_take]
  rfl

theorem mapM_sliceOf {α β : Type} {f : α → PyRes β} {l : List α} {r : List β} (h : l.mapM f = .ok r) (start stop : Option Nat) :
    (sliceOf l start stop).mapM f = .ok (sliceOf r start stop) := by
  unfold sliceOf
  rw [List.drop_take, List.drop_take, mapM_length h]
  exact mapM_slice h _ _

theorem whole_pointers (l : PointerList) : l.iterPointers = .ok l.pointers := by
  rw [iterPointers_slice l (start := none) (stop := none) ⟨Nat.zero_le _, Nat.le_refl _⟩]
  simp [sliceOf]

/-- **C91.** A part of the entries, of any archive whose entries can be listed: those of the whole list from `start` up to
`end`. The bounds have to be in order and in the range. -/
theorem C91_entries_partial {es : List Entry} (h : z.iterEntries = .ok es) {start stop : Option Nat}
    (hr : InRange es.length start stop) : z.iterEntries start stop = .ok (sliceOf es start stop) := by
  unfold Zim.iterEntries at h ⊢
  rw [whole_pointers] at h
  have h' : z.urls.pointers.mapM z.entryAt = .ok es := h
  rw [mapM_length h'] at hr
  rw [iterPointers_slice z.urls hr]
  exact mapM_sliceOf h' _ _

/-- **C91.** The same for the articles. -/
theorem C91_articles_partial {es : List Entry} (h : z.iterArticles = .ok es) {start stop : Option Nat}
    (hr : InRange es.length start stop) : z.iterArticles start stop = .ok (sliceOf es start stop) := by
  unfold Zim.iterArticles at h ⊢
  rw [whole_pointers] at h
  have h' : z.articles.pointers.mapM z.entryByIndex = .ok es := h
  rw [mapM_length h'] at hr
  rw [iterPointers_slice z.articles hr]
  exact mapM_sliceOf h' _ _

/-- **C91, finding.** Bounds that are not in the range, or not in order, raise `AssertionError`, in every archive; a slice
is just shorter then. -/
theorem C91_outside {es : List Entry} (h : z.iterEntries = .ok es) {start stop : Option Nat}
    (hr : ¬ InRange es.length start stop) : z.iterEntries start stop = .error .assertionError := by
  unfold Zim.iterEntries at h ⊢
  rw [whole_pointers] at h
  have h' : z.urls.pointers.mapM z.entryAt = .ok es := h
  rw [mapM_length h'] at hr
  have hr : ¬ InRange z.urls.len start stop := hr
  unfold PointerList.iterPointers
  simp only []
  by_cases h1 : stop.getD z.urls.len > z.urls.len
  · rw [if_pos h1]; rfl
  · rw [if_neg h1, if_pos (by unfold InRange at hr; omega)]; rfl

/-- **C91.** A part of the clusters, if the header has the number of clusters (see `C91_opened`, `C91_flushed`): with the
bounds in range, the clusters with these indexes; otherwise `IndexError`, as documented. `get` is what loads a cluster. -/
theorem C91_clusters {α : Type} {get : Int → PyRes α} (hn : z.header.clusterCount = z.clusters.len) {cs : List α}
    (h : z.clusters.pointers.mapM get = .ok cs) (start stop : Option Nat) :
    z.iterClusters get (start.map Int.ofNat) (stop.map Int.ofNat) =
      if start.getD 0 ≤ stop.getD cs.length ∧ stop.getD cs.length ≤ cs.length then .ok (sliceOf cs start stop)
      else .error .indexError := by
  have hl := mapM_length h
  have e1 : (start.map Int.ofNat).getD 0 = ((start.getD 0 : Nat) : Int) := by cases start <;> rfl
  have e2 : (stop.map Int.ofNat).getD (z.header.clusterCount : Int) = ((stop.getD cs.length : Nat) : Int) := by
    rw [hn, hl]; cases stop <;> rfl
  unfold Zim.iterClusters
  simp only [e1, e2]
  have hlen : z.clusters.len = cs.length := hl.symm
  by_cases hc : start.getD 0 ≤ stop.getD cs.length ∧ stop.getD cs.length ≤ cs.length
  · rw [if_pos hc, if_neg (by rw [hn, hlen]; omega), if_neg (by omega)]
    obtain ⟨c1, c2⟩ := hc
    rw [show (((stop.getD cs.length : Nat) : Int) - ((start.getD 0 : Nat) : Int)).toNat = stop.getD cs.length - start.getD 0 by
      omega, Int.toNat_natCast]
    have := Zim.range'_mapM_eq cs (fun i => z.clusters.getByIndex i >>= get) id (start.getD 0)
      (stop.getD cs.length - start.getD 0) (by omega) (by
        intro i c hi
        obtain ⟨hlt, hc⟩ := List.getElem?_eq_some_iff.1 hi
        have := (mapM_ok h).2 i (by omega) hlt
        show (pyIndex z.clusters.pointers (i : Int) >>= get) = _
        rw [pyIndex_lt _ _ (by omega)]
        exact this.trans (by rw [hc]; rfl))
    rw [List.map_id] at this
    unfold sliceOf
    rw [List.drop_take]
    exact this
  · rw [if_neg hc]
    by_cases c1 : start.getD 0 ≤ stop.getD cs.length
    · rw [if_pos (by rw [hn, hlen]; omega)]
    · by_cases c2 : stop.getD cs.length ≤ cs.length
      · rw [if_neg (by rw [hn, hlen]; omega), if_pos (by omega)]
      · rw [if_pos (by rw [hn, hlen]; omega)]

theorem unpackFields_length {w : Nat} : ∀ {n : Nat} {b : Bytes} {vs : List Nat}, unpackFields (List.replicate n w) b = .ok vs →
    vs.length = n := by
  intro n
  induction n with
  | zero =>
    intro b vs h
    cases b with
    | nil => cases h; rfl
    | cons => cases h
  | succ n ih =>
    intro b vs h
    rw [List.replicate_succ] at h
    unfold unpackFields at h
    split at h
    · cases h
    · rcases hr : unpackFields (List.replicate n w) (b.drop w) with x | rest
      · rw [hr] at h; cases h
      · rw [hr] at h
        cases h
        simp [ih hr]

theorem fromFile_len {w : Nat} {f : PyFile} {n seek : Nat} {l : PointerList} (h : PointerList.fromFile w f n seek = .ok l) :
    l.len = n := by
  unfold PointerList.fromFile at h
  simp only [bind, Except.bind] at h
  rcases hr : unpackFields (List.replicate n w) ((f.seek seek).read (w * n)).1 with x | vs
  · rw [hr] at h; cases h
  · rw [hr] at h
    cases h
    show (vs.map Int.ofNat).length = n
    rw [List.length_map, unpackFields_length hr]

/-- **C91.** The header has the number of clusters in every archive that was opened, for reading or for writing. -/
theorem C91_opened {titles articles : Zim → PyRes PointerList} {w : Bool} {file : Bytes} {a : Archive}
    (h : Archive.load titles articles w file = .ok a) : a.zim.header.clusterCount = a.zim.clusters.len := by
  unfold Archive.load at h
  simp only [bind, Except.bind] at h
  rcases hh : Header.fromFile ⟨file, 0⟩ 0 with _ | hd
  · rw [hh] at h; cases h
  rw [hh] at h
  dsimp only at h
  rcases hm : MimeTypeList.fromFile ⟨file, 0⟩ (some hd.mimeListPosition) with _ | ⟨mt, f⟩
  · rw [hm] at h; cases h
  rw [hm] at h
  dsimp only at h
  rcases hu : PointerList.fromFile 8 ⟨file, 0⟩ hd.entryCount hd.urlPointerPosition with _ | urls
  · rw [hu] at h; cases h
  rw [hu] at h
  dsimp only at h
  rcases hc : PointerList.fromFile 8 ⟨file, 0⟩ hd.clusterCount hd.clusterPointerPosition with _ | clusters
  · rw [hc] at h; cases h
  have hlen := fromFile_len hc
  rw [hc] at h
  dsimp only at h
  repeat' split at h
  all_goals first
    | (cases h; exact hlen.symm)
    | cases h

/-- **C91.** The header has the number of clusters when there are no unsaved changes, in particular after a flush: `Sane`
are the archives that any history of operations (`LayoutHist`) leads to. -/
theorem C91_flushed {reserve : Option Nat} {a : Archive} {cs : List Zim.Stored} (h : Archive.Sane reserve a cs)
    (hd : a.isDirty = false) : a.zim.header.clusterCount = a.zim.clusters.len := by
  obtain ⟨a2, h1, h2, -, -, h3, -⟩ := Archive.C39_open h hd (fun _ => .error .hang) (fun _ => .ok { pointers := [] }) true
    (fun _ => ⟨_, rfl⟩)
  have := C91_opened h1
  rw [h2, h3] at this
  exact this

/-- **C91, finding.** A cluster that was written since the last flush is not visited, in every archive: `iter_clusters`
yields the clusters that were there before, and raises `IndexError` if it is asked for the new one, although
`get_cluster_by_index` returns it. -/
theorem C91_new_cluster_missed {K : Type} {O : ClusterOps K} {c : K} {cs : List Zim.Stored} {chunks : List Bytes}
    (h : HasClusters z cs) (hn : z.header.clusterCount = z.clusters.len) (hw : O.Writes c z.file (Zim.InUse z) chunks)
    (hne : chunks.flatten ≠ []) (hnew : O.offset c = none) {fuel : Nat} (hfuel : chunks.length < fuel) :
    ∃ off c' z', Zim.writeCluster O fuel c none z = (.ok (z.clusters.len, c'), z') ∧
      z'.clusterAtIndex (fun p => .ok p) z.clusters.len = .ok (off : Int) ∧
      z'.iterClusters (fun p => .ok p) = .ok z.clusters.pointers ∧
      z'.iterClusters (fun p => (.ok p : PyRes Int)) (some z.clusters.len) (some (z.clusters.len + 1 : Nat)) = .error .indexError := by
  obtain ⟨rows, rest, h⟩ := h
  obtain ⟨off, c', z', h1, h2, h3, -⟩ := h.writeCluster_new (fun x => (h.inUse x).1) hw hne hnew (num := none) (by simp) hfuel
  have hlen : z.clusters.len = cs.length := by
    show z.clusters.pointers.length = _
    rw [h.pointers, List.length_map]
  have hp : z'.clusters.pointers = z.clusters.pointers ++ [(off : Int)] := by
    rw [h2.pointers, h.pointers, List.map_append]
    rfl
  have hlen' : z'.clusters.len = z.clusters.len + 1 := by
    show z'.clusters.pointers.length = _
    rw [hp, List.length_append]
    rfl
  have hpl : z.clusters.len = z.clusters.pointers.length := rfl
  have hget : ∀ i : Nat, z'.clusterAtIndex (fun p => (.ok p : PyRes Int)) i = z'.clusters.getByIndex i := by
    intro i
    unfold Zim.clusterAtIndex
    cases z'.clusters.getByIndex i <;> rfl
  refine ⟨off, c', z', by rw [hlen]; exact h1, ?_, ?_, ?_⟩
  · rw [hget]
    show pyIndex z'.clusters.pointers _ = _
    have hg : (z.clusters.pointers ++ [(off : Int)])[z.clusters.len]? = some (off : Int) := by
      rw [hpl, List.getElem?_append_right (Nat.le_refl _), Nat.sub_self]
      rfl
    rw [pyIndex_nat, hp, hg]
  · unfold Zim.iterClusters
    simp only [h3.header, hn, Option.getD_none]
    rw [if_neg (by omega), if_neg (by omega)]
    simp only [hget]
    rw [Int.toNat_zero, Int.sub_zero, Int.toNat_natCast, pointers_range z'.clusters (by omega), List.drop_zero, hp,
      hpl, List.take_left' rfl]
  · unfold Zim.iterClusters
    simp only [h3.header, hn, Option.getD_some]
    rw [if_pos (by right; omega)]

theorem sample_entries : ∃ es, Zim.sample.iterEntries = .ok es ∧ es.length = 3 := by
  have h : (match Zim.sample.iterEntries with | .ok es => decide (es.length = 3) | .error _ => false) = true := by
    decide +kernel
  cases he : Zim.sample.iterEntries with
  | error x => rw [he] at h; cases h
  | ok es => rw [he] at h; exact ⟨es, rfl, of_decide_eq_true h⟩

instance (n : Nat) (start stop : Option Nat) : Decidable (InRange n start stop) := by unfold InRange; infer_instance

/-- The conditions of `C91_entries_partial` and of `C91_outside` can be met. -/
example : ∃ es, Zim.sample.iterEntries = .ok es ∧ Zim.sample.iterEntries (some 1) (some 3) = .ok (sliceOf es (some 1) (some 3)) ∧
    Zim.sample.iterEntries (some 1) (some 4) = .error .assertionError := by
  obtain ⟨es, h1, h2⟩ := sample_entries
  exact ⟨es, h1, C91_entries_partial h1 (by rw [h2]; decide), C91_outside h1 (by rw [h2]; decide)⟩

/-- **C91, finding.** The full statement is false. -/
theorem C91_full_fails : ¬ C91Full := by
  intro h
  obtain ⟨es, h1, h2⟩ := sample_entries
  have h3 := (h Zim.sample Zim.sample_ready (some 1) (some 4)).1 es h1
  rw [C91_outside h1 (by rw [h2]; decide)] at h3
  cases h3

/-- The conditions of `C91_new_cluster_missed` can be met. -/
example : ∃ (off : Int) (c' : _) (z' : Zim), Zim.writeCluster Zim.rawOps 9 (Zim.oneBlob [7, 8]) none Zim.sample = (.ok (0, c'), z') ∧
    z'.clusterAtIndex (fun p => .ok p) 0 = .ok (off : Int) ∧ z'.iterClusters (fun p => (.ok p : PyRes Int)) = .ok [] := by
  have hl : Zim.sample.clusters.len = 0 := by decide +kernel
  have hp : Zim.sample.clusters.pointers = [] := by decide +kernel
  obtain ⟨off, c', z', h1, h2, h3, -⟩ := C91_new_cluster_missed Zim.sample_clusters (by decide +kernel)
    (Zim.oneBlob_writes _ _) (by decide) rfl (fuel := 9) (by decide)
  rw [hl] at h1 h2
  rw [hp] at h3
  exact ⟨off, c', z', h1, h2, h3⟩

/-- The conditions of `C91_clusters` can be met: three clusters, of which the last two are asked for. -/
example : ({ Zim.sample with header := { Zim.sample.header with clusterCount := 3 }, clusters := { pointers := [100, 200, 300] } } :
    Zim).iterClusters (fun p => (.ok p : PyRes Int)) (some 1) = .ok [200, 300] := by
  have := C91_clusters (z := { Zim.sample with header := { Zim.sample.header with clusterCount := 3 }, clusters := { pointers := [100, 200, 300] } })
    (get := fun p => (.ok p : PyRes Int)) rfl (cs := [100, 200, 300]) rfl (some 1) none
  exact this

end Pyzim
