import Verif.Lemmas.EditHist
import Verif.Props.SetContents
import Verif.Props.MainSaved -- only so that the two are not built at the same time (memory)

/-!
# Removing entries from an archive that is filled
-/

namespace Pyzim
namespace Creator

variable {D K : Type} {S : Setup D K} {md5 : Bytes → Bytes} {r : Nat} {c c1 c2 : Creator D} {done : List (List Sourced)}
  {recent : List Sourced} {rs : List Zim.Redirect} {mts : List String} {u : String} {mode : BlobMode}

theorem mimes_length (h : mts.length < 65534) : (encode placeholder.mimetype :: mts.map encode).length < 65535 := by
  rw [List.length_cons, List.length_map]; omega

theorem mimes_mem : ∀ m ∈ mts, encode m ∈ encode placeholder.mimetype :: mts.map encode := fun _ h =>
  List.mem_cons_of_mem _ (List.mem_map_of_mem h)

/-- **C86, in full.** After removing an entry that was added before the last flush and that no redirect leads to (whatever is
done to its blob) and flushing the archive, everybody who opens the file finds everything but this entry. -/
def C86Full (D K : Type) : Prop := ∀ (S : Setup D K) (md5 : Bytes → Bytes) (r : Nat) (c c1 c2 : Creator D)
  (done : List (List Sourced)) (recent : List Sourced) (rs : List Zim.Redirect) (mts : List String) (u : String) (mode : BlobMode),
  2 ≤ r → S.Good md5 (some r) → Replaceable S.X S.C → EditHist S mts c done recent rs → mts.length < 65534 → u ≠ URL_ARTICLES →
  (∀ p ∈ recent, p.1.fullUrl ≠ u) → (∀ x ∈ rs, x.1 ≠ u ∧ x.2.1 ≠ u) → remove S mode u c = (.ok (), c1) →
  flush S c1 = (.ok (), c2) → ∀ (kind : ClusterKind) (calls follow : Nat) (titles : Zim → PyRes PointerList),
    ∃ a, openArchive { S with kind := kind, calls := calls, follow := follow } titles false c2.arch.zim.file = .ok a ∧
      ShowsItems S.X kind calls a.zim ((current (done ++ [recent])).filter fun p => p.1.fullUrl ≠ u) rs

/-- **C86, partial.** However items and redirects were added to an archive, however contents were set and items removed
(articles, or items behind all articles, that no redirect leads to), and however often it was flushed and opened again: once
there are no unsaved changes, opening the file shows exactly the items that were not removed, and the redirects. -/
theorem C86_history_partial (hr : 2 ≤ r) (hS : S.Good md5 (some r)) (h : EditHist S mts c done recent rs)
    (hmts : mts.length < 65534) (hd : c.arch.isDirty = false) (kind : ClusterKind) (calls follow : Nat)
    (titles : Zim → PyRes PointerList) :
    ∃ a, openArchive { S with kind := kind, calls := calls, follow := follow } titles false c.arch.zim.file = .ok a ∧
      ShowsItems S.X kind calls a.zim (current (done ++ [recent])) rs :=
  h.shows hr hS hd (mimes_length hmts) List.mem_cons_self mimes_mem kind calls follow titles

/-- **C86, partial.** After a flush there are no unsaved changes; all items that were added and not removed are there. -/
theorem C86_after_flush_partial (hr : 2 ≤ r) (hS : S.Good md5 (some r)) (h : EditHist S mts c done recent rs)
    (hmts : mts.length < 65534) (hf : flush S c = (.ok (), c1)) (kind : ClusterKind) (calls follow : Nat)
    (titles : Zim → PyRes PointerList) :
    c1.arch.isDirty = false ∧
    ∃ a, openArchive { S with kind := kind, calls := calls, follow := follow } titles false c1.arch.zim.file = .ok a ∧
      ShowsItems S.X kind calls a.zim (current (done ++ [recent])) rs := by
  have hd := h.flushed hr hS (mimes_length hmts) List.mem_cons_self mimes_mem hf
  have := C86_history_partial hr hS (.flush h hf) hmts hd kind calls follow titles
  rw [current_snoc] at this
  exact ⟨hd, by simpa using this⟩

/-- **C86, partial.** After removing an entry (an article, or an item behind all articles, that no redirect leads to), its
blob being kept or emptied, and flushing the archive, everybody who opens the file finds everything but this entry. -/
theorem C86_removed_partial (hr : 2 ≤ r) (hS : S.Good md5 (some r)) (h : EditHist S mts c done recent rs)
    (hmts : mts.length < 65534) (hrm : Removable u done recent rs) (hmode : mode ≠ .remove)
    (hrep : mode = .empty → Replaceable S.X S.C) (hok : remove S mode u c = (.ok (), c1)) (hf : flush S c1 = (.ok (), c2))
    (kind : ClusterKind) (calls follow : Nat) (titles : Zim → PyRes PointerList) :
    c2.arch.isDirty = false ∧
    ∃ a, openArchive { S with kind := kind, calls := calls, follow := follow } titles false c2.arch.zim.file = .ok a ∧
      ShowsItems S.X kind calls a.zim ((current (done ++ [recent])).filter fun p => p.1.fullUrl ≠ u) rs := by
  have := C86_after_flush_partial hr hS (.remove h hrm hmode hrep hok) hmts hf kind calls follow titles
  rw [dropUrl_append hrm.flushed, current_dropUrl] at this
  exact this

/-- **C86, partial.** Without a flush, the entry is not found any more, removing it again is refused, and the other items that
were added before the last flush (and not again since) have their content. -/
theorem C86_live_partial (hr : 2 ≤ r) (hS : S.Good md5 (some r)) (hR : Replaceable S.X S.C) (h : EditHist S mts c done recent rs)
    (hmts : mts.length < 65534) (hrm : Removable u done recent rs) (hmode : mode ≠ .remove)
    (hok : remove S mode u c = (.ok (), c1)) (hdep : 0 < S.depth) (kind : ClusterKind) (calls : Nat) :
    c1.arch.zim.entryByFullUrl u = .error .entryNotFound ∧
    (∀ mode', remove S mode' u c1 = (.error .entryNotFound, c1)) ∧
    ∀ p ∈ current done, p.1.fullUrl ≠ u → (∀ q ∈ recent, q.1.fullUrl ≠ p.1.fullUrl) →
      ∃ e, c1.arch.zim.entryByFullUrl p.1.fullUrl = .ok e ∧
        ((c1.arch.zim.contentSize S.X kind calls e).isOk → HasContent S.X kind calls c1.arch.zim e p.2) := by
  have h1 := EditHist.remove h hrm hmode (fun _ => hR) hok
  obtain ⟨k1, k2⟩ := h1.missing hr hS (mimes_length hmts) List.mem_cons_self mimes_mem hrm.other (fun p hp => by
    rcases List.mem_append.1 hp with hp | hp
    · rw [current_dropUrl] at hp
      exact of_decide_eq_true (List.mem_filter.1 hp).2
    · exact hrm.flushed p hp) (fun x hx => (hrm.redirects x hx).1)
  refine ⟨k1, fun mode' => k2 mode' hdep, fun p hp hpu hq => ?_⟩
  obtain ⟨j1, j2⟩ := h1.live hr hS hR (mimes_length hmts) List.mem_cons_self mimes_mem
  obtain ⟨e, i, off, j, hf⟩ := j2 p (by
    rw [current_dropUrl]
    exact List.mem_filter.2 ⟨hp, decide_eq_true hpu⟩) hq
  refine ⟨e, hf.found, fun hok => ?_⟩
  cases hn : c1.arch.zim.contentSize S.X kind calls e with
  | error x => rw [hn] at hok; cases hok
  | ok n => exact .of_writable j1 hf.kind hf.cluster (hf.blob kind) hn

/-- **C86, partial.** After removing a redirect (behind all articles, and no redirect leads to it) and flushing the archive,
everybody who opens the file finds all items, and all other redirects. -/
theorem C86_unlinked_partial (hr : 2 ≤ r) (hS : S.Good md5 (some r)) (h : EditHist S mts c done recent rs)
    (hmts : mts.length < 65534) (hrm : Unlinked u done recent rs) (hok : remove S mode u c = (.ok (), c1))
    (hf : flush S c1 = (.ok (), c2)) (kind : ClusterKind) (calls follow : Nat) (titles : Zim → PyRes PointerList) :
    c1.arch.zim.entryByFullUrl u = .error .entryNotFound ∧ c2.arch.isDirty = false ∧
    ∃ a, openArchive { S with kind := kind, calls := calls, follow := follow } titles false c2.arch.zim.file = .ok a ∧
      ShowsItems S.X kind calls a.zim (current (done ++ [recent])) (rs.filter fun x => x.1 ≠ u) := by
  obtain ⟨hs, -, -⟩ := h.sound
  obtain ⟨x, hx, hxu⟩ := hrm.redirect
  refine ⟨((EditHist.unlink h hrm hok).missing hr hS (mimes_length hmts) List.mem_cons_self mimes_mem ?_ ?_ ?_).1,
    C86_after_flush_partial hr hS (.unlink h hrm hok) hmts hf kind calls follow titles⟩
  · rw [← hxu]; exact hs.apart.articles x hx
  · intro p hp
    rw [← hxu]
    rcases List.mem_append.1 hp with hp | hp
    · obtain ⟨l, hl, hpl⟩ := mem_current hp
      exact hs.apart.items x hx l (List.mem_append_left _ hl) p hpl
    · exact hs.apart.items x hx recent (by simp) p hp
  · exact fun y hy => of_decide_eq_true (List.mem_filter.1 hy).2

/-- **C86.** A url at which there is no item and no redirect is refused, and nothing changes. -/
theorem C86_missing (hr : 2 ≤ r) (hS : S.Good md5 (some r)) (h : EditHist S mts c done recent rs) (hmts : mts.length < 65534)
    (hdep : 0 < S.depth) (hu : u ≠ URL_ARTICLES) (hi : ∀ p ∈ current done ++ recent, p.1.fullUrl ≠ u) (hx : ∀ x ∈ rs, x.1 ≠ u) :
    remove S mode u c = (.error .entryNotFound, c) :=
  (h.missing hr hS (mimes_length hmts) List.mem_cons_self mimes_mem hu hi hx).2 mode hdep

/-! ### Examples -/

open Strategy (item)
open Zim (toyHash)

theorem demoZ_sound : Sound ["text/html"] [] ([[item "a" "text/html" [1, 2, 3], item "b" "text/html" [4, 5]]] ++
    [[item "c" "text/html" [6]]]) :=
  ⟨apart_nil _, fun l h => (demoZ_batches l h).urls, fun l h => (demoZ_batches l h).mimetypes, fun l h => (demoZ_batches l h).other,
    fun l h => (demoZ_batches l h).size⟩

/-- The page `Ca` is removed while `Cc` waits, … -/
def demoRm1 : Creator (Bytes ⊕ Toy.Esc) := stepZ (remove setupZ .empty "Ca") demoZ4
/-- and the archive is flushed. -/
def demoRm2 : Creator (Bytes ⊕ Toy.Esc) := stepZ (flush setupZ) demoRm1

/-- The blob of `Ca` is removed, too, … -/
def demoRm3 : Creator (Bytes ⊕ Toy.Esc) := stepZ (remove setupZ .remove "Ca") demoZ4
/-- and the archive is flushed. -/
def demoRm4 : Creator (Bytes ⊕ Toy.Esc) := stepZ (flush setupZ) demoRm3

/-- an item which is no article -/
def resource : Sourced :=
  ({ ns := "C", url := "a", mimetype := "text/html", source := MCluster.mem [1, 2, 3], isArticle := false }, [1, 2, 3])

/-- An archive with a resource, … -/
def demoRn1 : Creator (Bytes ⊕ Toy.Esc) := stepZ (addItem setupZ resource.1 false) demoZ0
/-- two pages, … -/
def demoRn2 : Creator (Bytes ⊕ Toy.Esc) := stepZ (addItem setupZ (item "b" "text/html" [4, 5]).1 false) demoRn1
/-- two pages, … -/
def demoRn3 : Creator (Bytes ⊕ Toy.Esc) := stepZ (addItem setupZ (item "c" "text/html" [6]).1 false) demoRn2
/-- flushed, … -/
def demoRn4 : Creator (Bytes ⊕ Toy.Esc) := stepZ (flush setupZ) demoRn3
/-- without the resource, … -/
def demoRn5 : Creator (Bytes ⊕ Toy.Esc) := stepZ (remove setupZ .empty "Ca") demoRn4
/-- and flushed. -/
def demoRn6 : Creator (Bytes ⊕ Toy.Esc) := stepZ (flush setupZ) demoRn5

/-- the urls of the articles in a file -/
def articlesOf (file : Bytes) : PyRes (List String) := do
  let a ← openArchive { setupZ with kind := .remembering, calls := 0, follow := 0 } (fun _ => .error .hang) false file
  let es ← a.zim.iterArticles
  pure (es.map Entry.fullUrl)

/-- the content of a page in a file -/
def contentAt (u : String) (file : Bytes) : PyRes Bytes := do
  let a ← openArchive { setupZ with kind := .remembering, calls := 0, follow := 0 } (fun _ => .error .hang) false file
  let e ← a.zim.entryByFullUrl u
  a.zim.readContent Toy.codecs .remembering 0 e

/-- All of this succeeds. -/
theorem demoRm_runs : (remove setupZ .empty "Ca" demoZ4).1 = .ok () ∧ (flush setupZ demoRm1).1 = .ok () ∧
    (remove setupZ .remove "Ca" demoZ4).1 = .ok () ∧ (flush setupZ demoRm3).1 = .ok () ∧
    contentAt "Cb" demoRm4.arch.zim.file = .error .blobNotFound := by decide +kernel
theorem demoRn_runs : (addItem setupZ resource.1 false demoZ0).1 = .ok () ∧
    (addItem setupZ (item "b" "text/html" [4, 5]).1 false demoRn1).1 = .ok () ∧
    (addItem setupZ (item "c" "text/html" [6]).1 false demoRn2).1 = .ok () ∧ (flush setupZ demoRn3).1 = .ok () ∧
    (remove setupZ .empty "Ca" demoRn4).1 = .ok () ∧ (flush setupZ demoRn5).1 = .ok () ∧
    articlesOf demoRn6.arch.zim.file = .ok ["Cc", "Xlisting/titleOrdered/v1"] := by decide +kernel

theorem demoRm1_eq : remove setupZ .empty "Ca" demoZ4 = (.ok (), demoRm1) := stepZ_eq demoRm_runs.1
theorem demoRm2_eq : flush setupZ demoRm1 = (.ok (), demoRm2) := stepZ_eq demoRm_runs.2.1

theorem demoZ_removable : Removable "Ca" [[item "a" "text/html" [1, 2, 3], item "b" "text/html" [4, 5]]]
    [item "c" "text/html" [6]] [] :=
  ⟨by decide +kernel, by decide +kernel, by simp, by simp, .inl ⟨item "a" "text/html" [1, 2, 3], .head _, by decide +kernel, rfl⟩⟩

example (kind : ClusterKind) : demoRm2.arch.isDirty = false ∧
    ∃ a, openArchive { setupZ with kind := kind, calls := 0, follow := 0 }
      (fun _ => .error .hang) false demoRm2.arch.zim.file = .ok a ∧
    ShowsItems Toy.codecs kind 0 a.zim [item "b" "text/html" [4, 5], item "c" "text/html" [6]] [] := by
  have := C86_removed_partial (by omega) setupZ_good (demoZ_hist.edit demoZ_sound) (by decide) demoZ_removable (by decide)
    (fun _ => Toy.replaceable) demoRm1_eq demoRm2_eq kind 0 0 (fun _ => .error .hang)
  have e : (current ([[item "a" "text/html" [1, 2, 3], item "b" "text/html" [4, 5]]] ++ [[item "c" "text/html" [6]]])).filter
      (fun p => p.1.fullUrl ≠ "Ca") = [item "b" "text/html" [4, 5], item "c" "text/html" [6]] := by
    rfl
  rw [e] at this
  exact this

example : demoRm1.arch.zim.entryByFullUrl "Ca" = .error .entryNotFound :=
  (C86_live_partial (by omega) setupZ_good Toy.replaceable (demoZ_hist.edit demoZ_sound) (by decide) demoZ_removable (by decide)
    demoRm1_eq (by decide) .onDisk 64).1

example (mode : BlobMode) : remove setupZ mode "Cx" demoZ4 = (.error .entryNotFound, demoZ4) :=
  C86_missing (by omega) setupZ_good (demoZ_hist.edit demoZ_sound) (by decide) (by decide) (by decide +kernel) (by decide +kernel)
    (by simp)

theorem demoRn_batch : ∀ l ∈ [[resource, item "b" "text/html" [4, 5], item "c" "text/html" [6]]] ++ [[]], Batch ["text/html"] l := by
  intro l hl
  simp only [List.cons_append, List.nil_append, List.mem_cons, List.not_mem_nil, or_false] at hl
  rcases hl with rfl | rfl <;>
    exact ⟨by decide +kernel, by decide +kernel, by decide +kernel, by unfold NotHuge; decide⟩

theorem demoRn_hist : EditHist setupZ ["text/html"] demoRn4 [[resource, item "b" "text/html" [4, 5], item "c" "text/html" [6]]] [] [] := by
  obtain ⟨h1, h2, h3, h4, -⟩ := demoRn_runs
  have k0 : CreatorHist setupZ demoZ0 [] [] [] :=
    .new (by decide) Toy.zstd_working ⟨100, .inr rfl⟩ ⟨16, .inl rfl⟩ (orElse_eq demoZ_runs.1)
  have k1 := CreatorHist.add (p := resource) k0 ⟨⟨by decide +kernel, by decide +kernel, by decide +kernel, by intro t h; cases h⟩,
    MCluster.mem_delivers _, fun _ => rfl⟩ (stepZ_eq h1)
  have k2 := CreatorHist.add k1 (item_admissible "b" "text/html" [4, 5] (by decide +kernel) (by decide +kernel)) (stepZ_eq h2)
  have k3 := CreatorHist.add k2 (item_admissible "c" "text/html" [6] (by decide +kernel) (by decide +kernel)) (stepZ_eq h3)
  exact (CreatorHist.flush k3 (stepZ_eq h4)).edit ⟨apart_nil _, fun l h => (demoRn_batch l h).urls, fun l h => (demoRn_batch l h).mimetypes,
    fun l h => (demoRn_batch l h).other, fun l h => (demoRn_batch l h).size⟩

/-- An archive with two pages … -/
def demoRl1 : Creator (Bytes ⊕ Toy.Esc) := stepZ (addFullUrlRedirect setupZ "Cy" "Ca" none) demoZ2
/-- and two redirects, … -/
def demoRl2 : Creator (Bytes ⊕ Toy.Esc) := stepZ (addFullUrlRedirect setupZ "Cz" "Cb" none) demoRl1
/-- flushed, … -/
def demoRl3 : Creator (Bytes ⊕ Toy.Esc) := stepZ (flush setupZ) demoRl2
/-- without the second redirect, … -/
def demoRl4 : Creator (Bytes ⊕ Toy.Esc) := stepZ (remove setupZ .empty "Cz") demoRl3
/-- and flushed. -/
def demoRl5 : Creator (Bytes ⊕ Toy.Esc) := stepZ (flush setupZ) demoRl4

/-- All of this succeeds. -/
theorem demoRl_runs : (addFullUrlRedirect setupZ "Cy" "Ca" none demoZ2).1 = .ok () ∧ demoRl1.arch.isDirty = true ∧
    (addFullUrlRedirect setupZ "Cz" "Cb" none demoRl1).1 = .ok () ∧ demoRl2.arch.isDirty = true ∧
    (flush setupZ demoRl2).1 = .ok () ∧ (remove setupZ .empty "Cz" demoRl3).1 = .ok () ∧ (flush setupZ demoRl4).1 = .ok () := by
  decide +kernel

theorem demoRl1_eq : addFullUrlRedirect setupZ "Cy" "Ca" none demoZ2 = (.ok (), demoRl1) := stepZ_eq demoRl_runs.1
theorem demoRl2_eq : addFullUrlRedirect setupZ "Cz" "Cb" none demoRl1 = (.ok (), demoRl2) := stepZ_eq demoRl_runs.2.2.1
theorem demoRl3_eq : flush setupZ demoRl2 = (.ok (), demoRl3) := stepZ_eq demoRl_runs.2.2.2.2.1
theorem demoRl4_eq : remove setupZ .empty "Cz" demoRl3 = (.ok (), demoRl4) := stepZ_eq demoRl_runs.2.2.2.2.2.1
theorem demoRl5_eq : flush setupZ demoRl4 = (.ok (), demoRl5) := stepZ_eq demoRl_runs.2.2.2.2.2.2

theorem demoRl_hist : EditHist setupZ ["text/html"] demoRl3 [[item "a" "text/html" [1, 2, 3], item "b" "text/html" [4, 5]]] []
    [("Cy", "Ca", none), ("Cz", "Cb", none)] := by
  have k0 : CreatorHist setupZ demoZ0 [] [] [] :=
    .new (by decide) Toy.zstd_working ⟨100, .inr rfl⟩ ⟨16, .inl rfl⟩ (orElse_eq demoZ_runs.1)
  have k1 := CreatorHist.add k0 (item_admissible "a" "text/html" [1, 2, 3] (by decide +kernel) (by decide +kernel)) (stepZ_eq demoZ_runs.2.1)
  have k2 := CreatorHist.add k1 (item_admissible "b" "text/html" [4, 5] (by decide +kernel) (by decide +kernel)) (stepZ_eq demoZ_runs.2.2.1)
  have k3 := CreatorHist.redirect (r := ("Cy", "Ca", none)) k2 ⟨⟨'C', "y", rfl, by decide, by decide +kernel⟩, by decide,
    (by intro t h; cases h), by decide⟩ demoRl1_eq demoRl_runs.2.1
  have k4 := CreatorHist.redirect (r := ("Cz", "Cb", none)) k3 ⟨⟨'C', "z", rfl, by decide, by decide +kernel⟩, by decide,
    (by intro t h; cases h), by decide⟩ demoRl2_eq demoRl_runs.2.2.2.1
  refine (CreatorHist.flush k4 demoRl3_eq).edit ?_
  have hb : ∀ l ∈ [[item "a" "text/html" [1, 2, 3], item "b" "text/html" [4, 5]]] ++ [[]], Batch ["text/html"] l := by
    intro l hl
    simp only [List.cons_append, List.nil_append, List.mem_cons, List.not_mem_nil, or_false] at hl
    rcases hl with rfl | rfl <;>
      exact ⟨by decide +kernel, by decide +kernel, by decide +kernel, by unfold NotHuge; decide⟩
  exact ⟨⟨by decide +kernel, by decide +kernel, by decide +kernel⟩, fun l h => (hb l h).urls, fun l h => (hb l h).mimetypes,
    fun l h => (hb l h).other, fun l h => (hb l h).size⟩

theorem demoRl_unlinked : Unlinked "Cz" [[item "a" "text/html" [1, 2, 3], item "b" "text/html" [4, 5]]] []
    [("Cy", "Ca", none), ("Cz", "Cb", none)] :=
  ⟨⟨_, .tail _ (.head _), rfl⟩, by decide +kernel, by decide +kernel, by decide +kernel⟩

example (kind : ClusterKind) : demoRl4.arch.zim.entryByFullUrl "Cz" = .error .entryNotFound ∧ demoRl5.arch.isDirty = false ∧
    ∃ a, openArchive { setupZ with kind := kind, calls := 0, follow := 0 }
      (fun _ => .error .hang) false demoRl5.arch.zim.file = .ok a ∧
    ShowsItems Toy.codecs kind 0 a.zim [item "a" "text/html" [1, 2, 3], item "b" "text/html" [4, 5]] [("Cy", "Ca", none)] :=
  C86_unlinked_partial (by omega) setupZ_good demoRl_hist (by decide) demoRl_unlinked demoRl4_eq demoRl5_eq kind 0 0
    (fun _ => .error .hang)

/-- **C86, finding.** The claim is false in full: if a resource is removed, the articles behind it are not found in the list
of articles any more (but other entries are). -/
theorem C86_full_fails : ¬ C86Full (Bytes ⊕ Toy.Esc) Bool := by
  intro h
  obtain ⟨a, h1, h2⟩ := h setupZ toyHash 90 demoRn4 demoRn5 demoRn6 _ _ _ _ "Ca" .empty (by omega) setupZ_good Toy.replaceable demoRn_hist
    (by decide) (by decide +kernel) (by simp) (by simp) (stepZ_eq demoRn_runs.2.2.2.2.1) (stepZ_eq demoRn_runs.2.2.2.2.2.1) .remembering 0 0
    (fun _ => .error .hang)
  obtain ⟨es, k1, k2, -⟩ := h2.articles
  have h3 := demoRn_runs.2.2.2.2.2.2
  unfold articlesOf at h3
  rw [h1] at h3
  simp only [bind, Except.bind] at h3
  rw [k1] at h3
  simp only [pure, Except.pure, Except.ok.injEq] at h3
  rw [h3] at k2
  have := k2.mem_iff (a := "Xlisting/titleOrdered/v1")
  revert this
  decide +kernel

/-- **C86, finding.** It is false also for articles, if the blob is to be removed: other items then lose their content. -/
theorem C86_blob_removed : ∃ (c c1 c2 : Creator (Bytes ⊕ Toy.Esc)) (done : List (List Sourced)) (recent : List Sourced),
    EditHist setupZ ["text/html"] c done recent [] ∧ Removable "Ca" done recent [] ∧ remove setupZ .remove "Ca" c = (.ok (), c1) ∧
    flush setupZ c1 = (.ok (), c2) ∧ (∃ p ∈ current (done ++ [recent]), p.1.fullUrl = "Cb") ∧
    ¬ ∃ a, openArchive { setupZ with kind := .remembering, calls := 0, follow := 0 } (fun _ => .error .hang) false
        c2.arch.zim.file = .ok a ∧
      ShowsItems setupZ.X .remembering 0 a.zim ((current (done ++ [recent])).filter fun p => p.1.fullUrl ≠ "Ca") [] := by
  refine ⟨demoZ4, demoRm3, demoRm4, _, _, demoZ_hist.edit demoZ_sound, demoZ_removable, stepZ_eq demoRm_runs.2.2.1,
    stepZ_eq demoRm_runs.2.2.2.1, ⟨item "b" "text/html" [4, 5], ?_, by decide +kernel⟩, ?_⟩
  · rw [show current ([[item "a" "text/html" [1, 2, 3], item "b" "text/html" [4, 5]]] ++ [[item "c" "text/html" [6]]]) =
      [item "a" "text/html" [1, 2, 3], item "b" "text/html" [4, 5], item "c" "text/html" [6]] from rfl]
    exact .tail _ (.head _)
  rintro ⟨a, h1, h2⟩
  obtain ⟨e, k1, -, -, -, -, -, k2⟩ := h2.item (item "b" "text/html" [4, 5]) (by
    rw [show (current ([[item "a" "text/html" [1, 2, 3], item "b" "text/html" [4, 5]]] ++ [[item "c" "text/html" [6]]])).filter
      (fun p => p.1.fullUrl ≠ "Ca") = [item "b" "text/html" [4, 5], item "c" "text/html" [6]] from rfl]
    exact .head _)
  have h3 := demoRm_runs.2.2.2.2
  unfold contentAt at h3
  rw [h1] at h3
  simp only [bind, Except.bind] at h3
  rw [show a.zim.entryByFullUrl "Cb" = .ok e from k1] at h3
  simp only at h3
  rw [show a.zim.readContent Toy.codecs .remembering 0 e = .ok [4, 5] from k2] at h3
  cases h3

end Creator
end Pyzim
