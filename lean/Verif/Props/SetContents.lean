import Verif.Props.Reading
import Verif.Lemmas.ToyCodec

/-!
# C77: setting the content of an item that was flushed
-/

namespace Pyzim
open Zim (Redirect)

namespace Creator
variable {D K : Type} {S : Setup D K} {md5 : Bytes → Bytes} {r : Nat} {c c1 c2 : Creator D} {done : List (List Sourced)}
  {recent : List Sourced} {rs : List Zim.Redirect} {mts : List String} {u : String} {src : BlobSource} {content : Bytes}

theorem setContentIn_append (h : ∀ p ∈ recent, p.1.fullUrl ≠ u) :
    setContentIn u src content done ++ [recent] = setContentIn u src content (done ++ [recent]) := by
  unfold setContentIn
  rw [replaceLast_append, if_neg]
  simp only [List.any_cons, List.any_nil, Bool.or_false, List.any_eq_true, decide_eq_true_eq, not_exists, not_and]
  exact h

theorem setContentIn_batches (hl : ∀ l ∈ done ++ [recent], Batch mts l) (hbig : ∀ l ∈ setContentIn u src content done, NotHuge l) :
    ∀ l ∈ setContentIn u src content done ++ [recent], Batch mts l := by
  intro l hm
  rcases List.mem_append.1 hm with hm | hm
  · rcases setContentIn_new hm with h | ⟨l', h, rfl⟩
    · exact hl l (List.mem_append_left _ h)
    · have h1 := hl l' (List.mem_append_left _ h)
      refine ⟨?_, fun p hp => ?_, fun p hp => ?_, hbig _ hm⟩
      · have : (fun p : Sourced => p.1.fullUrl) ∘ withContent u src content = fun p => p.1.fullUrl := by
          funext p; exact withContent_url u src content p
        rw [List.map_map, this]
        exact h1.urls
      · obtain ⟨q, hq, rfl⟩ := List.mem_map.1 hp
        rw [withContent_mimetype]; exact h1.mimetypes q hq
      · obtain ⟨q, hq, rfl⟩ := List.mem_map.1 hp
        rw [withContent_url]; exact h1.other q hq
  · exact hl l (List.mem_append_right _ hm)

theorem setContentIn_apart (hA : Apart rs (done ++ [recent])) : Apart rs (setContentIn u src content done ++ [recent]) := by
  refine ⟨hA.nodup, hA.articles, fun r hr l hl p hp => ?_⟩
  rcases List.mem_append.1 hl with hl | hl
  · rcases setContentIn_new hl with h | ⟨l', h, rfl⟩
    · exact hA.items r hr l (List.mem_append_left _ h) p hp
    · obtain ⟨q, hq, rfl⟩ := List.mem_map.1 hp
      rw [withContent_url]
      exact hA.items r hr l' (List.mem_append_left _ h) q hq
  · exact hA.items r hr l (List.mem_append_right _ hl) p hp

theorem batches_has (hl : ∀ l ∈ done ++ [recent], Batch mts l) : ∀ l ∈ done ++ [recent], (l.map urlOf).Nodup ∧ NotHuge l ∧
    ∀ p ∈ l, encode p.1.mimetype ∈ encode placeholder.mimetype :: mts.map encode ∧ p.1.fullUrl ≠ URL_ARTICLES := fun l h =>
  ⟨(hl l h).urls, (hl l h).size, fun p hp =>
    ⟨List.mem_cons_of_mem _ (List.mem_map.2 ⟨_, (hl l h).mimetypes p hp, rfl⟩), (hl l h).other p hp⟩⟩

/-- **C77.** If the content of an item that was added before the last flush is set, and the archive is flushed after that,
then everybody who opens the file finds the item with the new content, and everything else as it was. -/
theorem C77_set_content (hr : 2 ≤ r) (hS : S.Good md5 (some r)) (hR : Replaceable S.X S.C) (h : CreatorHist S c done recent rs)
    (hA : Apart rs (done ++ [recent])) (hmts : mts.length < 65534) (hl : ∀ l ∈ done ++ [recent], Batch mts l)
    (hu : u ≠ URL_ARTICLES) (hrec : ∀ p ∈ recent, p.1.fullUrl ≠ u) (hd : Delivers src content)
    (hbig : ∀ l ∈ setContentIn u src content done, NotHuge l) (hok : setContent S u src c = (.ok (), c1))
    (hf : flush S c1 = (.ok (), c2)) (kind : ClusterKind) (calls follow : Nat) (titles : Zim → PyRes PointerList) :
    c2.arch.isDirty = false ∧
    ∃ a, openArchive { S with kind := kind, calls := calls, follow := follow } titles false c2.arch.zim.file = .ok a ∧
      ShowsItems S.X kind calls a.zim ((current (done ++ [recent])).map (withContent u src content)) rs := by
  have h1 := CreatorHist.set h hR (fun l h => (hl l (List.mem_append_left _ h)).size) hu hrec hd hok
  have := C70_after_flush hr hS h1 (setContentIn_apart hA) hf hmts (setContentIn_batches hl hbig) kind calls follow titles
  rw [setContentIn_append hrec, current_setContentIn] at this
  exact this

/-- **C77.** `set_content` only succeeds for the url of an item, and then there are unsaved changes. -/
theorem C77_only_items (hr : 2 ≤ r) (hS : S.Good md5 (some r)) (hR : Replaceable S.X S.C) (h : CreatorHist S c done recent rs)
    (hA : Apart rs (done ++ [recent])) (hmts : mts.length < 65534) (hl : ∀ l ∈ done ++ [recent], Batch mts l)
    (hu : u ≠ URL_ARTICLES) (hrec : ∀ p ∈ recent, p.1.fullUrl ≠ u) (hd : Delivers src content)
    (hok : setContent S u src c = (.ok (), c1)) : (∃ p ∈ current (done ++ [recent]), p.1.fullUrl = u) ∧ c1.arch.isDirty = true := by
  obtain ⟨Gb, h1, G, P1, P2, ⟨rows, cs, extra, es, L, m0, R, B, hc, hB⟩, -, -, -, -, hperm, -⟩ := h.has hr hS hA
    (ML := encode placeholder.mimetype :: mts.map encode) (by rw [List.length_cons, List.length_map]; omega) List.mem_cons_self
    (batches_has hl)
  obtain ⟨z', hz, rfl⟩ := setContent_ok hok
  obtain ⟨k1, -, cs', -, -, k2, -⟩ := hc.setContent hR hd hu hz
  refine ⟨?_, by unfold Archive.isDirty; simp [k2]⟩
  obtain ⟨g, hg, hany⟩ := List.any_eq_true.1 k1
  obtain ⟨p, hp, hpu⟩ := List.any_eq_true.1 hany
  have hpu : p.1.fullUrl = u := of_decide_eq_true hpu
  rcases List.mem_append.1 hg with hg | hg
  · obtain ⟨q, hq, hqp⟩ := lastOnes_key (key := urlOf) (List.mem_flatten.2 ⟨g, hg, hp⟩)
    have h2 := (current_perm h1 fun l h => (hl l (List.mem_append_left _ h)).urls).mem_iff.1 hq
    have hqu : q.1.fullUrl = u := (show urlOf q = urlOf p from hqp).trans hpu
    refine ⟨q, ?_, hqu⟩
    rw [current_snoc]
    refine List.mem_append_left _ (List.mem_filter.2 ⟨h2, List.all_eq_true.2 fun x hx => decide_eq_true ?_⟩)
    rw [hqu]
    exact hrec x hx
  · exact absurd hpu (hrec p (hperm.subset (List.mem_append_right _ (List.mem_flatten.2 ⟨g, hg, hp⟩))))

/-- **C77.** In an archive with unsaved changes of any kind, the items that were added before the last flush (and were not
added again since) have their content, as a whole, in part and in pieces, if the cluster can be opened (`get_size`
returns). -/
theorem C77_unsaved_changes (hr : 2 ≤ r) (hS : S.Good md5 (some r)) (hR : Replaceable S.X S.C) (h : CreatorHist S c done recent rs)
    (hA : Apart rs (done ++ [recent])) (hmts : mts.length < 65534) (hl : ∀ l ∈ done ++ [recent], Batch mts l)
    (kind : ClusterKind) (calls : Nat) : ∀ p ∈ current done, (∀ q ∈ recent, q.1.fullUrl ≠ p.1.fullUrl) →
    ∃ e, c.arch.zim.entryByFullUrl p.1.fullUrl = .ok e ∧
      ((c.arch.zim.contentSize S.X kind calls e).isOk → HasContent S.X kind calls c.arch.zim e p.2) := by
  obtain ⟨h1, -, h4⟩ := h.live hr hS hR hA
    (ML := encode placeholder.mimetype :: mts.map encode) (by rw [List.length_cons, List.length_map]; omega) List.mem_cons_self
    (batches_has hl)
  intro p hp hq
  obtain ⟨e, i, off, j, hf⟩ := h4 p hp hq
  refine ⟨e, hf.found, fun hok => ?_⟩
  cases hn : c.arch.zim.contentSize S.X kind calls e with
  | error x => rw [hn] at hok; cases hok
  | ok n => exact .of_writable h1 hf.kind hf.cluster (hf.blob kind) hn

/-- **C77.** The new content is read at once, without a flush of the archive. -/
theorem C77_live (hr : 2 ≤ r) (hS : S.Good md5 (some r)) (hR : Replaceable S.X S.C) (h : CreatorHist S c done recent rs)
    (hA : Apart rs (done ++ [recent])) (hmts : mts.length < 65534) (hl : ∀ l ∈ done ++ [recent], Batch mts l)
    (hu : u ≠ URL_ARTICLES) (hrec : ∀ p ∈ recent, p.1.fullUrl ≠ u) (hd : Delivers src content)
    (hbig : ∀ l ∈ setContentIn u src content done, NotHuge l) (hok : setContent S u src c = (.ok (), c1))
    (kind : ClusterKind) (calls : Nat) : ∃ e, c1.arch.zim.entryByFullUrl u = .ok e ∧
      ((c1.arch.zim.contentSize S.X kind calls e).isOk → HasContent S.X kind calls c1.arch.zim e content) := by
  have h1 := CreatorHist.set h hR (fun l h => (hl l (List.mem_append_left _ h)).size) hu hrec hd hok
  obtain ⟨⟨p, hp, hpu⟩, -⟩ := C77_only_items hr hS hR h hA hmts hl hu hrec hd hok
  rw [current_snoc] at hp
  rcases List.mem_append.1 hp with hp | hp
  · have := C77_unsaved_changes hr hS hR h1 (setContentIn_apart hA) hmts (setContentIn_batches hl hbig) kind calls
      (withContent u src content p) (by rw [current_setContentIn]; exact List.mem_map_of_mem (List.mem_filter.1 hp).1)
      (by rw [withContent_url, hpu]; exact hrec)
    rw [withContent_url, hpu] at this
    have e : (withContent u src content p).2 = content := by unfold withContent; rw [if_pos hpu]
    rwa [e] at this
  · exact absurd hpu (hrec p hp)

/-- **C77.** A url without an entry is refused, and so is a redirect; nothing changes then. -/
theorem C77_refused : (∀ x, c.arch.zim.entryByFullUrl u = .error x → setContent S u src c = (.error x, c)) ∧
    ∀ e i, c.arch.zim.entryByFullUrl u = .ok e → e.kind = .redirect i → setContent S u src c = (.error .attributeError, c) := by
  constructor
  · intro x hx
    unfold setContent onArch Archive.onZim
    simp only [PyM.of_apply, PyM.get_bind, hx, PyM.lift_err_bind]
  · intro e i he hk
    unfold setContent onArch Archive.onZim
    simp only [PyM.of_apply, PyM.get_bind, he, PyM.lift_ok_bind, Zim.setContent, hk, PyM.raise_apply]

/-! ### An example with compressed clusters -/

open Strategy (item)
open Zim (toyHash toyHasher toyHasher_computes)

/-- the setup of the other examples, with a compression -/
def setupZ : Setup (Bytes ⊕ Toy.Esc) Bool where
  X := Toy.codecs
  C := Toy.compressors
  kind := .remembering
  H := toyHasher
  short := fun pos n => if pos % 2 = 1 then 1 else n
  chunksize := 7
  policy := ⟨true, some 90⟩
  blob := fun _ => pure ()
  depth := 4
  passes := 4
  calls := 64
  follow := 4

theorem setupZ_good : setupZ.Good toyHash (some 90) where
  hasher := toyHasher_computes
  short pos n hn := by
    show 0 < if pos % 2 = 1 then 1 else n
    split <;> omega
  chunksize := Nat.succ_pos 6
  policy := rfl
  passes := Nat.succ_pos 3
  plain := Toy.none_working
  passthrough := Toy.replaceable.plain

def mainZ : Strategy (Bytes ⊕ Toy.Esc) := .byMimetype { compressionType := .zstd, maxSize := 100 }
def plainZ : Strategy (Bytes ⊕ Toy.Esc) := .simple (Simple.new .none 16)

def stepZ (g : PyM (Creator (Bytes ⊕ Toy.Esc)) Unit) (c : Creator (Bytes ⊕ Toy.Esc)) : Creator (Bytes ⊕ Toy.Esc) := (g c).2

theorem stepZ_eq {g : PyM (Creator (Bytes ⊕ Toy.Esc)) Unit} {c : Creator (Bytes ⊕ Toy.Esc)} (h : (g c).1 = .ok ()) :
    g c = (.ok (), stepZ g c) :=
  Prod.ext h rfl

/-- a new archive, … -/
def demoZ0 : Creator (Bytes ⊕ Toy.Esc) := orElse (new setupZ (List.replicate 16 1) mainZ plainZ)
  { arch := Archive.demo0 (some 90), main := mainZ, plain := plainZ }
/-- with a page, … -/
def demoZ1 : Creator (Bytes ⊕ Toy.Esc) := stepZ (addItem setupZ (item "a" "text/html" [1, 2, 3]).1 false) demoZ0
/-- two pages, … -/
def demoZ2 : Creator (Bytes ⊕ Toy.Esc) := stepZ (addItem setupZ (item "b" "text/html" [4, 5]).1 false) demoZ1
/-- flushed, … -/
def demoZ3 : Creator (Bytes ⊕ Toy.Esc) := stepZ (flush setupZ) demoZ2
/-- with a third page that waits, … -/
def demoZ4 : Creator (Bytes ⊕ Toy.Esc) := stepZ (addItem setupZ (item "c" "text/html" [6]).1 false) demoZ3
/-- with another content of the first page, … -/
def demoZ5 : Creator (Bytes ⊕ Toy.Esc) := stepZ (setContent setupZ "Ca" (MCluster.mem [7, 8, 9, 10, 11])) demoZ4
/-- and flushed. -/
def demoZ6 : Creator (Bytes ⊕ Toy.Esc) := stepZ (flush setupZ) demoZ5

theorem demoZ_runs : (new setupZ (List.replicate 16 1) mainZ plainZ).isOk = true ∧
    (addItem setupZ (item "a" "text/html" [1, 2, 3]).1 false demoZ0).1 = .ok () ∧
    (addItem setupZ (item "b" "text/html" [4, 5]).1 false demoZ1).1 = .ok () ∧
    (flush setupZ demoZ2).1 = .ok () ∧
    (addItem setupZ (item "c" "text/html" [6]).1 false demoZ3).1 = .ok () ∧
    (setContent setupZ "Ca" (MCluster.mem [7, 8, 9, 10, 11]) demoZ4).1 = .ok () ∧
    (flush setupZ demoZ5).1 = .ok () ∧
    (demoZ5.arch.zim.entryByFullUrl "Ca" >>= demoZ5.arch.zim.readContent setupZ.X .onDisk 64) = .ok [7, 8, 9, 10, 11] := by
  decide +kernel

theorem demoZ5_eq : setContent setupZ "Ca" (MCluster.mem [7, 8, 9, 10, 11]) demoZ4 = (.ok (), demoZ5) :=
  stepZ_eq demoZ_runs.2.2.2.2.2.1
theorem demoZ6_eq : flush setupZ demoZ5 = (.ok (), demoZ6) := stepZ_eq demoZ_runs.2.2.2.2.2.2.1

theorem demoZ_hist : CreatorHist setupZ demoZ4 [[item "a" "text/html" [1, 2, 3], item "b" "text/html" [4, 5]]]
    [item "c" "text/html" [6]] [] := by
  obtain ⟨h0, h1, h2, h3, h4, -⟩ := demoZ_runs
  have k0 : CreatorHist setupZ demoZ0 [] [] [] :=
    .new (by decide) Toy.zstd_working ⟨100, .inr rfl⟩ ⟨16, .inl rfl⟩ (orElse_eq h0)
  have k1 := CreatorHist.add k0 (item_admissible "a" "text/html" [1, 2, 3] (by decide +kernel) (by decide +kernel)) (stepZ_eq h1)
  have k2 := CreatorHist.add k1 (item_admissible "b" "text/html" [4, 5] (by decide +kernel) (by decide +kernel)) (stepZ_eq h2)
  have k3 := CreatorHist.flush k2 (stepZ_eq h3)
  exact CreatorHist.add k3 (item_admissible "c" "text/html" [6] (by decide +kernel) (by decide +kernel)) (stepZ_eq h4)

theorem demoZ_batches : ∀ l ∈ [[item "a" "text/html" [1, 2, 3], item "b" "text/html" [4, 5]]] ++ [[item "c" "text/html" [6]]],
    Batch ["text/html"] l := by
  intro l hl
  simp only [List.cons_append, List.nil_append, List.mem_cons, List.not_mem_nil, or_false] at hl
  rcases hl with rfl | rfl <;>
    exact ⟨by decide +kernel, by decide +kernel, by decide +kernel, by unfold NotHuge; decide⟩

theorem demoZ_big : ∀ l ∈ setContentIn "Ca" (MCluster.mem [7, 8, 9, 10, 11]) [7, 8, 9, 10, 11]
    [[item "a" "text/html" [1, 2, 3], item "b" "text/html" [4, 5]]], NotHuge l := by
  intro l hl
  rcases setContentIn_new hl with hl | ⟨l', hl', rfl⟩
  · rw [List.mem_singleton] at hl; subst hl; unfold NotHuge; decide
  · rw [List.mem_singleton] at hl'; subst hl'; unfold NotHuge; decide +kernel

example (kind : ClusterKind) : ∃ a, openArchive { setupZ with kind := kind, calls := 0, follow := 0 }
      (fun _ => .error .hang) false demoZ6.arch.zim.file = .ok a ∧
    ShowsItems Toy.codecs kind 0 a.zim
      [item "a" "text/html" [7, 8, 9, 10, 11], item "b" "text/html" [4, 5], item "c" "text/html" [6]] [] := by
  have := (C77_set_content (by omega) setupZ_good Toy.replaceable demoZ_hist (apart_nil _) (by decide) demoZ_batches
    (u := "Ca") (by decide +kernel) (by decide +kernel) (MCluster.mem_delivers _) demoZ_big demoZ5_eq demoZ6_eq kind 0 0
    (fun _ => .error .hang)).2
  have e : (current ([[item "a" "text/html" [1, 2, 3], item "b" "text/html" [4, 5]]] ++ [[item "c" "text/html" [6]]])).map
      (withContent "Ca" (MCluster.mem [7, 8, 9, 10, 11]) [7, 8, 9, 10, 11]) =
      [item "a" "text/html" [7, 8, 9, 10, 11], item "b" "text/html" [4, 5], item "c" "text/html" [6]] := by
    rfl
  rw [e] at this
  exact this

end Creator
end Pyzim
