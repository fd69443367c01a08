import Verif.Props.Reading
import Verif.Props.SetMetadata

/-!
# Redirects in an archive being filled (C75)
-/

namespace Pyzim
namespace Creator
open Zim (Redirect Once toyHash)

variable {D K : Type} {S : Setup D K} {md5 : Bytes → Bytes} {r : Nat} {c c' : Creator D} {done : List (List Sourced)}
  {recent : List Sourced} {rs : List Redirect} {mts : List String}

/-- The redirect leads to the entry with the url of its target, and has the title of that (or, if that is empty, its own
url) if it was given none. -/
def RedirectWorks (z : Zim) (x : Redirect) : Prop :=
  ∃ e i e', z.entryByFullUrl x.1 = .ok e ∧ e.isRedirect = true ∧ e.kind = .redirect i ∧ z.entryByIndex i = .ok e' ∧
    z.entryByFullUrl x.2.1 = .ok e' ∧ e'.fullUrl = x.2.1 ∧
    (x.2.2 = none → e.title = if e'.title = "" then e.url else e'.title)

/-- how often items with this full url were added -/
def timesAdded (lists : List (List Sourced)) (u : String) : Nat := (lists.flatten.map fun p => p.1.fullUrl).count u

/-- the redirects of an archive without unsaved changes -/
theorem redirects_work_core {mp : Option (Option String)} {ML : List Bytes} {reserve : Option Nat} {a : Archive}
    {Gb : List (List (List Sourced))} {G : List (List Sourced)} {rows : List Zim.Row} {cs : List Zim.Stored} {extra : Nat → Prop}
    {es : List Entry} {L : Bytes} {m0 : Catalogue} {R : List Redirect}
    (hc : Core false mp S.X S.C ML reserve a (Gb.flatten ++ G) rows cs extra es L m0 R []) (hperm : G.flatten.Perm recent)
    (hB : R.Perm rs) (h1 : List.Forall₂ (fun G l => G.flatten.Perm l) Gb done) (hsep : Separate rs Gb.flatten recent)
    (hl : ∀ l ∈ done ++ [recent], ∀ p ∈ l, p.1.fullUrl ≠ URL_ARTICLES) :
    ∀ x ∈ rs, timesAdded (done ++ [recent]) x.2.1 ≤ 1 → RedirectWorks a.zim x := by
  intro x hx ht
  have hGi : ∀ p ∈ G.flatten, p ∈ recent := fun p hp => hperm.subset hp
  have hflat : ((Gb.flatten ++ G).flatten).Perm (done ++ [recent]).flatten := by
    rw [List.flatten_append, List.flatten_append]
    refine List.Perm.append ?_ (by simpa using hperm)
    clear hc hsep ht hperm hl hGi
    induction h1 with
    | nil => exact .refl _
    | cons h _ ih =>
      rw [List.flatten_cons, List.flatten_append, List.flatten_cons]
      exact h.append ih
  have hurls : es.map Entry.fullUrl = URL_ARTICLES :: (Gb.flatten ++ G).flatten.map fun p => p.1.fullUrl := by
    rw [entryFor_urls hc.entries, List.map_cons, show slotsOf false 1 (Gb.flatten ++ G) = slots 1 (Gb.flatten ++ G) from rfl, slots_urls]
    congr 1
  have honce : Once m0 es x.1 x.2.1 := by
    refine ⟨hc.apart hsep hGi hx, ?_, fun hm => ?_⟩
    · rw [hurls, List.count_cons, (hflat.map _).count_eq]
      unfold timesAdded at ht
      by_cases he : x.2.1 = URL_ARTICLES
      · rw [List.count_eq_zero_of_not_mem]
        · split <;> omega
        · intro hm
          obtain ⟨p, hp, hpu⟩ := List.mem_map.1 hm
          obtain ⟨l, hl1, hl2⟩ := List.mem_flatten.1 hp
          exact hl l hl1 p hl2 (hpu.trans he)
      · rw [if_neg (by simpa using Ne.symm he)]
        exact ht
    · cases hm2 : m0 x.2.1 with
      | none => exact absurd hm2 hm
      | some v =>
        obtain ⟨y, hy, hyu⟩ := hc.only _ _ hm2
        rw [← hyu]
        exact hc.apart hsep hGi (hB.subset hy)
  obtain ⟨k1, k2⟩ := hc.leads x (hB.mem_iff.2 hx) honce
  obtain ⟨e, i, e', j1, j2, j3, j4, j5⟩ := k1
  have hrep := hc.laid.content.rep
  obtain ⟨q, hq, hqe, hqu⟩ := hrep.row_of_entry j1
  obtain ⟨q', hq', hqe'⟩ : ∃ q' ∈ rows, q'.2 = e' := by
    by_cases hil : i < rows.length
    · rw [hrep.entryByIndex (List.getElem?_eq_getElem hil)] at j4
      injection j4 with j4
      exact ⟨_, List.getElem_mem hil, j4⟩
    · rw [hrep.entryByIndex_out (by omega)] at j4
      cases j4
  refine ⟨e, i, e', j1, ?_, j3, j4, ?_, j5, fun hn => ?_⟩
  · rw [← hqe] at j3 ⊢; exact (hrep.store.clean q hq).isRedirect.2 ⟨i, j3⟩
  · rw [← j5, ← hqe']; exact hrep.entryByFullUrl hq'
  · obtain ⟨v, w, hv, hw, ht⟩ := k2 hn
    obtain ⟨p, hp, hpu, hpv⟩ := (hc.lists _ _).1 hv
    obtain ⟨p', hp', hpu', hpv'⟩ := (hc.lists _ _).1 hw
    have e1 := hrep.entryByFullUrl hp
    have e2 := hrep.entryByFullUrl hp'
    have e3 := hrep.entryByFullUrl hq'
    rw [hpu, j1] at e1
    rw [hpu'] at e2
    rw [hqe', j5, e2] at e3
    injection e1 with e1
    injection e3 with e3
    rw [← hpv, ← hpv', ← e1, e3] at ht
    exact ht

/-- the redirects of the archive itself -/
theorem redirects_work (hr : 2 ≤ r) (hS : S.Good md5 (some r)) (h : CreatorHist S c done recent rs)
    (hA : Apart rs (done ++ [recent])) (hd : c.arch.isDirty = false) (hmts : mts.length < 65534)
    (hl : ∀ l ∈ done ++ [recent], Batch mts l) :
    (∀ (kind : ClusterKind) (calls follow : Nat) (titles : Zim → PyRes PointerList),
      openArchive { S with kind := kind, calls := calls, follow := follow } titles false c.arch.zim.file =
        .ok (Archive.loaded false { pointers := c.arch.zim.articles.pointers } c.arch)) ∧
    (∀ u e, c.arch.zim.entryByFullUrl u = .ok e → (e.isRedirect = true ↔ ∃ i, e.kind = .redirect i)) ∧
    ∀ x ∈ rs, timesAdded (done ++ [recent]) x.2.1 ≤ 1 → RedirectWorks c.arch.zim x := by
  obtain ⟨Gb, h1, G, P1, P2, ⟨rows, cs, extra, es, L, m0, R, B, hc, hB⟩, -, -, -, -, hperm, hcl⟩ := h.has hr hS hA
    (ML := encode placeholder.mimetype :: mts.map encode)
    (by rw [List.length_cons, List.length_map]; omega) List.mem_cons_self fun l h =>
      ⟨(hl l h).urls, (hl l h).size, fun p hp => ⟨List.mem_cons_of_mem _ (List.mem_map.2 ⟨_, (hl l h).mimetypes p hp, rfl⟩), (hl l h).other p hp⟩⟩
  obtain ⟨rfl, rfl, hb⟩ := hcl hd
  replace hb := hb rfl
  obtain rfl : B = [] := hc.redirects.symm.trans hb
  rw [List.append_nil] at hB
  refine ⟨fun kind calls follow titles =>
    hc.opens (S := { S with kind := kind, calls := calls, follow := follow }) hS.passthrough hd titles false, ?_, ?_⟩
  · intro u e he
    obtain ⟨q, hq, rfl, -⟩ := hc.laid.content.rep.row_of_entry he
    exact (hc.laid.content.rep.store.clean q hq).isRedirect
  exact redirects_work_core hc (by simpa using hperm) hB h1 (hA.separate h.valid h1) fun l h p hp => (hl l h).other p hp

/-- **C75, in full.** Every redirect leads to its target once there are no unsaved changes. -/
def C75Full (D K : Type) : Prop := ∀ (S : Setup D K) (md5 : Bytes → Bytes) (r : Nat) (c : Creator D)
  (done : List (List Sourced)) (recent : List Sourced) (rs : List Redirect) (mts : List String), 2 ≤ r →
  S.Good md5 (some r) → CreatorHist S c done recent rs → Apart rs (done ++ [recent]) → c.arch.isDirty = false →
  mts.length < 65534 → (∀ l ∈ done ++ [recent], Batch mts l) →
  ∀ (kind : ClusterKind) (calls follow : Nat) (titles : Zim → PyRes PointerList),
    ∃ a, openArchive { S with kind := kind, calls := calls, follow := follow } titles false c.arch.zim.file = .ok a ∧
      ∀ x ∈ rs, RedirectWorks a.zim x

/-- **C75, partial.** However items and redirects were added: once there are no unsaved changes, everybody who opens the
file finds that each redirect leads to its target and has its title if it was given none, if an item with the url of the
target was added at most once. -/
theorem C75_opened_partial (hr : 2 ≤ r) (hS : S.Good md5 (some r)) (h : CreatorHist S c done recent rs)
    (hA : Apart rs (done ++ [recent])) (hd : c.arch.isDirty = false) (hmts : mts.length < 65534)
    (hl : ∀ l ∈ done ++ [recent], Batch mts l) (kind : ClusterKind) (calls follow : Nat)
    (titles : Zim → PyRes PointerList) :
    ∃ a, openArchive { S with kind := kind, calls := calls, follow := follow } titles false c.arch.zim.file = .ok a ∧
      ∀ x ∈ rs, timesAdded (done ++ [recent]) x.2.1 ≤ 1 → RedirectWorks a.zim x := by
  obtain ⟨h1, -, h2⟩ := redirects_work hr hS h hA hd hmts hl
  exact ⟨_, h1 kind calls follow titles, fun x hx ht => h2 x hx ht⟩

/-- **C75, partial.** The same in the archive that is being written, once there are no unsaved changes. -/
theorem C75_live_partial (hr : 2 ≤ r) (hS : S.Good md5 (some r)) (h : CreatorHist S c done recent rs)
    (hA : Apart rs (done ++ [recent])) (hd : c.arch.isDirty = false) (hmts : mts.length < 65534)
    (hl : ∀ l ∈ done ++ [recent], Batch mts l) :
    ∀ x ∈ rs, timesAdded (done ++ [recent]) x.2.1 ≤ 1 → RedirectWorks c.arch.zim x :=
  (redirects_work hr hS h hA hd hmts hl).2.2

/-- **C75, partial.** Resolving such a redirect to an item gives an entry with the content of the item. -/
theorem C75_content_partial (hr : 2 ≤ r) (hS : S.Good md5 (some r)) (h : CreatorHist S c done recent rs)
    (hA : Apart rs (done ++ [recent])) (hd : c.arch.isDirty = false) (hmts : mts.length < 65534)
    (hl : ∀ l ∈ done ++ [recent], Batch mts l) (kind : ClusterKind) (calls follow : Nat)
    (titles : Zim → PyRes PointerList) :
    ∃ a, openArchive { S with kind := kind, calls := calls, follow := follow } titles false c.arch.zim.file = .ok a ∧
      ∀ x ∈ rs, timesAdded (done ++ [recent]) x.2.1 ≤ 1 → ∀ p ∈ current (done ++ [recent]), p.1.fullUrl = x.2.1 →
        ∀ n, 2 ≤ n → ∃ e e', a.zim.entryByFullUrl x.1 = .ok e ∧ a.zim.resolve n e = .ok e' ∧
          HasContent S.X kind calls a.zim e' p.2 := by
  obtain ⟨h1, hred, h2⟩ := redirects_work hr hS h hA hd hmts hl
  obtain ⟨a', k1, k2⟩ := C73_opened hr hS h hA hd hmts hl kind calls follow titles
  rw [h1 kind calls follow titles] at k1
  injection k1 with k1
  subst k1
  refine ⟨_, h1 kind calls follow titles, fun x hx ht p hp hpu n hn => ?_⟩
  obtain ⟨e, i, e', j1, j2, j3, j4, j5, -⟩ := h2 x hx ht
  obtain ⟨f, f1, f2⟩ := k2 p hp
  rw [hpu, Archive.loaded_entryByFullUrl, j5] at f1
  injection f1 with f1
  subst f1
  refine ⟨e, e', j1, ?_, f2⟩
  obtain ⟨c0, b0, hk⟩ := readContent_content f2.whole
  obtain ⟨m, rfl⟩ : ∃ m, n = m + 2 := ⟨n - 2, by omega⟩
  unfold Zim.resolve
  rw [j3]
  simp only
  rw [Zim.resolveLoop, if_pos j2, j3]
  simp only [show (Archive.loaded false { pointers := c.arch.zim.articles.pointers } c.arch).zim.entryByIndex i = .ok e' from j4]
  rw [Zim.resolveLoop, if_neg]
  intro hh
  obtain ⟨k, hk'⟩ := (hred _ _ j5).1 hh
  rw [hk] at hk'
  cases hk'

/-! ### A concrete archive -/

open Strategy (item)

def addRed (x : Redirect) : PyM (Creator Bytes) Unit := addFullUrlRedirect demoSetup x.1 x.2.1 x.2.2

/-- the page `a` with another content and a title -/
def titled : Sourced :=
  ({ ns := "C", url := "a", mimetype := "text/html", source := (BlobSourceObj.inMemory [7, 8]).toSource,
     titleRaw := some "longer", isArticle := true }, [7, 8])

/-- a new archive with a page, … -/
def demoG1 : Creator Bytes := step (add (item "0" "text/html" [9]) false) demoA
/-- another one, … -/
def demoG2 : Creator Bytes := step (add (item "a" "text/html" [1, 2, 3]) false) demoG1
/-- a redirect to it, … -/
def demoG3 : Creator Bytes := step (addRed ("Cr", "Ca", none)) demoG2
/-- a redirect to the redirect, … -/
def demoG4 : Creator Bytes := step (addRed ("Cq", "Cr", some "Q")) demoG3
/-- flushed, … -/
def demoG : Creator Bytes := step (flush demoSetup) demoG4
/-- with the target replaced, … -/
def demoH1 : Creator Bytes := step (add titled false) demoG
/-- and flushed. -/
def demoH : Creator Bytes := step (flush demoSetup) demoH1

/-- the url of the entry to which the redirect at this url leads -/
def leadsTo (z : Zim) (u : String) : PyRes String := do
  let e ← z.entryByFullUrl u
  match e.kind with
  | .redirect i => do
    let e' ← z.entryByIndex i
    pure e'.fullUrl
  | .content _ _ => .error .valueError

/-- All of this succeeds. -/
theorem demoH_runs : (add (item "0" "text/html" [9]) false demoA).1 = .ok () ∧
    (add (item "a" "text/html" [1, 2, 3]) false demoG1).1 = .ok () ∧ (addRed ("Cr", "Ca", none) demoG2).1 = .ok () ∧
    demoG3.arch.isDirty = true ∧ (addRed ("Cq", "Cr", some "Q") demoG3).1 = .ok () ∧ demoG4.arch.isDirty = true ∧
    (flush demoSetup demoG4).1 = .ok () ∧ demoG.arch.isDirty = false ∧ (add titled false demoG).1 = .ok () ∧
    (flush demoSetup demoH1).1 = .ok () ∧ demoH.arch.isDirty = false ∧ leadsTo demoH.arch.zim "Cr" = .ok "C0" := by
  decide +kernel

theorem demoG1_eq : addItem demoSetup (item "0" "text/html" [9]).1 false demoA = (.ok (), demoG1) :=
  step_eq (g := add (item "0" "text/html" [9]) false) demoH_runs.1
theorem demoG2_eq : addItem demoSetup (item "a" "text/html" [1, 2, 3]).1 false demoG1 = (.ok (), demoG2) :=
  step_eq (g := add (item "a" "text/html" [1, 2, 3]) false) demoH_runs.2.1
theorem demoG3_eq : addFullUrlRedirect demoSetup "Cr" "Ca" none demoG2 = (.ok (), demoG3) :=
  step_eq (g := addRed ("Cr", "Ca", none)) demoH_runs.2.2.1
theorem demoG4_eq : addFullUrlRedirect demoSetup "Cq" "Cr" (some "Q") demoG3 = (.ok (), demoG4) :=
  step_eq (g := addRed ("Cq", "Cr", some "Q")) demoH_runs.2.2.2.2.1
theorem demoG_eq : flush demoSetup demoG4 = (.ok (), demoG) := step_eq (g := flush demoSetup) demoH_runs.2.2.2.2.2.2.1
theorem demoG_clean : demoG.arch.isDirty = false := demoH_runs.2.2.2.2.2.2.2.1
theorem demoH1_eq : addItem demoSetup titled.1 false demoG = (.ok (), demoH1) :=
  step_eq (g := add titled false) demoH_runs.2.2.2.2.2.2.2.2.1
theorem demoH_eq : flush demoSetup demoH1 = (.ok (), demoH) :=
  step_eq (g := flush demoSetup) demoH_runs.2.2.2.2.2.2.2.2.2.1
theorem demoH_clean : demoH.arch.isDirty = false := demoH_runs.2.2.2.2.2.2.2.2.2.2.1
theorem demoH_leads : leadsTo demoH.arch.zim "Cr" = .ok "C0" := demoH_runs.2.2.2.2.2.2.2.2.2.2.2

theorem valid_Cr : Redirect.Valid ("Cr", "Ca", none) :=
  ⟨⟨'C', "r", rfl, by decide, by decide +kernel⟩, by decide, (by intro t h; cases h), by decide⟩
theorem valid_Cq : Redirect.Valid ("Cq", "Cr", some "Q") :=
  ⟨⟨'C', "q", rfl, by decide, by decide +kernel⟩, by decide, (by intro t h; cases h; decide +kernel), by decide⟩

theorem demoG4_hist : CreatorHist demoSetup demoG4 [] [item "0" "text/html" [9], item "a" "text/html" [1, 2, 3]]
    [("Cr", "Ca", none), ("Cq", "Cr", some "Q")] := by
  have h1 := CreatorHist.add demoA_hist (item_admissible "0" "text/html" [9] (by decide +kernel) (by decide +kernel)) demoG1_eq
  have h2 := CreatorHist.add h1 (item_admissible "a" "text/html" [1, 2, 3] (by decide +kernel) (by decide +kernel)) demoG2_eq
  have h3 := CreatorHist.redirect (r := ("Cr", "Ca", none)) h2 valid_Cr demoG3_eq demoH_runs.2.2.2.1
  exact CreatorHist.redirect (r := ("Cq", "Cr", some "Q")) h3 valid_Cq demoG4_eq demoH_runs.2.2.2.2.2.1

theorem demoG_hist : CreatorHist demoSetup demoG [[item "0" "text/html" [9], item "a" "text/html" [1, 2, 3]]] []
    [("Cr", "Ca", none), ("Cq", "Cr", some "Q")] := CreatorHist.flush demoG4_hist demoG_eq

theorem demoG_apart : Apart [("Cr", "Ca", none), ("Cq", "Cr", some "Q")]
    ([[item "0" "text/html" [9], item "a" "text/html" [1, 2, 3]]] ++ [[]]) :=
  ⟨by decide +kernel, by decide +kernel, by decide +kernel⟩

theorem demoG_batches : ∀ l ∈ [[item "0" "text/html" [9], item "a" "text/html" [1, 2, 3]]] ++ [[]], Batch ["text/html"] l := by
  intro l hl
  simp only [List.cons_append, List.nil_append, List.mem_cons, List.not_mem_nil, or_false] at hl
  rcases hl with rfl | rfl <;>
    exact ⟨by decide +kernel, by decide +kernel, by decide +kernel, by unfold NotHuge; decide⟩

example (kind : ClusterKind) : ∃ a, openArchive { demoSetup with kind := kind, calls := 0, follow := 0 }
      (fun _ => .error .hang) false demoG.arch.zim.file = .ok a ∧ RedirectWorks a.zim ("Cr", "Ca", none) ∧
      RedirectWorks a.zim ("Cq", "Cr", some "Q") := by
  obtain ⟨a, h1, h2⟩ := C75_opened_partial (by omega) demoSetup_good demoG_hist demoG_apart demoG_clean (by decide)
    demoG_batches kind 0 0 (fun _ => .error .hang)
  exact ⟨a, h1, h2 _ (by simp) (by decide +kernel), h2 _ (by simp) (by decide +kernel)⟩

theorem demoH_hist : CreatorHist demoSetup demoH
    [[item "0" "text/html" [9], item "a" "text/html" [1, 2, 3]], [titled]] []
    [("Cr", "Ca", none), ("Cq", "Cr", some "Q")] := by
  refine CreatorHist.flush (CreatorHist.add (p := titled) demoG_hist ⟨⟨?_, ?_, ?_, ?_⟩, MCluster.mem_delivers _, fun _ => rfl⟩
    demoH1_eq) demoH_eq
  · decide +kernel
  · decide +kernel
  · decide +kernel
  · intro t h; cases h; decide +kernel

theorem demoH_apart : Apart [("Cr", "Ca", none), ("Cq", "Cr", some "Q")]
    ([[item "0" "text/html" [9], item "a" "text/html" [1, 2, 3]], [titled]] ++ [[]]) :=
  ⟨by decide +kernel, by decide +kernel, by decide +kernel⟩

theorem demoH_batches : ∀ l ∈ [[item "0" "text/html" [9], item "a" "text/html" [1, 2, 3]], [titled]] ++ [[]],
    Batch ["text/html"] l := by
  intro l hl
  simp only [List.cons_append, List.nil_append, List.mem_cons, List.not_mem_nil, or_false] at hl
  rcases hl with rfl | rfl | rfl <;>
    exact ⟨by decide +kernel, by decide +kernel, by decide +kernel, by unfold NotHuge; decide⟩

theorem RedirectWorks.leadsTo {z : Zim} {x : Redirect} (h : RedirectWorks z x) : leadsTo z x.1 = .ok x.2.1 := by
  obtain ⟨e, i, e', h1, -, h3, h4, -, h6, -⟩ := h
  unfold Creator.leadsTo
  rw [h1]
  simp only [bind, Except.bind]
  rw [h3]
  simp only [h4, h6]
  rfl

theorem loaded_leadsTo (w : Bool) (as : PointerList) (a : Archive) (u : String) :
    leadsTo (Archive.loaded w as a).zim u = leadsTo a.zim u := rfl

/-- **C75, finding.** The claim is false in full: if the target is added again, with a title of another length, the redirect
leads to the entry before the target. -/
theorem C75_full_fails : ¬ C75Full Bytes Unit := by
  intro h
  obtain ⟨a, h1, h2⟩ := h demoSetup toyHash 90 demoH _ _ _ ["text/html"] (by omega) demoSetup_good demoH_hist demoH_apart
    demoH_clean (by decide) demoH_batches .remembering 0 0 (fun _ => .error .hang)
  have h3 := (redirects_work (by omega) demoSetup_good demoH_hist demoH_apart demoH_clean (by decide) demoH_batches).1
    .remembering 0 0 (fun _ => .error .hang)
  rw [h3] at h1
  injection h1 with h1
  subst h1
  have h4 := (h2 ("Cr", "Ca", none) (by simp)).leadsTo
  rw [loaded_leadsTo, demoH_leads] at h4
  exact absurd h4 (by decide)

/-! ### Redirects that are lost -/

/-- **C75, in full.** A successful flush writes the redirects that were added before. -/
def C75Flushed (D K : Type) : Prop := ∀ (S : Setup D K) (md5 : Bytes → Bytes) (r : Nat) (c c' c'' : Creator D)
  (done : List (List Sourced)) (recent : List Sourced) (rs : List Redirect) (x : Redirect), 2 ≤ r →
  S.Good md5 (some r) → CreatorHist S c done recent rs → x.Valid → addFullUrlRedirect S x.1 x.2.1 x.2.2 c = (.ok (), c') →
  flush S c' = (.ok (), c'') → ∃ e, c''.arch.zim.entryByFullUrl x.1 = .ok e

/-- a redirect to an entry that does not exist (yet), … -/
def demoL1 : Creator Bytes := step (addRed ("Cx", "Cmissing", none)) demoG
/-- flushed. -/
def demoL : Creator Bytes := step (flush demoSetup) demoL1

/-- All of this succeeds. -/
theorem demoL_runs : (addRed ("Cx", "Cmissing", none) demoG).1 = .ok () ∧ (flush demoSetup demoL1).1 = .ok () ∧
    (demoL.arch.zim.entryByFullUrl "Cx").isOk = false := by decide +kernel

theorem demoL1_eq : addFullUrlRedirect demoSetup "Cx" "Cmissing" none demoG = (.ok (), demoL1) :=
  step_eq (g := addRed ("Cx", "Cmissing", none)) demoL_runs.1
theorem demoL_eq : flush demoSetup demoL1 = (.ok (), demoL) := step_eq (g := flush demoSetup) demoL_runs.2.1
theorem demoL_missing : (demoL.arch.zim.entryByFullUrl "Cx").isOk = false := demoL_runs.2.2

theorem valid_Cx : Redirect.Valid ("Cx", "Cmissing", none) :=
  ⟨⟨'C', "x", rfl, by decide, by decide +kernel⟩, by decide, (by intro t h; cases h), by decide⟩

/-- **C75, finding.** That is false: if there are no other unsaved changes, a redirect that waits for its target is not
written by `flush`; nor is there an exception, although the target does not exist. -/
theorem C75_flushed_fails : ¬ C75Flushed Bytes Unit := by
  intro h
  obtain ⟨e, he⟩ := h demoSetup toyHash 90 demoG demoL1 demoL _ _ _ ("Cx", "Cmissing", none) (by omega) demoSetup_good
    demoG_hist valid_Cx demoL1_eq demoL_eq
  have := demoL_missing
  rw [he] at this
  cases this

/-- **C75.** If there are unsaved changes after adding a redirect (there are if its target exists or is an item that was
added before), the next successful flush writes it. -/
theorem C75_flushed {x : Redirect} (hr : 2 ≤ r) (hS : S.Good md5 (some r)) (h : CreatorHist S c done recent rs)
    (hx : x.Valid) (hok : addFullUrlRedirect S x.1 x.2.1 x.2.2 c = (.ok (), c')) (hdirty : c'.arch.isDirty = true)
    {c'' : Creator D} (hf : flush S c' = (.ok (), c'')) (hA : Apart (rs ++ [x]) (done ++ [recent])) (hmts : mts.length < 65534)
    (hl : ∀ l ∈ done ++ [recent], Batch mts l) (kind : ClusterKind) (calls follow : Nat)
    (titles : Zim → PyRes PointerList) :
    ∃ a, openArchive { S with kind := kind, calls := calls, follow := follow } titles false c''.arch.zim.file = .ok a ∧
      ∃ e, a.zim.entryByFullUrl x.1 = .ok e ∧ e.isRedirect = true ∧ e.fullUrl = x.1 ∧
        ∀ t, x.2.2 = some t → e.title = if t = "" then e.url else t := by
  obtain ⟨-, a, h1, h2⟩ := C70_after_flush hr hS (.redirect h hx hok hdirty) hA hf hmts hl kind calls follow titles
  exact ⟨a, h1, h2.redirect x (by simp)⟩

/-- **C75.** `add_redirect` adds a redirect between urls in the namespace `C`. -/
theorem C75_add_redirect (source target : String) (title : Option String) :
    (source = target → addRedirect S source target title c = (.error .valueError, c)) ∧
    (source ≠ target → addRedirect S source target title c = addFullUrlRedirect S ("C" ++ source) ("C" ++ target) title c) := by
  unfold addRedirect addFullUrlRedirect Zim.addRedirect
  constructor
  · intro h
    rw [show decide (source ≠ target) = false by simpa using h]
    rfl
  · intro h
    rw [show decide (source ≠ target) = true by simpa using h]
    rfl

end Creator
end Pyzim
