import Verif.Lemmas.ArchiveLeads

/-!
# Histories of entries (C33-C36, C63-C66)

The specification is in `Verif/Spec/ArchiveMap.lean`.
-/

namespace Pyzim
namespace Zim

/-! ## A sample archive, for the examples -/

/-- an archive without entries -/
def blank : Zim where
  file := List.replicate 80 0
  header :=
    { magicNumber := 72173914, majorVersion := 6, minorVersion := 3, uuid := List.replicate 16 0, entryCount := 0
      clusterCount := 0, urlPointerPosition := 0, titlePointerPosition := 0, clusterPointerPosition := 0
      mimeListPosition := 80, mainPageRaw := 0xffffffff, layoutPageRaw := 0xffffffff, checksumPosition := 0 }
  mimetypes := ⟨[], false, true⟩
  urls := ⟨[], false, true⟩
  clusters := ⟨[], false, true⟩
  articles := ⟨[], false, true⟩
  space := SpaceAllocator.new 80

theorem blank_rep : Rep blank [] (fun x => x < 80) where
  store := by
    refine ⟨by simp, by simp, .nil, by simp, by decide, ?_⟩
    have := SpaceAllocator.inv_new 80
    simpa [blank] using this
  sorted := .nil
  urls := rfl
  urlsMutable := rfl
  isOpen := rfl
  isMutable := rfl
  noTitles := rfl
  headerMutable := rfl

theorem blank_ready : Ready blank := ⟨_, _, blank_rep⟩

theorem blank_shows : Shows blank (fun _ => none) := blank_rep.shows_iff.2 (by intro u v; simp)

theorem blank_articles : ReadyWith blank (fun _ => False) :=
  ⟨_, _, blank_rep, ⟨rfl, by simp [blank], by simp [blank], by simp [blank], .nil, by simp, by simp⟩⟩

/-- an entry marked as an article, as it is after `ContentEntry(…)` and `is_article = True` -/
def art (url title : String) : Entry :=
  { mimetypeId := 0, ns := "C", url, titleRaw := some title, kind := .content 0 0
    oldFullUrl := some ("C" ++ url), forceIsArticle := some true }

/-- an entry that is not an article -/
def page (ns url title : String) : Entry :=
  { mimetypeId := 0, ns, url, titleRaw := some title, kind := .content 0 0, oldFullUrl := some (ns ++ url) }

/-- a redirect -/
def red (url : String) (index : Nat) : Entry :=
  { mimetypeId := 0xffff, ns := "C", url, titleRaw := some "", kind := .redirect index, oldFullUrl := some ("C" ++ url) }

theorem art_proper {u t : String} (hu : (0 : UInt8) ∉ encode u) (ht : (0 : UInt8) ∉ encode t) : (art u t).Proper :=
  ⟨hu, ⟨_, rfl, ht⟩, by simp [art], fun _ => rfl⟩

theorem page_proper {n u t : String} (hu : (0 : UInt8) ∉ encode u) (ht : (0 : UInt8) ∉ encode t) : (page n u t).Proper :=
  ⟨hu, ⟨_, rfl, ht⟩, by simp [page], fun h => by cases h⟩

theorem red_proper {u : String} {i : Nat} (hu : (0 : UInt8) ∉ encode u) : (red u i).Proper :=
  ⟨hu, ⟨"", rfl, by decide +kernel⟩, by simp [red], fun h => by cases h⟩

/-- `write_entry(e)` -/
def write (e : Entry) (z : Zim) : Zim := (writeEntry 9 e true true z).2

/-- `remove_entry_by_full_url(u, blob="keep")` -/
def remove (u : String) (z : Zim) : Zim := (removeEntry (fun _ => pure ()) 9 (fun _ => pure ()) u z).2

theorem write_eq {e : Entry} {z : Zim} (h : (writeEntry 9 e true true z).1.toOption.isSome = true) :
    ∃ e', writeEntry 9 e true true z = (.ok e', write e z) := by
  unfold write
  generalize writeEntry 9 e true true z = r at h ⊢
  rcases r with ⟨_ | e', z'⟩
  · cases h
  · exact ⟨e', rfl⟩

theorem remove_eq {u : String} {z : Zim}
    (h : (removeEntry (fun _ => pure ()) 9 (fun _ => pure ()) u z).1.toOption.isSome = true) :
    removeEntry (fun _ => pure ()) 9 (fun _ => pure ()) u z = (.ok (), remove u z) := by
  unfold remove
  generalize removeEntry (fun _ => pure ()) 9 (fun _ => pure ()) u z = r at h ⊢
  rcases r with ⟨_ | _, z'⟩
  · cases h
  · rfl

/-- keeping the blob leaves the entries alone -/
theorem quiet_keep (z : Zim) : Quiet (fun _ => pure ()) z := by
  intro e z1 rows other h hb
  injection hb with _ hb
  subst hb
  exact ⟨other, h, rfl, rfl⟩

/-- two articles and a redirect to the second one -/
def sample : Zim := write (red "r" 1) (write (art "b" "y") (write (art "a" "x") blank))

theorem sample_hist : ∃ m, Hist blank (fun _ => none) sample m ∧ m "Ca" = some (art "a" "x").view ∧
    m "Cr" = some (red "r" 1).view := by
  obtain ⟨_, h1⟩ := write_eq (e := art "a" "x") (z := blank) (by decide +kernel)
  obtain ⟨_, h2⟩ := write_eq (e := art "b" "y") (z := write (art "a" "x") blank) (by decide +kernel)
  obtain ⟨_, h3⟩ := write_eq (e := red "r" 1) (z := write (art "b" "y") (write (art "a" "x") blank)) (by decide +kernel)
  have p1 := art_proper (u := "a") (t := "x") (by decide +kernel) (by decide +kernel)
  have p2 := art_proper (u := "b") (t := "y") (by decide +kernel) (by decide +kernel)
  have p3 := red_proper (u := "r") (i := 1) (by decide +kernel)
  refine ⟨_, .write (.write (.write .start ⟨p1, ?_⟩ h1) ⟨p2, ?_⟩ h2) ⟨p3, ?_⟩ h3, ?_, ?_⟩
  · intro; rfl
  · intro; rfl
  · intro; rfl
  · decide +kernel
  · decide +kernel

/-! ## C33 -/

/-- C33: whatever calls of `write_entry` (of new, changed or renamed entries) and `remove_entry_by_full_url` were
made, the archive shows exactly the catalogue of what was written last under each url and not removed since; and it
is well-formed. Removing an entry also removes the redirects from which it is reached, and nothing else. -/
theorem C33_map {z0 z : Zim} {m0 m : Catalogue} (h0 : Ready z0) (hm : Shows z0 m0) (hist : Hist z0 m0 z m) :
    Ready z ∧ Shows z m := by
  induction hist with
  | start => exact ⟨h0, hm⟩
  | @write z z' m e e' d upd att _ ha hok ih =>
    obtain ⟨⟨rows, other, h⟩, hs⟩ := ih
    obtain ⟨old, rows', f, hold, hw, hrep, -⟩ := h.writeEntry_ok ha.proper (h.accepts ha) hok
    refine ⟨⟨rows', other, hrep⟩, hrep.shows_iff.2 ?_⟩
    rw [hold]
    have hd := distinct_of_sorted h.sorted
    exact (h.shows_iff.1 hs).write (distinct_of_sorted hrep.sorted) (hw.written h.store.clean hd)
  | @remove z z' m u bd blob d _ hq hok ih =>
    obtain ⟨⟨rows, other, h⟩, hs⟩ := ih
    obtain ⟨-, z1, other1, rows', h1, -, -, -, hrep, -, hr, -⟩ := h.removeEntry_ok
      (fun e z1 _ hb => hq e z1 rows other h hb) hok
    exact ⟨⟨rows', other1, hrep⟩, hrep.shows_iff.2 ((h.shows_iff.1 hs).without h hr)⟩

/-- C33: a well-formed archive shows exactly one catalogue. -/
theorem C33_one_catalogue {z : Zim} (h : Ready z) : ∃ m, Shows z m ∧ ∀ m', Shows z m' → m' = m := by
  obtain ⟨rows, other, h⟩ := h
  obtain ⟨m, hm⟩ := exists_lists (distinct_of_sorted h.sorted)
  refine ⟨m, h.shows_iff.2 hm, fun m' hm' => funext fun u => Option.ext fun v => ?_⟩
  rw [h.shows_iff.1 hm' u v, hm u v]

theorem sample_ready : Ready sample := by
  obtain ⟨m, hm, -⟩ := sample_hist
  exact (C33_map blank_ready blank_shows hm).1

/-- Removing the entry "Cb" removes the redirect as well: after that, only "Ca" is left. -/
example : ∃ m, Hist blank (fun _ => none) (remove "Cb" sample) m ∧ Shows (remove "Cb" sample) m ∧
    (remove "Cb" sample).urls.len = 1 := by
  obtain ⟨m, hm, -⟩ := sample_hist
  have h := remove_eq (u := "Cb") (z := sample) (by decide +kernel)
  have hist := Hist.remove hm (quiet_keep _) h
  exact ⟨_, hist, (C33_map blank_ready blank_shows hist).2, by decide +kernel⟩

/-- Outside of C33: an entry that is renamed to the url of another one does not replace it; there are two entries with
the same url then. -/
theorem C33_rename_onto_existing :
    (writeEntry 9 { art "a" "y" with oldFullUrl := some "Cb" } true true sample).1.toOption.isSome = true ∧
    (write { art "a" "y" with oldFullUrl := some "Cb" } sample).iterEntries.toOption.map (List.map Entry.fullUrl) =
      some ["Ca", "Ca", "Cr"] := by
  decide +kernel

/-! ## C34: redirects -/

/-- the entry to which a redirect leads, computed -/
def leadsTo (z : Zim) (s : String) : Option String :=
  match z.entryByFullUrl s with
  | .ok e => match e.kind with
    | .redirect i => match z.entryByIndex i with
      | .ok e' => some e'.fullUrl
      | .error _ => none
    | .content _ _ => none
  | .error _ => none

theorem leadsTo_of_leads {z : Zim} {s t : String} (h : Leads z s t) : z.leadsTo s = some t := by
  obtain ⟨e, i, e', he, -, hk, hi, rfl⟩ := h
  unfold leadsTo
  simp only [he, hk, hi]

/-- C34, adding: writing an entry under a new url does not change where any redirect leads. -/
theorem C34_add_partial {z z' : Zim} {e e' : Entry} {d : Nat} {upd att : Bool} {s t : String} (h : Ready z) (hp : e.Proper)
    (hnew : z.hasEntry e.fullUrl = .ok false) (hold : e.oldFullUrl = some e.fullUrl)
    (hok : writeEntry d e upd att z = (.ok e', z')) (hl : Leads z s t) : Leads z' s t := by
  obtain ⟨rows, other, h⟩ := h
  have hno : ¬ HasUrl rows e.fullUrl := by
    obtain ⟨b, hb, hbu⟩ := h.hasEntry e.fullUrl
    rw [hnew] at hb
    injection hb with hb
    rw [← hbu, ← hb]
    simp
  obtain ⟨old, rows', f, hold', hw, hrep, -⟩ := h.writeEntry_ok hp (fun hh => absurd hh hno) hok
  rw [hold] at hold'
  injection hold' with hold'
  rw [h.leads_iff] at hl
  refine hrep.leads_iff.2 (hw.leads h.store.clean (distinct_of_sorted h.sorted) hl ?_ ?_)
  · obtain ⟨r, hr, hru, -⟩ := hl
    rintro rfl
    exact hno ⟨r, hr, by rw [hru, hold']⟩
  · obtain ⟨r, hr, hru, i, q, -, hq, hqu⟩ := hl
    rintro rfl
    exact hno ⟨q, List.mem_of_getElem? hq, by rw [hqu, hold']⟩

/-- adding "Ca" before "Cb" does not change where "Cr" leads to -/
example : sample.hasEntry (art "aa" "z").fullUrl = .ok false ∧
    (writeEntry 9 (art "aa" "z") true true sample).1.toOption.isSome = true ∧
    sample.leadsTo "Cr" = some "Cb" ∧ (write (art "aa" "z") sample).leadsTo "Cr" = some "Cb" := by
  decide +kernel

/-- C34, rewriting and renaming: redirects which lead neither from nor to the written entry are kept. -/
theorem C34_write_other_partial {z z' : Zim} {e e' : Entry} {d : Nat} {upd att : Bool} {s t : String} (h : Ready z)
    (ha : Accepts z e) (hok : writeEntry d e upd att z = (.ok e', z')) (hl : Leads z s t)
    (hs : some s ≠ e.oldFullUrl) (ht : some t ≠ e.oldFullUrl) : Leads z' s t := by
  obtain ⟨rows, other, h⟩ := h
  obtain ⟨old, rows', f, hold, hw, hrep, -⟩ := h.writeEntry_ok ha.proper (h.accepts ha) hok
  rw [hold] at hs ht
  exact hrep.leads_iff.2 (hw.leads h.store.clean (distinct_of_sorted h.sorted) (h.leads_iff.1 hl)
    (fun hh => hs (by rw [hh])) (fun hh => ht (by rw [hh])))

/-- rewriting "Ca" with a longer title does not change where "Cr" leads to -/
example : (writeEntry 9 (art "a" "longer") true true sample).1.toOption.isSome = true ∧
    (write (art "a" "longer") sample).leadsTo "Cr" = some "Cb" := by
  decide +kernel

/-- C34, rewriting: if the size of the written entry stays the same, all redirects but itself are kept. -/
theorem C34_write_same_size_partial {z z' : Zim} {e e0 e' : Entry} {d : Nat} {upd att : Bool} {s t : String} (h : Ready z)
    (hp : e.Proper) (hold : e.oldFullUrl = some e.fullUrl) (h0 : z.entryByFullUrl e.fullUrl = .ok e0)
    (hsize : e0.getDiskSize = e.getDiskSize) (hok : writeEntry d e upd att z = (.ok e', z')) (hl : Leads z s t)
    (hs : s ≠ e.fullUrl) : Leads z' s t := by
  obtain ⟨rows, other, h⟩ := h
  obtain ⟨old, rows', f, hold', hw, hrep, -⟩ := h.writeEntry_ok hp (fun _ => hold) hok
  rw [hold] at hold'
  injection hold' with hold'
  have hrow : ∃ r0 ∈ rows, r0.2.fullUrl = e.fullUrl ∧ r0.2 = e0 := by
    by_cases hh : HasUrl rows e.fullUrl
    · obtain ⟨r, hr, hru⟩ := hh
      rw [← hru, h.entryByFullUrl hr] at h0
      injection h0 with h0
      exact ⟨r, hr, hru, h0⟩
    · rw [h.entryByFullUrl_missing fun r hr he => hh ⟨r, hr, he⟩] at h0
      cases h0
  obtain ⟨r0, hr0, hr0u, rfl⟩ := hrow
  exact hrep.leads_iff.2 (hw.leads_same (distinct_of_sorted h.sorted) hr0 hr0u hsize hold'.symm (h.leads_iff.1 hl) hs)

/-- rewriting "Cb" with another title of the same length does not change where "Cr" leads to -/
example : (writeEntry 9 (art "b" "z") true true sample).1.toOption.isSome = true ∧
    (sample.entryByFullUrl "Cb").toOption.map Entry.getDiskSize = some (art "b" "z").getDiskSize ∧
    (write (art "b" "z") sample).leadsTo "Cr" = some "Cb" := by
  decide +kernel

/-- C34, renaming: if the index of the renamed entry changes, the redirects to it lead to its new url. -/
theorem C34_rename_partial {z z' : Zim} {e e' : Entry} {d : Nat} {att : Bool} {s old : String} {i j : Nat} (h : Ready z)
    (ha : Accepts z e) (hold : e.oldFullUrl = some old) (hne : e.fullUrl ≠ old)
    (hok : writeEntry d e true att z = (.ok e', z')) (hl : Leads z s old) (hs : s ≠ old)
    (hi : z.urlIndex old = .ok i) (hj : z'.urlIndex e.fullUrl = .ok j) (hij : i ≠ j) : Leads z' s e.fullUrl := by
  obtain ⟨rows, other, h⟩ := h
  obtain ⟨old', rows', f, hold', hw, hrep, -⟩ := h.writeEntry_ok ha.proper (h.accepts ha) hok
  rw [hold] at hold'
  injection hold' with hold'
  subst hold'
  have hrow : ∀ {z : Zim} {rows : List Row} {other : Nat → Prop} {u : String} {i : Nat}, Rep z rows other →
      z.urlIndex u = .ok i → ∃ r, rows[i]? = some r ∧ r.2.fullUrl = u := by
    intro z rows other u i h hi
    rcases h.urlIndex_cases u with ⟨i', r, hir, hru, hui⟩ | ⟨-, hui⟩
    · rw [hui] at hi; injection hi with hi; subst hi; exact ⟨r, hir, hru⟩
    · rw [hui] at hi; cases hi
  obtain ⟨r0, hr0, hr0u⟩ := hrow h hi
  obtain ⟨r1, hr1, hr1u⟩ := hrow hrep hj
  exact hrep.leads_iff.2 (hw.leads_renamed h.store.clean (distinct_of_sorted h.sorted) (distinct_of_sorted hrep.sorted)
    rfl hne hr0 hr0u hr1 hr1u hij (h.leads_iff.1 hl) hs)

/-- renaming "Cb" to "Ct": now "Cr" leads to "Ct" -/
example : (writeEntry 9 { art "t" "y" with oldFullUrl := some "Cb" } true true sample).1.toOption.isSome = true ∧
    sample.urlIndex "Cb" = .ok 1 ∧
    (write { art "t" "y" with oldFullUrl := some "Cb" } sample).urlIndex "Ct" = .ok 2 ∧
    (write { art "t" "y" with oldFullUrl := some "Cb" } sample).leadsTo "Cr" = some "Ct" := by
  decide +kernel

/-- C34, the entry itself: a new redirect, or one rewritten with the same size, leads to the entry that had the given
index before the call. -/
theorem C34_self_partial {z z' : Zim} {e e' q : Entry} {d : Nat} {upd att : Bool} {i : Nat} (h : Ready z)
    (hp : e.Proper) (hold : e.oldFullUrl = some e.fullUrl) (hkind : e.kind = .redirect i)
    (hq : z.entryByIndex i = .ok q)
    (hcase : z.hasEntry e.fullUrl = .ok false ∨
      ∃ e0, z.entryByFullUrl e.fullUrl = .ok e0 ∧ e0.getDiskSize = e.getDiskSize)
    (hok : writeEntry d e upd att z = (.ok e', z')) : Leads z' e.fullUrl q.fullUrl := by
  obtain ⟨rows, other, h⟩ := h
  obtain ⟨old, rows', f, hold', hw, hrep, -⟩ := h.writeEntry_ok hp (fun _ => hold) hok
  rw [hold] at hold'
  injection hold' with hold'
  have hil : i < rows.length := by
    by_contra hh
    rw [h.entryByIndex_out (by omega)] at hq
    cases hq
  have hrow := List.getElem?_eq_getElem hil
  rw [h.entryByIndex hrow] at hq
  injection hq with hq
  rw [← hq]
  refine hrep.leads_iff.2 (hw.leads_self (distinct_of_sorted h.sorted) ?_ hkind hrow)
  rcases hcase with hc | ⟨e0, he0, hs⟩
  · left
    rw [← hold']
    obtain ⟨b, hb, hbu⟩ := h.hasEntry e.fullUrl
    rw [hc] at hb
    injection hb with hb
    rw [← hbu, ← hb]
    simp
  · right
    by_cases hh : HasUrl rows e.fullUrl
    · obtain ⟨r, hr, hru⟩ := hh
      rw [← hru, h.entryByFullUrl hr] at he0
      injection he0 with he0
      exact ⟨r, hr, hru, by rw [he0]; exact hs⟩
    · rw [h.entryByFullUrl_missing fun r hr he => hh ⟨r, hr, he⟩] at he0
      cases he0

/-- a new redirect "Caa" to the entry with index 1, which is "Cb": after that "Cb" has the index 2 -/
example : (sample.entryByIndex 1).toOption.map Entry.fullUrl = some "Cb" ∧
    (writeEntry 9 (red "aa" 1) true true sample).1.toOption.isSome = true ∧
    (write (red "aa" 1) sample).leadsTo "Caa" = some "Cb" := by
  decide +kernel

/-- C34, removing: redirects are kept, unless the removed entry is reached from them (in which case they are removed
as well). -/
theorem C34_remove_partial {z z' : Zim} {u s t : String} {bd blob : Entry → PyM Zim Unit} {d : Nat} (h : Ready z)
    (hq : Quiet blob z) (hok : removeEntry bd d blob u z = (.ok (), z')) (hl : Leads z s t) :
    if z'.hasEntry s = .ok true then Leads z' s t else Reaches z u s := by
  obtain ⟨rows, other, h⟩ := h
  obtain ⟨-, z1, other1, rows', h1, -, -, -, hrep, -, hr, -⟩ := h.removeEntry_ok
    (fun e z1 _ hb => hq e z1 rows other h hb) hok
  have hc := hr.cut (Reaches z u) .refl (reaches_closed h u)
  rw [h.leads_iff] at hl
  obtain ⟨b, hb, hbu⟩ := hrep.hasEntry s
  rw [hb]
  by_cases hh : HasUrl rows' s
  · rw [hbu.2 hh, if_pos rfl]
    exact hrep.leads_iff.2 (hc.leads _ _ hh (hr.chain _ _ hh hl) hl)
  · rw [if_neg (by intro hbt; injection hbt with hbt; exact hh (hbu.1 hbt))]
    by_contra hn
    obtain ⟨r, hr', hru, -⟩ := hl
    exact hh ((hr.hasUrl_iff h s).2 ⟨⟨r, hr', hru⟩, hn⟩)

/-- removing "Ca": "Cr" still leads to "Cb"; removing "Cb": "Cr" is removed as well -/
example : (removeEntry (fun _ => pure ()) 9 (fun _ => pure ()) "Ca" sample).1 = .ok () ∧
    (remove "Ca" sample).leadsTo "Cr" = some "Cb" ∧ (remove "Cb" sample).hasEntry "Cr" = .ok false := by
  decide +kernel

/-- the full claim of C34 for rewriting an entry -/
def C34Rewrite : Prop := ∀ (z z' : Zim) (e e' : Entry) (d : Nat) (s t : String), Ready z → e.Proper →
  e.oldFullUrl = some e.fullUrl → z.hasEntry e.fullUrl = .ok true → writeEntry d e true true z = (.ok e', z') →
  Leads z s t → s ≠ e.fullUrl → Leads z' s t

theorem toOk {α : Type} {x : PyRes α} {a : α} (h : x.toOption = some a) : x = .ok a := by
  cases x with
  | error _ => cases h
  | ok b => cases h; rfl

/-- C34 is false: if the size of an entry changes when it is rewritten, the redirects to it lead to the entry before. -/
theorem C34_rewrite_false : ¬ C34Rewrite := by
  intro hall
  obtain ⟨e', hok⟩ := write_eq (e := art "b" "longer") (z := sample) (by decide +kernel)
  have hl : Leads sample "Cr" "Cb" := by
    have h1 : (sample.entryByFullUrl "Cr").toOption = some (red "r" 1).fresh := by decide +kernel
    have h2 : (sample.entryByIndex 1).toOption = some (art "b" "y").fresh := by decide +kernel
    exact ⟨_, 1, _, toOk h1, by decide +kernel, rfl, toOk h2, by decide +kernel⟩
  have := hall sample _ (art "b" "longer") e' 9 "Cr" "Cb" sample_ready
    (art_proper (by decide +kernel) (by decide +kernel)) rfl (by decide +kernel) hok hl (by decide)
  have h3 := leadsTo_of_leads this
  have h4 : (write (art "b" "longer") sample).leadsTo "Cr" = some "Ca" := by decide +kernel
  rw [h4] at h3
  injection h3 with h3
  revert h3
  decide

/-! ## C35: the main page -/

/-- C35, writing: the main page is kept if it is another entry, unless the written entry comes to lie immediately
before it. (An archive has less than `2 ^ 32 - 1` entries.) -/
theorem C35_write_partial {z z' : Zim} {e e' : Entry} {d : Nat} {upd att : Bool} {w : String} {i j : Nat} (h : Ready z)
    (ha : Accepts z e) (hlen : z.urls.len < 2 ^ 32 - 1) (hok : writeEntry d e upd att z = (.ok e', z'))
    (hm : MainPage z w) (hw : some w ≠ e.oldFullUrl) (hi : z'.urlIndex e.fullUrl = .ok i) (hj : z'.urlIndex w = .ok j)
    (hij : j ≠ i + 1) : MainPage z' w := by
  obtain ⟨rows, other, h⟩ := h
  obtain ⟨old, rows', f, hold, hwr, hrep, -, hh, -⟩ := h.writeEntry_ok ha.proper (h.accepts ha) hok
  rw [hold] at hw
  rw [h.len] at hlen
  refine hrep.mainPage_iff.2 (hwr.main (by omega) hh (h.mainPage_iff.1 hm) (fun hh => hw (by rw [hh])) ?_)
  intro i' r s hr hru hs hsw
  have h1 := hrep.urlIndex hr
  rw [hru, hi] at h1
  injection h1 with h1
  have h2 := hrep.urlIndex hs
  rw [hsw, hj] at h2
  injection h2 with h2
  omega

/-- set the main page -/
def withMain (z : Zim) (m : Nat) : Zim := { z with header := { z.header with mainPageRaw := m } }

theorem Ready.withMain {z : Zim} (h : Ready z) (m : Nat) : Ready (z.withMain m) := by
  obtain ⟨rows, other, h⟩ := h
  exact ⟨rows, other, h.store, h.sorted, h.urls, h.urlsMutable, h.isOpen, h.isMutable, h.noTitles, h.headerMutable⟩

/-- the sample, with the main page "Cb" -/
def sampleMain : Zim := sample.withMain 1

theorem sampleMain_ready : Ready sampleMain := sample_ready.withMain 1

/-- Adding "A0" moves the main page from index 1 to 2. -/
example : (writeEntry 9 (page "A" "0" "x") true true sampleMain).1.toOption.isSome = true ∧
    sampleMain.mainpageEntry.toOption.map Entry.fullUrl = some "Cb" ∧
    (write (page "A" "0" "x") sampleMain).urlIndex "A0" = .ok 0 ∧
    (write (page "A" "0" "x") sampleMain).urlIndex "Cb" = .ok 2 ∧
    (write (page "A" "0" "x") sampleMain).mainpageEntry.toOption.map Entry.fullUrl = some "Cb" := by
  decide +kernel

/-- C35, rewriting: the main page is kept if the size of the written entry stays the same. -/
theorem C35_write_same_size_partial {z z' : Zim} {e e0 e' : Entry} {d : Nat} {upd att : Bool} {w : String} (h : Ready z)
    (hp : e.Proper) (hold : e.oldFullUrl = some e.fullUrl) (h0 : z.entryByFullUrl e.fullUrl = .ok e0)
    (hsize : e0.getDiskSize = e.getDiskSize) (hok : writeEntry d e upd att z = (.ok e', z')) (hm : MainPage z w) :
    MainPage z' w := by
  obtain ⟨rows, other, h⟩ := h
  obtain ⟨old, rows', f, hold', hw, hrep, -, hh, -⟩ := h.writeEntry_ok hp (fun _ => hold) hok
  have hrow : ∃ r0 ∈ rows, r0.2.fullUrl = e.fullUrl ∧ r0.2 = e0 := by
    by_cases hh : HasUrl rows e.fullUrl
    · obtain ⟨r, hr, hru⟩ := hh
      rw [← hru, h.entryByFullUrl hr] at h0
      injection h0 with h0
      exact ⟨r, hr, hru, h0⟩
    · rw [h.entryByFullUrl_missing fun r hr he => hh ⟨r, hr, he⟩] at h0
      cases h0
  obtain ⟨r0, hr0, hr0u, rfl⟩ := hrow
  exact hrep.mainPage_iff.2 (hw.main_same (distinct_of_sorted h.sorted) hr0 hr0u hsize hh (h.mainPage_iff.1 hm))

/-- rewriting the main page itself with another title of the same length -/
example : (writeEntry 9 (art "b" "z") true true sampleMain).1.toOption.isSome = true ∧
    (sampleMain.entryByFullUrl "Cb").toOption.map Entry.getDiskSize = some (art "b" "z").getDiskSize ∧
    (write (art "b" "z") sampleMain).mainpageEntry.toOption.map Entry.fullUrl = some "Cb" := by
  decide +kernel

/-- C35, removing: the main page is kept, or unset if it is removed. -/
theorem C35_remove_partial {z z' : Zim} {u w : String} {bd blob : Entry → PyM Zim Unit} {d : Nat} (h : Ready z)
    (hq : Quiet blob z) (hlen : z.urls.len < 2 ^ 32) (hok : removeEntry bd d blob u z = (.ok (), z'))
    (hm : MainPage z w) :
    if z'.hasEntry w = .ok true then MainPage z' w else z'.mainpageEntry = .error .entryNotFound := by
  obtain ⟨rows, other, h⟩ := h
  obtain ⟨-, z1, other1, rows', h1, -, hmp, -, hrep, -, -, -, -, hmc⟩ := h.removeEntry_ok
    (fun e z1 _ hb => hq e z1 rows other h hb) hok
  rw [h.len] at hlen
  have hmc := hmc hlen
  have hm1 : MainIs z1.header rows w := by
    obtain ⟨m, r, h1, h2⟩ := h.mainPage_iff.1 hm
    exact ⟨m, r, by rw [hmp]; exact h1, h2⟩
  obtain ⟨b, hb, hbu⟩ := hrep.hasEntry w
  rw [hb]
  by_cases hh : HasUrl rows' w
  · rw [hbu.2 hh, if_pos rfl]
    exact hrep.mainPage_iff.2 (hmc.kept w hm1 hh)
  · rw [if_neg (by intro hbt; injection hbt with hbt; exact hh (hbu.1 hbt))]
    unfold mainpageEntry
    rw [hmc.gone w hm1 hh]

example : (remove "Ca" sampleMain).mainpageEntry.toOption.map Entry.fullUrl = some "Cb" ∧
    (remove "Cb" sampleMain).header.mainPage = none ∧ (remove "Cb" sampleMain).hasEntry "Cb" = .ok false := by
  decide +kernel

/-- the full claim of C35 for adding an entry -/
def C35Add : Prop := ∀ (z z' : Zim) (e e' : Entry) (d : Nat) (w : String), Ready z → e.Proper →
  e.oldFullUrl = some e.fullUrl → z.hasEntry e.fullUrl = .ok false → writeEntry d e true true z = (.ok e', z') →
  MainPage z w → MainPage z' w

/-- the full claim of C35 for rewriting an entry -/
def C35Rewrite : Prop := ∀ (z z' : Zim) (e e' : Entry) (d : Nat) (w : String), Ready z → e.Proper →
  e.oldFullUrl = some e.fullUrl → z.hasEntry e.fullUrl = .ok true → writeEntry d e true true z = (.ok e', z') →
  MainPage z w → MainPage z' w

theorem mainPage_of_computed {z : Zim} {w : String} (h : z.mainpageEntry.toOption.map Entry.fullUrl = some w) :
    MainPage z w := by
  unfold MainPage
  cases hx : z.mainpageEntry with
  | error _ => rw [hx] at h; cases h
  | ok e => rw [hx] at h; injection h with h; exact ⟨e, rfl, h⟩

theorem mainPage_unique {z : Zim} {w w' : String} (h : MainPage z w) (h' : MainPage z w') : w = w' := by
  obtain ⟨e, he, rfl⟩ := h
  obtain ⟨e', he', rfl⟩ := h'
  rw [he] at he'
  injection he' with he'
  rw [he']

/-- C35 is false: an entry that is inserted immediately before the main page becomes the main page. -/
theorem C35_add_false : ¬ C35Add := by
  intro hall
  obtain ⟨e', hok⟩ := write_eq (e := art "aa" "z") (z := sampleMain) (by decide +kernel)
  have := hall sampleMain _ (art "aa" "z") e' 9 "Cb" sampleMain_ready
    (art_proper (by decide +kernel) (by decide +kernel)) rfl (by decide +kernel) hok
    (mainPage_of_computed (by decide +kernel))
  have h2 : MainPage (write (art "aa" "z") sampleMain) "Caa" := mainPage_of_computed (by decide +kernel)
  exact absurd (mainPage_unique this h2) (by decide)

/-- C35 is false: the entry before the main page becomes the main page if it is rewritten with another size. -/
theorem C35_rewrite_false : ¬ C35Rewrite := by
  intro hall
  obtain ⟨e', hok⟩ := write_eq (e := art "a" "longer") (z := sampleMain) (by decide +kernel)
  have := hall sampleMain _ (art "a" "longer") e' 9 "Cb" sampleMain_ready
    (art_proper (by decide +kernel) (by decide +kernel)) rfl (by decide +kernel) hok
    (mainPage_of_computed (by decide +kernel))
  have h2 : MainPage (write (art "a" "longer") sampleMain) "Ca" := mainPage_of_computed (by decide +kernel)
  exact absurd (mainPage_unique this h2) (by decide)

/-! ## C36: the articles -/

/-- only articles are removed: `u`, and the redirects from which it is reached -/
def OnlyArticles (z : Zim) (S : String → Prop) (u : String) : Prop :=
  ∀ w, Reaches z u w → z.hasEntry w = .ok true → S w

/-- C36: in all histories in which only articles are removed, the article title list lists exactly the articles. -/
theorem C36_articles_partial {z0 z : Zim} {S0 S : String → Prop} (h0 : ReadyWith z0 S0)
    (hist : ArticleHist OnlyArticles z0 S0 z S) : ReadyWith z S ∧ Articles z S := by
  suffices hsuff : ReadyWith z S by
    obtain ⟨rows, other, h, hA⟩ := hsuff
    exact ⟨⟨rows, other, h, hA⟩, h.articles hA⟩
  induction hist with
  | start => exact h0
  | @write z z' S e e' d upd att _ ha hok ih =>
    obtain ⟨rows, other, h, hA⟩ := ih
    obtain ⟨old, rows', f, hold, hw, hrep, -, -, -, -, hart⟩ := h.writeEntry_ok ha.proper (h.accepts ha) hok
    refine ⟨rows', other, hrep, (hart S hA).congr fun u => ?_⟩
    unfold articlesAfter
    rw [hold]
    simp only [ne_eq, Option.some.injEq]
    exact Iff.rfl
  | @remove z z' S u bd blob d _ hal hq hok ih =>
    obtain ⟨rows, other, h, hA⟩ := ih
    obtain ⟨hu, z1, other1, rows', h1, hart1, -, -, hrep, -, hr, hac, -⟩ := h.removeEntry_ok
      (fun e z1 _ hb => hq e z1 rows other h hb) hok
    refine ⟨rows', other1, hrep, (hac S (Reaches z u) ?_ (reaches_closed h u) ?_ ?_).congr fun w => ?_⟩
    · rintro w rfl; exact .refl
    · intro r hr' hreach
      refine hal _ hreach ?_
      obtain ⟨b, hb, hbu⟩ := h.hasEntry r.2.fullUrl
      rw [hb, hbu.2 ⟨r, hr', rfl⟩]
    · rw [hart1]; exact hA
    · rw [hr.hasUrl_iff h]
      constructor
      · rintro ⟨hs, -, hn⟩; exact ⟨hs, hn⟩
      · rintro ⟨hs, hn⟩
        obtain ⟨r, hr', hru⟩ := hA.dom w hs
        exact ⟨hs, ⟨r, hr', hru⟩, hn⟩

/-- The articles of the sample are "Ca" and "Cb"; iterating yields both, sorted by title. -/
example : ∃ S, ArticleHist OnlyArticles blank (fun _ => False) (write (art "b" "a") (write (art "a" "x") blank)) S ∧
    S "Ca" ∧ S "Cb" ∧ ¬ S "Cr" ∧
    ((write (art "b" "a") (write (art "a" "x") blank)).iterArticles).toOption.map (List.map Entry.fullUrl) =
      some ["Cb", "Ca"] := by
  obtain ⟨_, h1⟩ := write_eq (e := art "a" "x") (z := blank) (by decide +kernel)
  obtain ⟨_, h2⟩ := write_eq (e := art "b" "a") (z := write (art "a" "x") blank) (by decide +kernel)
  have p1 := art_proper (u := "a") (t := "x") (by decide +kernel) (by decide +kernel)
  have p2 := art_proper (u := "b") (t := "a") (by decide +kernel) (by decide +kernel)
  refine ⟨_, .write (.write .start ⟨p1, fun _ => rfl⟩ h1) ⟨p2, fun _ => rfl⟩ h2, ?_, ?_, ?_, by decide +kernel⟩
  · exact Or.inl ⟨Or.inr ⟨rfl, rfl, rfl⟩, by decide, by decide⟩
  · exact Or.inr ⟨rfl, rfl, rfl⟩
  · rintro (⟨⟨⟨⟩, -⟩ | ⟨h, -⟩, -⟩ | ⟨h, -⟩)
    · exact absurd h (by decide)
    · exact absurd h (by decide)

/-- the full claim of C36 -/
def C36Full : Prop := ∀ (z0 z : Zim) (S0 S : String → Prop), ReadyWith z0 S0 →
  ArticleHist (fun _ _ _ => True) z0 S0 z S → Articles z S

/-- a page that is not an article, and behind it an article -/
def sampleArt : Zim := write (art "b" "y") (write (page "A" "0" "x") blank)

/-- C36 is false: removing an entry that is not an article leaves the article title list as it is although the
indexes of the entries change. -/
theorem C36_false : ¬ C36Full := by
  intro hall
  obtain ⟨_, h1⟩ := write_eq (e := page "A" "0" "x") (z := blank) (by decide +kernel)
  obtain ⟨_, h2⟩ := write_eq (e := art "b" "y") (z := write (page "A" "0" "x") blank) (by decide +kernel)
  have h3 := remove_eq (u := "A0") (z := sampleArt) (by decide +kernel)
  have p1 := page_proper (n := "A") (u := "0") (t := "x") (by decide +kernel) (by decide +kernel)
  have p2 := art_proper (u := "b") (t := "y") (by decide +kernel) (by decide +kernel)
  have hist := ArticleHist.remove (allowed := fun _ _ _ => True)
    (.write (.write (.start (z0 := blank) (S0 := fun _ => False)) ⟨p1, fun _ => rfl⟩ h1) ⟨p2, fun _ => rfl⟩ h2) trivial
    (quiet_keep _) h3
  obtain ⟨es, hes, -⟩ := (hall _ _ _ _ blank_articles hist).iter
  have h4 : (remove "A0" sampleArt).iterArticles.toOption = none := by decide +kernel
  rw [hes] at h4
  cases h4

end Zim
end Pyzim
