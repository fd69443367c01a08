import Verif.Props.Archive

/-!
# When calls on entries succeed (C63, C64)
-/

namespace Pyzim
namespace Zim

variable {z : Zim} {rows : List Row} {other : Nat → Prop} {S : String → Prop} {L : Nat}

theorem getDiskSize_pos (e : Entry) : 0 < e.getDiskSize := by simp only [Entry.getDiskSize]; omega

theorem Store.offset_ge {file : Bytes} {space : SpaceAllocator} (h : Store file space rows other)
    (hL : ∀ x, x < L → other x) {r : Row} (hr : r ∈ rows) : L ≤ r.1 := by
  by_contra hlt
  exact h.apart r hr r.1 ⟨Nat.le_refl _, by have := getDiskSize_pos r.2; omega⟩ (hL _ (by omega))

theorem rep_hasEntry_false (h : Rep z rows other) {u : String} (hn : z.hasEntry u = .ok false) : ¬ HasUrl rows u := by
  obtain ⟨b, hb, hbu⟩ := h.hasEntry u
  rw [hn] at hb
  injection hb with hb
  rw [← hbu, ← hb]
  simp

/-- C63: adding a new entry which can be stored succeeds, and leaves the archive well-formed. -/
theorem C63_add_succeeds {e : Entry} (h : Roomy z S L) (hp : e.Proper) (hm : e.mutable = true)
    (hold : e.oldFullUrl = some e.fullUrl) (hnew : z.hasEntry e.fullUrl = .ok false) (hb : ∃ b, e.toBytes = .ok b)
    (hred : ∀ i, e.kind = .redirect i → i < z.urls.len) (d : Nat) (upd att : Bool) :
    ∃ e' z', writeEntry (d + 2) e upd att z = (.ok e', z') ∧
      (z.urls.len + 1 < L → Roomy z' (articlesAfter S e att) L) := by
  obtain ⟨rows, other, h, hA, hother, hlen, hL, hrange⟩ := h
  rw [h.len] at hred
  have hno : ∀ r ∈ rows, r.2.fullUrl ≠ e.fullUrl := fun r hr he => rep_hasEntry_false h hnew ⟨r, hr, he⟩
  obtain ⟨r, z', n, hn, hw, hpost, htot⟩ := h.writeEntry_new hold hno hno hp d upd att
  obtain ⟨e', rfl⟩ := htot S hA (h.isArticle_ok hold) hm hb (fun i hi => by have := hred i hi; omega)
    (fun s v hs ⟨i, hi, _, hni, hv⟩ => by
      have h1 := hrange s hs i hi
      have h2 := h.store.offset_ge hother hs
      refine ⟨?_, ?_, ?_⟩ <;> omega)
    (fun i hi => by
      unfold insEntry at hi
      split at hi
      · rename_i j hj
        have := hred j hj
        split at hi
        · injection hi with hi; omega
        · rw [hj] at hi; injection hi with hi; omega
      · rename_i hj; rw [hj] at hi; cases hi)
  refine ⟨e', z', hw, fun hlt => ?_⟩
  rw [h.len] at hlt
  obtain ⟨-, -, h1, h2, off, -, -, hrep, hart⟩ := hpost e' rfl
  have hl : (inserted rows n off e).length = rows.length + 1 := inserted_length hn.le
  have hSe : S e.fullUrl → False := fun hs => by
    obtain ⟨r, hr, hru⟩ := hA.dom _ hs
    exact hno r hr hru
  refine ⟨inserted rows n off e, other, hrep, (hart S hA).congr fun u => ?_, hother, by omega, hL, ?_⟩
  · unfold articlesAfter
    rw [hold]
    simp only [ne_eq, Option.some.injEq, and_self]
    constructor
    · rintro (hs | hs)
      · exact Or.inl ⟨hs, fun hu => hSe (hu ▸ hs)⟩
      · exact Or.inr hs
    · rintro (hs | hs)
      · exact Or.inl hs.1
      · exact Or.inr hs
  · intro r hr i hi
    rw [hl]
    rcases (mem_inserted hn.le).1 hr with rfl | ⟨s, hs, rfl⟩
    · exact h1 i hi
    · unfold shRow sh at hi
      cases hk : s.2.kind with
      | content c b => simp only [hk] at hi; cases hi
      | redirect j =>
        have := hrange s hs j hk
        simp only [hk] at hi
        split at hi
        · injection hi with hi; omega
        · rw [hk] at hi; injection hi with hi; omega

/-- C63: rewriting an entry with the same size succeeds, and leaves the archive well-formed. -/
theorem C63_rewrite_succeeds {e e0 : Entry} (h : Roomy z S L) (hp : e.Proper)
    (hold : e.oldFullUrl = some e.fullUrl) (h0 : z.entryByFullUrl e.fullUrl = .ok e0)
    (hsize : e.getDiskSize = e0.getDiskSize) (hb : ∃ b, e.toBytes = .ok b)
    (hred : ∀ i, e.kind = .redirect i → i < z.urls.len) (d : Nat) (upd att : Bool) :
    ∃ e' z', writeEntry (d + 1) e upd att z = (.ok e', z') ∧ Roomy z' (articlesAfter S e att) L := by
  obtain ⟨rows, other, h, hA, hother, hlen, hL, hrange⟩ := h
  rw [h.len] at hred
  have hh : HasUrl rows e.fullUrl := by
    by_contra hh
    rw [h.entryByFullUrl_missing fun r hr he => hh ⟨r, hr, he⟩] at h0
    cases h0
  obtain ⟨⟨o, e1⟩, hr, hru⟩ := hh
  simp only at hru
  have h0' := h.entryByFullUrl hr
  simp only at h0'
  rw [hru, h0] at h0'
  injection h0' with h0'
  subst h0'
  obtain ⟨j, hj⟩ := List.getElem?_of_mem hr
  obtain ⟨r, z', hw, -, htot⟩ := h.writeEntry_inplace hj hold hru.symm hsize hp d upd att
  obtain ⟨e', rfl⟩ := htot S hA hb hred
  refine ⟨e', z', hw, ?_⟩
  obtain ⟨old, rows', f, hold', hwr, hrep, -, -, -, -, hart⟩ := h.writeEntry_ok hp (fun _ => hold) hw
  rw [hold] at hold'
  injection hold' with hold'
  subst hold'
  have hrows : rows'.length = rows.length ∧ ∀ r ∈ rows', ∀ i, r.2.kind = .redirect i → i < rows.length := by
    cases hwr with
    | new n off hno hnu hn hi hr' => exact absurd hru (hnu _ hr)
    | same k o' e0' hk ho hu hsz hi =>
      refine ⟨by simp, fun r hr i hri => ?_⟩
      rcases List.mem_or_eq_of_mem_set hr with hr | rfl
      · exact hrange r hr i hri
      · exact hi i hri
    | moved k o' e0' n off us hk ho hch hn hus hi hr1 hr2 hr3 =>
      rcases hch with hch | ⟨hch, hsz⟩
      · exact absurd hru (hch _ hr)
      · have := (distinct_of_sorted h.sorted).row_eq (List.mem_of_getElem? hk) hr (by rw [hru]; exact hch.symm)
        injection this with _ this
        rw [this] at hsz
        exact absurd hsize.symm hsz
  refine ⟨rows', other, hrep, (hart S hA).congr fun u => ?_, hother, by omega, hL, fun r hr i hi => by
    rw [hrows.1]; exact hrows.2 r hr i hi⟩
  unfold articlesAfter
  rw [hold]
  simp only [ne_eq, Option.some.injEq]
  exact Iff.rfl

/-- Removing an entry after its blob was dealt with. -/
theorem Roomy.removeEntry {u : String} (h : Roomy z S L) {e : Entry} (he : z.entryByFullUrl u = .ok e)
    (hu : S u ∨ ∀ w, S w → encode w < encode u) (hno : ∀ s, ¬ Leads z s u)
    (bd blob : Entry → PyM Zim Unit) (hblob : e.isRedirect = true ∨ blob = fun _ => pure ()) (d : Nat) :
    ∃ z', Zim.removeEntry bd (d + 2) blob u z = (.ok (), z') ∧ Roomy z' (fun w => S w ∧ w ≠ u) L := by
  obtain ⟨rows, other, h, hA, hother, hlen, hL, hrange⟩ := h
  have hex : HasUrl rows u := by
    by_contra hn
    rw [h.entryByFullUrl_missing fun r hr hru => hn ⟨r, hr, hru⟩] at he
    cases he
  obtain ⟨⟨o, e0⟩, hr, rfl⟩ := hex
  have he0 : e = e0 := by
    have := h.entryByFullUrl hr
    rw [he] at this
    injection this
  subst he0
  obtain ⟨k, hk⟩ := List.getElem?_of_mem hr
  have hk' := (List.getElem?_eq_some_iff.1 hk).1
  have hnok : ∀ r ∈ rows, r.2.kind ≠ .redirect k := fun r hr hrk =>
    hno r.2.fullUrl (h.leads_iff.2 ⟨r, hr, rfl, k, _, hrk, hk, rfl⟩)
  have hlast : S e.fullUrl ∨ ∀ i s, k < i → rows[i]? = some s → ¬ S s.2.fullUrl := by
    rcases hu with hu | hu
    · exact Or.inl hu
    · refine Or.inr fun i s hki hi hs => ?_
      have h1 := hu _ hs
      have h2 := h.sorted
      rw [List.pairwise_iff_getElem] at h2
      obtain ⟨hi', his⟩ := List.getElem?_eq_some_iff.1 hi
      obtain ⟨_, hks⟩ := List.getElem?_eq_some_iff.1 hk
      have h3 := h2 k i hk' hi' hki
      rw [hks, his] at h3
      exact absurd h1 (List.lt_asymm h3)
  rw [h.removeEntry_eq hk]
  have hpure : (if e.isRedirect = true then pure () else blob e : PyM Zim Unit) z = (.ok (), z) := by
    rcases hblob with hb | rfl
    · rw [if_pos hb]; rfl
    · split <;> rfl
  rw [PyM.bind_ok hpure]
  obtain ⟨r, z', hw, hpost, htot⟩ := h.removeTail hk d
  obtain ⟨us, rfl⟩ := htot S hA hlast (fun s v hs ⟨i, hi, _, hni, hv⟩ => by
    have hs' := List.mem_of_mem_eraseIdx hs
    have h1 := hrange s hs' i hi
    have h2 := h.store.offset_ge hother hs'
    have h3 : i ≠ k := fun hik => hnok s hs' (hik ▸ hi)
    refine ⟨?_, ?_, ?_, ?_⟩ <;> omega)
  obtain ⟨hus, hrep, -, -, hsh, hart⟩ := hpost us rfl
  have husn : us = [] := by
    cases us with
    | nil => rfl
    | cons w us =>
      obtain ⟨-, r, hr, -, hrk⟩ := (hus w).1 (by simp)
      exact absurd hrk (hnok r hr)
  subst husn
  rw [PyM.bind_ok hw]
  have hl := erased_length (rows := rows) hk'
  refine ⟨z', rfl, erased rows k, other, hrep, hart S hA hlast, hother, by omega, hL, ?_⟩
  intro r hr i hi
  obtain ⟨s, hs, rfl⟩ := List.mem_map.1 hr
  have hs' := List.mem_of_mem_eraseIdx hs
  unfold shRow sh at hi
  cases hkk : s.2.kind with
  | content c b => simp only [hkk] at hi; cases hi
  | redirect j =>
    have h1 := hrange s hs' j hkk
    have h3 : j ≠ k := fun hik => hnok s hs' (hik ▸ hkk)
    simp only [hkk] at hi
    split at hi
    · rename_i hc
      injection hi with hi; omega
    · rename_i hc
      rw [hkk] at hi; injection hi with hi
      subst hi
      have : ¬ k ≤ j := fun hh => hc ⟨by simp, hh⟩
      omega

/-- C64: removing an entry to which no redirect leads, and which is an article or comes after all articles in the order
of the urls, succeeds and leaves the archive well-formed. -/
theorem C64_remove_partial {u : String} (h : Roomy z S L) (hex : z.hasEntry u = .ok true)
    (hu : S u ∨ ∀ w, S w → encode w < encode u) (hno : ∀ s, ¬ Leads z s u)
    (bd : Entry → PyM Zim Unit) (d : Nat) :
    ∃ z', Zim.removeEntry bd (d + 2) (fun _ => pure ()) u z = (.ok (), z') ∧ Roomy z' (fun w => S w ∧ w ≠ u) L := by
  have hrep := h
  obtain ⟨rows, other, hrep, -⟩ := hrep
  obtain ⟨b, hb, hbu⟩ := hrep.hasEntry u
  rw [hex] at hb
  injection hb with hb
  obtain ⟨r, hr, rfl⟩ := hbu.1 hb.symm
  exact h.removeEntry (hrep.entryByFullUrl hr) hu hno bd _ (Or.inr rfl) d

theorem blank_art : Art blank.articles [] (fun _ => False) :=
  ⟨rfl, by simp [blank], by simp [blank], by simp [blank], .nil, by simp, by simp⟩

theorem blank_roomy : Roomy blank (fun _ => False) 80 := by
  refine ⟨[], fun x => x < 80, blank_rep, blank_art, fun x h => h, ?_, ?_, by simp⟩
  · simp
  · omega

theorem Roomy.write {e : Entry} (h : Roomy z S L) (hp : e.Proper) (hm : e.mutable = true)
    (hold : e.oldFullUrl = some e.fullUrl) (hnew : z.hasEntry e.fullUrl = .ok false)
    (hb : e.toBytes.toOption.isSome = true) (hred : ∀ i, e.kind = .redirect i → i < z.urls.len)
    (hlen : z.urls.len + 1 < L) : Roomy (write e z) (articlesAfter S e true) L := by
  have hb' : ∃ b, e.toBytes = .ok b := by
    cases hx : e.toBytes with
    | error x => rw [hx] at hb; cases hb
    | ok b => exact ⟨b, rfl⟩
  obtain ⟨e', z', h1, h2⟩ := C63_add_succeeds h hp hm hold hnew hb' hred 7 true true
  have : Zim.write e z = z' := by unfold Zim.write; rw [h1]
  rw [this]
  exact h2 hlen

/-- all hypotheses are met when building the sample archive -/
theorem sample_roomy : ∃ S, Roomy sample S 80 ∧ S "Ca" ∧ S "Cb" := by
  have r1 := blank_roomy.write (e := art "a" "x") (art_proper (by decide +kernel) (by decide +kernel)) rfl rfl
    (by decide +kernel) (by decide +kernel) (fun i hi => by cases hi) (by decide +kernel)
  have r2 := r1.write (e := art "b" "y") (art_proper (by decide +kernel) (by decide +kernel)) rfl rfl
    (by decide +kernel) (by decide +kernel) (fun i hi => by cases hi) (by decide +kernel)
  have r3 := r2.write (e := red "r" 1) (red_proper (by decide +kernel)) rfl rfl (by decide +kernel) (by decide +kernel)
    (fun i hi => by injection hi with hi; rw [← hi]; decide +kernel) (by decide +kernel)
  refine ⟨_, r3, ?_, ?_⟩
  · exact Or.inl ⟨Or.inl ⟨Or.inr ⟨rfl, rfl, rfl⟩, by decide, by decide⟩, by decide, by decide⟩
  · exact Or.inl ⟨Or.inr ⟨rfl, rfl, rfl⟩, by decide, by decide⟩

/-- no redirect of the sample leads to "Ca", so removing it succeeds -/
example : ∃ z', removeEntry (fun _ => pure ()) 9 (fun _ => pure ()) "Ca" sample = (.ok (), z') := by
  obtain ⟨S, hS, ha, -⟩ := sample_roomy
  have hno : ∀ s, ¬ Leads sample s "Ca" := by
    intro s hl
    obtain ⟨rows, other, h⟩ := sample_ready
    have hu : s = "Ca" ∨ s = "Cb" ∨ s = "Cr" := by
      obtain ⟨es, hes, -, hm, -⟩ := (h.shows_iff.2 (exists_lists (distinct_of_sorted h.sorted)).choose_spec).iter
      have h1 : sample.iterEntries.toOption.map (List.map Entry.fullUrl) = some ["Ca", "Cb", "Cr"] := by decide +kernel
      rw [hes] at h1
      injection h1 with h1
      obtain ⟨r, hr, hru, -⟩ := h.leads_iff.1 hl
      have h2 := (hm s r.2.view).1 (((exists_lists (distinct_of_sorted h.sorted)).choose_spec s _).2 ⟨r, hr, hru, rfl⟩)
      obtain ⟨e, he, heu, -⟩ := h2
      have h3 : s ∈ es.map Entry.fullUrl := List.mem_map.2 ⟨e, he, heu⟩
      rw [h1] at h3
      simpa using h3
    have h4 := leadsTo_of_leads hl
    rcases hu with rfl | rfl | rfl
    · exact absurd h4 (by decide +kernel)
    · exact absurd h4 (by decide +kernel)
    · exact absurd h4 (by decide +kernel)
  obtain ⟨z', hz, -⟩ := C64_remove_partial hS (by decide +kernel) (Or.inl ha) hno (fun _ => pure ()) 7
  exact ⟨z', hz⟩

/-- rewriting "Cb" with a title of the same length succeeds -/
example : ∃ e' z', writeEntry 9 (art "b" "z") true true sample = (.ok e', z') := by
  obtain ⟨S, hS, -⟩ := sample_roomy
  obtain ⟨e', z', h, -⟩ := C63_rewrite_succeeds (e := art "b" "z") (e0 := (art "b" "y").fresh) hS
    (art_proper (by decide +kernel) (by decide +kernel)) rfl (toOk (by decide +kernel)) (by decide +kernel)
    ⟨((art "b" "z").toBytes.toOption.getD []), toOk (by decide +kernel)⟩ (fun i hi => by cases hi) 8 true true
  exact ⟨e', z', h⟩

/-- the full claim of C64 -/
def C64Full : Prop := ∀ (z : Zim) (S : String → Prop) (L : Nat) (u : String), Roomy z S L → z.hasEntry u = .ok true →
  ∃ d, (removeEntry (fun _ => pure ()) d (fun _ => pure ()) u z).1 = .ok ()

/-- the sample with "Cb" only, and a redirect to it -/
def sampleFirst : Zim := write (red "r" 0) (write (art "b" "y") blank)

theorem sampleFirst_roomy : ∃ S, Roomy sampleFirst S 80 := by
  have r1 := blank_roomy.write (e := art "b" "y") (art_proper (by decide +kernel) (by decide +kernel)) rfl rfl
    (by decide +kernel) (by decide +kernel) (fun i hi => by cases hi) (by decide +kernel)
  have r2 := r1.write (e := red "r" 0) (red_proper (by decide +kernel)) rfl rfl (by decide +kernel) (by decide +kernel)
    (fun i hi => by injection hi with hi; rw [← hi]; decide +kernel) (by decide +kernel)
  exact ⟨_, r2⟩

/-- C64 is false: the first entry cannot be removed if there is a redirect to it (`ValueError`, as the index of the
redirect would become negative). -/
theorem C64_first_fails {z : Zim} {s u : String} (h : Ready z) (hu : z.urlIndex u = .ok 0) (hl : Leads z s u)
    (hs : s ≠ u) (bd : Entry → PyM Zim Unit) (d : Nat) :
    (removeEntry bd d (fun _ => pure ()) u z).1 ≠ .ok () := by
  obtain ⟨rows, other, h⟩ := h
  intro hok
  obtain ⟨z', hok⟩ : ∃ z', removeEntry bd d (fun _ => pure ()) u z = (.ok (), z') := ⟨_, Prod.ext hok rfl⟩
  cases d with
  | zero => cases hok
  | succ d =>
    rcases h.urlIndex_cases u with ⟨k, ⟨o, e0⟩, hk, hku, hui⟩ | ⟨-, hui⟩
    swap
    · rw [hui] at hu; cases hu
    · rw [hui] at hu
      injection hu with hu
      subst hu
      simp only at hku
      subst hku
      rw [h.removeEntry_eq hk] at hok
      obtain ⟨_, z1, hb, hok⟩ := PyM.bind_ok_iff.1 hok
      have hpure : (if e0.isRedirect = true then pure () else pure () : PyM Zim Unit) z = (.ok (), z) := by split <;> rfl
      rw [hpure] at hb
      injection hb with _ hb
      subst hb
      obtain ⟨us, z2, htail, -⟩ := PyM.bind_ok_iff.1 hok
      obtain ⟨-, -, -, -, hrange, -⟩ := h.removeTail_ok hk d htail
      obtain ⟨r, hr, hru, i, q, hi, hq, hqu⟩ := h.leads_iff.1 hl
      have hd := distinct_of_sorted h.sorted
      have hik : i = 0 := hd _ _ _ _ hq hk hqu
      subst hik
      obtain ⟨j, hj⟩ := List.getElem?_of_mem hr
      have hj0 : j ≠ 0 := by
        rintro rfl
        rw [hk] at hj
        injection hj with hj
        exact hs (by rw [← hru, ← hj])
      have := (hrange r (-1) (List.mem_eraseIdx_iff_getElem?.2 ⟨j, hj0, hj⟩) ⟨0, hi, by simp, Nat.le_refl _, rfl⟩).1
      omega

theorem leads_of_computed {z : Zim} {s t : String} (h : z.leadsTo s = some t)
    (hs : (z.entryByFullUrl s).toOption.map Entry.fullUrl = some s) : Leads z s t := by
  unfold leadsTo at h
  cases he : z.entryByFullUrl s with
  | error x => rw [he] at h; cases h
  | ok e =>
    rw [he] at h hs
    injection hs with hs
    simp only at h
    cases hk : e.kind with
    | content c b => rw [hk] at h; cases h
    | redirect i =>
      rw [hk] at h
      simp only at h
      cases hi : z.entryByIndex i with
      | error x => rw [hi] at h; cases h
      | ok e' =>
        rw [hi] at h
        injection h with h
        exact ⟨e, i, e', he, hs, hk, hi, h⟩

theorem C64_false : ¬ C64Full := by
  intro hall
  obtain ⟨S, hS⟩ := sampleFirst_roomy
  obtain ⟨d, hd⟩ := hall sampleFirst S 80 "Cb" hS (by decide +kernel)
  have hr : Ready sampleFirst := by
    obtain ⟨rows, other, h, -⟩ := hS
    exact ⟨rows, other, h⟩
  exact C64_first_fails hr (by decide +kernel) (leads_of_computed (s := "Cr") (by decide +kernel) (by decide +kernel))
    (by decide) _ d hd

/-- three entries and two redirects to "Cc", of which one is sorted before it -/
def sampleChain : Zim :=
  write (red "d" 2) (write (red "b" 1) (write (art "c" "y") (write (art "a" "x") blank)))

/-- C64 is false: removing an entry with several redirects to it fails half-way. The redirects are removed one after
the other, but shifting the first redirect's index makes it lead to the second one, which is then removed twice. -/
theorem C64_cascade_fails :
    sampleChain.leadsTo "Cb" = some "Cc" ∧ sampleChain.leadsTo "Cd" = some "Cc" ∧
    (removeEntry (fun _ => pure ()) 9 (fun _ => pure ()) "Cc" sampleChain).1 = .error .entryNotFound ∧
    (remove "Cc" sampleChain).hasEntry "Cc" = .ok false := by
  decide +kernel

end Zim
end Pyzim
