import Verif.Model.EntryRemove
import Verif.Props.Entry
import Verif.Props.Archive

/-!
# Properties of removing an entry by its object
-/

namespace Pyzim
namespace Zim

variable {z z' : Zim} {m : Catalogue} {e e' : Entry} {u : String} {bd blob : Entry → PyM Zim Unit} {d : Nat}

/-- **C102.** Removing by the object does what removing by the current full url of the object does. -/
theorem C102_by_full_url (hm : e.mutable = true) (z : Zim) : e.remove true bd d blob z = removeEntry bd d blob e.fullUrl z := by
  unfold Entry.remove
  rw [PyM.bind_ok (show PyM.require true .bindRequired z = (.ok (), z) from rfl), hm,
    PyM.bind_ok (show PyM.require true .nonMutable z = (.ok (), z) from rfl)]

/-- **C102, in full.** Removing an entry by its object removes the entry the object was read from, whatever attributes of
the object were set since then. -/
def C102Full : Prop := ∀ (z z' : Zim) (e e' : Entry) (u : String) (v : StrArg) (bd blob : Entry → PyM Zim Unit) (d : Nat),
  Ready z → z.entryByFullUrl u = .ok e → e.setUrl v = (.ok (), e') → Quiet blob z → e'.remove true bd d blob z = (.ok (), z') →
  z'.hasEntry u = .ok false

/-- **C102, partial.** Removing an entry by its object, whose namespace and url are still those it was found by, removes
exactly this entry and the redirects that lead to it. Missing: objects whose url was changed. -/
theorem C102_removed_partial (h : Ready z) (hs : Shows z m) (he : z.entryByFullUrl u = .ok e) {e' : Entry}
    (hsame : e'.fullUrl = e.fullUrl) (hq : Quiet blob z) (hok : e'.remove true bd d blob z = (.ok (), z')) :
    Ready z' ∧ Shows z' (m.without (Reaches z u)) ∧ z'.hasEntry u = .ok false := by
  have hm : e'.mutable = true := by
    cases hm : e'.mutable with
    | true => rfl
    | false =>
      unfold Entry.remove at hok
      rw [PyM.bind_ok (show PyM.require true .bindRequired z = (.ok (), z) from rfl), hm,
        PyM.bind_err (show PyM.require false .nonMutable z = (.error .nonMutable, z) from rfl)] at hok
      cases hok
  have hu : e.fullUrl = u := by
    cases hmu : m u with
    | none => rw [hs.missing u hmu] at he; cases he
    | some v =>
      obtain ⟨e1, h1, h2, -⟩ := hs.found u v hmu
      rw [he] at h1
      injection h1 with h1
      rw [h1, h2]
  rw [C102_by_full_url hm, hsame, hu] at hok
  obtain ⟨h1, h2⟩ := C33_map h hs (.remove .start hq hok)
  refine ⟨h1, h2, ?_⟩
  rw [h2.has u]
  unfold Catalogue.without
  rw [if_pos (Reaches.refl)]
  rfl

/-- **C102.** Setting the title or the mimetype does not matter: the object still removes its entry. -/
theorem C102_other_attributes (e : Entry) (t : Option StrArg) (i : Nat) :
    (e.setTitle t).2.fullUrl = e.fullUrl ∧ (e.setMimetypeId i).2.fullUrl = e.fullUrl := by
  constructor
  · unfold Entry.setTitle
    repeat' split
    all_goals rfl
  · unfold Entry.setMimetypeId
    repeat' split
    all_goals rfl

/-- **C102.** An object that is not bound to an archive, … -/
theorem C102_unbound (e : Entry) (z : Zim) : e.remove false bd d blob z = (.error .bindRequired, z) := rfl

/-- **C102.** … or that cannot be changed, removes nothing. -/
theorem C102_immutable (hm : e.mutable = false) (z : Zim) : e.remove true bd d blob z = (.error .nonMutable, z) := by
  unfold Entry.remove
  rw [PyM.bind_ok (show PyM.require true .bindRequired z = (.ok (), z) from rfl), hm]
  rfl

theorem setUrl_facts {v : String} (hv : e.setUrl (.str v) = (.ok (), e')) : e'.fullUrl = e.ns ++ v ∧ e'.mutable = true := by
  unfold Entry.setUrl StrArg.both at hv
  simp only at hv
  split at hv
  · cases hv
  · split at hv
    · cases hv
    · rename_i hmu
      have hmu : e.mutable = true := by simpa using hmu
      split at hv
      · injection hv with _ hv
        rw [← hv]
        exact ⟨rfl, hmu⟩
      · rename_i hsame
        injection hv with _ hv
        rw [← hv, Classical.not_not.1 hsame]
        exact ⟨rfl, hmu⟩

/-- **C102, finding.** If the url of an object was set, but the object was not flushed, then removing it removes the entry
that has the new url, if there is one. If that does not lead to the entry the object was read from, this entry stays. -/
theorem C102_renamed (h : Ready z) (hs : Shows z m) (he : z.entryByFullUrl u = .ok e)
    {v : String} (hv : e.setUrl (.str v) = (.ok (), e')) (hq : Quiet blob z) (hok : e'.remove true bd d blob z = (.ok (), z'))
    (hr : ¬ Reaches z (e.ns ++ v) u) :
    Shows z' (m.without (Reaches z (e.ns ++ v))) ∧ z'.hasEntry (e.ns ++ v) = .ok false ∧ z'.hasEntry u = .ok true := by
  have hx := setUrl_facts hv
  rw [C102_by_full_url hx.2, hx.1] at hok
  have h2 := (C33_map h hs (.remove .start hq hok)).2
  refine ⟨h2, ?_, ?_⟩
  · rw [h2.has]
    unfold Catalogue.without
    rw [if_pos (Reaches.refl)]
    rfl
  · rw [h2.has]
    unfold Catalogue.without
    rw [if_neg hr]
    cases hmu : m u with
    | none => rw [hs.missing u hmu] at he; cases he
    | some v => rfl

/-- **C102, finding.** If there is no entry with the new url, removing raises `EntryNotFound` and nothing is removed. -/
theorem C102_renamed_missing (h : Ready z) {v : String} (hv : e.setUrl (.str v) = (.ok (), e'))
    (hno : z.hasEntry (e.ns ++ v) = .ok false) : e'.remove true bd (d + 1) blob z = (.error .entryNotFound, z) := by
  have hx := setUrl_facts hv
  obtain ⟨rows, other, h⟩ := h
  rw [C102_by_full_url hx.2, hx.1]
  refine h.removeEntry_missing (fun r hr hu => ?_) bd blob d
  obtain ⟨b, hb, hbu⟩ := h.hasEntry (e.ns ++ v)
  rw [hno] at hb
  injection hb with hb
  have := hbu.2 ⟨r, hr, hu⟩
  rw [← hb] at this
  cases this

/-- the object of the entry "Ca" of the sample … -/
def objectA : Entry := (sample.entryByFullUrl "Ca").toOption.getD (art "z" "z")
/-- … with the url of the other page -/
def objectB : Entry := (objectA.setUrl (.str "b")).2

theorem object_facts : sample.entryByFullUrl "Ca" = .ok objectA ∧ objectA.setUrl (.str "b") = (.ok (), objectB) ∧
    (objectA.remove true (fun _ => pure ()) 9 (fun _ => pure ()) sample) = (.ok (), remove "Ca" sample) ∧
    (objectB.remove true (fun _ => pure ()) 9 (fun _ => pure ()) sample) = (.ok (), remove "Cb" sample) ∧
    (remove "Cb" sample).hasEntry "Ca" = .ok true ∧ (remove "Cb" sample).hasEntry "Cb" = .ok false ∧
    (remove "Cb" sample).hasEntry "Cr" = .ok false ∧ (remove "Ca" sample).hasEntry "Cb" = .ok true := by
  decide +kernel

/-- **C102, finding.** The claim is false in full: removing the object of "Ca" after setting its url to that of another page
removes the other page, and the redirect to it, and keeps "Ca". -/
theorem C102_full_fails : ¬ C102Full := by
  intro h
  have h1 := h sample (remove "Cb" sample) objectA objectB "Ca" (.str "b") (fun _ => pure ()) (fun _ => pure ()) 9 sample_ready
    object_facts.1 object_facts.2.1 (quiet_keep _) object_facts.2.2.2.1
  rw [object_facts.2.2.2.2.1] at h1
  cases h1

/-- removing the object of "Ca" removes "Ca" -/
example : ∃ m, Shows sample m ∧ Shows (remove "Ca" sample) (m.without (Reaches sample "Ca")) ∧
    (remove "Ca" sample).hasEntry "Ca" = .ok false ∧ (remove "Ca" sample).hasEntry "Cb" = .ok true := by
  obtain ⟨m, hm, -⟩ := C33_one_catalogue sample_ready
  obtain ⟨-, h2, h3⟩ := C102_removed_partial (e := objectA) (e' := objectA) sample_ready hm object_facts.1 (Eq.refl objectA.fullUrl) (quiet_keep _) object_facts.2.2.1
  exact ⟨m, hm, h2, h3, object_facts.2.2.2.2.2.2.2⟩

theorem objectA_content : objectA.isRedirect = false ∧ objectA.kind = .content 0 0 ∧ objectA.ns ++ "b" = "Cb" := by decide +kernel

/-- the object of "Ca" with the url of "Cb": the page "Cb" is removed, "Ca" stays -/
example : ∃ m, Shows sample m ∧ Shows (remove "Cb" sample) (m.without (Reaches sample "Cb")) ∧
    (remove "Cb" sample).hasEntry "Cb" = .ok false ∧ (remove "Cb" sample).hasEntry "Ca" = .ok true := by
  obtain ⟨m, hm, -⟩ := C33_one_catalogue sample_ready
  have hn : ¬ Reaches sample (objectA.ns ++ "b") "Ca" := by
    rw [objectA_content.2.2]
    intro h
    generalize hs : "Ca" = s at h
    cases h with
    | refl => revert hs; decide
    | step hl _ =>
      subst hs
      obtain ⟨e, i, e', h1, -, h3, -⟩ := hl
      rw [object_facts.1] at h1
      injection h1 with h1
      rw [← h1, objectA_content.2.1] at h3
      cases h3
  have := C102_renamed (e := objectA) (e' := objectB) sample_ready hm object_facts.1 object_facts.2.1 (quiet_keep _)
    object_facts.2.2.2.1 hn
  rw [objectA_content.2.2] at this
  exact ⟨m, hm, this⟩

/-- the object of "Ca" with an url that no entry has -/
def objectQ : Entry := (objectA.setUrl (.str "q")).2

theorem objectQ_facts : objectA.setUrl (.str "q") = (.ok (), objectQ) ∧ sample.hasEntry (objectA.ns ++ "q") = .ok false := by
  decide +kernel

example : objectQ.remove true (fun _ => pure ()) 9 (fun _ => pure ()) sample = (.error .entryNotFound, sample) :=
  C102_renamed_missing (e := objectA) sample_ready objectQ_facts.1 objectQ_facts.2

end Zim
end Pyzim
