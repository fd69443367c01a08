import Verif.Lemmas.CreatorNewTotal

/-!
# The limits of an archive
-/

namespace Pyzim
open Zim (Redirect)

variable {r : Nat} {done : List (List Sourced)} {recent : List Sourced} {rs : List Redirect} {mts : List String}

/-- the mimetypes, as they are stored -/
def stored (mts : List String) : List Bytes := encode Creator.placeholder.mimetype :: mts.map encode

theorem stored_few (h : mts.length < 65534) : (stored mts).length < 65535 := by
  unfold stored
  rw [List.length_cons, List.length_map]
  omega

theorem InLimits.sub {lists lists' : List (List Sourced)} {rs' : List Redirect} (h : InLimits r mts lists rs)
    (hl : lists'.flatten.Sublist lists.flatten) (hs : ∀ l ∈ lists', ∃ l' ∈ lists, l.Sublist l') (hr : rs'.Sublist rs) :
    InLimits r mts lists' rs' := by
  have h1 := hl.length_le
  have h2 := hr.length_le
  refine ⟨h.urls.sublist (hl.map _), fun p hp => h.other p (hl.subset hp), fun p hp => h.mimetypes p (hl.subset hp), h.few, h.space,
    fun l hl => ?_, ⟨h.apart.nodup.sublist (hr.map _), fun q hq => h.apart.articles q (hr.subset hq), fun q hq l hl p hp => ?_⟩, ?_, ?_⟩
  · obtain ⟨l', l1, l2⟩ := hs l hl
    exact NotHuge.sublist (h.size l' l1) l2
  · obtain ⟨l', l1, l2⟩ := hs l hl
    exact h.apart.items q (hr.subset hq) l' l1 p (l2.subset hp)
  · have := h.entries
    omega
  · rcases h.redirects with e | ⟨e1, e2⟩
    · subst e
      exact .inl (List.sublist_nil.1 hr)
    · refine .inr ⟨?_, e2⟩
      omega

theorem InLimits.fine (h : InLimits r mts (done ++ [recent]) rs) : Fine (stored mts) rs done recent := by
  refine ⟨h.apart, fun l hl => ⟨?_, h.size l hl, fun p hp => ⟨?_, h.other p (List.mem_flatten.2 ⟨l, hl, hp⟩)⟩⟩⟩
  · exact h.urls.sublist ((List.sublist_flatten_of_mem hl).map _)
  · exact List.mem_cons_of_mem _ (List.mem_map.2 ⟨_, h.mimetypes p (List.mem_flatten.2 ⟨l, hl, hp⟩), rfl⟩)

theorem flatten_perm {Gb : List (List (List Sourced))} {done : List (List Sourced)}
    (h : List.Forall₂ (fun G l => G.flatten.Perm l) Gb done) : Gb.flatten.flatten.Perm done.flatten := by
  induction h with
  | nil => exact .refl _
  | cons h _ ih =>
    rw [List.flatten_cons, List.flatten_append, List.flatten_cons]
    exact h.append ih

theorem InLimits.fits (h : InLimits r mts (done ++ [recent]) rs) {all : List Sourced} (hp : all.Perm (done ++ [recent]).flatten) :
    Fits r all rs := by
  have hl := hp.length_eq
  refine ⟨((hp.map _).nodup_iff).2 h.urls, fun p hm => h.other p (hp.subset hm), fun q hq => ⟨h.apart.articles q hq, fun p hm => ?_⟩, ?_, ?_⟩
  · obtain ⟨l, l1, l2⟩ := List.mem_flatten.1 (hp.subset hm)
    exact h.apart.items q hq l l1 p l2
  · rw [hl]; exact h.entries
  · rw [hl]; exact h.redirects

theorem all_perm {Gb : List (List (List Sourced))} (h : List.Forall₂ (fun G l => G.flatten.Perm l) Gb done) (items : List Sourced) :
    (Gb.flatten.flatten ++ items).Perm (done ++ [items]).flatten := by
  rw [List.flatten_append, List.flatten_cons, List.flatten_nil, List.append_nil]
  exact (flatten_perm h).append_right _

theorem InLimits.front {items : List Sourced} (more : List Sourced) (h : InLimits r mts (done ++ [items ++ more]) rs) :
    InLimits r mts (done ++ [items]) rs := by
  refine h.sub ?_ (fun l hl => ?_) (List.Sublist.refl _)
  · simp only [List.flatten_append, List.flatten_cons, List.flatten_nil, List.append_nil]
    exact (List.Sublist.refl _).append (List.sublist_append_left _ _)
  · rcases List.mem_append.1 hl with hl | hl
    · exact ⟨l, List.mem_append_left _ hl, List.Sublist.refl _⟩
    · rw [List.mem_singleton] at hl
      subst hl
      exact ⟨l ++ more, by simp, List.sublist_append_left _ _⟩

theorem InLimits.add {p : Sourced} (h : InLimits r mts (done ++ [recent ++ [p]]) rs) : InLimits r mts (done ++ [recent]) rs := h.front _

theorem Reaches.imp {p p' : String → Prop} {u : String} (h : Reaches rs p u) (hp : ∀ u, p u → p' u) : Reaches rs p' u := by
  induction h with
  | here h => exact .here (hp _ h)
  | step hm _ ih => exact .step hm ih

end Pyzim
