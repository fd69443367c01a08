import Verif.Lemmas.Redirects
import Verif.Props.OperationBuffer

/-!
# Following redirects (C67)

`Leads z s t`: the entry `s` is a redirect leading to the entry `t`; `Reaches z v u`: following redirects from `u` leads
to `v`, in any number of steps; both are in `Verif/Spec/ArchiveMap.lean`.
-/

namespace Pyzim
namespace Zim

variable {z : Zim}

theorem resolve_loop {e : Entry} {i : Nat} (hk : e.kind = .redirect i) (n : Nat) : z.resolve n e = z.resolveLoop n e := by
  unfold resolve
  rw [hk]

theorem resolve_content {e : Entry} (hk : ∀ i, e.kind ≠ .redirect i) (n : Nat) : z.resolve n e = .ok e := by
  unfold resolve
  cases h : e.kind with
  | content c b => rfl
  | redirect i => exact absurd h (hk i)

theorem redirect_or (e : Entry) : (∃ i, e.kind = .redirect i) ∨ ∀ i, e.kind ≠ .redirect i := by
  cases h : e.kind with
  | content c b => exact Or.inr fun i hi => by cases hi
  | redirect i => exact Or.inl ⟨i, rfl⟩

theorem Rep.row_of_entry {rows : List Row} {other : Nat → Prop} (h : Rep z rows other) {u : String} {e : Entry}
    (he : z.entryByFullUrl u = .ok e) : ∃ r ∈ rows, r.2 = e ∧ r.2.fullUrl = u := by
  by_cases hu : HasUrl rows u
  · obtain ⟨r, hr, rfl⟩ := hu
    rw [h.entryByFullUrl hr] at he
    injection he with he
    exact ⟨r, hr, he, rfl⟩
  · rw [h.entryByFullUrl_missing fun r hr hh => hu ⟨r, hr, hh⟩] at he
    cases he

theorem Rep.reaches_content {rows : List Row} {other : Nat → Prop} (h : Rep z rows other) {r : Row} (hr : r ∈ rows)
    (hk : ∀ i, r.2.kind ≠ .redirect i) {v : String} (hre : Reaches z v r.2.fullUrl) : v = r.2.fullUrl := by
  cases hre with
  | refl => rfl
  | step hl _ =>
    obtain ⟨r', hr', hru', i, q, hk', -⟩ := h.leads_iff.1 hl
    have := h.row_of_url hr' hr hru'
    subst this
    exact absurd hk' (hk i)

/-- C67: `resolve` returns the entry reached by following redirects that is not a redirect itself. -/
theorem C67_resolves (h : Ready z) {u : String} {e e' : Entry} (he : z.entryByFullUrl u = .ok e) :
    (∃ n, z.resolve n e = .ok e') ↔
      ∃ v, z.entryByFullUrl v = .ok e' ∧ Reaches z v u ∧ ∀ i, e'.kind ≠ .redirect i := by
  obtain ⟨rows, other, h⟩ := h
  obtain ⟨r, hr, rfl, rfl⟩ := h.row_of_entry he
  constructor
  · rintro ⟨n, hn⟩
    rcases redirect_or r.2 with ⟨i, hk⟩ | hk
    · rw [resolve_loop hk] at hn
      rcases h.resolveLoop_cases n r hr with hh | ⟨q, hq, hh, hre, hk'⟩ | ⟨hh, -⟩
      · rw [hh] at hn; cases hn
      · rw [hh] at hn
        injection hn with hn
        subst hn
        exact ⟨_, h.entryByFullUrl hq, hre, hk'⟩
      · rw [hh] at hn; cases hn
    · rw [resolve_content hk] at hn
      injection hn with hn
      subst hn
      exact ⟨_, he, .refl, hk⟩
  · rintro ⟨v, hv, hre, hk⟩
    obtain ⟨q, hq, rfl, rfl⟩ := h.row_of_entry hv
    rcases redirect_or r.2 with ⟨i, hk'⟩ | hk'
    · obtain ⟨q', hq', hqu, k, hn⟩ := h.resolveLoop_reaches hre r hr rfl
      have := h.row_of_url hq' hq hqu
      subst this
      exact ⟨1 + k, by rw [resolve_loop hk', hn, h.resolveLoop_content hq' hk]⟩
    · have := h.row_of_url hq hr (h.reaches_content hr hk' hre)
      subst this
      exact ⟨0, resolve_content hk 0⟩

/-- C67: `resolve` raises `EntryNotFound` iff following the redirects ends in a redirect that leads nowhere. -/
theorem C67_not_found (h : Ready z) {u : String} {e : Entry} (he : z.entryByFullUrl u = .ok e) :
    (∃ n, z.resolve n e = .error .entryNotFound) ↔
      ∃ v e', z.entryByFullUrl v = .ok e' ∧ Reaches z v u ∧ (∃ i, e'.kind = .redirect i) ∧ ∀ w, ¬ Leads z v w := by
  obtain ⟨rows, other, h⟩ := h
  obtain ⟨r, hr, rfl, rfl⟩ := h.row_of_entry he
  constructor
  · rintro ⟨n, hn⟩
    rcases redirect_or r.2 with ⟨i, hk⟩ | hk
    · rw [resolve_loop hk] at hn
      rcases h.resolveLoop_cases n r hr with hh | ⟨q, hq, hh, -⟩ | ⟨hh, q, hq, hre, j, hj, hlj⟩
      · rw [hh] at hn; cases hn
      · rw [hh] at hn; cases hn
      · refine ⟨_, _, h.entryByFullUrl hq, hre, ⟨j, hj⟩, fun w hl => ?_⟩
        obtain ⟨q', hq', hqu, j', t, hj', ht, -⟩ := h.leads_iff.1 hl
        have := h.row_of_url hq' hq hqu
        subst this
        rw [hj] at hj'
        injection hj' with hj'
        have := (List.getElem?_eq_some_iff.1 ht).1
        omega
    · rw [resolve_content hk] at hn; cases hn
  · rintro ⟨v, e', hv, hre, ⟨j, hj⟩, hno⟩
    obtain ⟨q, hq, rfl, rfl⟩ := h.row_of_entry hv
    rcases redirect_or r.2 with ⟨i, hk⟩ | hk
    · obtain ⟨q', hq', hqu, k, hn⟩ := h.resolveLoop_reaches hre r hr rfl
      have := h.row_of_url hq' hq hqu
      subst this
      refine ⟨1 + k, ?_⟩
      rw [resolve_loop hk, hn]
      rcases h.row_cases hq' with hk' | ⟨_, _, _, _, _, hl⟩ | ⟨i', hk', hi'⟩
      · exact absurd hj (hk' j)
      · exact absurd hl (hno _)
      · exact h.resolveLoop_out hq' hk' hi' 0
    · have := h.row_of_url hq hr (h.reaches_content hr hk hre)
      subst this
      exact absurd hj (hk j)

/-- C67: `resolve` never returns iff the redirects lead on and on; it raises nothing else than `EntryNotFound`. -/
theorem C67_hangs (h : Ready z) {u : String} {e : Entry} (he : z.entryByFullUrl u = .ok e) :
    ((∀ n, z.resolve n e = .error .hang) ↔ ∀ v, Reaches z v u → ∃ w, Leads z v w) ∧
    (∀ n x, z.resolve n e = .error x → x = .hang ∨ x = .entryNotFound) := by
  obtain ⟨rows, other, h⟩ := h
  obtain ⟨r, hr, rfl, rfl⟩ := h.row_of_entry he
  refine ⟨⟨fun hh v hre => ?_, fun hh n => ?_⟩, fun n x hx => ?_⟩
  · rcases redirect_or r.2 with ⟨i, hk⟩ | hk
    · obtain ⟨q, hq, rfl, k, hn⟩ := h.resolveLoop_reaches hre r hr rfl
      have h1 := hh (1 + k)
      rw [resolve_loop hk, hn] at h1
      rcases h.row_cases hq with hk' | ⟨_, _, _, _, _, hl⟩ | ⟨i', hk', hi'⟩
      · rw [h.resolveLoop_content hq hk'] at h1; cases h1
      · exact ⟨_, hl⟩
      · rw [h.resolveLoop_out hq hk' hi'] at h1; cases h1
    · have h1 := hh 0
      rw [resolve_content hk] at h1
      cases h1
  · rcases redirect_or r.2 with ⟨i, hk⟩ | hk
    · rw [resolve_loop hk]
      rcases h.resolveLoop_cases n r hr with h1 | ⟨q, hq, -, hre, hk'⟩ | ⟨-, q, hq, hre, j, hj, hlj⟩
      · exact h1
      · obtain ⟨w, hl⟩ := hh _ hre
        obtain ⟨q', hq', hqu, j', t, hj', -⟩ := h.leads_iff.1 hl
        have := h.row_of_url hq' hq hqu
        subst this
        exact absurd hj' (hk' j')
      · obtain ⟨w, hl⟩ := hh _ hre
        obtain ⟨q', hq', hqu, j', t, hj', ht, -⟩ := h.leads_iff.1 hl
        have := h.row_of_url hq' hq hqu
        subst this
        rw [hj] at hj'
        injection hj' with hj'
        have := (List.getElem?_eq_some_iff.1 ht).1
        omega
    · obtain ⟨w, hl⟩ := hh _ .refl
      obtain ⟨q', hq', hqu, j', t, hj', -⟩ := h.leads_iff.1 hl
      have := h.row_of_url hq' hr hqu
      subst this
      exact absurd hj' (hk j')
  · rcases redirect_or r.2 with ⟨i, hk⟩ | hk
    · rw [resolve_loop hk] at hx
      rcases h.resolveLoop_cases n r hr with h1 | ⟨q, hq, h1, -⟩ | ⟨h1, -⟩
      · rw [h1] at hx; injection hx with hx; exact Or.inl hx.symm
      · rw [h1] at hx; cases hx
      · rw [h1] at hx; injection hx with hx; exact Or.inr hx.symm
    · rw [resolve_content hk] at hx; cases hx

/-- C67: `resolve` makes no more turns than there are entries, or never returns; the number of turns allowed makes no
difference otherwise. -/
theorem C67_turns (h : Ready z) {u : String} {e : Entry} (he : z.entryByFullUrl u = .ok e) (n m : Nat)
    (hn : z.urls.len ≤ n) (hm : n ≤ m) : z.resolve m e = z.resolve n e := by
  obtain ⟨rows, other, h⟩ := h
  obtain ⟨r, hr, rfl, rfl⟩ := h.row_of_entry he
  rcases redirect_or r.2 with ⟨i, hk⟩ | hk
  · rw [resolve_loop hk, resolve_loop hk]
    by_cases hh : z.resolveLoop n r.2 = .error .hang
    · rw [hh, h.resolveLoop_bound hr (by rw [← h.len]; exact hn) hh]
    · exact h.resolveLoop_mono' hm hr hh
  · rw [resolve_content hk, resolve_content hk]

/-- The hypotheses are met: "Cr" leads to "Cb". -/
example : ∃ e e' v, sample.entryByFullUrl "Cr" = .ok e ∧ (∃ n, sample.resolve n e = .ok e') ∧
    sample.entryByFullUrl v = .ok e' ∧ Reaches sample v "Cr" := by
  have h1 : (sample.entryByFullUrl "Cr").toOption.isSome = true := by decide +kernel
  have h2 : ((sample.entryByFullUrl "Cr").toOption.bind fun e => (sample.resolve 2 e).toOption).isSome = true := by
    decide +kernel
  cases he : sample.entryByFullUrl "Cr" with
  | error x => rw [he] at h1; cases h1
  | ok e =>
    rw [he] at h2
    cases he' : sample.resolve 2 e with
    | error x => simp [Except.toOption, he'] at h2
    | ok e' =>
      obtain ⟨v, hv, hre, -⟩ := (C67_resolves sample_ready he).1 ⟨2, he'⟩
      exact ⟨e, e', v, rfl, ⟨2, he'⟩, hv, hre⟩

theorem ready_of_redirect {r : Redirect} {d : Nat} {z' : Zim} (h : Ready z) (hv : r.Valid)
    (hok : addFullUrlRedirect d r.1 r.2.1 r.2.2 z = (.ok (), z')) : Ready z' := by
  obtain ⟨rows, other, h⟩ := h
  rcases h.addRedirect_ok hv hok with ⟨-, rfl⟩ | ⟨-, rows', h', -⟩
  · exact ⟨rows, other, h.withBuffer _⟩
  · exact ⟨rows', other, h'⟩

/-- "Cb" becomes a redirect to "Cr", which leads to "Cb" -/
def circle : Zim := (addFullUrlRedirect 9 "Cb" "Cr" (some "yyyyy") sample).2

/-- It is possible to make a circle of redirects with successful calls; then `resolve` never returns. -/
theorem C67_circle : (addFullUrlRedirect 9 "Cb" "Cr" (some "yyyyy") sample).1 = .ok () ∧
    circle.leadsTo "Cb" = some "Cr" ∧ circle.leadsTo "Cr" = some "Cb" ∧
    ∃ e, circle.entryByFullUrl "Cr" = .ok e ∧ ∀ n, circle.resolve n e = .error .hang := by
  have hok : (addFullUrlRedirect 9 "Cb" "Cr" (some "yyyyy") sample).1 = .ok () := by decide +kernel
  have h1 : circle.leadsTo "Cb" = some "Cr" := by decide +kernel
  have h2 : circle.leadsTo "Cr" = some "Cb" := by decide +kernel
  refine ⟨hok, h1, h2, ?_⟩
  have hv : Redirect.Valid ("Cb", "Cr", some "yyyyy") := by
    refine ⟨⟨'C', "b", by decide +kernel, by decide, by decide +kernel⟩, by decide, ?_, by decide⟩
    intro t ht
    injection ht with ht
    subst ht
    decide +kernel
  have hready : Ready circle := by
    have hrun : addFullUrlRedirect 9 ("Cb", "Cr", some "yyyyy").1 "Cr" (some "yyyyy") sample = (.ok (), circle) :=
      run_eq hok
    exact ready_of_redirect sample_ready hv hrun
  have l1 : Leads circle "Cb" "Cr" := leads_of_computed (by decide +kernel) (by decide +kernel)
  have l2 : Leads circle "Cr" "Cb" := leads_of_computed (by decide +kernel) (by decide +kernel)
  have h3 : (circle.entryByFullUrl "Cr").toOption.isSome = true := by decide +kernel
  cases he : circle.entryByFullUrl "Cr" with
  | error x => rw [he] at h3; cases h3
  | ok e =>
    refine ⟨e, rfl, (C67_hangs hready he).1.2 ?_⟩
    have : ∀ u v, Reaches circle v u → (u = "Cb" ∨ u = "Cr") → v = "Cb" ∨ v = "Cr" := by
      intro u v hre
      induction hre with
      | refl => exact id
      | step hl _ ih =>
        intro hu
        apply ih
        obtain ⟨rows, other, h⟩ := hready
        rcases hu with rfl | rfl
        · exact Or.inr (LeadsR.unique (distinct_of_sorted h.sorted) (h.leads_iff.1 hl) (h.leads_iff.1 l1))
        · exact Or.inl (LeadsR.unique (distinct_of_sorted h.sorted) (h.leads_iff.1 hl) (h.leads_iff.1 l2))
    intro v hre
    rcases this _ _ hre (Or.inr rfl) with rfl | rfl
    · exact ⟨_, l1⟩
    · exact ⟨_, l2⟩

end Zim
end Pyzim
