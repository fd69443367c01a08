import Verif.Lemmas.ArchiveWrite

namespace Pyzim

/-- the entry with another redirect index -/
def Entry.withIndex (e : Entry) (i : Nat) : Entry := { e with kind := .redirect i }

theorem Entry.Clean.setRedirect {e : Entry} (hc : e.Clean) {r : Nat} (hk : e.kind = .redirect r) {v : Int}
    (hv : 0 ≤ v) :
    ∃ e1, e.setRedirectIndex v = (.ok (), e1) ∧ e1.fresh = e.withIndex v.toNat ∧
      e1.oldFullUrl = some e1.fullUrl ∧ e1.fullUrl = e.fullUrl ∧ e1.getDiskSize = e.getDiskSize ∧ e1.Proper ∧
      e1.kind = .redirect v.toNat ∧ e1.forceIsArticle = none ∧ e1.ns = e.ns := by
  have hold := hc.oldFullUrl
  have hforce := hc.force
  have hm := hc.mutable
  have hf := hc.fresh
  have hred : e.mimetypeId = 0xffff := hc.kind.1 ⟨r, hk⟩
  have hst := hc.storable
  unfold Entry.setRedirectIndex
  rw [hk]
  simp only
  rw [if_neg (by omega), if_neg (by simp [hm])]
  by_cases hvr : v.toNat = r
  · rw [if_neg (by simpa using hvr)]
    have hw : e.withIndex v.toNat = e := by
      unfold Entry.withIndex; rw [hvr, ← hk]
    refine ⟨e, rfl, by rw [hf, hw], hold, rfl, rfl, ⟨hst.url, hst.title, hc.kind, by rw [hforce]; intro h; cases h⟩,
      by rw [hk, hvr], hforce, rfl⟩
  · rw [if_pos hvr]
    refine ⟨_, rfl, ?_, hold, rfl, ?_, ⟨hst.url, hst.title, ?_, ?_⟩, rfl, hforce, rfl⟩
    · unfold Entry.withIndex
      conv => rhs; rw [← hf]
      rfl
    · unfold Entry.getDiskSize; simp only [hk]; rfl
    · exact ⟨fun _ => hred, fun _ => ⟨_, rfl⟩⟩
    · simp only; rw [hforce]; intro h; cases h

theorem Entry.setRedirect_neg {e : Entry} {r : Nat} (hk : e.kind = .redirect r) {v : Int}
    (hv : v < 0) : e.setRedirectIndex v = (.error .valueError, e) := by
  unfold Entry.setRedirectIndex; rw [hk]; simp only; rw [if_pos hv]

namespace Zim

variable {z : Zim} {rows : List Row} {other : Nat → Prop} {S : String → Prop}

theorem mark_self {e : Entry} (hold : e.oldFullUrl = some e.fullUrl) (hf : e.forceIsArticle = none)
    (hC : S e.fullUrl → e.ns = "C") (u : String) : mark S e true u ↔ S u := by
  unfold mark asArticle
  rw [hf, hold]
  simp only [Option.some.injEq, true_and]
  constructor
  · rintro (h | ⟨rfl, -, u', rfl, h⟩)
    · exact h.1
    · exact h
  · intro h
    by_cases hu : u = e.fullUrl
    · subst hu
      exact Or.inr ⟨rfl, hC h, _, rfl, h⟩
    · exact Or.inl ⟨h, hu⟩

/-- `e` as `_update_url_pointers` leaves it -/
def sh (start : Nat) (diff : Int) (skip : List String) (e : Entry) : Entry :=
  match e.kind with
  | .redirect r => if e.fullUrl ∉ skip ∧ start ≤ r then e.withIndex (r + diff).toNat else e
  | .content _ _ => e

theorem sh_fullUrl (start : Nat) (diff : Int) (skip : List String) (e : Entry) :
    (sh start diff skip e).fullUrl = e.fullUrl := by
  unfold sh; split
  · split <;> rfl
  · rfl

theorem sh_title (start : Nat) (diff : Int) (skip : List String) (e : Entry) :
    (sh start diff skip e).title = e.title := by
  unfold sh; split
  · split <;> rfl
  · rfl

theorem sh_ns (start : Nat) (diff : Int) (skip : List String) (e : Entry) :
    (sh start diff skip e).ns = e.ns := by
  unfold sh; split
  · split <;> rfl
  · rfl

/-- a row with its entry shifted -/
def shRow (start : Nat) (diff : Int) (skip : List String) (r : Row) : Row := (r.1, sh start diff skip r.2)

/-- rows from `k` on shifted -/
def shFrom (start : Nat) (diff : Int) (skip : List String) (k : Nat) (rows : List Row) : List Row :=
  rows.mapIdx (fun i r => if i < k then r else shRow start diff skip r)

theorem shFrom_zero (start : Nat) (diff : Int) (skip : List String) (rows : List Row) :
    shFrom start diff skip 0 rows = rows.map (shRow start diff skip) := by
  refine List.ext_getElem? fun i => ?_
  simp [shFrom]

theorem shFrom_step (start : Nat) (diff : Int) (skip : List String) {k : Nat} {rows : List Row} {row : Row}
    (hk : rows[k]? = some row) :
    shFrom start diff skip k rows =
      shFrom start diff skip (k + 1) (rows.set k (shRow start diff skip row)) := by
  have hk' := (List.getElem?_eq_some_iff.1 hk).1
  refine List.ext_getElem? fun i => ?_
  simp only [shFrom, List.getElem?_mapIdx, List.getElem?_set]
  by_cases hi : k = i
  · subst hi
    rw [if_pos rfl, if_pos hk', hk]
    simp
  · rw [if_neg hi]
    cases rows[i]? with
    | none => rfl
    | some r =>
      simp only [Option.map_some]
      by_cases h : i < k
      · rw [if_pos h, if_pos (by omega)]
      · rw [if_neg h, if_neg (by omega)]

theorem shFrom_skip (start : Nat) (diff : Int) (skip : List String) {k : Nat} {rows : List Row} {row : Row}
    (hk : rows[k]? = some row) (hs : sh start diff skip row.2 = row.2) :
    shFrom start diff skip k rows = shFrom start diff skip (k + 1) rows := by
  rw [shFrom_step _ _ _ hk]
  congr 1
  refine List.ext_getElem? fun i => ?_
  rw [List.getElem?_set]
  split
  · rename_i h; subst h; rw [hk, if_pos (List.getElem?_eq_some_iff.1 hk).1]; unfold shRow; rw [hs]
  · rfl

theorem shFrom_end (start : Nat) (diff : Int) (skip : List String) (rows : List Row) :
    shFrom start diff skip rows.length rows = rows := by
  refine List.ext_getElem? fun i => ?_
  simp only [shFrom, List.getElem?_mapIdx]
  by_cases hi : i < rows.length
  · rw [List.getElem?_eq_getElem hi]; simp [hi]
  · rw [List.getElem?_eq_none (by omega)]; rfl

/-- the row is shifted, to index `v` -/
def Shifts (start : Nat) (diff : Int) (skip : List String) (row : Row) (v : Int) : Prop :=
  ∃ r, row.2.kind = .redirect r ∧ row.2.fullUrl ∉ skip ∧ start ≤ r ∧ v = r + diff

theorem sh_of_not_shifts {start : Nat} {diff : Int} {skip : List String} {row : Row}
    (h : ∀ v, ¬ Shifts start diff skip row v) : sh start diff skip row.2 = row.2 := by
  unfold sh
  split
  · rename_i r hr
    rw [if_neg]
    intro hh
    exact h _ ⟨r, hr, hh.1, hh.2, rfl⟩
  · rfl

theorem sh_of_shifts {start : Nat} {diff : Int} {skip : List String} {row : Row} {v : Int}
    (h : Shifts start diff skip row v) : sh start diff skip row.2 = row.2.withIndex v.toNat := by
  obtain ⟨r, hr, h1, h2, rfl⟩ := h
  unfold sh
  rw [hr]
  simp only
  rw [if_pos ⟨h1, h2⟩]

theorem KeepsBytes.refl (other : Nat → Prop) (f : Bytes) : KeepsBytes other f f := fun _ _ _ h => h

theorem KeepsBytes.trans {f g k : Bytes} (h1 : KeepsBytes other f g) (h2 : KeepsBytes other g k) :
    KeepsBytes other f k := fun x b hx hb => h2 x b hx (h1 x b hx hb)

theorem Store.keeps {file : Bytes} {space : SpaceAllocator} (h : Store file space rows other) {r : Row} (hr : r ∈ rows)
    {b : Bytes} (hb : b.length = r.2.getDiskSize) : KeepsBytes other file (wr file r.1 b) := by
  intro x c hx hc
  exact wr_frame hc fun hh => h.apart r hr x ⟨hh.1, by rw [← hb]; exact hh.2⟩ hx

theorem Rep.shiftRedirects_from (d start : Nat) (diff : Int) (skip : List String) (n : Nat) :
    ∀ (k : Nat) (z : Zim) (rows : List Row), Rep z rows other → k + n = rows.length →
    ∃ r z', shiftRedirects (fun e => writeEntry (d + 1) e true true) start diff skip (List.range' k n) z = (r, z') ∧
      (r = .ok () → ∃ file arts, z' = { z with file := file, articles := arts } ∧
        Rep z' (shFrom start diff skip k rows) other ∧ KeepsBytes other z.file file ∧
        (∀ S, Art z.articles rows S → Art arts (shFrom start diff skip k rows) S) ∧
        (∀ (i : Nat) row v, k ≤ i → rows[i]? = some row → Shifts start diff skip row v → 0 ≤ v ∧ v < rows.length)) ∧
      (∀ S, Art z.articles rows S →
        (∀ (i : Nat) row v, k ≤ i → rows[i]? = some row → Shifts start diff skip row v →
          0 ≤ v ∧ v < rows.length ∧ v ≠ row.1 ∧ v < 2 ^ 32) → r = .ok ()) := by
  induction n with
  | zero =>
    intro k z rows h hk
    have : k = rows.length := by omega
    subst this
    refine ⟨.ok (), z, rfl, fun _ => ⟨z.file, z.articles, rfl, ?_, KeepsBytes.refl _ _, ?_, ?_⟩, fun _ _ _ => rfl⟩
    · rw [shFrom_end]; exact h
    · intro S hA; rw [shFrom_end]; exact hA
    · intro i row v hi hrow
      rw [List.getElem?_eq_none hi] at hrow; cases hrow
  | succ n ih =>
    intro k z rows h hk
    have hkl : k < rows.length := by omega
    have hrow := List.getElem?_eq_getElem hkl
    cases hre : rows[k] with
    | mk o e =>
    rw [hre] at hrow
    have hmem := List.mem_of_getElem? hrow
    have hc : e.Clean := h.store.clean _ hmem
    rw [List.range'_succ, shiftRedirects, PyM.get_bind, h.getByIndex hrow, PyM.lift_ok_bind, h.entryAt hmem,
      PyM.lift_ok_bind]
    -- going on without a change
    have hskip : (∀ v, ¬ Shifts start diff skip (o, e) v) →
        ∃ r z', shiftRedirects (fun e => writeEntry (d + 1) e true true) start diff skip (List.range' (k + 1) n) z =
          (r, z') ∧
          (r = .ok () → ∃ file arts, z' = { z with file := file, articles := arts } ∧
            Rep z' (shFrom start diff skip k rows) other ∧ KeepsBytes other z.file file ∧
            (∀ S, Art z.articles rows S → Art arts (shFrom start diff skip k rows) S) ∧
            (∀ (i : Nat) row v, k ≤ i → rows[i]? = some row → Shifts start diff skip row v → 0 ≤ v ∧ v < rows.length)) ∧
          (∀ S, Art z.articles rows S →
            (∀ (i : Nat) row v, k ≤ i → rows[i]? = some row → Shifts start diff skip row v →
              0 ≤ v ∧ v < rows.length ∧ v ≠ row.1 ∧ v < 2 ^ 32) → r = .ok ()) := by
      intro hno
      obtain ⟨r, z', h1, h2, h3⟩ := ih (k + 1) z rows h (by omega)
      refine ⟨r, z', h1, ?_, ?_⟩
      · intro hr
        obtain ⟨file, arts, h4, h5, h6, h7, h8⟩ := h2 hr
        rw [shFrom_skip _ _ _ hrow (sh_of_not_shifts hno)]
        refine ⟨file, arts, h4, h5, h6, h7, ?_⟩
        intro i row v hi hi' hsv
        by_cases hik : i = k
        · subst hik; rw [hrow] at hi'; cases hi'; exact absurd hsv (hno v)
        · exact h8 i row v (by omega) hi' hsv
      · intro S hA hcond
        exact h3 S hA (fun i row v hi => hcond i row v (by omega))
    by_cases hcond : e.isRedirect = true ∧ e.fullUrl ∉ skip
    · rw [if_pos hcond]
      obtain ⟨i, hki⟩ := hc.isRedirect.1 hcond.1
      rw [hki]
      simp only
      by_cases hst : start ≤ i
      · rw [if_pos hst]
        have hsv : Shifts start diff skip (o, e) (i + diff) := ⟨i, hki, hcond.2, hst, rfl⟩
        by_cases hneg : (i : Int) + diff < 0
        · rw [Entry.setRedirect_neg hki hneg, PyM.lift_err_bind]
          refine ⟨_, _, rfl, fun hh => (by cases hh), fun S hA hcond' => ?_⟩
          have := (hcond' k _ _ (Nat.le_refl _) hrow hsv).1
          omega
        · obtain ⟨e1, he1, hf1, hold1, hu1, hs1, hp1, hk1, hfo1, hns1⟩ := hc.setRedirect hki (v := i + diff) (by omega)
          have hget := h.urlsGet hrow
          rw [he1, PyM.lift_ok_bind, hget, PyM.lift_ok_bind]
          by_cases hoff : (i : Int) + diff = o
          · have : decide ((i : Int) + diff ≠ (o : Int)) = false := by simp [hoff]
            rw [this, PyM.require_false_bind]
            refine ⟨_, _, rfl, fun hh => (by cases hh), fun S hA hcond' => ?_⟩
            have := (hcond' k _ _ (Nat.le_refl _) hrow hsv).2.2.1
            exact absurd hoff this
          · have : decide ((i : Int) + diff ≠ (o : Int)) = true := by simp [hoff]
            rw [this, PyM.require_true_bind]
            obtain ⟨r, z', h1, h2, h3⟩ := h.writeEntry_inplace hrow hold1 hu1 hs1 hp1 d true true
            cases r with
            | error x =>
              refine ⟨.error x, z', PyM.bind_err h1, fun hh => (by cases hh), fun S hA hcond' => ?_⟩
              obtain ⟨c1, c2, c3, c4⟩ := hcond' k _ _ (Nat.le_refl _) hrow hsv
              have hcl : e1.fresh.Clean := by
                rw [hf1]
                refine ⟨⟨hc.storable.ns, hc.storable.url, hc.storable.title, hc.storable.mimetype, ?_⟩, ?_,
                  ⟨fun _ => hc.kind.1 ⟨i, hki⟩, fun _ => ⟨_, rfl⟩⟩⟩
                · unfold Entry.withIndex; simp only; omega
                · rw [← hf1]; rfl
              obtain ⟨e', he'⟩ := h3 S hA (Entry.Proper.toBytes hcl) (fun i' hi' => by
                rw [hk1] at hi'; injection hi' with hi'; omega)
              cases he'
            | ok e' =>
              rw [PyM.bind_ok h1]
              obtain ⟨-, hrange, b, arts, hb, hz', hA'⟩ := h2 e' rfl
              have hclean := hp1.clean hb
              have hsh : shRow start diff skip (o, e) = (o, e1.fresh) := by
                unfold shRow; rw [sh_of_shifts hsv, hf1]
              have hrep : Rep z' (rows.set k (o, e1.fresh)) other := by
                rw [hz']
                exact h.setRow hrow hclean (by rw [Entry.fresh_toBytes]; exact hb) hs1 hu1 arts
              have hkeep : KeepsBytes other z.file (wr z.file o b) :=
                h.store.keeps hmem (by rw [Entry.size_eq _ _ hb, hs1])
              have hart : ∀ S, Art z.articles rows S → Art z'.articles (rows.set k (o, e1.fresh)) S := by
                intro S hA
                rw [hz']
                refine (hA' S hA).congr (mark_self hold1 hfo1 fun hS => ?_)
                rw [hns1]
                exact hA.inC _ hmem (by rw [← hu1]; exact hS)
              have hv : 0 ≤ (i : Int) + diff ∧ (i : Int) + diff < rows.length := by
                have := hrange _ hk1; omega
              obtain ⟨r2, z2, g1, g2, g3⟩ := ih (k + 1) z' (rows.set k (o, e1.fresh)) hrep (by simp; omega)
              refine ⟨r2, z2, g1, ?_, ?_⟩
              · intro hr
                obtain ⟨file, arts2, h4, h5, h6, h7, h8⟩ := g2 hr
                rw [shFrom_step _ _ _ hrow, hsh]
                refine ⟨file, arts2, by rw [h4, hz'], h5, ?_, fun S hA => h7 S (hart S hA), ?_⟩
                · rw [hz'] at h6
                  exact hkeep.trans h6
                · intro i' row v hi hi' hsv'
                  by_cases hik : i' = k
                  · subst hik; rw [hrow] at hi'; cases hi'
                    obtain ⟨r', hr', -, -, rfl⟩ := hsv'
                    simp only at hr'
                    rw [hki] at hr'; injection hr' with hr'; subst hr'
                    exact hv
                  · have := h8 i' row v (by omega) (by rw [List.getElem?_set_ne (by omega)]; exact hi') hsv'
                    simpa using this
              · intro S hA hcond'
                refine g3 S (hart S hA) fun i' row v hi hi' hsv' => ?_
                rw [List.getElem?_set_ne (by omega)] at hi'
                have := hcond' i' row v (by omega) hi' hsv'
                simpa using this
      · rw [if_neg hst]
        refine hskip fun v hv => ?_
        obtain ⟨r', hr', -, hle, -⟩ := hv
        simp only at hr'
        rw [hki] at hr'; injection hr' with hr'; omega
    · rw [if_neg hcond]
      refine hskip fun v hv => ?_
      obtain ⟨r', hr', hsk, hle, -⟩ := hv
      exact hcond ⟨hc.isRedirect.2 ⟨r', hr'⟩, hsk⟩

end Zim
end Pyzim
