import Verif.Lemmas.CreatorCore
import Verif.Props.OperationBuffer

/-!
# An archive filled by strategies: redirects
-/

namespace Pyzim
open Zim (Row Stored Clustered Works Lists Art MimesIn Mirrored catalogue marked Redirect Leads Once catalogue_snoc
  catalogue_other)
open SpaceAllocator (InBlock)

variable {D K : Type} {X : Codecs D} {C : Compressors K} {ML : List Bytes} {reserve : Option Nat} {a a' : Archive}
  {G G' : List (List Sourced)} {rows : List Row} {cs : List Stored} {extra : Nat → Prop} {es : List Entry} {L : Bytes}
  {m0 : Catalogue} {R B : List Redirect} {r : Redirect} {d : Nat} {Z' : Zim}

theorem Core.buffer (h : Core gh mp X C ML reserve a G rows cs extra es L m0 R B) (B' : List Redirect) :
    Core gh mp X C ML reserve { a with zim := a.zim.withBuffer B' } G rows cs extra es L m0 R B' := by
  obtain ⟨rows', hl⟩ := h.laid.works (O := ClusterObj.ops X C) (.step .refl (.buffer B' a.zim.bufferedMainpage))
  have hr : rows' = rows := (Zim.Rep.unique (h.laid.content.rep.withBuffer B') hl.content.rep)
  subst hr
  exact ⟨hl, h.first, h.entries, h.other, h.lists, h.art, h.mimes, rfl, h.mainpage, h.listed, h.shown, h.only,
    fun r hr hO => ⟨(h.leads r hr hO).leads, (h.leads r hr hO).title⟩⟩

/-- the same with the main page -/
theorem Core.bufferMain (h : Core gh mp X C ML reserve a G rows cs extra es L m0 R B) (m : Option (Option String)) :
    Core gh m X C ML reserve { a with zim := { a.zim with bufferedMainpage := m } } G rows cs extra es L m0 R B := by
  obtain ⟨rows', hl⟩ := h.laid.works (O := ClusterObj.ops X C) (.step .refl (.buffer a.zim.bufferedRedirects m))
  have hrep := h.laid.content.rep
  have hr : rows' = rows := Zim.Rep.unique (z := { a.zim with bufferedMainpage := m }) ⟨hrep.store, hrep.sorted, hrep.urls, hrep.urlsMutable, hrep.isOpen, hrep.isMutable,
    hrep.noTitles, hrep.headerMutable⟩ hl.content.rep
  subst hr
  exact ⟨hl, h.first, h.entries, h.other, h.lists, h.art, h.mimes, h.redirects, rfl, h.listed, h.shown, h.only,
    fun r hr hO => ⟨(h.leads r hr hO).leads, (h.leads r hr hO).title⟩⟩

/-- writing an entry with another url first -/
theorem catalogue_write (m0 : Catalogue) {es : List Entry} {e : Entry} (hu : e.fullUrl ∉ es.map Entry.fullUrl) :
    catalogue (m0.write e (some e.fullUrl)) es = (catalogue m0 es).write e (some e.fullUrl) := by
  induction es using snoc_induction with
  | h0 => rfl
  | h1 es x ih =>
    rw [List.map_append, List.mem_append, not_or] at hu
    have hx : ¬ e.fullUrl = x.fullUrl := by simpa using hu.2
    rw [catalogue_snoc, catalogue_snoc, ih hu.1]
    funext u
    unfold Catalogue.write
    by_cases h1 : u = x.fullUrl
    · have h2 : ¬ u = e.fullUrl := fun h => hx (h.symm.trans h1)
      simp only [if_pos h1, if_neg h2, Option.some.injEq]
    · by_cases h2 : u = e.fullUrl
      · simp only [if_neg h1, if_pos h2, Option.some.injEq]
      · simp only [if_neg h1, if_neg h2, Option.some.injEq]

theorem marked_other {es : List Entry} {u : String} (hu : u ∉ es.map Entry.fullUrl) : ¬ marked (fun _ => False) es u := by
  induction es using snoc_induction with
  | h0 => exact id
  | h1 es x ih =>
    rw [List.map_append, List.mem_append, not_or] at hu
    have hx : ¬ u = x.fullUrl := by simpa using hu.2
    unfold marked
    rw [List.foldl_append]
    rintro (h | h)
    · exact ih hu.1 h.1
    · exact hx h.1

theorem made_shown {r : Redirect} {c : Char} {url : String} (hs : r.1 = String.singleton c ++ url) (i : Nat) (q : Entry) :
    r.Shown (r.made c url i q).view := by
  refine ⟨rfl, hs.symm, fun t ht => ?_⟩
  unfold Redirect.made
  rw [ht]
  rfl

/-- What a call of `add_full_url_redirect` does if the target exists: the redirect is written. -/
theorem Core.redirect_found (h : Core gh mp X C ML reserve a G rows cs extra es L m0 R B) (hv : r.Valid)
    (hes : r.1 ∉ es.map Entry.fullUrl) (hm0 : m0 r.1 = none) (ht : Zim.HasUrl rows r.2.1)
    (hok : Zim.addFullUrlRedirect d r.1 r.2.1 r.2.2 a.zim = (.ok (), Z')) :
    ∃ rows' m0', Core gh mp X C ML reserve { a with zim := Z' } G rows' cs extra es L m0' (R ++ [r]) B ∧
      Z'.mimetypes = a.zim.mimetypes ∧ (∀ u, u ≠ r.1 → m0' u = m0 u) ∧
      Onward reserve (· = r.1) a rows cs extra es { a with zim := Z' } rows' cs es := by
  have hrep := h.laid.content.rep
  obtain ⟨q, hq, hqu⟩ := ht
  obtain ⟨i, hi⟩ := List.getElem?_of_mem hq
  obtain ⟨c, url, hs, -, hu⟩ := hv.source
  rw [hrep.addRedirect_found hv hi hqu hs] at hok
  obtain ⟨e', z1, hw, hz⟩ := PyM.bind_ok_iff.1 hok
  injection hz with _ hz
  subst hz
  generalize hx : r.made c url i q.2 = x at hw
  have hxu : x.fullUrl = r.1 := by rw [hs, ← hx]; rfl
  have hxo : x.oldFullUrl = some x.fullUrl := by rw [← hx]; rfl
  have hp : x.Proper := by rw [← hx]; exact hv.made_proper hu (hrep.store.clean q hq)
  have hA : Zim.Accepts a.zim x := ⟨hp, fun _ => hxo⟩
  have hno : ¬ Zim.HasUrl rows r.1 := by
    rintro ⟨q', hq', hqu'⟩
    have := (h.lists r.1 q'.2.view).2 ⟨q', hq', hqu', rfl⟩
    rw [catalogue_other m0 hes, hm0] at this
    cases this
  obtain ⟨old, rows', f, hold, hwr, hrep', hfr, -, -, -, hart⟩ := hrep.writeEntry_ok hp (fun _ => hxo) hw
  have ho : old = x.fullUrl := by
    rw [hxo] at hold
    injection hold with hold
    exact hold.symm
  obtain ⟨-, -, hk⟩ := h.laid.toParts.works (O := ClusterObj.ops X C) (.step .refl (.entry hA hw))
  obtain ⟨rows'', hl⟩ := h.laid.works (O := ClusterObj.ops X C) (.step .refl (.entry hA hw))
  have hr : rows'' = rows' := (Zim.Rep.unique hrep' hl.content.rep)
  subst hr
  have hcat : catalogue (m0.write x (some x.fullUrl)) es = (catalogue m0 es).write x (some x.fullUrl) :=
    catalogue_write m0 (by rw [hxu]; exact hes)
  have hm0' : ∀ u, u ≠ r.1 → (m0.write x (some x.fullUrl)) u = m0 u := by
    intro u hu
    unfold Catalogue.write
    rw [if_neg (by rw [hxu]; exact hu), if_neg (by rw [hxu]; simpa using hu)]
  have hself : (m0.write x (some x.fullUrl)) r.1 = some x.view := by
    unfold Catalogue.write
    rw [if_pos hxu.symm]
  have hR : ∀ r' ∈ R, r'.1 ≠ r.1 := by
    intro r' hr' he
    obtain ⟨v, hv', -⟩ := h.shown r' hr'
    rw [he, hm0] at hv'
    cases hv'
  refine ⟨rows'', m0.write x (some x.fullUrl), ⟨hl, h.first, ?_, h.other, ?_, ?_, ?_, hfr.redirects.trans h.redirects,
    hfr.mainpage.trans h.mainpage, ?_, ?_, ?_, ?_⟩, hfr.mimetypes, hm0', ⟨[], by simp⟩, List.prefix_rfl, ?_, hk.bytes, ?_, ?_,
    by show _ <+: z1.mimetypes.mimetypes; rw [hfr.mimetypes]; exact List.prefix_rfl⟩
  · show List.Forall₂ (fun (s : Item × Nat × Nat) e => EntryFor z1.mimetypes s.1 s.2.1 s.2.2 e) _ _
    rw [hfr.mimetypes]; exact h.entries
  · rw [hcat]
    refine Lists.write h.lists (Zim.distinct_of_sorted hrep'.sorted) ?_
    rw [← ho]
    exact hwr.written hrep.store.clean (Zim.distinct_of_sorted hrep.sorted)
  · have := hart _ h.art
    have hs : (fun u => (marked (fun _ => False) es u ∧ u ≠ x.fullUrl ∧ u ≠ old) ∨
        (u = x.fullUrl ∧ true = true ∧ Zim.asArticle x (marked (fun _ => False) es))) = marked (fun _ => False) es := by
      funext u
      have hmk := marked_other hes
      have hna : ¬ Zim.asArticle x (marked (fun _ => False) es) := by
        rw [← hx]
        rintro ⟨-, u', hu', hm'⟩
        injection hu' with hu'
        rw [← hu'] at hm'
        exact hmk (by rw [hs]; exact hm')
      apply propext
      constructor
      · rintro (h | h)
        · exact h.1
        · exact absurd h.2.2 hna
      · intro hm
        have : u ≠ x.fullUrl := by
          rw [hxu]
          rintro rfl
          exact hmk hm
        exact .inl ⟨hm, this, by rw [ho]; exact this⟩
    rw [hs] at this
    exact this
  · show MimesIn ML z1.mimetypes
    rw [hfr.mimetypes]; exact h.mimes
  · intro hd
    have := Zim.keeps_writeEntry a.zim.articles d x true true a.zim (Or.inl rfl)
    rw [hw] at this
    rcases this with e | e
    · simp only at hd e ⊢
      rw [e] at hd ⊢
      exact h.listed hd
    · simp only at hd e
      rw [e] at hd; cases hd
  · intro r' hr'
    rcases List.mem_append.1 hr' with hr' | hr'
    · obtain ⟨v, k1, k2⟩ := h.shown r' hr'
      exact ⟨v, by rw [hm0' _ (hR r' hr')]; exact k1, k2⟩
    · rw [List.mem_singleton] at hr'
      rw [hr']
      exact ⟨_, hself, by rw [← hx]; exact made_shown hs i q.2⟩
  · intro u v huv
    by_cases hur : u = r.1
    · exact ⟨r, by simp, hur.symm⟩
    · rw [hm0' u hur] at huv
      obtain ⟨r', hr', e⟩ := h.only u v huv
      exact ⟨r', List.mem_append_left _ hr', e⟩
  · intro r' hr' hO
    rw [hcat]
    have hcu : ∀ u, u ≠ r.1 → (catalogue m0 es).write x (some x.fullUrl) u = catalogue m0 es u := by
      intro u hu
      unfold Catalogue.write
      rw [if_neg (by rw [hxu]; exact hu), if_neg (by rw [hxu]; simpa using hu)]
    have hcr : (catalogue m0 es).write x (some x.fullUrl) r.1 = some x.view := by
      unfold Catalogue.write
      rw [if_pos hxu.symm]
    rcases List.mem_append.1 hr' with hr' | hr'
    · have hO' : Once m0 es r'.1 r'.2.1 := ⟨hO.source, hO.target, fun hne => by
        by_cases he : r'.2.1 = r.1
        · rw [he]; exact hes
        · exact hO.new (by rw [hm0' _ he]; exact hne)⟩
      have h1 := h.leads r' hr' hO'
      have h2 := hrep.leads_iff.1 h1.leads
      have h3 : r'.2.1 ≠ r.1 := by
        intro he
        obtain ⟨_, _, _, _, q', _, hq', hqu'⟩ := h2
        exact hno ⟨q', List.mem_of_getElem? hq', by rw [hqu', he]⟩
      refine ⟨Zim.C34_write_other_partial ⟨rows, _, hrep⟩ hA hw h1.leads ?_ ?_, fun hn => ?_⟩
      · rw [hxo, hxu]; simpa using hR r' hr'
      · rw [hxo, hxu]; simpa using h3
      · obtain ⟨v, w, k1, k2, k3⟩ := h1.title hn
        exact ⟨v, w, by rw [hcu _ (hR r' hr')]; exact k1, by rw [hcu _ h3]; exact k2, k3⟩
    · rw [List.mem_singleton] at hr'
      subst hr'
      refine ⟨hrep'.leads_iff.2 ?_, fun hn => ?_⟩
      · have := hwr.leads_self (Zim.distinct_of_sorted hrep.sorted) (Or.inl (by rw [ho, hxu]; exact hno)) (i := i)
          (by rw [← hx]; rfl) hi
        rwa [hxu, hqu] at this
      · refine ⟨x.view, q.2.view, hcr, ?_, ?_⟩
        · rw [hcu _ (Ne.symm hv.noLoop)]
          exact (h.lists _ _).2 ⟨q, hq, hqu, rfl⟩
        · rw [← hx]
          unfold Redirect.made
          rw [hn]
          rfl
  · refine (hwr.stays hrep.store.clean (Zim.distinct_of_sorted hrep.sorted)).mono fun u hu => .inl ?_
    rw [ho, or_self, hxu] at hu
    exact hu
  · funext x
    unfold restOf
    rw [Archive.fixed_kept hk]
  · have := Zim.long_writeEntry a.zim.file.length d x true true a.zim (Nat.le_refl _)
    rw [hw] at this
    exact this

/-- What a call of `add_full_url_redirect` does: the redirect is buffered or written. -/
theorem Core.redirect (h : Core gh mp X C ML reserve a G rows cs extra es L m0 R B) (hv : r.Valid)
    (hes : r.1 ∉ es.map Entry.fullUrl) (hm0 : m0 r.1 = none)
    (hok : Zim.addFullUrlRedirect d r.1 r.2.1 r.2.2 a.zim = (.ok (), Z')) :
    (Core gh mp X C ML reserve { a with zim := Z' } G rows cs extra es L m0 R (B ++ [r]) ∧ Z'.mimetypes = a.zim.mimetypes ∧
      Onward reserve (· = r.1) a rows cs extra es { a with zim := Z' } rows cs es) ∨
    ∃ rows' m0', Core gh mp X C ML reserve { a with zim := Z' } G rows' cs extra es L m0' (R ++ [r]) B ∧
      Z'.mimetypes = a.zim.mimetypes ∧ (∀ u, u ≠ r.1 → m0' u = m0 u) ∧
      Onward reserve (· = r.1) a rows cs extra es { a with zim := Z' } rows' cs es := by
  have hrep := h.laid.content.rep
  by_cases ht : Zim.HasUrl rows r.2.1
  · exact .inr (h.redirect_found hv hes hm0 ht hok)
  · refine .inl ?_
    rw [hrep.addRedirect_missing hv ht] at hok
    injection hok with _ hok
    rw [← hok, h.redirects]
    exact ⟨h.buffer (B ++ [r]), rfl, ⟨[], by simp⟩, List.prefix_rfl, Zim.Stays.refl _ _, Zim.KeepsBytes.refl _ _, rfl,
      Nat.le_refl _, List.prefix_rfl⟩

/-- redirects with new sources -/
structure NewSources (es : List Entry) (m0 : Catalogue) (B : List Redirect) : Prop where
  valid : ∀ r ∈ B, Redirect.Valid r
  nodup : (B.map (·.1)).Nodup
  entries : ∀ r ∈ B, r.1 ∉ es.map Entry.fullUrl
  redirects : ∀ r ∈ B, m0 r.1 = none

theorem NewSources.tail {es : List Entry} {m0 m0' : Catalogue} {r : Redirect} {B : List Redirect} (h : NewSources es m0 (r :: B))
    (hm : ∀ u, u ≠ r.1 → m0' u = m0 u) : NewSources es m0' B := by
  have hn := h.nodup
  rw [List.map_cons, List.nodup_cons] at hn
  refine ⟨fun r hr => h.valid r (by simp [hr]), hn.2, fun r hr => h.entries r (by simp [hr]), fun r' hr' => ?_⟩
  rw [hm]
  · exact h.redirects r' (by simp [hr'])
  · intro he
    exact hn.1 (by rw [← he]; exact List.mem_map_of_mem hr')

/-- one pass over buffered redirects -/
theorem Core.addBuffered (Q : List Redirect) : ∀ {a : Archive} {rows : List Row} {m0 : Catalogue} {R B : List Redirect} {Z' : Zim},
    Core gh mp X C ML reserve a G rows cs extra es L m0 R B → NewSources es m0 Q → Zim.addBuffered d Q a.zim = (.ok (), Z') →
    ∃ rows' m0' R' U, Core gh mp X C ML reserve { a with zim := Z' } G rows' cs extra es L m0' (R ++ R') (B ++ U) ∧
      Z'.mimetypes = a.zim.mimetypes ∧ (R' ++ U).Perm Q ∧ U.Sublist Q ∧ ∀ u, u ∉ R'.map (·.1) → m0' u = m0 u := by
  induction Q with
  | nil =>
    intro a rows m0 R B Z' h _ hok
    injection hok with _ hok
    subst hok
    exact ⟨rows, m0, [], [], by simpa using h, rfl, .nil, .slnil, fun _ _ => rfl⟩
  | cons r Q ih =>
    intro a rows m0 R B Z' h hn hok
    obtain ⟨⟨⟩, Z1, h1, h2⟩ := PyM.bind_ok_iff.1 hok
    rcases h.redirect (hn.valid r (by simp)) (hn.entries r (by simp)) (hn.redirects r (by simp)) h1 with
      ⟨k1, k2, -⟩ | ⟨rows1, m1, k1, k2, k3, -⟩
    · obtain ⟨rows', m0', R', U, g1, g2, g3, g4, g5⟩ := ih k1 (hn.tail fun _ _ => rfl) h2
      refine ⟨rows', m0', R', r :: U, by simpa using g1, g2.trans k2, ?_, g4.cons_cons _, g5⟩
      exact List.perm_middle.trans (g3.cons _)
    · obtain ⟨rows', m0', R', U, g1, g2, g3, g4, g5⟩ := ih k1 (hn.tail k3) h2
      refine ⟨rows', m0', r :: R', U, by simpa using g1, g2.trans k2, g3.cons _, g4.cons _, ?_⟩
      intro u hu
      rw [List.map_cons, List.mem_cons, not_or] at hu
      rw [g5 u hu.2, k3 u hu.1]

theorem Core.redirectLoop (p : Nat) : ∀ {a : Archive} {rows : List Row} {m0 : Catalogue} {R B : List Redirect} {Z' : Zim},
    Core gh mp X C ML reserve a G rows cs extra es L m0 R B → NewSources es m0 B → Zim.redirectLoop d p a.zim = (.ok (), Z') →
    ∃ rows' m0' R' U, Core gh mp X C ML reserve { a with zim := Z' } G rows' cs extra es L m0' (R ++ R') U ∧
      Z'.mimetypes = a.zim.mimetypes ∧ (R' ++ U).Perm B := by
  induction p with
  | zero => intro a rows m0 R B Z' _ _ hok; cases hok
  | succ p ih =>
    intro a rows m0 R B Z' h hn hok
    rw [Zim.redirectLoop_succ] at hok
    obtain ⟨⟨⟩, Z1, h1, h2⟩ := PyM.bind_ok_iff.1 hok
    rw [h.redirects] at h1
    obtain ⟨rows1, m1, R1, U1, g1, g2, g3, g4, g5⟩ := Core.addBuffered B (h.buffer []) hn h1
    rw [List.nil_append] at g1
    rw [PyM.get_bind] at h2
    split at h2
    · have hsub : ∀ r, r ∈ U1 → r ∈ B := fun r hr => g4.subset hr
      obtain ⟨rows', m0', R', U, k1, k2, k3⟩ := ih (Z' := Z') g1 ⟨fun r hr => hn.valid r (hsub r hr), hn.nodup.sublist (g4.map _),
        fun r hr => hn.entries r (hsub r hr), fun r hr => by
          rw [g5]
          · exact hn.redirects r (hsub r hr)
          · intro hm
            have := (g3.map (·.1)).nodup_iff.2 hn.nodup
            rw [List.map_append, List.nodup_append] at this
            exact this.2.2 _ hm _ (List.mem_map_of_mem hr) rfl⟩ h2
      refine ⟨rows', m0', R1 ++ R', U, by rw [← List.append_assoc]; exact k1, k2.trans g2, ?_⟩
      rw [List.append_assoc]
      exact (k3.append_left _).trans g3
    · injection h2 with _ h2
      subst h2
      exact ⟨rows1, m1, R1, U1, g1, g2, g3⟩

/-- buffered redirects are written -/
theorem Core.finalize (h : Core gh none X C ML reserve a G rows cs extra es L m0 R B) (hn : NewSources es m0 B)
    {blob : Entry → PyM Zim Unit} {passes : Nat}
    (hok : Zim.finalizeOperations blob d passes a.zim = (.ok (), Z')) :
    ∃ rows' m0' R', Core gh none X C ML reserve { a with zim := Z' } G rows' cs extra es L m0' (R ++ R') [] ∧
      Z'.mimetypes = a.zim.mimetypes ∧ R'.Perm B := by
  unfold Zim.finalizeOperations at hok
  obtain ⟨⟨⟩, Z1, h1, h2⟩ := PyM.bind_ok_iff.1 hok
  unfold Zim.applyRedirects at h1
  obtain ⟨⟨⟩, Z2, h3, h4⟩ := PyM.bind_ok_iff.1 h1
  rw [PyM.get_bind] at h4
  obtain ⟨rows', m0', R', U, g1, g2, g3⟩ := Core.redirectLoop passes h hn h3
  have hU : Z2.bufferedRedirects = U := g1.redirects
  unfold PyM.require at h4
  split at h4
  · rename_i hlen
    rw [hU, decide_eq_true_eq, List.length_eq_zero_iff] at hlen
    injection h4 with _ h4
    subst h4
    unfold Zim.applySetMainpageUrl at h2
    rw [PyM.get_bind, show Z2.bufferedMainpage = none from g1.mainpage] at h2
    injection h2 with _ h2
    subst h2
    subst hlen
    exact ⟨rows', m0', R', g1, g2, by simpa using g3⟩
  · cases h4

end Pyzim
