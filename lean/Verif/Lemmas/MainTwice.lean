import Verif.Lemmas.MainSaved

/-!
# Redirects that replace the one to the main page while an archive is being filled
-/

namespace Pyzim
open Zim Creator

namespace Zim
variable {rows rows' : List Row} {e : Entry} {old : String} {upd : Bool} {f : Header → Header}

/-- a rewritten redirect leads to the entry whose index it was given, if this comes before it -/
theorem Wrote.leads_again (hs : rows.Pairwise (fun r s => encode r.2.fullUrl < encode s.2.fullUrl)) (h : Wrote rows e old upd rows' f)
    (ho : old = e.fullUrl) {i : Nat} {q : Row} (hi : e.kind = .redirect i) (hq : rows[i]? = some q)
    (hlt : encode q.2.fullUrl < encode e.fullUrl) : LeadsR rows' e.fullUrl q.2.fullUrl := by
  have hd := distinct_of_sorted hs
  have h0 := h
  cases h with
  | new n off hno hnu hn hin hr =>
    exact h0.leads_self hd (.inl (by rintro ⟨r, hr, hru⟩; exact hno r hr hru)) hi hq
  | same k o e0 hk ho' hu hsz hir =>
    exact h0.leads_self hd (.inr ⟨_, List.mem_of_getElem? hk, hu.symm, hsz.symm⟩) hi hq
  | moved k o e0 n off us hk ho' hch hn hus hin hr1 hr2 hr3 =>
    have hu0 : e0.fullUrl = e.fullUrl := ho'.symm.trans ho
    have hik : i < k := by
      obtain ⟨hi', hqe⟩ := List.getElem?_eq_some_iff.1 hq
      obtain ⟨hk', hke⟩ := List.getElem?_eq_some_iff.1 hk
      rcases Nat.lt_trichotomy i k with h | h | h
      · exact h
      · exfalso
        subst h
        rw [hk] at hq
        injection hq with hq
        rw [← hq] at hlt
        simp only [hu0] at hlt
        exact absurd hlt (Std.lt_irrefl)
      · exfalso
        have := List.pairwise_iff_getElem.1 hs k i hk' hi' h
        rw [hqe, hke] at this
        simp only [hu0] at this
        exact Std.lt_irrefl (Std.lt_trans hlt this)
    have hq1 : (erased rows k)[i]? = some (shRow k (-1) [] q) := by
      unfold erased
      rw [List.getElem?_map, List.getElem?_eraseIdx_of_lt hik, hq]
      rfl
    have h1 := leads_inserted_self (off := off) hn.le hi hq1
    rw [shRow_fullUrl] at h1
    have hus' : us = [] := by
      rw [hus, if_neg]
      simp [hu0]
    unfold retargeted
    rw [hus']
    split
    · exact leads_rtRow (by simp) h1
    · exact h1

end Zim

variable {D K : Type} {X : Codecs D} {C : Compressors K} {ML : List Bytes} {reserve : Option Nat} {a a' : Archive} {G : List (List Sourced)} {rows : List Row} {cs : List Stored}
  {extra : Nat → Prop} {es : List Entry} {L : Bytes} {m0 : Catalogue} {R B rs l : List Redirect} {r : Redirect} {Z' : Zim} {w : String}
variable {S : Setup D K} {md5 : Bytes → Bytes} {items : List Sourced} {c c' : Creator D} {d : Nat} {u : String}

/-- A redirect that replaces another one. -/
theorem Core.redirect_again (h : Core gh mp X C ML reserve a G rows cs extra es L m0 R B) (hv : r.Valid)
    (hes : r.1 ∉ es.map Entry.fullUrl) (hT : ∀ r' ∈ R, r'.2.1 ≠ r.1) (hlt : encode r.2.1 < encode r.1) (ht : Zim.HasUrl rows r.2.1)
    (hok : Zim.addFullUrlRedirect d r.1 r.2.1 r.2.2 a.zim = (.ok (), Z')) :
    ∃ rows' m0', Core gh mp X C ML reserve { a with zim := Z' } G rows' cs extra es L m0' (R.filter (·.1 ≠ r.1) ++ [r]) B ∧
      Z'.mimetypes = a.zim.mimetypes := by
  have hrep := h.laid.content.rep
  obtain ⟨q, hq, hqu⟩ := ht
  obtain ⟨i, hi⟩ := List.getElem?_of_mem hq
  obtain ⟨c, url, hs, -, hu⟩ := hv.source
  rw [hrep.addRedirect_found hv hi hqu hs] at hok
  obtain ⟨e', z1, hw, hz⟩ := PyM.bind_ok_iff.1 hok
  injection hz with _ hz
  subst hz
  generalize hx : r.made c url i q.2 = x at hw
  have hxu : x.fullUrl = r.1 := by rw [hs, ← hx]; rfl
  have hxo : x.oldFullUrl = some x.fullUrl := by rw [← hx]; rfl
  have hp : x.Proper := by rw [← hx]; exact hv.made_proper hu (hrep.store.clean q hq)
  have hA : Zim.Accepts a.zim x := ⟨hp, fun _ => hxo⟩
  obtain ⟨old, rows', f, hold, hwr, hrep', hfr, -, -, -, hart⟩ := hrep.writeEntry_ok hp (fun _ => hxo) hw
  have ho : old = x.fullUrl := by
    rw [hxo] at hold
    injection hold with hold
    exact hold.symm
  obtain ⟨rows'', hl⟩ := h.laid.works (O := ClusterObj.ops X C) (.step .refl (.entry hA hw))
  have hr : rows'' = rows' := (Zim.Rep.unique hrep' hl.content.rep)
  subst hr
  have hcat : catalogue (m0.write x (some x.fullUrl)) es = (catalogue m0 es).write x (some x.fullUrl) :=
    catalogue_write m0 (by rw [hxu]; exact hes)
  have hm0' : ∀ u, u ≠ r.1 → (m0.write x (some x.fullUrl)) u = m0 u := by
    intro u hu
    unfold Catalogue.write
    rw [if_neg (by rw [hxu]; exact hu), if_neg (by rw [hxu]; simpa using hu)]
  have hself : (m0.write x (some x.fullUrl)) r.1 = some x.view := by
    unfold Catalogue.write
    rw [if_pos hxu.symm]
  have hR : ∀ r' ∈ R.filter (·.1 ≠ r.1), r' ∈ R ∧ r'.1 ≠ r.1 := by
    intro r' hr'
    have := List.mem_filter.1 hr'
    exact ⟨this.1, by simpa using this.2⟩
  refine ⟨rows'', m0.write x (some x.fullUrl), ⟨hl, h.first, ?_, h.other, ?_, ?_, ?_, hfr.redirects.trans h.redirects,
    hfr.mainpage.trans h.mainpage, ?_, ?_, ?_, ?_⟩, hfr.mimetypes⟩
  · show List.Forall₂ (fun (s : Item × Nat × Nat) e => EntryFor z1.mimetypes s.1 s.2.1 s.2.2 e) _ _
    rw [hfr.mimetypes]; exact h.entries
  · rw [hcat]
    refine Lists.write h.lists (Zim.distinct_of_sorted hrep'.sorted) ?_
    rw [← ho]
    exact hwr.written hrep.store.clean (Zim.distinct_of_sorted hrep.sorted)
  · have := hart _ h.art
    have hs : (fun u => (marked (fun _ => False) es u ∧ u ≠ x.fullUrl ∧ u ≠ old) ∨
        (u = x.fullUrl ∧ true = true ∧ Zim.asArticle x (marked (fun _ => False) es))) = marked (fun _ => False) es := by
      funext u
      have hmk := marked_other hes
      have hna : ¬ Zim.asArticle x (marked (fun _ => False) es) := by
        rw [← hx]
        rintro ⟨-, u', hu', hm'⟩
        injection hu' with hu'
        rw [← hu'] at hm'
        exact hmk (by rw [hs]; exact hm')
      apply propext
      constructor
      · rintro (h | h)
        · exact h.1
        · exact absurd h.2.2 hna
      · intro hm
        have : u ≠ x.fullUrl := by
          rw [hxu]
          rintro rfl
          exact hmk hm
        exact .inl ⟨hm, this, by rw [ho]; exact this⟩
    rw [hs] at this
    exact this
  · show MimesIn ML z1.mimetypes
    rw [hfr.mimetypes]; exact h.mimes
  · intro hd
    have := Zim.keeps_writeEntry a.zim.articles d x true true a.zim (Or.inl rfl)
    rw [hw] at this
    rcases this with e | e
    · simp only at hd e ⊢
      rw [e] at hd ⊢
      exact h.listed hd
    · simp only at hd e
      rw [e] at hd; cases hd
  · intro r' hr'
    rcases List.mem_append.1 hr' with hr' | hr'
    · obtain ⟨v, k1, k2⟩ := h.shown r' (hR r' hr').1
      exact ⟨v, by rw [hm0' _ (hR r' hr').2]; exact k1, k2⟩
    · rw [List.mem_singleton] at hr'
      rw [hr']
      exact ⟨_, hself, by rw [← hx]; exact made_shown hs i q.2⟩
  · intro u v huv
    by_cases hur : u = r.1
    · exact ⟨r, by simp, hur.symm⟩
    · rw [hm0' u hur] at huv
      obtain ⟨r', hr', e⟩ := h.only u v huv
      exact ⟨r', List.mem_append_left _ (List.mem_filter.2 ⟨hr', by simpa [e] using hur⟩), e⟩
  · intro r' hr' hO
    rw [hcat]
    have hcu : ∀ u, u ≠ r.1 → (catalogue m0 es).write x (some x.fullUrl) u = catalogue m0 es u := by
      intro u hu
      unfold Catalogue.write
      rw [if_neg (by rw [hxu]; exact hu), if_neg (by rw [hxu]; simpa using hu)]
    have hcr : (catalogue m0 es).write x (some x.fullUrl) r.1 = some x.view := by
      unfold Catalogue.write
      rw [if_pos hxu.symm]
    rcases List.mem_append.1 hr' with hr' | hr'
    · have hO' : Once m0 es r'.1 r'.2.1 := ⟨hO.source, hO.target, fun hne => by
        by_cases he : r'.2.1 = r.1
        · rw [he]; exact hes
        · exact hO.new (by rw [hm0' _ he]; exact hne)⟩
      have h1 := h.leads r' (hR r' hr').1 hO'
      have h3 : r'.2.1 ≠ r.1 := hT r' (hR r' hr').1
      refine ⟨Zim.C34_write_other_partial ⟨rows, _, hrep⟩ hA hw h1.leads ?_ ?_, fun hn => ?_⟩
      · rw [hxo, hxu]; simpa using (hR r' hr').2
      · rw [hxo, hxu]; simpa using h3
      · obtain ⟨v, w, k1, k2, k3⟩ := h1.title hn
        exact ⟨v, w, by rw [hcu _ (hR r' hr').2]; exact k1, by rw [hcu _ h3]; exact k2, k3⟩
    · rw [List.mem_singleton] at hr'
      subst hr'
      refine ⟨hrep'.leads_iff.2 ?_, fun hn => ?_⟩
      · have := hwr.leads_again hrep.sorted ho (i := i) (by rw [← hx]; rfl) hi (by rw [hqu, hxu]; exact hlt)
        rwa [hxu, hqu] at this
      · refine ⟨x.view, q.2.view, hcr, ?_, ?_⟩
        · rw [hcu _ (Ne.symm hv.noLoop)]
          exact (h.lists _ _).2 ⟨q, hq, hqu, rfl⟩
        · rw [← hx]
          unfold Redirect.made
          rw [hn]
          rfl

/-- the redirects that do not start at `w` -/
def apartFrom (w : String) (l : List Redirect) : List Redirect := l.filter (·.1 ≠ w)

/-- the redirects `l'` are those of `l`, except that some of those from `w` may be missing -/
structure UpTo (w : String) (l' l : List Redirect) : Prop where
  sub : ∀ r ∈ l', r ∈ l
  perm : (apartFrom w l').Perm (apartFrom w l)

/-- redirects of which those from `w` may replace each other -/
structure Replacing (w : String) (es : List Entry) (l : List Redirect) : Prop where
  valid : ∀ r ∈ l, Redirect.Valid r
  source : ∀ r ∈ l, r.1 ∉ es.map Entry.fullUrl
  before : ∀ r ∈ l, encode r.2.1 < encode w
  nodup : ((apartFrom w l).map (·.1)).Nodup

theorem UpTo.trans {l1 l2 l3 : List Redirect} (h : UpTo w l1 l2) (h' : UpTo w l2 l3) : UpTo w l1 l3 :=
  ⟨fun r hr => h'.sub r (h.sub r hr), h.perm.trans h'.perm⟩

theorem UpTo.of_perm {l1 l2 : List Redirect} (h : l1.Perm l2) : UpTo w l1 l2 := ⟨fun _ hr => h.subset hr, h.filter _⟩

theorem Replacing.upTo {l' : List Redirect} (h : Replacing w es l) (hu : UpTo w l' l) : Replacing w es l' :=
  ⟨fun r hr => h.valid r (hu.sub r hr), fun r hr => h.source r (hu.sub r hr), fun r hr => h.before r (hu.sub r hr),
    (hu.perm.map _).nodup_iff.2 h.nodup⟩

/-- What a call of `add_full_url_redirect` does: the redirect is buffered or written, then perhaps instead of another one. -/
theorem Core.redirectUpTo {Q : List Redirect} (h : Core gh mp X C ML reserve a G rows cs extra es L m0 R B)
    (hr : Replacing w es (R ++ (B ++ r :: Q))) (hok : Zim.addFullUrlRedirect d r.1 r.2.1 r.2.2 a.zim = (.ok (), Z')) :
    ∃ rows' m0' R' B', Core gh mp X C ML reserve { a with zim := Z' } G rows' cs extra es L m0' R' B' ∧
      Z'.mimetypes = a.zim.mimetypes ∧ UpTo w (R' ++ (B' ++ Q)) (R ++ (B ++ r :: Q)) := by
  have hrl : r ∈ R ++ (B ++ r :: Q) := by simp
  have hv := hr.valid r hrl
  have hes := hr.source r hrl
  have hrep := h.laid.content.rep
  by_cases ht : Zim.HasUrl rows r.2.1
  · by_cases hw : r.1 = w
    · obtain ⟨rows', m0', k1, k2⟩ := h.redirect_again hv hes (fun r' hr' he => by
          have := hr.before r' (List.mem_append_left _ hr')
          rw [he, hw] at this
          exact Std.lt_irrefl this) (by rw [hw]; exact hr.before r hrl) ht hok
      refine ⟨rows', m0', _, B, k1, k2, ?_, ?_⟩
      · intro x hx
        rcases List.mem_append.1 hx with hx | hx
        · rcases List.mem_append.1 hx with hx | hx
          · exact List.mem_append_left _ (List.mem_of_mem_filter hx)
          · rw [List.mem_singleton] at hx
            rw [hx]; exact hrl
        · rcases List.mem_append.1 hx with hx | hx
          · simp [hx]
          · simp [hx]
      · have h1 : apartFrom w [r] = [] := by simp [apartFrom, hw]
        have h2 : apartFrom w (r :: Q) = apartFrom w Q := by simp [apartFrom, hw]
        have h3 : apartFrom w (R.filter (·.1 ≠ r.1)) = apartFrom w R := by
          unfold apartFrom
          rw [List.filter_filter, hw]
          simp
        have happ : ∀ l l' : List Redirect, apartFrom w (l ++ l') = apartFrom w l ++ apartFrom w l' := fun l l' => List.filter_append ..
        rw [happ, happ, happ, happ, happ, h1, h2, h3, List.append_nil]
    · have hm0 : m0 r.1 = none := by
        cases hm : m0 r.1 with
        | none => rfl
        | some v =>
          exfalso
          obtain ⟨r', hr', e⟩ := h.only _ _ hm
          have hn := hr.nodup
          unfold apartFrom at hn
          rw [List.filter_append, List.map_append, List.nodup_append] at hn
          exact hn.2.2 r'.1 (List.mem_map.2 ⟨r', List.mem_filter.2 ⟨hr', by simpa [e] using hw⟩, rfl⟩) r.1
            (List.mem_map.2 ⟨r, List.mem_filter.2 ⟨by simp, by simpa using hw⟩, rfl⟩) e
      obtain ⟨rows', m0', k1, k2, -, -⟩ := h.redirect_found hv hes hm0 ht hok
      refine ⟨rows', m0', _, B, k1, k2, .of_perm ?_⟩
      rw [List.append_assoc]
      exact (List.perm_middle (a := r) (l₁ := B) (l₂ := Q)).symm.append_left R
  · rw [hrep.addRedirect_missing hv ht] at hok
    injection hok with _ hok
    rw [← hok, h.redirects]
    exact ⟨_, _, R, B ++ [r], h.buffer (B ++ [r]), rfl, .of_perm (by simp)⟩

theorem Core.addBufferedUpTo (Q : List Redirect) : ∀ {a : Archive} {rows : List Row} {m0 : Catalogue} {R B : List Redirect} {Z' : Zim},
    Core gh mp X C ML reserve a G rows cs extra es L m0 R B → Replacing w es (R ++ (B ++ Q)) → Zim.addBuffered d Q a.zim = (.ok (), Z') →
    ∃ rows' m0' R' B', Core gh mp X C ML reserve { a with zim := Z' } G rows' cs extra es L m0' R' B' ∧
      Z'.mimetypes = a.zim.mimetypes ∧ UpTo w (R' ++ B') (R ++ (B ++ Q)) := by
  induction Q with
  | nil =>
    intro a rows m0 R B Z' h _ hok
    injection hok with _ hok
    subst hok
    exact ⟨rows, m0, R, B, h, rfl, .of_perm (by simp)⟩
  | cons r Q ih =>
    intro a rows m0 R B Z' h hn hok
    obtain ⟨⟨⟩, Z1, h1, h2⟩ := PyM.bind_ok_iff.1 hok
    obtain ⟨rows1, m1, R1, B1, k1, k2, k3⟩ := h.redirectUpTo hn h1
    obtain ⟨rows', m0', R', B', g1, g2, g3⟩ := ih k1 (hn.upTo k3) h2
    exact ⟨rows', m0', R', B', g1, g2.trans k2, g3.trans k3⟩

theorem Core.redirectLoopUpTo (p : Nat) : ∀ {a : Archive} {rows : List Row} {m0 : Catalogue} {R B : List Redirect} {Z' : Zim},
    Core gh mp X C ML reserve a G rows cs extra es L m0 R B → Replacing w es (R ++ B) → Zim.redirectLoop d p a.zim = (.ok (), Z') →
    ∃ rows' m0' R' U, Core gh mp X C ML reserve { a with zim := Z' } G rows' cs extra es L m0' R' U ∧
      Z'.mimetypes = a.zim.mimetypes ∧ UpTo w (R' ++ U) (R ++ B) := by
  induction p with
  | zero => intro a rows m0 R B Z' _ _ hok; cases hok
  | succ p ih =>
    intro a rows m0 R B Z' h hn hok
    rw [Zim.redirectLoop_succ] at hok
    obtain ⟨⟨⟩, Z1, h1, h2⟩ := PyM.bind_ok_iff.1 hok
    rw [h.redirects] at h1
    obtain ⟨rows1, m1, R1, U1, g1, g2, g3⟩ := Core.addBufferedUpTo B (h.buffer []) hn h1
    rw [PyM.get_bind] at h2
    split at h2
    · obtain ⟨rows', m0', R', U, k1, k2, k3⟩ := ih (Z' := Z') g1 (hn.upTo g3) h2
      exact ⟨rows', m0', R', U, k1, k2.trans g2, k3.trans g3⟩
    · injection h2 with _ h2
      subst h2
      exact ⟨rows1, m1, R1, U1, g1, g2, g3⟩

/-- the end of a flush, if redirects may have replaced the one to the main page -/
theorem Core.finalizeUpTo (h : Core gh (some (some u)) X C ML reserve a G rows cs extra es L m0 R B)
    (hn : Replacing Zim.URL_MAINPAGE_REDIRECT es l) (hrs : UpTo Zim.URL_MAINPAGE_REDIRECT (R ++ B) l)
    (ht : Targets l es Zim.URL_MAINPAGE_REDIRECT) (hW : Zim.URL_MAINPAGE_REDIRECT ∉ es.map Entry.fullUrl)
    {blob : Entry → PyM Zim Unit} {passes : Nat} (hok : Zim.finalizeOperations blob (d + 2) passes a.zim = (.ok (), Z')) :
    ∃ rows' m0' R' i q, Core gh none X C ML reserve { a with zim := Z' } G rows' cs extra es L m0' R' [] ∧
      Z'.mimetypes = a.zim.mimetypes ∧ R'.Perm (apartFrom Zim.URL_MAINPAGE_REDIRECT l ++ [mainRedirect u]) ∧
      rows'[i]? = some q ∧ q.2.fullUrl = Zim.URL_MAINPAGE_REDIRECT ∧ Z'.header.mainPageRaw = i := by
  unfold Zim.finalizeOperations at hok
  obtain ⟨⟨⟩, Z1, h1, h2⟩ := PyM.bind_ok_iff.1 hok
  unfold Zim.applyRedirects at h1
  obtain ⟨⟨⟩, Z2, h3, h4⟩ := PyM.bind_ok_iff.1 h1
  rw [PyM.get_bind] at h4
  obtain ⟨rows', m0', R', U, g1, g2, g3⟩ := Core.redirectLoopUpTo passes h (hn.upTo hrs) h3
  have hU : Z2.bufferedRedirects = U := g1.redirects
  unfold PyM.require at h4
  split at h4
  · rename_i hlen
    rw [hU, decide_eq_true_eq, List.length_eq_zero_iff] at hlen
    have e12 : Z2 = Z1 := congrArg Prod.snd h4
    subst e12
    subst hlen
    rw [List.append_nil] at g3
    have hR := g3.trans hrs
    unfold Zim.applySetMainpageUrl at h2
    rw [PyM.get_bind, show Z2.bufferedMainpage = some (some u) from g1.mainpage] at h2
    simp only at h2
    rw [PyM.modify_bind] at h2
    obtain ⟨⟨⟩, Z3, h5, h6⟩ := PyM.bind_ok_iff.1 h2
    have gm := g1.bufferMain none
    obtain ⟨k1, k2⟩ := gm.setMain hW (fun _ => ht.leadsBefore gm fun r hr => hR.sub r hr) h5
    rw [PyM.get_bind] at h6
    rcases k2 with ⟨-, rows3, m3, k2, -⟩ | ⟨-, rows3, m3, i, q, k2, k3, k4, k5⟩
    · exfalso
      have := k2.mainpage
      simp only at this
      rw [this] at h6
      simp [PyM.require] at h6
    · have hm3 := k2.mainpage
      simp only at hm3
      rw [hm3] at h6
      have e3 : Z3 = Z' := by
        unfold PyM.require at h6
        simp at h6
        exact h6
      subst e3
      exact ⟨rows3, m3, _, i, q, k2, k1.trans g2, hR.perm.append_right _, k3, k4, k5⟩
  · cases h4

/-- adding items and redirects to an archive, if the redirects from `w` may replace each other -/
theorem AddedTo.onwardUpTo (hS : S.Good md5 reserve) {G0 : List (List Sourced)} {c0 : Creator D} {items0 : List Sourced} {l0 rs' : List Redirect}
    (h0 : HasAt gh mp S ML reserve G0 items0 rs c0 G P1 P2) (hu0 : UpTo w rs l0) (h : AddedTo S c0 c items rs') (hML : ML.length < 65535)
    (hh : NotHuge (items0 ++ items)) (hm : ∀ q ∈ items0 ++ items, encode q.1.mimetype ∈ ML ∧ q.1.fullUrl ≠ URL_ARTICLES)
    (hs : ∀ r ∈ l0 ++ rs', Separate [r] G0 (items0 ++ items) ∧ encode r.2.1 < encode w)
    (hn : ((apartFrom w (l0 ++ rs')).map (·.1)).Nodup) :
    ∃ G' P1' P2' rs2, HasAt gh mp S ML reserve G0 (items0 ++ items) rs2 c G' P1' P2' ∧ UpTo w rs2 (l0 ++ rs') := by
  induction h with
  | start => exact ⟨G, P1, P2, rs, by simpa using h0, by simpa using hu0⟩
  | @add c c' items rs' p force _ hp hok ih =>
    rw [← List.append_assoc] at hh hm ⊢
    obtain ⟨G', P1', P2', rs2, k1, k2⟩ := ih (hh.sublist (List.sublist_append_left _ _))
      (fun q hq => hm q (List.mem_append_left _ hq))
      (fun r hr => ⟨(hs r hr).1.sub (.refl _) (fun q hq => by rw [← List.append_assoc]; exact List.mem_append_left _ hq), (hs r hr).2⟩) hn
    obtain ⟨rows, cs, extra, es, L, m0, R, B, hc, hB⟩ := k1.core
    obtain ⟨Gn, Q1, Q2, rows2, cs2, es2, l1, l2, l3⟩ := k1.add hS hc hB (hh.sublist (List.sublist_append_left _ _)) hML hp.2
      ⟨hp.1, (hm p (by simp)).1, hp.2.2⟩ (fun q hq => (hm q hq).2) hok
    exact ⟨G' ++ Gn, Q1, Q2, rs2, l1, k2⟩
  | @redirect c c' items rs' r _ hv hok hd ih =>
    rw [← List.append_assoc] at hs hn ⊢
    obtain ⟨G, P1, P2, rs2, k1, k2⟩ := ih hh hm (fun r hr => hs r (List.mem_append_left _ hr))
      (hn.sublist ((List.Sublist.filter _ (List.sublist_append_left _ _)).map _))
    obtain ⟨⟨rows, cs, extra, es, L, m0, R, B, hc, hB⟩, ⟨t, mx1, W, hw1⟩, ⟨mx2, hw2⟩, hf1, hf2, hperm, -⟩ := k1
    simp only [Creator.addFullUrlRedirect, Creator.onArch, Archive.onZim, PyM.of_apply] at hok
    cases hr : Zim.addFullUrlRedirect S.depth r.1 r.2.1 r.2.2 c.arch.zim with
    | mk res Z' =>
    rw [hr] at hok
    injection hok with hok hok'
    simp only at hok
    subst hok
    have hG : ∀ p ∈ G.flatten, p ∈ items0 ++ items := fun p hp => hperm.subset (List.mem_append_right _ hp)
    have hup : UpTo w (R ++ (B ++ [r])) (l0 ++ rs' ++ [r]) := by
      rw [← List.append_assoc]
      have h1 := (UpTo.of_perm (w := w) hB).trans k2
      refine ⟨fun x hx => ?_, ?_⟩
      · rcases List.mem_append.1 hx with hx | hx
        · exact List.mem_append_left _ (h1.sub x hx)
        · exact List.mem_append_right _ hx
      · unfold apartFrom
        rw [List.filter_append, List.filter_append (l₁ := l0 ++ rs')]
        exact h1.perm.append_right _
    have hrep : Replacing w es (l0 ++ rs' ++ [r]) :=
      ⟨fun x hx => (hs x hx).1.valid x (by simp), fun x hx => hc.apart (hs x hx).1 hG (by simp), fun x hx => (hs x hx).2, hn⟩
    obtain ⟨rows', m0', R', B', g1, g2, g3⟩ := hc.redirectUpTo (Q := []) (hrep.upTo hup) hr
    rw [List.append_nil] at g3
    refine ⟨G, P1, P2, R' ++ B', ?_, g3.trans hup⟩
    have hcl : ¬ c'.arch.isDirty = false := by rw [hd]; simp
    rw [← hok'] at hcl ⊢
    refine ⟨⟨rows', cs, extra, es, L, m0', R', B', g1, .refl _⟩, ⟨t, mx1, W, ?_⟩, ⟨mx2, ?_⟩, hf1, hf2, hperm, fun h => absurd h hcl⟩
    · show c.main.Waits S.X t mx1 Z'.mimetypes P1
      rw [g2]; exact hw1
    · show c.plain.Waits S.X .none mx2 Z'.mimetypes P2
      rw [g2]; exact hw2

/-- flushing an archive with a buffered main page, if redirects may have replaced the one to the main page -/
theorem HasAt.flushUpTo (hS : S.Good md5 reserve) {done : List (List Sourced)} {Gb : List (List (List Sourced))}
    (h : HasAt false (some (some u)) S ML reserve Gb.flatten items rs c G P1 P2) (hu : UpTo Zim.URL_MAINPAGE_REDIRECT rs l)
    (hdep : 2 ≤ S.depth) (hh : NotHuge items) (h1 : List.Forall₂ (fun G l => G.flatten.Perm l) Gb done)
    (hs : ∀ r ∈ l ++ [mainRedirect u], Separate [r] Gb.flatten items) (hn : ((apartFrom Zim.URL_MAINPAGE_REDIRECT l).map (·.1)).Nodup)
    (ho : ∀ l ∈ done ++ [items], ∀ p ∈ l, p.1.fullUrl ≠ URL_ARTICLES)
    (hc : ∀ r ∈ l ++ [mainRedirect u], ((done ++ [items]).flatten.map fun p => p.1.fullUrl).count r.2.1 ≤ 1 ∧
      encode r.2.1 < encode Zim.URL_MAINPAGE_REDIRECT)
    (hd : c.arch.isDirty = true) (hok : Creator.flush S c = (.ok (), c')) :
    Saved S ML reserve u c'.arch Gb items (apartFrom Zim.URL_MAINPAGE_REDIRECT l ++ [mainRedirect u]) := by
  obtain ⟨G', a2, rows, cs, extra, es, L, m0, R, B, k1, hB, hpm, e1, -⟩ := h.strategies hS hh (ho items (by simp)) hd hok
  have hGi : ∀ p ∈ G'.flatten, p ∈ items := fun p hp => hpm.subset hp
  have ht : Targets (l ++ [mainRedirect u]) es Zim.URL_MAINPAGE_REDIRECT := by
    have : ∀ r ∈ l ++ [mainRedirect u], Targets [r] es Zim.URL_MAINPAGE_REDIRECT := fun r hr =>
      k1.targets hpm h1 (hs r hr) ho (fun x hx => by rw [List.mem_singleton] at hx; rw [hx]; exact hc r hr)
    exact ⟨fun r hr => (this r hr).source r (by simp), fun r hr => (this r hr).once r (by simp), fun r hr => (this r hr).before r (by simp)⟩
  have htl : Targets l es Zim.URL_MAINPAGE_REDIRECT := ⟨fun r hr => ht.source r (List.mem_append_left _ hr),
    fun r hr => ht.once r (List.mem_append_left _ hr), fun r hr => ht.before r (List.mem_append_left _ hr)⟩
  have htf : Targets (apartFrom Zim.URL_MAINPAGE_REDIRECT l ++ [mainRedirect u]) es Zim.URL_MAINPAGE_REDIRECT := by
    have hsub : ∀ r ∈ apartFrom Zim.URL_MAINPAGE_REDIRECT l ++ [mainRedirect u], r ∈ l ++ [mainRedirect u] := by
      intro r hr
      rcases List.mem_append.1 hr with hr | hr
      · exact List.mem_append_left _ (List.mem_of_mem_filter hr)
      · exact List.mem_append_right _ hr
    exact ⟨fun r hr => ht.source r (hsub r hr), fun r hr => ht.once r (hsub r hr), fun r hr => ht.before r (hsub r hr)⟩
  have hrep : Replacing Zim.URL_MAINPAGE_REDIRECT es l :=
    ⟨fun r hr => (hs r (List.mem_append_left _ hr)).valid r (by simp), htl.source, htl.before, hn⟩
  rw [Archive.flushDirty_eq] at e1
  obtain ⟨⟨⟩, a3, h3, e2⟩ := PyM.bind_ok_iff.1 e1
  unfold Archive.onZim at h3
  cases hfin : Zim.finalizeOperations S.blob S.depth S.passes a2.zim with
  | mk res Z1 =>
  rw [hfin] at h3
  injection h3 with h3 h3'
  simp only at h3
  subst h3
  obtain ⟨e, hde⟩ : ∃ e, S.depth = e + 2 := ⟨S.depth - 2, by omega⟩
  rw [hde] at hfin
  obtain ⟨rows1, m1, R1, i, q, g1, -, g2, g3, g4, g5⟩ := k1.finalizeUpTo hrep ((UpTo.of_perm hB).trans hu) htl
    (ht.source (mainRedirect u) (by simp)) hfin
  rw [show ({ a2 with zim := Z1 } : Archive) = a3 from h3'] at g1
  obtain ⟨cs', L', j1, j2, -, j3⟩ := g1.flushLists hS e2
  refine ⟨j2, ⟨_, _, _, _, _, _, _, _, j1, hpm, g2⟩, j1.showsMain j2 g2 htf (by simp) g3 g4 ?_⟩
  rw [j3, ← h3']
  exact g5

end Pyzim
