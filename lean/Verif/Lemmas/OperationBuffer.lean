import Verif.Spec.OperationBuffer
import Verif.Props.ArchiveSuccess

namespace Pyzim
namespace Zim

variable {z : Zim} {rows : List Row} {other : Nat → Prop} {S : String → Prop} {L : Nat}

theorem Rep.has_iff (h : Rep z rows other) (u : String) : Has z u ↔ HasUrl rows u := by
  obtain ⟨b, hb, hbu⟩ := h.hasEntry u
  unfold Has
  rw [hb, ← hbu]
  simp

theorem Rep.hasEntry_false (h : Rep z rows other) {u : String} (hu : ¬ HasUrl rows u) : z.hasEntry u = .ok false := by
  obtain ⟨b, hb, hbu⟩ := h.hasEntry u
  rw [hb]
  cases b with
  | false => rfl
  | true => exact absurd (hbu.1 rfl) hu

/-- the redirect object -/
def redirectOf (ns url : String) (index : Nat) (title : String) : Entry :=
  Entry.afterFlushOrRead { mimetypeId := Entry.MIMETYPE_ID_REDIRECT, ns := ns, url := url
                           titleRaw := some title, kind := .redirect index }

theorem redirectEntry_eq {source url : String} {c : Char} (h : source = String.singleton c ++ url) (i : Nat) (t : String) :
    redirectEntry source i t = .ok (redirectOf (String.singleton c) url i t) := by
  subst h
  unfold redirectEntry
  rw [String.toList_append]
  simp only [String.toList_singleton, List.cons_append, List.nil_append, Entry.newRedirect, and_self, if_true]
  have h1 : String.ofList [c] = String.singleton c := by
    rw [← String.toList_inj, String.toList_ofList, String.toList_singleton]
  rw [h1, String.ofList_toList]
  rfl

theorem encode_singleton_length {c : Char} (h : c.val < 128) : (encode (String.singleton c)).length = 1 := by
  have h1 : (encode (String.singleton c)).length = (String.singleton c).utf8ByteSize := by
    simp only [encode, Array.length_toList]; rfl
  rw [h1]
  simp only [String.utf8ByteSize_singleton]
  rw [Char.utf8Size]
  simp only [UInt32.le_iff_toNat_le]
  have : c.val.toNat < 128 := h
  rw [if_pos]
  show c.val.toNat ≤ 127
  omega

theorem Redirect.Valid.nonempty {r : Redirect} (h : r.Valid) : r.1 ≠ "" := by
  obtain ⟨c, url, h, -⟩ := h.source
  rw [h]
  intro he
  have := congrArg String.toList he
  simp at this

theorem redirectOf_proper {ns url t : String} {i : Nat} (hu : (0 : UInt8) ∉ encode url) (ht : (0 : UInt8) ∉ encode t) :
    (redirectOf ns url i t).Proper :=
  ⟨hu, ⟨t, rfl, ht⟩, by simp [redirectOf, Entry.afterFlushOrRead, Entry.MIMETYPE_ID_REDIRECT], fun h => by cases h⟩

theorem redirectOf_fullUrl (ns url : String) (i : Nat) (t : String) : (redirectOf ns url i t).fullUrl = ns ++ url := rfl
theorem redirectOf_old (ns url : String) (i : Nat) (t : String) :
    (redirectOf ns url i t).oldFullUrl = some (ns ++ url) := rfl

/-- the archive with other buffered redirects -/
def withBuffer (z : Zim) (B : List Redirect) : Zim := { z with bufferedRedirects := B }

/-- `add_full_url_redirect` if the target does not exist -/
theorem Rep.addRedirect_missing (h : Rep z rows other) {r : Redirect} (hv : r.Valid)
    (ht : ¬ HasUrl rows r.2.1) (d : Nat) : addFullUrlRedirect d r.1 r.2.1 r.2.2 z =
      (.ok (), z.withBuffer (z.bufferedRedirects ++ [r])) := by
  unfold addFullUrlRedirect
  simp only [hv.noLoop, hv.nonempty, hv.target, ne_eq, not_false_eq_true, and_self, decide_true, PyM.require_true_bind,
    PyM.get_bind, h.isOpen, h.isMutable, Bool.not_false]
  have hm := h.urlIndex_missing fun r hr he => ht ⟨r, hr, he⟩
  simp only [hm]
  rfl

theorem Entry.Clean.title_zero {e : Entry} (h : e.Clean) : (0 : UInt8) ∉ encode e.title := by
  obtain ⟨t, ht, hz⟩ := h.storable.title
  unfold Entry.title
  rw [ht]
  simp only
  split
  · exact h.storable.url
  · exact hz

/-- the redirect object that is written for a redirect to `q` -/
def Redirect.made (r : Redirect) (c : Char) (url : String) (i : Nat) (q : Entry) : Entry :=
  redirectOf (String.singleton c) url i (r.2.2.getD q.title)

/-- `add_full_url_redirect` if the target exists -/
theorem Rep.addRedirect_found (h : Rep z rows other) {r : Redirect} (hv : r.Valid) {i : Nat} {q : Row}
    (hq : rows[i]? = some q) (ht : q.2.fullUrl = r.2.1) {c : Char} {url : String} (hs : r.1 = String.singleton c ++ url)
    (d : Nat) : addFullUrlRedirect d r.1 r.2.1 r.2.2 z =
      (writeEntry d (r.made c url i q.2) true true >>= fun _ => pure ()) z := by
  have hne := hv.noLoop
  have hne' := hv.nonempty
  have hne2 := hv.target
  unfold addFullUrlRedirect
  simp only [hne, hne', hne2, ne_eq, not_false_eq_true, and_self, decide_true, PyM.require_true_bind,
    PyM.get_bind, h.isOpen, h.isMutable, Bool.not_false]
  have hi := h.urlIndex hq
  have he := h.entryByFullUrl (List.mem_of_getElem? hq)
  rw [ht] at hi he
  unfold Redirect.made
  have hr : ∀ t, redirectEntry r.1 i t = .ok (redirectOf (String.singleton c) url i t) := redirectEntry_eq hs i
  simp only [hi, he]
  cases htt : r.2.2 with
  | none =>
    simp only [PyM.bind_assoc', PyM.lift_ok_bind, PyM.pure_bind', hr, Option.getD]
  | some t =>
    simp only [PyM.lift_ok_bind, PyM.pure_bind', hr, Option.getD]

theorem Redirect.Valid.made_proper {r : Redirect} (hv : r.Valid) {c : Char} {url : String} {i : Nat} {q : Entry}
    (hu : (0 : UInt8) ∉ encode url) (hq : q.Clean) : (r.made c url i q).Proper := by
  refine redirectOf_proper hu ?_
  cases htt : r.2.2 with
  | none => exact Entry.Clean.title_zero hq
  | some t => exact hv.title t htt

theorem Wrote.hasUrl {e : Entry} {old : String} {upd : Bool} {rows' : List Row} {f : Header → Header}
    (hc : ∀ r ∈ rows, r.2.Clean) (hd : DistinctUrls rows) (h : Wrote rows e old upd rows' f) (ho : old = e.fullUrl)
    (u : String) : HasUrl rows' u ↔ HasUrl rows u ∨ u = e.fullUrl := by
  have hw := h.written hc hd
  constructor
  · rintro ⟨r, hr, rfl⟩
    by_cases hu : r.2.fullUrl = e.fullUrl
    · exact Or.inr hu
    · obtain ⟨s, hs, -, hb⟩ := hw.others r hr hu
      exact Or.inl ⟨s, hs, Entry.blank_fullUrl hb⟩
  · rintro (⟨r, hr, rfl⟩ | rfl)
    · by_cases hu : r.2.fullUrl = e.fullUrl
      · obtain ⟨s, hs, hsu, -⟩ := hw.found
        exact ⟨s, hs, by rw [hsu, hu]⟩
      · obtain ⟨s, hs, hb⟩ := hw.keep r hr (by rw [ho]; exact hu) hu
        exact ⟨s, hs, Entry.blank_fullUrl hb⟩
    · obtain ⟨s, hs, hsu, -⟩ := hw.found
      exact ⟨s, hs, hsu⟩

/-- a successful call of `add_full_url_redirect` -/
theorem Rep.addRedirect_ok (h : Rep z rows other) {r : Redirect} (hv : r.Valid) {d : Nat} {z' : Zim}
    (hok : addFullUrlRedirect d r.1 r.2.1 r.2.2 z = (.ok (), z')) :
    (¬ HasUrl rows r.2.1 ∧ z' = z.withBuffer (z.bufferedRedirects ++ [r])) ∨
    (HasUrl rows r.2.1 ∧ ∃ rows', Rep z' rows' other ∧ Frame other z z' ∧
      ∀ u, HasUrl rows' u ↔ HasUrl rows u ∨ u = r.1) := by
  by_cases ht : HasUrl rows r.2.1
  · refine Or.inr ⟨ht, ?_⟩
    obtain ⟨q, hq, hqu⟩ := ht
    obtain ⟨i, hi⟩ := List.getElem?_of_mem hq
    obtain ⟨c, url, hs, -, hu⟩ := hv.source
    rw [h.addRedirect_found hv hi hqu hs] at hok
    obtain ⟨e', z1, hw, hz⟩ := PyM.bind_ok_iff.1 hok
    injection hz with _ hz
    subst hz
    have hfu : (r.made c url i q.2).fullUrl = r.1 := by rw [hs]; rfl
    obtain ⟨old, rows', f, hold, hwr, hrep, hfr, -⟩ := h.writeEntry_ok
      (hv.made_proper hu (h.store.clean q hq)) (fun _ => rfl) hw
    have ho : old = (r.made c url i q.2).fullUrl := by injection hold with hold; exact hold.symm
    refine ⟨rows', hrep, hfr, fun u => ?_⟩
    rw [← hfu]
    exact hwr.hasUrl h.store.clean (distinct_of_sorted h.sorted) ho u
  · refine Or.inl ⟨ht, ?_⟩
    rw [h.addRedirect_missing hv ht] at hok
    injection hok with _ hok
    exact hok.symm

theorem Rep.withBuffer (h : Rep z rows other) (B : List Redirect) : Rep (z.withBuffer B) rows other :=
  ⟨h.store, h.sorted, h.urls, h.urlsMutable, h.isOpen, h.isMutable, h.noTitles, h.headerMutable⟩

theorem Roomy.withBuffer (h : Roomy z S L) (B : List Redirect) : Roomy (z.withBuffer B) S L := by
  obtain ⟨rows, other, h, hA, hrest⟩ := h
  exact ⟨rows, other, h.withBuffer B, hA, hrest⟩

theorem has_withBuffer (B : List Redirect) (u : String) : Has (z.withBuffer B) u ↔ Has z u := Iff.rfl
theorem leads_withBuffer (B : List Redirect) (s t : String) : Leads (z.withBuffer B) s t ↔ Leads z s t := Iff.rfl

theorem LeadsR.unique (hd : DistinctUrls rows) {s t t' : String} (h : LeadsR rows s t) (h' : LeadsR rows s t') : t = t' := by
  obtain ⟨r, hr, hru, i, q, hk, hq, rfl⟩ := h
  obtain ⟨r', hr', hru', i', q', hk', hq', rfl⟩ := h'
  have := hd.row_eq hr hr' (by rw [hru, hru'])
  subst this
  rw [hk] at hk'
  injection hk' with hk'
  subst hk'
  rw [hq] at hq'
  injection hq' with hq'
  rw [hq']

/-- redirects which are kept lead nowhere else -/
theorem LeadsR.back {rows' : List Row} (hd' : DistinctUrls rows')
    (hrange : ∀ r ∈ rows, ∀ i, r.2.kind = .redirect i → i < rows.length) {s t : String} {r0 : Row} (h0 : r0 ∈ rows)
    (hs : r0.2.fullUrl = s) (hk : ∃ i, r0.2.kind = .redirect i)
    (hf : ∀ t, LeadsR rows s t → LeadsR rows' s t) (h : LeadsR rows' s t) : LeadsR rows s t := by
  obtain ⟨i, hi⟩ := hk
  have hil := hrange r0 h0 i hi
  have h1 : LeadsR rows s rows[i].2.fullUrl := ⟨r0, h0, hs, i, _, hi, List.getElem?_eq_getElem hil, rfl⟩
  rw [LeadsR.unique hd' h (hf _ h1)]
  exact h1

/-- what an archive looks like after adding redirects to it -/
structure Extends (z z' : Zim) : Prop where
  has : ∀ u, Has z u → Has z' u
  leads : ∀ s t, Leads z s t → Leads z' s t
  mainpage : z'.bufferedMainpage = z.bufferedMainpage

theorem Extends.refl (z : Zim) : Extends z z := ⟨fun _ h => h, fun _ _ h => h, rfl⟩
theorem Extends.trans {z1 z2 z3 : Zim} (h1 : Extends z1 z2) (h2 : Extends z2 z3) : Extends z1 z3 :=
  ⟨fun u h => h2.has u (h1.has u h), fun s t h => h2.leads s t (h1.leads s t h), by rw [h2.mainpage, h1.mainpage]⟩
theorem Extends.buffer (z : Zim) (B : List Redirect) : Extends z (z.withBuffer B) := ⟨fun _ h => h, fun _ _ h => h, rfl⟩

/-- Adding a redirect with a new source to an existing entry succeeds. -/
theorem Roomy.addRedirect (h : Roomy z S L) {r : Redirect} (hv : r.Valid) (hroom : z.urls.len + 1 < L)
    (hnew : ¬ Has z r.1) (ht : Has z r.2.1) (d : Nat) :
    ∃ z' S', addFullUrlRedirect (d + 2) r.1 r.2.1 r.2.2 z = (.ok (), z') ∧ Roomy z' S' L ∧
      z'.urls.len = z.urls.len + 1 ∧ z'.bufferedRedirects = z.bufferedRedirects ∧ Extends z z' ∧ Leads z' r.1 r.2.1 ∧
      (∀ u, Has z' u ↔ Has z u ∨ u = r.1) ∧ ∀ s t, s ≠ r.1 → Leads z' s t → Leads z s t := by
  have hroomy := h
  obtain ⟨rows, other, h, hA, hother, hlen, hL, hrange⟩ := h
  rw [h.has_iff] at hnew ht
  obtain ⟨q, hq, hqu⟩ := ht
  obtain ⟨i, hi⟩ := List.getElem?_of_mem hq
  obtain ⟨c, url, hs, hc, hu⟩ := hv.source
  have hil := (List.getElem?_eq_some_iff.1 hi).1
  have hfu : (r.made c url i q.2).fullUrl = r.1 := by rw [hs]; rfl
  have hp := hv.made_proper (c := c) (i := i) hu (h.store.clean q hq)
  have hhe : z.hasEntry (r.made c url i q.2).fullUrl = .ok false := by rw [hfu]; exact h.hasEntry_false hnew
  have hb : ∃ b, (r.made c url i q.2).toBytes = .ok b := by
    rw [Entry.toBytes_ok_iff]
    refine ⟨Entry.packHead_ok _ ⟨encode_singleton_length hc, hp.url, hp.title, ?_, ?_⟩, _, rfl⟩
    · show (0xffff : Nat) < 2 ^ 16; decide
    · show i < 2 ^ 32; omega
  obtain ⟨e', z', hw, hr'⟩ := C63_add_succeeds hroomy hp rfl rfl hhe hb
    (fun j hj => by injection hj with hj; rw [h.len, ← hj]; exact hil) d true true
  obtain ⟨old, rows', f, hold, hwr, hrep, hfr, -⟩ := h.writeEntry_ok hp (fun _ => rfl) hw
  have ho : old = r.1 := by injection hold with hold; rw [← hold]; exact hfu
  have hd := distinct_of_sorted h.sorted
  have hhas : ∀ u, Has z' u ↔ Has z u ∨ u = r.1 := fun u => by
    rw [h.has_iff, hrep.has_iff, ← hfu]
    exact hwr.hasUrl h.store.clean hd (by rw [ho, hfu]) u
  refine ⟨z', _, ?_, hr' hroom, ?_, hfr.redirects, ⟨fun u hu => (hhas u).2 (Or.inl hu), ?_, hfr.mainpage⟩, ?_, hhas, ?_⟩
  · rw [h.addRedirect_found hv hi hqu hs, PyM.bind_ok hw]
    rfl
  · rw [hrep.len, h.len]
    cases hwr with
    | new n off hno hnu hn hi hr => exact inserted_length hn.le
    | same k o e0 hk hoo hu hsz hi => exact absurd ⟨_, List.mem_of_getElem? hk, by rw [← hu, hfu]⟩ hnew
    | moved k o e0 n off us hk hoo hch hn hus hi hr1 hr2 hr3 =>
      exact absurd ⟨_, List.mem_of_getElem? hk, by rw [← ho, hoo]⟩ hnew
  · intro s t hl
    exact C34_add_partial ⟨rows, other, h⟩ hp hhe rfl hw hl
  · refine hrep.leads_iff.2 ?_
    have := hwr.leads_self hd (Or.inl (by rw [ho]; exact hnew)) (i := i) rfl hi
    rwa [hfu, hqu] at this
  · intro s t hne hl
    rw [hrep.leads_iff] at hl
    refine h.leads_iff.2 ?_
    obtain ⟨r', hr', hru', i', q', hk', -⟩ := id hl
    obtain ⟨r0, hr0, -, hb0⟩ := (hwr.written h.store.clean hd).others r' hr' (by rw [hru', hfu]; exact hne)
    refine LeadsR.back (distinct_of_sorted hrep.sorted) hrange hr0 (by rw [Entry.blank_fullUrl hb0, hru'])
      ((Entry.blank_redirect hb0).2 ⟨i', hk'⟩) (fun t hlt => ?_) hl
    exact hrep.leads_iff.1 (C34_add_partial ⟨rows, other, h⟩ hp hhe rfl hw (h.leads_iff.2 hlt))

theorem Leads.has_left {s t : String} (hr : Ready z) (h : Leads z s t) : Has z s := by
  obtain ⟨rows, other, hr⟩ := hr
  obtain ⟨r, hr', hru, -⟩ := hr.leads_iff.1 h
  exact (hr.has_iff s).2 ⟨r, hr', hru⟩

theorem Roomy.ready (h : Roomy z S L) : Ready z := by
  obtain ⟨rows, other, h, -⟩ := h
  exact ⟨rows, other, h⟩

/-- one pass over the redirects `B`; `U` are those which remain -/
structure Pass (B : List Redirect) (z z' : Zim) (U : List Redirect) : Prop where
  sub : U.Sublist B
  len : z'.urls.len + U.length = z.urls.len + B.length
  ext : Extends z z'
  leads : ∀ r ∈ B, r ∉ U → Leads z' r.1 r.2.1
  has : ∀ u, Has z' u ↔ Has z u ∨ ∃ r ∈ B, r ∉ U ∧ r.1 = u
  sound : ∀ P : String → Prop, (∀ u, Has z u → P u) → (∀ r ∈ B, P r.2.1 → P r.1) → ∀ u, Has z' u → P u
  back : ∀ s t, (∀ r ∈ B, r.1 ≠ s) → Leads z' s t → Leads z s t

/-- the redirects `B` can be added -/
structure CanAdd (z : Zim) (B : List Redirect) (L : Nat) : Prop where
  valid : ∀ r ∈ B, Redirect.Valid r
  nodup : (B.map (·.1)).Nodup
  new : ∀ r ∈ B, ¬ Has z r.1
  room : z.urls.len + B.length < L

theorem Roomy.addBuffered (d : Nat) (B : List Redirect) : ∀ (z : Zim) (S : String → Prop), Roomy z S L → CanAdd z B L →
    ∃ z' S' U, Zim.addBuffered (d + 2) B z = (.ok (), z') ∧ Roomy z' S' L ∧
      z'.bufferedRedirects = z.bufferedRedirects ++ U ∧ Pass B z z' U ∧ (U = B → ∀ r ∈ B, ¬ Has z r.2.1) := by
  induction B with
  | nil =>
    intro z S h _
    exact ⟨z, S, [], rfl, h, by simp, ⟨.slnil, by simp, .refl z, by simp, by simp, fun P h _ => h, fun _ _ _ h => h⟩, by simp⟩
  | cons r B ih =>
    intro z S h hc
    have hroom := hc.room
    rw [List.length_cons] at hroom
    have hnd := hc.nodup
    rw [List.map_cons, List.nodup_cons] at hnd
    have hrB : r ∉ B := fun hr => hnd.1 (List.mem_map_of_mem hr)
    by_cases ht : Has z r.2.1
    · obtain ⟨z1, S1, h1, hr1, hl1, hb1, hx1, hld1, hhas1, hback1⟩ := h.addRedirect (hc.valid r (by simp)) (by omega)
        (hc.new r (by simp)) ht d
      obtain ⟨z2, S2, U, h2, hr2, hb2, hp, -⟩ := ih z1 S1 hr1
        ⟨fun r hr => hc.valid r (by simp [hr]), hnd.2, fun r' hr' hh => by
          rcases (hhas1 _).1 hh with hh | hh
          · exact hc.new r' (by simp [hr']) hh
          · exact hnd.1 (hh ▸ List.mem_map_of_mem hr'), by omega⟩
      have hrU : r ∉ U := fun hr => hrB (hp.sub.subset hr)
      refine ⟨z2, S2, U, ?_, hr2, by rw [hb2, hb1], ⟨hp.sub.cons _, ?_, hx1.trans hp.ext, ?_, ?_, ?_, ?_⟩, ?_⟩
      · rw [Zim.addBuffered, PyM.bind_ok h1]; exact h2
      · have := hp.len; rw [List.length_cons]; omega
      · intro r' hr' hu'
        rcases List.mem_cons.1 hr' with rfl | hr'
        · exact hp.ext.leads _ _ hld1
        · exact hp.leads r' hr' hu'
      · intro u
        rw [hp.has, hhas1]
        constructor
        · rintro ((hh | rfl) | ⟨r', hr', hu', rfl⟩)
          · exact Or.inl hh
          · exact Or.inr ⟨r, by simp, hrU, rfl⟩
          · exact Or.inr ⟨r', by simp [hr'], hu', rfl⟩
        · rintro (hh | ⟨r', hr', hu', rfl⟩)
          · exact Or.inl (Or.inl hh)
          · rcases List.mem_cons.1 hr' with rfl | hr'
            · exact Or.inl (Or.inr rfl)
            · exact Or.inr ⟨r', hr', hu', rfl⟩
      · intro P h0 hstep
        refine hp.sound P (fun u hu => ?_) (fun r hr => hstep r (by simp [hr]))
        rcases (hhas1 u).1 hu with hu | rfl
        · exact h0 u hu
        · exact hstep r (by simp) (h0 _ ht)
      · intro s t hs hl
        exact hback1 s t (fun hh => hs r (by simp) hh.symm) (hp.back s t (fun r' hr' => hs r' (by simp [hr'])) hl)
      · rintro rfl
        have := hp.sub.length_le
        rw [List.length_cons] at this
        omega
    · have h1 : addFullUrlRedirect (d + 2) r.1 r.2.1 r.2.2 z = (.ok (), z.withBuffer (z.bufferedRedirects ++ [r])) := by
        obtain ⟨rows, other, hrep⟩ := h.ready
        rw [hrep.has_iff] at ht
        exact hrep.addRedirect_missing (hc.valid r (by simp)) ht _
      obtain ⟨z2, S2, U, h2, hr2, hb2, hp, hst⟩ := ih _ S (h.withBuffer (z.bufferedRedirects ++ [r]))
        ⟨fun r hr => hc.valid r (by simp [hr]), hnd.2, fun r' hr' => hc.new r' (by simp [hr']), by
          show z.urls.len + _ < L; omega⟩
      refine ⟨z2, S2, r :: U, ?_, hr2, ?_, ⟨hp.sub.cons_cons _, ?_, ?_, ?_, ?_, ?_, ?_⟩, ?_⟩
      · rw [Zim.addBuffered, PyM.bind_ok h1]; exact h2
      · rw [hb2]
        show z.bufferedRedirects ++ [r] ++ U = _
        simp
      · have : z2.urls.len + U.length = z.urls.len + B.length := hp.len
        simp only [List.length_cons]; omega
      · exact (Extends.buffer z _).trans hp.ext
      · intro r' hr' hu'
        rw [List.mem_cons, not_or] at hu'
        rcases List.mem_cons.1 hr' with rfl | hr'
        · exact absurd rfl hu'.1
        · exact hp.leads r' hr' hu'.2
      · intro u
        rw [hp.has, has_withBuffer]
        refine or_congr Iff.rfl ⟨?_, ?_⟩
        · rintro ⟨r', hr', hu', rfl⟩
          refine ⟨r', by simp [hr'], ?_, rfl⟩
          rw [List.mem_cons, not_or]
          exact ⟨fun hh => hrB (hh ▸ hr'), hu'⟩
        · rintro ⟨r', hr', hu', rfl⟩
          rw [List.mem_cons, not_or] at hu'
          rcases List.mem_cons.1 hr' with rfl | hr'
          · exact absurd rfl hu'.1
          · exact ⟨r', hr', hu'.2, rfl⟩
      · intro P h0 hstep
        exact hp.sound P h0 (fun r hr => hstep r (by simp [hr]))
      · exact fun s t hs hl => hp.back s t (fun r' hr' => hs r' (by simp [hr'])) hl
      · intro hU r' hr'
        injection hU with _ hU
        rcases List.mem_cons.1 hr' with rfl | hr'
        · exact ht
        · exact hst hU r' hr'

theorem Pass.canAdd {B U : List Redirect} {z z' : Zim} (h : Pass B z z' U) (hc : CanAdd z B L) : CanAdd z' U L where
  valid r hr := hc.valid r (h.sub.subset hr)
  nodup := hc.nodup.sublist (h.sub.map _)
  new r hr hh := by
    rcases (h.has r.1).1 hh with hh | ⟨r', hr', hu', he⟩
    · exact hc.new r (h.sub.subset hr) hh
    · have hrr : r' = r := List.inj_on_of_nodup_map hc.nodup hr' (h.sub.subset hr) he
      exact hu' (hrr ▸ hr)
  room := by rw [h.len]; exact hc.room

theorem Pass.trans {B U V : List Redirect} {z1 z2 z3 : Zim} (h1 : Pass B z1 z2 U) (h2 : Pass U z2 z3 V) :
    Pass B z1 z3 V where
  sub := h2.sub.trans h1.sub
  len := by rw [h2.len, h1.len]
  ext := h1.ext.trans h2.ext
  leads r hr hv := by
    by_cases hu : r ∈ U
    · exact h2.leads r hu hv
    · exact h2.ext.leads _ _ (h1.leads r hr hu)
  has u := by
    rw [h2.has, h1.has]
    constructor
    · rintro ((hh | ⟨r, hr, hu, rfl⟩) | ⟨r, hr, hv, rfl⟩)
      · exact Or.inl hh
      · exact Or.inr ⟨r, hr, fun hv => hu (h2.sub.subset hv), rfl⟩
      · exact Or.inr ⟨r, h1.sub.subset hr, hv, rfl⟩
    · rintro (hh | ⟨r, hr, hv, rfl⟩)
      · exact Or.inl (Or.inl hh)
      · by_cases hu : r ∈ U
        · exact Or.inr ⟨r, hu, hv, rfl⟩
        · exact Or.inl (Or.inr ⟨r, hr, hu, rfl⟩)
  sound P h0 hs := h2.sound P (h1.sound P h0 hs) (fun r hr => hs r (h1.sub.subset hr))
  back s t hs hl := h1.back s t hs (h2.back s t (fun r hr => hs r (h1.sub.subset hr)) hl)

theorem Pass.refl {z : Zim} {B C : List Redirect} : Pass B z (z.withBuffer C) B where
  sub := List.Sublist.refl _
  len := rfl
  ext := .buffer z C
  leads r hr hn := absurd hr hn
  has u := by
    rw [has_withBuffer]
    exact ⟨Or.inl, fun h => h.elim id fun ⟨r, hr, hn, _⟩ => absurd hr hn⟩
  sound P h0 _ := h0
  back _ _ _ h := h

theorem Roomy.redirectLoop (d p : Nat) : ∀ (z : Zim) (S : String → Prop), Roomy z S L →
    CanAdd z z.bufferedRedirects L → z.bufferedRedirects.length + 1 ≤ p →
    ∃ z' S', Zim.redirectLoop (d + 2) p z = (.ok (), z') ∧ Roomy z' S' L ∧
      Pass z.bufferedRedirects z z' z'.bufferedRedirects ∧ ∀ r ∈ z'.bufferedRedirects, ¬ Has z' r.2.1 := by
  induction p with
  | zero => intro z S _ _ hl; omega
  | succ p ih =>
    intro z S h hc hp
    obtain ⟨z1, S1, U, h1, hr1, hb1, hp1, hst⟩ := Roomy.addBuffered d z.bufferedRedirects (z.withBuffer []) S
      (h.withBuffer []) ⟨hc.valid, hc.nodup, hc.new, hc.room⟩
    have hb1 : z1.bufferedRedirects = U := by rw [hb1]; rfl
    subst hb1
    have hp2 : Pass z.bufferedRedirects z z1 z1.bufferedRedirects :=
      ⟨hp1.sub, hp1.len, ⟨hp1.ext.has, hp1.ext.leads, hp1.ext.mainpage⟩, hp1.leads, hp1.has, hp1.sound, hp1.back⟩
    have hrw : Zim.redirectLoop (d + 2) (p + 1) z =
        (if z1.bufferedRedirects ≠ z.bufferedRedirects then Zim.redirectLoop (d + 2) p else pure ()) z1 := by
      have h1' := h1
      unfold Zim.withBuffer at h1'
      rw [Zim.redirectLoop, PyM.get_bind, PyM.modify_bind, PyM.bind_ok h1', PyM.get_bind]
    rw [hrw]
    by_cases hU : z1.bufferedRedirects = z.bufferedRedirects
    · rw [if_neg (by simpa using hU)]
      refine ⟨z1, S1, rfl, hr1, hp2, fun r hr hh => ?_⟩
      have hr' : r ∈ z.bufferedRedirects := hU ▸ hr
      rcases (hp1.has _).1 hh with hh | ⟨r', h1', h2', -⟩
      · exact hst hU r hr' hh
      · exact h2' (hU ▸ h1')
    · rw [if_pos hU]
      have hlt : z1.bufferedRedirects.length < z.bufferedRedirects.length := by
        rcases Nat.lt_or_ge z1.bufferedRedirects.length z.bufferedRedirects.length with hl | hl
        · exact hl
        · exact absurd (hp1.sub.eq_of_length_le hl) hU
      obtain ⟨z2, S2, h2, hr2, hp3, hst2⟩ := ih z1 S1 hr1 (hp2.canAdd hc) (by omega)
      exact ⟨z2, S2, h2, hr2, hp2.trans hp3, hst2⟩

/-! ## Any redirects -/

/-- a successful pass over any valid redirects -/
theorem addBuffered_ok (d : Nat) (B : List Redirect) : ∀ (z z' : Zim), Ready z → (∀ r ∈ B, Redirect.Valid r) →
    Zim.addBuffered d B z = (.ok (), z') → Ready z' ∧ ∃ U : List Redirect, U.Sublist B ∧
      z'.bufferedRedirects = z.bufferedRedirects ++ U ∧ (∀ u, Has z u → Has z' u) ∧ (∀ r ∈ B, r ∉ U → Has z' r.1) ∧
      ∀ P : String → Prop, (∀ u, Has z u → P u) → (∀ r ∈ B, P r.2.1 → P r.1) → ∀ u, Has z' u → P u := by
  induction B with
  | nil =>
    intro z z' h _ hok
    injection hok with _ hok
    subst hok
    exact ⟨h, [], .slnil, by simp, fun _ h => h, by simp, fun P h0 _ => h0⟩
  | cons r B ih =>
    rintro z z' ⟨rows, other, h⟩ hv hok
    obtain ⟨⟨⟩, z1, h1, h2⟩ := PyM.bind_ok_iff.1 hok
    have hv' : ∀ r ∈ B, Redirect.Valid r := fun r hr => hv r (by simp [hr])
    rcases h.addRedirect_ok (hv r (by simp)) h1 with ⟨ht, rfl⟩ | ⟨ht, rows', hrep, hfr, hhas⟩
    · obtain ⟨hr, U, hsub, hb, hk, hw, hs⟩ := ih _ _ ⟨rows, other, h.withBuffer _⟩ hv' h2
      refine ⟨hr, r :: U, hsub.cons_cons _, ?_, hk, ?_, ?_⟩
      · rw [hb]
        show z.bufferedRedirects ++ [r] ++ U = _
        simp
      · intro r' hr' hu'
        rw [List.mem_cons, not_or] at hu'
        rcases List.mem_cons.1 hr' with rfl | hr'
        · exact absurd rfl hu'.1
        · exact hw r' hr' hu'.2
      · intro P h0 hstep
        exact hs P h0 (fun r hr => hstep r (by simp [hr]))
    · obtain ⟨hr, U, hsub, hb, hk, hw, hs⟩ := ih _ _ ⟨rows', other, hrep⟩ hv' h2
      have hh1 : ∀ u, Has z1 u ↔ Has z u ∨ u = r.1 := fun u => by rw [h.has_iff, hrep.has_iff, hhas]
      refine ⟨hr, U, hsub.cons _, by rw [hb, hfr.redirects], fun u hu => hk u ((hh1 u).2 (Or.inl hu)), ?_, ?_⟩
      · intro r' hr' hu'
        rcases List.mem_cons.1 hr' with rfl | hr'
        · exact hk _ ((hh1 _).2 (Or.inr rfl))
        · exact hw r' hr' hu'
      · intro P h0 hstep
        refine hs P (fun u hu => ?_) (fun r hr => hstep r (by simp [hr]))
        rcases (hh1 u).1 hu with hu | rfl
        · exact h0 u hu
        · exact hstep r (by simp) (h0 _ ((h.has_iff _).2 ht))

theorem redirectLoop_succ (d p : Nat) (z : Zim) : Zim.redirectLoop d (p + 1) z =
    (Zim.addBuffered d z.bufferedRedirects >>= fun _ => PyM.get >>= fun z' =>
      if z'.bufferedRedirects ≠ z.bufferedRedirects then Zim.redirectLoop d p else pure ()) (z.withBuffer []) := rfl

theorem redirectLoop_ok (d p : Nat) : ∀ (z z' : Zim), Ready z → (∀ r ∈ z.bufferedRedirects, Redirect.Valid r) →
    Zim.redirectLoop d p z = (.ok (), z') → Ready z' ∧ z'.bufferedRedirects.Sublist z.bufferedRedirects ∧
      (∀ u, Has z u → Has z' u) ∧ (∀ r ∈ z.bufferedRedirects, r ∉ z'.bufferedRedirects → Has z' r.1) ∧
      ∀ P : String → Prop, (∀ u, Has z u → P u) → (∀ r ∈ z.bufferedRedirects, P r.2.1 → P r.1) → ∀ u, Has z' u → P u := by
  induction p with
  | zero => intro z z' _ _ hok; cases hok
  | succ p ih =>
    rintro z z' ⟨rows, other, h⟩ hv hok
    rw [redirectLoop_succ] at hok
    obtain ⟨⟨⟩, z1, h1, h2⟩ := PyM.bind_ok_iff.1 hok
    obtain ⟨hr, U, hsub, hb, hk, hw, hs⟩ := addBuffered_ok d _ _ _ ⟨rows, other, h.withBuffer []⟩ hv h1
    have hb1 : z1.bufferedRedirects = U := by rw [hb]; rfl
    subst hb1
    rw [PyM.get_bind] at h2
    split at h2
    · obtain ⟨hr2, hsub2, hk2, hw2, hs2⟩ := ih z1 z' hr (fun r hr => hv r (hsub.subset hr)) h2
      refine ⟨hr2, hsub2.trans hsub, fun u hu => hk2 u (hk u hu), ?_, ?_⟩
      · intro r hr hn
        by_cases h1 : r ∈ z1.bufferedRedirects
        · exact hw2 r h1 hn
        · exact hk2 _ (hw r hr h1)
      · intro P h0 hstep
        exact hs2 P (hs P h0 hstep) (fun r hr => hstep r (hsub.subset hr))
    · injection h2 with _ h2
      subst h2
      exact ⟨hr, hsub, hk, hw, hs⟩

/-- the loop itself never goes on forever -/
theorem redirectLoop_hang (d p : Nat) : ∀ (z z' : Zim), Ready z → (∀ r ∈ z.bufferedRedirects, Redirect.Valid r) →
    z.bufferedRedirects.length + 1 ≤ p → Zim.redirectLoop d p z = (.error .hang, z') →
    ∃ (z1 : Zim) (r : Redirect), addFullUrlRedirect d r.1 r.2.1 r.2.2 z1 = (.error .hang, z') := by
  have hpass : ∀ (B : List Redirect) (z z' : Zim), Zim.addBuffered d B z = (.error .hang, z') →
      ∃ (z1 : Zim) (r : Redirect), addFullUrlRedirect d r.1 r.2.1 r.2.2 z1 = (.error .hang, z') := by
    intro B
    induction B with
    | nil => intro z z' h; cases h
    | cons r B ih =>
      intro z z' h
      rw [Zim.addBuffered] at h
      rcases hr : addFullUrlRedirect d r.1 r.2.1 r.2.2 z with ⟨x | a, z1⟩
      · rw [PyM.bind_err hr] at h
        exact ⟨z, r, by rw [hr, h]⟩
      · rw [PyM.bind_ok hr] at h
        exact ih z1 z' h
  induction p with
  | zero => intro z z' _ _ hl; omega
  | succ p ih =>
    rintro z z' ⟨rows, other, h⟩ hv hl hok
    rw [redirectLoop_succ] at hok
    rcases hr : Zim.addBuffered d z.bufferedRedirects (z.withBuffer []) with ⟨x | a, z1⟩
    · rw [PyM.bind_err hr] at hok
      exact hpass _ _ _ (by rw [hr, hok])
    · rw [PyM.bind_ok hr, PyM.get_bind] at hok
      obtain ⟨hrd, U, hsub, hb, -⟩ := addBuffered_ok d _ _ _ ⟨rows, other, h.withBuffer []⟩ hv hr
      have hb1 : z1.bufferedRedirects = U := by rw [hb]; rfl
      subst hb1
      split at hok
      · rename_i hU
        refine ih z1 z' hrd (fun r hr => hv r (hsub.subset hr)) ?_ hok
        rcases Nat.lt_or_ge z1.bufferedRedirects.length z.bufferedRedirects.length with hl' | hl'
        · omega
        · exact absurd (hsub.eq_of_length_le hl') hU
      · cases hok

end Zim
end Pyzim
