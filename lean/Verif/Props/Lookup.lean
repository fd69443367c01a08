import Verif.Spec.Lookup
import Verif.Props.Entry
import Verif.Props.Creator

/-!
# Properties of looking entries up by namespace and url
-/

namespace Pyzim

theorem length_of_one_byte {s : String} (h : (encode s).length = 1) : s.length = 1 := by
  obtain ⟨c, rfl, -⟩ := encode_length_one h
  exact String.length_singleton

theorem toList_of_length_one {s : String} (h : s.length = 1) : ∃ c, s.toList = [c] :=
  List.length_eq_one_iff.1 (by rw [String.length_toList, h])

/-- Strings starting with one character: the characters and the rests are the same. -/
theorem append_inj_of_one_char {a b s t : String} (ha : a.length = 1) (hb : b.length = 1) (h : a ++ s = b ++ t) :
    a = b ∧ s = t := by
  obtain ⟨c, hc⟩ := toList_of_length_one ha
  obtain ⟨d, hd⟩ := toList_of_length_one hb
  have := congrArg String.toList h
  rw [String.toList_append, String.toList_append, hc, hd] at this
  simp only [List.cons_append, List.nil_append, List.cons.injEq] at this
  exact ⟨String.toList_injective (by rw [hc, hd, this.1]), String.toList_injective this.2⟩

namespace Zim

theorem one_byte_of_entryAt {z : Zim} {l : Int} {e : Entry} (h : z.entryAt l = .ok e) : (encode e.ns).length = 1 := by
  unfold entryAt at h
  split at h
  · cases h
  · cases hf : Entry.fromFile ⟨z.file, 0⟩ (some l.toNat) with
    | none => rw [hf] at h; cases h
    | some q =>
      obtain ⟨r, f'⟩ := q
      rw [hf] at h
      dsimp only at h
      subst h
      exact Entry.C16_read_good (PyFile.seek ⟨z.file, 0⟩ l.toNat) f' e hf

theorem of_entryByFullUrl {z : Zim} {u : String} {e : Entry} (h : z.entryByFullUrl u = .ok e) :
    e.fullUrl = u ∧ (encode e.ns).length = 1 := by
  unfold entryByFullUrl at h
  cases hg : z.urls.get z.urlKey (encode u) with
  | error x =>
    rw [hg] at h
    cases x <;> cases h
  | ok l =>
    rw [hg] at h
    dsimp only at h
    refine ⟨?_, one_byte_of_entryAt h⟩
    unfold PointerList.get PointerList.getIndex at hg
    simp only [bind, Except.bind, pure, Except.pure] at hg
    cases hb : binarysearch z.urls.len (z.urls.keyAt z.urlKey) (encode u) with
    | error x => rw [hb] at hg; cases hg
    | ok i =>
      rw [hb] at hg
      dsimp only at hg
      by_cases hi : i ≠ z.urls.len
      · rw [if_pos hi] at hg
        cases hk : z.urls.keyAt z.urlKey i with
        | error x => rw [hk] at hg; cases hg
        | ok k =>
          rw [hk] at hg
          dsimp only at hg
          by_cases he : k = encode u
          · rw [if_pos he] at hg
            dsimp only at hg
            unfold PointerList.keyAt at hk
            simp only [bind, Except.bind] at hk
            rw [hg] at hk
            simp only [urlKey] at hk
            rw [h] at hk
            simp only [Except.ok.injEq] at hk
            exact encode_injective (hk.trans he)
          · rw [if_neg he] at hg; cases hg
      · rw [if_neg hi] at hg; cases hg

end Zim

/-- **C100.** In any archive, even a broken one: the entry found for a namespace and an url has this namespace and this
url. -/
theorem C100_right (z : Zim) (ns url : String) (e : Entry) (h : z.entryByUrl ns url = .ok e) : e.ns = ns ∧ e.url = url := by
  unfold Zim.entryByUrl at h
  split at h
  · cases h
  · rename_i hl
    obtain ⟨h1, h2⟩ := Zim.of_entryByFullUrl h
    exact append_inj_of_one_char (length_of_one_byte h2) (Classical.not_not.1 hl) h1

/-- **C100.** The same for urls in the namespace `C`. -/
theorem C100_right_content (z : Zim) (url : String) (e : Entry) (h : z.contentEntryByUrl url = .ok e) :
    e.ns = "C" ∧ e.url = url := C100_right z "C" url e h

/-- **C100.** Looking up by namespace and url finds an entry iff looking up the full url does, provided that the namespace
is a single character; otherwise it is an `AssertionError`. -/
theorem C100_full (z : Zim) (ns url : String) (e : Entry) :
    z.entryByUrl ns url = .ok e ↔ ns.length = 1 ∧ z.entryByFullUrl (ns ++ url) = .ok e := by
  unfold Zim.entryByUrl
  split
  · rename_i h
    constructor
    · intro h; cases h
    · rintro ⟨h1, -⟩; exact absurd h1 h
  · rename_i h
    exact ⟨fun k => ⟨Classical.not_not.1 h, k⟩, fun k => k.2⟩

/-- **C100.** Everything that is found by its full url is found by its namespace and its url. -/
theorem C100_complete (z : Zim) (u : String) (e : Entry) (h : z.entryByFullUrl u = .ok e) :
    z.entryByUrl e.ns e.url = .ok e := by
  obtain ⟨h1, h2⟩ := Zim.of_entryByFullUrl h
  rw [C100_full]
  refine ⟨length_of_one_byte h2, ?_⟩
  rw [show e.ns ++ e.url = u from h1]
  exact h

/-- **C100.** A namespace that is not a single character is refused, … -/
theorem C100_assertion (z : Zim) (ns url : String) (h : ns.length ≠ 1) : z.entryByUrl ns url = .error .assertionError := by
  unfold Zim.entryByUrl
  rw [if_pos h]

/-- **C100.** … and nothing is in a namespace whose character takes several bytes. -/
theorem C100_not_ascii (z : Zim) (ns url : String) (h : (encode ns).length ≠ 1) (e : Entry) :
    z.entryByUrl ns url ≠ .ok e := by
  intro hk
  have h1 := (C100_right z ns url e hk).1
  have h2 := Zim.of_entryByFullUrl ((C100_full z ns url e).1 hk).2
  rw [h1] at h2
  exact h h2.2

namespace Creator

open Strategy (item)

variable {D K : Type} {S : Setup D K} {md5 : Bytes → Bytes} {r : Nat} {c : Creator D} {done : List (List Sourced)}
  {recent : List Sourced} {rs : List Zim.Redirect} {mts : List String}

theorem byUrl_of_shows {X : Codecs D} {kind : ClusterKind} {calls : Nat} {z : Zim} {items : List Sourced}
    {redirects : List Zim.Redirect} (h : ShowsItems X kind calls z items redirects) :
    FoundByUrl X kind calls z items redirects := by
  have hi : ∀ p ∈ items, ∃ e, z.entryByUrl p.1.ns p.1.url = .ok e ∧ e.ns = p.1.ns ∧ e.url = p.1.url ∧
      e.title = (if p.1.title = "" then p.1.url else p.1.title) ∧ z.readContent X kind calls e = .ok p.2 := by
    intro p hp
    obtain ⟨e, h1, h2, h3, h4, -, -, h5⟩ := h.item p hp
    refine ⟨e, ?_, h2, h3, h4, h5⟩
    have := C100_complete z _ e h1
    rwa [h2, h3] at this
  have hm : ∀ ns url, ns.length = 1 → ns ++ url ≠ URL_ARTICLES → (∀ p ∈ items, (p.1.ns, p.1.url) ≠ (ns, url)) →
      (∀ r ∈ redirects, r.1 ≠ ns ++ url) → z.entryByUrl ns url = .error .entryNotFound := by
    intro ns url hl hu hp hr
    unfold Zim.entryByUrl
    rw [if_neg fun k => k hl]
    refine h.missing _ hu (fun p hq k => hp p hq ?_) hr
    obtain ⟨e, h1, h2, -⟩ := h.item p hq
    have := (Zim.of_entryByFullUrl h1).2
    rw [h2] at this
    obtain ⟨k1, k2⟩ := append_inj_of_one_char (length_of_one_byte this) hl k
    rw [k1, k2]
  refine ⟨hi, ?_, ?_, hm, ?_⟩
  · intro p hp hC
    obtain ⟨e, h1, h2, h3, -, h5⟩ := hi p hp
    rw [hC] at h1 h2
    exact ⟨e, h1, h2, h3, h5⟩
  · intro r hr ns url hl hs
    obtain ⟨e, h1, h2, -⟩ := h.redirect r hr
    rw [hs] at h1
    have := (C100_full z ns url e).2 ⟨hl, h1⟩
    exact ⟨e, this, h2, C100_right z ns url e this⟩
  · intro url hp hr
    refine hm "C" url (by decide) (fun k => ?_) hp hr
    have h1 := (append_inj_of_one_char (a := "C") (b := "X") (t := "listing/titleOrdered/v1") (by decide) (by decide)
      (k.trans (by decide +kernel))).1
    revert h1
    decide

/-- **C100.** However items and redirects were added to an archive and however often it was flushed and opened again: once
there are no unsaved changes, each item is found by its namespace and url in the file, with its title and content; redirects
are found too, and nothing else is. -/
theorem C100_saved (hr : 2 ≤ r) (hS : S.Good md5 (some r)) (h : CreatorHist S c done recent rs)
    (hA : Apart rs (done ++ [recent])) (hd : c.arch.isDirty = false) (hmts : mts.length < 65534) (hl : ∀ l ∈ done ++ [recent], Batch mts l)
    (kind : ClusterKind) (calls follow : Nat) (titles : Zim → PyRes PointerList) :
    ∃ a, openArchive { S with kind := kind, calls := calls, follow := follow } titles false c.arch.zim.file = .ok a ∧
      FoundByUrl S.X kind calls a.zim (current (done ++ [recent])) rs := by
  obtain ⟨a, h1, h2⟩ := C70_items_survive hr hS h hA hd hmts hl kind calls follow titles
  exact ⟨a, h1, byUrl_of_shows h2⟩

example (kind : ClusterKind) : ∃ a, openArchive { demoSetup with kind := kind, calls := 0, follow := 0 }
      (fun _ => .error .hang) false demoE.arch.zim.file = .ok a ∧
    FoundByUrl Cluster.rawCodecs kind 0 a.zim
      [item "b" "image/png" [4, 5], item "c" "text/html" [6], item "a" "text/html" [7, 8]] [] :=
  C100_saved (by omega) demoSetup_good demoE_hist (apart_nil _) demoE_clean (by decide) demoE_batches kind 0 0 _

/-- in that archive there is a page `b` but no page `d`; namespaces that are refused or empty -/
example : ∃ a e, openArchive { demoSetup with kind := .remembering, calls := 0, follow := 0 }
      (fun _ => .error .hang) false demoE.arch.zim.file = .ok a ∧
    a.zim.entryByUrl "C" "b" = .ok e ∧ e.ns = "C" ∧ e.url = "b" ∧ a.zim.contentEntryByUrl "d" = .error .entryNotFound ∧
    a.zim.entryByUrl "" "Cb" = .error .assertionError ∧ ∀ e, a.zim.entryByUrl "é" "b" ≠ .ok e := by
  obtain ⟨a, h1, h2⟩ := C100_saved (by omega) demoSetup_good demoE_hist (apart_nil _) demoE_clean (by decide) demoE_batches
    .remembering 0 0 fun _ => .error .hang
  obtain ⟨e, k1, k2, k3, -⟩ := h2.item (item "b" "image/png" [4, 5]) (by
    rw [show current ([[item "a" "text/html" [1, 2, 3], item "b" "image/png" [4, 5], item "c" "text/html" [6]],
      [item "a" "text/html" [7, 8]]] ++ [[]]) = [item "b" "image/png" [4, 5], item "c" "text/html" [6],
      item "a" "text/html" [7, 8]] from rfl]
    simp)
  refine ⟨a, e, h1, k1, k2, k3, h2.missing_content "d" ?_ (by simp), C100_assertion _ _ _ (by decide),
    fun e => C100_not_ascii _ _ _ (by decide +kernel) e⟩
  rw [show current ([[item "a" "text/html" [1, 2, 3], item "b" "image/png" [4, 5], item "c" "text/html" [6]],
      [item "a" "text/html" [7, 8]]] ++ [[]]) = [item "b" "image/png" [4, 5], item "c" "text/html" [6],
      item "a" "text/html" [7, 8]] from rfl]
  decide +kernel

end Creator
end Pyzim
