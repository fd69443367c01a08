import Verif.Spec.Mimetypes
import Verif.Props.Creator

/-!
# Properties of the mimetypes of an archive
-/

namespace Pyzim

theorem texts_of {bs : List Bytes} {P : String → Prop} (h : ∀ x ∈ bs, ∃ s, P s ∧ encode s = x) :
    ∃ l : List String, bs = l.map encode ∧ ∀ s ∈ l, P s := by
  induction bs with
  | nil => exact ⟨[], rfl, by simp⟩
  | cons x bs ih =>
    obtain ⟨l, h1, h2⟩ := ih fun y hy => h y (List.mem_cons_of_mem _ hy)
    obtain ⟨s, k1, k2⟩ := h x List.mem_cons_self
    refine ⟨s :: l, by rw [h1, List.map_cons, k2], fun t ht => ?_⟩
    rcases List.mem_cons.1 ht with rfl | ht
    · exact k1
    · exact h2 t ht

theorem Zim.decodeAll_map (l : List String) : Zim.decodeAll (l.map encode) = .ok l := by
  induction l with
  | nil => rfl
  | cons s l ih => simp only [List.map_cons, Zim.decodeAll, decode_encode, ih]

namespace Creator

open Strategy (item)

variable {D K : Type} {S : Setup D K} {md5 : Bytes → Bytes} {r : Nat} {c : Creator D} {done : List (List Sourced)}
  {recent : List Sourced} {rs : List Zim.Redirect} {mts : List String}

theorem mimetypes_of_shows {X : Codecs D} {kind : ClusterKind} {calls : Nat} {z : Zim} {items all : List Sourced}
    {redirects : List Zim.Redirect} (h : ShowsItems X kind calls z items redirects) {l : List String}
    (hl : z.mimetypes.mimetypes = l.map encode) (hn : z.mimetypes.mimetypes.Nodup) (hlen : l.length ≤ 65535)
    (hs : ∀ s ∈ l, s = "application/octet-stream+zimlisting" ∨ ∃ p ∈ all, p.1.mimetype = s) :
    ShowsMimetypes z items all redirects := by
  have hget : ∀ (i : Int) (s : String), z.mimetypes.get i = .ok (encode s) →
      0 ≤ i ∧ i < l.length ∧ l[i.toNat]? = some s ∧ z.mimetypeByIndex i = .ok s := by
    intro i s hi
    have hv : z.mimetypeByIndex i = .ok s := by simp only [Zim.mimetypeByIndex, hi, bind, Except.bind, decode_encode]
    unfold MimeTypeList.get at hi
    rw [hl, List.length_map] at hi
    split at hi
    · cases hi
    · rename_i hb
      refine ⟨by omega, by omega, ?_, hv⟩
      rw [List.getElem?_map] at hi
      cases hk : l[i.toNat]? with
      | none => rw [hk] at hi; cases hi
      | some t =>
        rw [hk] at hi
        simp only [Option.map_some, Except.ok.injEq] at hi
        rw [encode_injective hi]
  refine ⟨?_, ?_, l, ?_, ?_, ?_, hs, ?_, ?_⟩
  · intro p hp
    obtain ⟨e, h1, -, -, -, h2, -⟩ := h.item p hp
    obtain ⟨-, k2, -, k3⟩ := hget _ _ h2
    refine ⟨e, h1, ?_⟩
    unfold Zim.mimetypeOfEntry
    rw [if_neg]
    · exact k3
    · unfold Entry.isRedirect Entry.MIMETYPE_ID_REDIRECT
      simp only [decide_eq_true_eq]
      omega
  · intro q hq
    obtain ⟨e, h1, h2, -⟩ := h.redirect q hq
    refine ⟨e, h1, ?_⟩
    unfold Zim.mimetypeOfEntry
    rw [if_pos h2]
  · unfold Zim.iterMimetypes MimeTypeList.iterMimetypes
    rw [hl, Zim.decodeAll_map]
  · rw [hl] at hn
    exact hn.of_map
  · intro p hp
    obtain ⟨e, -, -, -, -, h2, -⟩ := h.item p hp
    exact List.mem_of_getElem? (hget _ _ h2).2.2.1
  · intro i s hi
    have : z.mimetypes.get i = .ok (encode s) := by
      unfold MimeTypeList.get
      have := (List.getElem?_eq_some_iff.1 hi).1
      rw [hl, List.length_map, if_neg (by omega), Int.toNat_natCast, List.getElem?_map, hi]
      rfl
    exact (hget _ _ this).2.2.2
  · intro i hi
    unfold Zim.mimetypeByIndex MimeTypeList.get
    rw [hl, List.length_map, if_pos hi.symm]
    rfl

/-- **C101.** However items and redirects were added to an archive and however often it was flushed and opened again: once
there are no unsaved changes, the mimetypes in the file are those of the items, each listed once. -/
theorem C101_mimetypes (hr : 2 ≤ r) (hS : S.Good md5 (some r)) (h : CreatorHist S c done recent rs)
    (hA : Apart rs (done ++ [recent])) (hd : c.arch.isDirty = false) (hmts : mts.length < 65534) (hl : ∀ l ∈ done ++ [recent], Batch mts l)
    (kind : ClusterKind) (calls follow : Nat) (titles : Zim → PyRes PointerList) :
    ∃ a, openArchive { S with kind := kind, calls := calls, follow := follow } titles false c.arch.zim.file = .ok a ∧
      ShowsMimetypes a.zim (current (done ++ [recent])) (done ++ [recent]).flatten rs := by
  have hf : ∃ us : List String, us.length ≤ mts.length ∧ (∀ p ∈ (done ++ [recent]).flatten, p.1.mimetype ∈ us) ∧
      ∀ s ∈ us, ∃ p ∈ (done ++ [recent]).flatten, p.1.mimetype = s := by
    refine ⟨mts.filter fun s => (done ++ [recent]).flatten.any fun p => p.1.mimetype = s, List.length_filter_le _ _, ?_, ?_⟩
    · intro p hp
      obtain ⟨l, h1, h2⟩ := List.mem_flatten.1 hp
      refine List.mem_filter.2 ⟨(hl l h1).mimetypes p h2, List.any_eq_true.2 ⟨p, hp, by simp⟩⟩
    · intro s hs
      obtain ⟨p, hp, k⟩ := List.any_eq_true.1 (List.mem_filter.1 hs).2
      exact ⟨p, hp, by simpa using k⟩
  obtain ⟨us, hu1, hu2, hu3⟩ := hf
  obtain ⟨a, h1, h2⟩ := C70_items_survive hr hS h hA hd hmts hl kind calls follow titles
  have hm : ∀ l ∈ done ++ [recent], (l.map urlOf).Nodup ∧ NotHuge l ∧
      ∀ p ∈ l, encode p.1.mimetype ∈ encode placeholder.mimetype :: us.map encode ∧ p.1.fullUrl ≠ URL_ARTICLES := fun l hk =>
    ⟨(hl l hk).urls, (hl l hk).size, fun p hp => ⟨List.mem_cons_of_mem _ (List.mem_map.2 ⟨_, hu2 p (List.mem_flatten.2 ⟨l, hk, hp⟩), rfl⟩),
      (hl l hk).other p hp⟩⟩
  have hML : (encode placeholder.mimetype :: us.map encode).length < 65535 := by
    rw [List.length_cons, List.length_map]; omega
  obtain ⟨Gb, -, G, P1, P2, ⟨rows, cs, extra, es, L, m0, R, B, hc, -⟩, -⟩ := h.has hr hS hA hML List.mem_cons_self hm
  have ho := (h.found hr hS hA hd hML List.mem_cons_self hm).2.2.1 kind calls follow titles
  rw [h1] at ho
  injection ho with ho
  have hmm : a.zim.mimetypes.mimetypes = c.arch.zim.mimetypes.mimetypes := by rw [ho]; rfl
  obtain ⟨l, k1, k2⟩ := texts_of (bs := a.zim.mimetypes.mimetypes)
    (P := fun s => s = "application/octet-stream+zimlisting" ∨ ∃ p ∈ (done ++ [recent]).flatten, p.1.mimetype = s) (by
      intro x hx
      rw [hmm] at hx
      rcases List.mem_cons.1 (hc.mimes.sub x hx) with rfl | hx
      · exact ⟨_, .inl rfl, rfl⟩
      · obtain ⟨s, hs, rfl⟩ := List.mem_map.1 hx
        exact ⟨s, .inr (hu3 s hs), rfl⟩)
  refine ⟨a, h1, mimetypes_of_shows h2 k1 (by rw [hmm]; exact hc.mimes.nodup) ?_ k2⟩
  have := hc.mimes.length
  rw [← hmm, k1, List.length_map] at this
  omega

/-- an archive in which a page was replaced -/
example (kind : ClusterKind) : ∃ a, openArchive { demoSetup with kind := kind, calls := 0, follow := 0 }
      (fun _ => .error .hang) false demoE.arch.zim.file = .ok a ∧
    ShowsMimetypes a.zim
      [item "b" "image/png" [4, 5], item "c" "text/html" [6], item "a" "text/html" [7, 8]]
      [item "a" "text/html" [1, 2, 3], item "b" "image/png" [4, 5], item "c" "text/html" [6], item "a" "text/html" [7, 8]] [] :=
  C101_mimetypes (by omega) demoSetup_good demoE_hist (apart_nil _) demoE_clean (by decide) demoE_batches kind 0 0 _

end Creator
end Pyzim
