import Verif.Props.ArchiveSuccess

/-!
# When writing an entry with another url or size succeeds
-/

namespace Pyzim
namespace Zim

variable {z : Zim} {rows : List Row} {other : Nat → Prop} {S : String → Prop} {L : Nat}

/-- `isArticle` returns for an entry that was in the namespace "C" before if it is now -/
theorem Rep.isArticle_moved (h : Rep z rows other) {e : Entry} {u : String} (hold : e.oldFullUrl = some u)
    (hC : e.ns = "C" → u.toList.head? = some 'C') : ∃ ia, z.isArticle e = .ok ia := by
  unfold Zim.isArticle
  cases hf : e.forceIsArticle with
  | some b => exact ⟨b, rfl⟩
  | none =>
    simp only
    by_cases hns : e.ns = "C"
    · rw [if_neg (by simp [hns]), hold]
      simp only
      unfold entryIsArticle
      rw [if_neg (by simp [hC hns]), if_neg (by simp [h.isOpen])]
      rcases h.urlIndex_cases u with ⟨i, r, hi, hru, hui⟩ | ⟨hu, hui⟩
      · rw [hui]
        simp only
        rcases getByPointer_spec z.articles i with ⟨a, h1, h2⟩ | ⟨h1, h2⟩ <;> rw [h1] <;> exact ⟨_, rfl⟩
      · rw [hui]; exact ⟨_, rfl⟩
    · rw [if_pos hns]; exact ⟨_, rfl⟩

/-- Writing an entry that is no redirect and no target of one with another url or size succeeds. -/
theorem Roomy.moved {e e0 : Entry} {u : String} (h : Roomy z S L) (hp : e.Proper) (hm : e.mutable = true)
    (h0 : z.entryByFullUrl u = .ok e0) (hold : e.oldFullUrl = some u) (hC : e.ns = "C" → u.toList.head? = some 'C')
    (hk : ∀ i, e.kind ≠ .redirect i)
    (hch : z.hasEntry e.fullUrl = .ok false ∨ (e.fullUrl = u ∧ e0.getDiskSize ≠ e.getDiskSize))
    (hb : ∃ b, e.toBytes = .ok b) (hno : ∀ s, ¬ Leads z s u) (d : Nat) (upd att : Bool) :
    ∃ e' z', writeEntry (d + 2) e upd att z = (.ok e', z') := by
  obtain ⟨rows, other, h, hA, hother, hlen, hL, hrange⟩ := h
  have hex : HasUrl rows u := by
    by_contra hn
    rw [h.entryByFullUrl_missing fun r hr hru => hn ⟨r, hr, hru⟩] at h0
    cases h0
  obtain ⟨⟨o, e1⟩, hr, rfl⟩ := hex
  have he1 : e0 = e1 := by
    have := h.entryByFullUrl hr
    rw [h0] at this
    injection this
  subst he1
  obtain ⟨k, hk0⟩ := List.getElem?_of_mem hr
  have hk' := (List.getElem?_eq_some_iff.1 hk0).1
  have hnok : ∀ r ∈ rows, r.2.kind ≠ .redirect k := fun r hr hrk =>
    hno r.2.fullUrl (h.leads_iff.2 ⟨r, hr, rfl, k, _, hrk, hk0, rfl⟩)
  obtain ⟨r, z', n, off, us, hn, hus, hw, -, htot⟩ := h.writeEntry_moved hk0 hold (by
    rcases hch with hch | hch
    · exact .inl fun r hr he => rep_hasEntry_false h hch ⟨r, hr, he⟩
    · exact .inr hch) hp d upd att
  have hl := erased_length (rows := rows) hk'
  obtain ⟨e', rfl⟩ := htot S hA (h.isArticle_moved hold hC) hm hb (fun i hi => absurd hi (hk i))
    (fun s v hs ⟨i, hi, _, hni, hv⟩ => by
      have hs' := List.mem_of_mem_eraseIdx hs
      have h1 := hrange s hs' i hi
      have h2 := h.store.offset_ge hother hs'
      have h3 : i ≠ k := fun hik => hnok s hs' (hik ▸ hi)
      refine ⟨?_, ?_, ?_, ?_⟩ <;> omega)
    (fun t v ht ⟨i, hi, _, hni, hv⟩ => by
      obtain ⟨s, hs, rfl⟩ := List.mem_map.1 ht
      have hs' := List.mem_of_mem_eraseIdx hs
      have h2 : L ≤ s.1 := h.store.offset_ge hother hs'
      have h5 : (shRow k (-1) [] s).1 = s.1 := rfl
      have h4 : i < rows.length - 1 := by
        unfold shRow sh at hi
        cases hkk : s.2.kind with
        | content c b => simp only [hkk] at hi; cases hi
        | redirect j =>
          have h1 := hrange s hs' j hkk
          have h3 : j ≠ k := fun hik => hnok s hs' (hik ▸ hkk)
          simp only [hkk] at hi
          split at hi
          · rename_i hc
            injection hi with hi; omega
          · rename_i hc
            rw [hkk] at hi; injection hi with hi
            subst hi
            have : ¬ k ≤ j := fun hh => hc ⟨by simp, hh⟩
            omega
      refine ⟨?_, ?_, ?_⟩ <;> omega)
    (fun w hw => by
      rw [hus] at hw
      split at hw
      · obtain ⟨r, hr, -, hrk⟩ := h.mem_urlsTo.1 hw
        exact absurd hrk (hnok r hr)
      · cases hw) (by omega) (fun i hi => by
      unfold insEntry at hi
      split at hi
      · rename_i j hj
        exact absurd hj (hk j)
      · rename_i hj
        exact absurd hi (hk i))
  exact ⟨e', z', hw⟩

end Zim
end Pyzim
