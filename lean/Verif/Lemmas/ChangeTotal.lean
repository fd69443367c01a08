import Verif.Lemmas.EditTotal
import Verif.Lemmas.MoveTotal

/-!
# Archives whose entries get other titles and urls: when this succeeds
-/

namespace Pyzim
open Zim (Row Stored MimesIn catalogue marked Redirect Leads Once catalogue_other)

section
variable {D K : Type} {ML : List Bytes} {S : Setup D K} {c c' : Creator D} {recent : List Sourced} {rs : List Redirect}
  {md5 : Bytes → Bytes} {r : Nat} {mts : List String} {done : List (List Sourced)} {u : String}

/-- Writing the entry of an item, which no redirect leads to, with another title or url succeeds. -/
theorem EditHist.change_total (hr : 2 ≤ r) (hS : S.Good md5 (some r)) (h : EditHist S mts c done recent rs)
    (hML : ML.length < 65535) (hmt : encode Creator.placeholder.mimetype ∈ ML) (hm : ∀ m ∈ mts, encode m ∈ ML)
    (hu : u ≠ URL_ARTICLES) (hrec : ∀ p ∈ recent, p.1.fullUrl ≠ u) (hrs : ∀ x ∈ rs, x.1 ≠ u ∧ x.2.1 ≠ u)
    (htg : ∀ x ∈ rs, ((done ++ [recent]).flatten.map fun p => p.1.fullUrl).count x.2.1 ≤ 1)
    (hex : ∃ p ∈ current done, p.1.fullUrl = u) (hd : 2 ≤ S.depth) (hn : c.arch.zim.urls.len < 80 + r) (h2 : 80 + r ≤ 2 ^ 32) :
    ∃ e0, c.arch.zim.entryByFullUrl u = .ok e0 ∧ e0.Clean ∧ e0.fullUrl = u ∧
      (∃ l ∈ done, ∃ p ∈ l, p.1.fullUrl = u ∧ p.1.ns = e0.ns ∧ p.1.url = e0.url) ∧
      ∀ e : Entry, e.Proper → e.mutable = true → e.oldFullUrl = some u → e.ns = e0.ns → e.mimetypeId = e0.mimetypeId → e.kind = e0.kind →
        (e.fullUrl = u ∨ (e.fullUrl ≠ URL_ARTICLES ∧ (∀ l ∈ done, ∀ p ∈ l, p.1.fullUrl ≠ e.fullUrl) ∧
          (∀ p ∈ recent, p.1.fullUrl ≠ e.fullUrl) ∧ ∀ x ∈ rs, x.1 ≠ e.fullUrl)) →
        ∃ e' Z', Zim.writeEntry S.depth e true true c.arch.zim = (.ok e', Z') := by
  obtain ⟨Gb, h1, G, P1, P2, ⟨rows, cs, extra, es, L, m0, R, B, hc, hB⟩, -, -, -, -, hperm, -⟩ := h.has hr hS hML hmt hm
  obtain ⟨k1, k2, k3⟩ := h.sound
  have hs := k1.apart.separated k2 h1
  have hGr : ∀ p ∈ G.flatten, p ∈ recent := fun p hp => hperm.subset (List.mem_append_right _ hp)
  have hRs : ∀ x ∈ R, x ∈ rs := fun x hx => hB.subset (List.mem_append_left _ hx)
  have hO : ∀ x ∈ R, Once m0 es x.1 x.2.1 := fun x hx =>
    hc.onceOf hGr hperm k3 h1 hs hRs k1.other (hRs x hx) (htg x (hRs x hx))
  have hrep := hc.laid.content.rep
  have hm0 : m0 u = none := by
    cases hm : m0 u with
    | none => rfl
    | some v =>
      obtain ⟨x, hx, hxu⟩ := hc.only _ _ hm
      exact absurd hxu (hrs x (hRs x hx)).1
  obtain ⟨p, hp, hpu⟩ := hex
  obtain ⟨l, hl, hpl⟩ := mem_current hp
  have hpG : p ∈ present true (Gb.flatten ++ G) := by
    rw [present_append]
    exact List.mem_append_left _ ((present_flatten h1).mem_iff.2 (List.mem_flatten.2 ⟨l, hl, hpl⟩))
  obtain ⟨q, hq, hqu⟩ := hc.present_row hpG
  rw [hpu] at hqu
  have he : c.arch.zim.entryByFullUrl u = .ok q.2 := by rw [← hqu]; exact hrep.entryByFullUrl hq
  obtain ⟨-, -, G1, g1, p', g2, G2, E1, ep, E2, A, Z, hpl'⟩ := hc.place hu hm0 he
  have hclean := hrep.store.clean q hq
  obtain ⟨i1, i2, hk⟩ : ∃ k1 k2, q.2.kind = .content k1 k2 := by
    have hv := congrArg View.body hpl'.view
    unfold Entry.view at hv
    rw [hpl'.this.location] at hv
    simp only at hv
    cases hk : q.2.kind with
    | content k1 k2 => exact ⟨k1, k2, rfl⟩
    | redirect j => rw [hk] at hv; cases hv
  obtain ⟨d, hd'⟩ : ∃ d, S.depth = d + 2 := ⟨S.depth - 2, by omega⟩
  have hrm := hc.roomy hO (by rw [← hrep.len]; exact hn) h2
  have hno := hc.unused (w := u) fun x hx => ⟨(hrs x (hRs x hx)).2, hO x hx⟩
  refine ⟨q.2, he, hclean, hqu, ?_, ?_⟩
  · have hp' : p' ∈ (Gb.flatten ++ G).flatten := by rw [hpl'.groups]; simp
    rw [List.flatten_append] at hp'
    rcases List.mem_append.1 hp' with hp' | hp'
    · obtain ⟨gr, hgr, hpg⟩ := List.mem_flatten.1 hp'
      obtain ⟨Gx, hGx, hgx⟩ := List.mem_flatten.1 hgr
      obtain ⟨l', hl', hpp⟩ := forall₂_mem_left h1 hGx
      refine ⟨l', hl', p', hpp.subset ?_, hpl'.url, ((congrArg View.ns hpl'.view).trans hpl'.this.ns).symm,
        ((congrArg View.url hpl'.view).trans hpl'.this.url).symm⟩
      refine List.mem_filter.2 ⟨List.mem_flatten.2 ⟨gr, hgx, hpg⟩, decide_eq_true ?_⟩
      rw [show p'.1.ns ++ p'.1.url = u from hpl'.url]; exact hpl'.ne
    · exact absurd hpl'.url (hrec _ (hGr _ hp'))
  · intro e hp hmut hold hns hmi hkd hwhere
    have hb : ∃ b, e.toBytes = .ok b := (Entry.toBytes_ok_iff _).2 ⟨Entry.packHead_ok _
        ⟨by rw [hns]; exact hclean.storable.ns, hp.url, hp.title, by rw [hmi]; exact hclean.storable.mimetype,
          by rw [hkd]; exact hclean.storable.numbers⟩, _, hp.title.choose_spec.1⟩
    have hkr : ∀ i, e.kind ≠ .redirect i := fun i hi => by rw [hkd, hk] at hi; cases hi
    have hC : e.ns = "C" → u.toList.head? = some 'C' := by
      intro hc
      rw [← hqu]
      unfold Entry.fullUrl
      rw [← hns, hc, String.toList_append]
      rfl
    rw [hd']
    rcases hwhere with heu | ⟨j1, j2, j3, j4⟩
    · by_cases hsz : q.2.getDiskSize = e.getDiskSize
      · obtain ⟨j, hj⟩ := List.getElem?_of_mem hq
        obtain ⟨rr, z', hw, -, htot⟩ := hrep.writeEntry_inplace (e := e) (e0 := q.2) hj (by rw [heu]; exact hold)
          (heu.trans hqu.symm) hsz.symm hp (d + 1) true true
        obtain ⟨e', rfl⟩ := htot _ hc.art hb (fun j hj => absurd hj (hkr j))
        exact ⟨_, _, hw⟩
      · exact hrm.moved hp hmut he hold hC hkr (.inr ⟨heu, hsz⟩) hb hno d true true
    · refine hrm.moved hp hmut he hold hC hkr (.inl ?_) hb hno d true true
      obtain ⟨b, hb, hbu⟩ := hrep.hasEntry e.fullUrl
      rw [hb]
      cases b with
      | false => rfl
      | true =>
        obtain ⟨t, ht, htu⟩ := hbu.1 rfl
        exfalso
        have hw : e.fullUrl ∉ es.map Entry.fullUrl := by
          rw [hc.entryUrls, List.mem_cons, not_or]
          refine ⟨j1, fun hm => ?_⟩
          obtain ⟨p, hp, hpu⟩ := List.mem_map.1 hm
          rw [present_append] at hp
          rcases List.mem_append.1 hp with hp | hp
          · obtain ⟨l, hl1, hl2⟩ := List.mem_flatten.1 ((present_flatten h1).subset hp)
            exact j2 l hl1 p hl2 hpu
          · exact j3 p (hGr p (List.mem_filter.1 hp).1) hpu
        have hcat := (hc.lists e.fullUrl t.2.view).2 ⟨t, ht, htu, rfl⟩
        rw [catalogue_other m0 hw] at hcat
        obtain ⟨x, hx, hxu⟩ := hc.only _ _ hcat
        exact j4 x (hRs x hx) hxu

/-- Setting the title of an item succeeds. -/
theorem EditHist.retitle_total (hr : 2 ≤ r) (hS : S.Good md5 (some r)) (h : EditHist S mts c done recent rs)
    (hML : ML.length < 65535) (hmt : encode Creator.placeholder.mimetype ∈ ML) (hm : ∀ m ∈ mts, encode m ∈ ML)
    (ham : Amendable u recent rs) (hl : ∀ x ∈ rs, x.2.1 ≠ u)
    (htg : ∀ x ∈ rs, ((done ++ [recent]).flatten.map fun p => p.1.fullUrl).count x.2.1 ≤ 1)
    (hex : ∃ p ∈ current done, p.1.fullUrl = u) (hd : 2 ≤ S.depth) (hn : c.arch.zim.urls.len < 80 + r) (h2 : 80 + r ≤ 2 ^ 32)
    {v : Option StrArg} {b : Bytes} {t : String} (hb : (v.getD (.str "")).both = .ok (b, t)) (hbz : (0 : UInt8) ∉ b) :
    ∃ c', Creator.setTitle S u v c = (.ok (), c') := by
  obtain ⟨e0, he, hcl, heu, -, hw⟩ := h.change_total hr hS hML hmt hm ham.other ham.flushed (fun x hx => ⟨ham.item x hx, hl x hx⟩)
    htg hex hd hn h2
  have hmut : e0.mutable = true := by rw [← hcl.fresh]; rfl
  have hdirty : e0.dirty = false := by rw [← hcl.fresh]; rfl
  have hold : e0.oldFullUrl = some u := by rw [← heu]; exact (congrArg Entry.oldFullUrl hcl.fresh).symm
  have hset : e0.setTitle v = (.ok (), if some t ≠ e0.titleRaw then { e0 with titleRaw := some t, dirty := true } else e0) := by
    unfold Entry.setTitle
    rw [hb]
    simp only
    rw [if_neg hbz, hmut]
    simp only [Bool.not_true, Bool.false_eq_true, if_false]
    split <;> rfl
  unfold Creator.setTitle Creator.onArch Archive.onZim
  simp only [PyM.of_apply, PyM.get_bind, he, PyM.lift_ok_bind, hset]
  have hfl : ∃ Z', Zim.flushEntry S.depth (if some t ≠ e0.titleRaw then { e0 with titleRaw := some t, dirty := true } else e0)
      c.arch.zim = (.ok (), Z') := by
    split
    · obtain ⟨e', Z', hz⟩ := hw { e0 with titleRaw := some t, dirty := true }
        ⟨hcl.storable.url, ⟨t, rfl, by rw [← Entry.both_inv hb]; exact hbz⟩, hcl.kind, fun hf => by
          rw [show ({ e0 with titleRaw := some t, dirty := true } : Entry).forceIsArticle = e0.forceIsArticle from rfl,
            ← hcl.fresh] at hf
          cases hf⟩ hmut hold rfl rfl rfl (.inl heu)
      unfold Zim.flushEntry
      simp only [hmut, Bool.not_true, Bool.false_eq_true, if_false, if_true]
      simp only [hmut] at hz
      rw [PyM.bind_ok hz]
      exact ⟨_, rfl⟩
    · unfold Zim.flushEntry
      rw [hmut, hdirty]
      exact ⟨_, rfl⟩
  obtain ⟨Z', hfl⟩ := hfl
  rw [hfl]
  exact ⟨_, rfl⟩

/-- Giving an item another url succeeds. -/
theorem EditHist.rename_total (hr : 2 ≤ r) (hS : S.Good md5 (some r)) (h : EditHist S mts c done recent rs)
    (hML : ML.length < 65535) (hmt : encode Creator.placeholder.mimetype ∈ ML) (hm : ∀ m ∈ mts, encode m ∈ ML)
    {w n : String} (hrn : Renamable u w n done recent rs)
    (htg : ∀ x ∈ rs, ((done ++ [recent]).flatten.map fun p => p.1.fullUrl).count x.2.1 ≤ 1)
    (hex : ∃ p ∈ current done, p.1.fullUrl = u) (hd : 2 ≤ S.depth) (hn : c.arch.zim.urls.len < 80 + r) (h2 : 80 + r ≤ 2 ^ 32)
    {v : StrArg} {b : Bytes} (hb : v.both = .ok (b, n)) (hbz : (0 : UInt8) ∉ b) :
    ∃ c', Creator.setUrl S u v c = (.ok (), c') := by
  obtain ⟨e0, he, hcl, heu, ⟨l, hl, p, hpl, hpu, hpns, hpurl⟩, hw⟩ := h.change_total hr hS hML hmt hm hrn.other.1
    (fun p hp => (hrn.flushed p hp).1) (fun x hx => ⟨(hrn.redirects x hx).1.1, (hrn.redirects x hx).2.1⟩) htg hex hd hn h2
  have hmut : e0.mutable = true := by rw [← hcl.fresh]; rfl
  have hold : e0.oldFullUrl = some u := by rw [← heu]; exact (congrArg Entry.oldFullUrl hcl.fresh).symm
  have hpn := hrn.named.2 l hl p hpl hpu
  have hnu : n ≠ e0.url := by
    intro e
    refine hrn.unused l hl p hpl ?_
    show p.1.ns ++ p.1.url = w
    rw [hpurl, ← e]; exact hpn
  have hset : e0.setUrl v = (.ok (), Entry.named n e0) := by
    unfold Entry.setUrl
    rw [hb]
    simp only
    rw [if_neg hbz, hmut]
    simp only [Bool.not_true, Bool.false_eq_true, if_false, if_pos hnu, Entry.named, hmut]
  have hfull : (Entry.named n e0).fullUrl = w := by
    show e0.ns ++ n = w
    rw [← hpns]; exact hpn
  obtain ⟨e', Z', hz⟩ := hw (Entry.named n e0) ⟨by rw [← Entry.both_inv hb]; exact hbz, hcl.storable.title, hcl.kind, fun hf => by
      rw [show (Entry.named n e0).forceIsArticle = e0.forceIsArticle from rfl, ← hcl.fresh] at hf
      cases hf⟩ hmut hold rfl rfl rfl (.inr (by
    rw [hfull]
    exact ⟨hrn.other.2, hrn.unused, fun p hp => (hrn.flushed p hp).2, fun x hx => (hrn.redirects x hx).1.2⟩))
  unfold Creator.setUrl Creator.onArch Archive.onZim
  simp only [PyM.of_apply, PyM.get_bind, he, PyM.lift_ok_bind, hset]
  have hfl : Zim.flushEntry S.depth (Entry.named n e0) c.arch.zim = (.ok (), Z') := by
    unfold Zim.flushEntry
    rw [show (Entry.named n e0).mutable = e0.mutable from rfl, hmut]
    simp only [Bool.not_true, Bool.false_eq_true, if_false]
    rw [if_pos trivial, PyM.bind_ok hz]
    rfl
  rw [hfl]
  exact ⟨_, rfl⟩

end
end Pyzim
