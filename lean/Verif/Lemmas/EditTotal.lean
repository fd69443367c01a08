import Verif.Lemmas.EditHist
import Verif.Lemmas.CreatorFlushTotal

/-!
# Archives whose entries are removed and changed: when this succeeds
-/

namespace Pyzim
open Zim (Row Stored MimesIn catalogue marked Redirect Leads Once catalogue_other)

section
variable {D K : Type} {X : Codecs D} {C : Compressors K} {a : Archive} {reserve : Option Nat} {rows : List Row} {cs : List Stored}
  {extra : Nat → Prop} {es : List Entry} {m0 : Catalogue} {R B rs : List Redirect} {L : Bytes} {G : List (List Sourced)}
  {ML : List Bytes} {S : Setup D K} {c c' : Creator D} {recent : List Sourced} {md5 : Bytes → Bytes} {r : Nat} {mts : List String}
  {done : List (List Sourced)} {Gb : List (List (List Sourced))} {u : String}

/-- the entry of an item is in the archive -/
theorem Core.present_row (h : Core gh mp X C ML reserve a G rows cs extra es L m0 R B) {p : Sourced} (hp : p ∈ present gh G) :
    ∃ q ∈ rows, q.2.fullUrl = p.1.fullUrl := by
  have hin : p.1.fullUrl ∈ es.map Entry.fullUrl := by
    rw [h.entryUrls]
    exact List.mem_cons_of_mem _ (List.mem_map.2 ⟨p, hp, rfl⟩)
  obtain ⟨e, he, heu⟩ := List.mem_map.1 hin
  obtain ⟨e', he', hk⟩ := lastOnes_key (key := Entry.fullUrl) he
  obtain ⟨q, hq, hqu, -⟩ := (h.lists _ _).1 ((catalogue_iff m0 es _ _).2 (.inl ⟨e', he', rfl, rfl⟩))
  exact ⟨q, hq, hqu.trans (hk.trans heu)⟩

/-- Setting the mimetype of an item succeeds. -/
theorem Has.retype_total (h : Has true none S ML reserve Gb.flatten recent rs c)
    (h1 : List.Forall₂ (fun G l => (present true G).Perm l) Gb done) (ham : Amendable u recent rs) (hML : ML.length < 65535)
    {v : StrArg} {b : Bytes} {t : String} (hb : v.both = .ok (b, t)) (ht : encode t ∈ ML) (hb0 : b ≠ []) (hbz : (0 : UInt8) ∉ b)
    (hex : ∃ l ∈ done, ∃ p ∈ l, p.1.fullUrl = u) (hd : 0 < S.depth) : ∃ c', Creator.setMimetype S u v c = (.ok (), c') := by
  obtain ⟨G, P1, P2, ⟨rows, cs, extra, es, L, m0, R, B, hc, hB⟩, -, -, -, -, hperm, -⟩ := h
  have hRs : ∀ x ∈ R, x ∈ rs := fun x hx => hB.subset (List.mem_append_left _ hx)
  have hm : m0 u = none := by
    cases hm : m0 u with
    | none => rfl
    | some v =>
      obtain ⟨x, hx, hxu⟩ := hc.only _ _ hm
      exact absurd hxu (ham.item x (hRs x hx))
  obtain ⟨l, hl, p, hpl, hpu⟩ := hex
  have hpG : p ∈ present true (Gb.flatten ++ G) := by
    rw [present_append]
    exact List.mem_append_left _ ((present_flatten h1).mem_iff.2 (List.mem_flatten.2 ⟨l, hl, hpl⟩))
  obtain ⟨q, hq, hqu⟩ := hc.present_row hpG
  rw [hpu] at hqu
  have he : c.arch.zim.entryByFullUrl u = .ok q.2 := by rw [← hqu]; exact hc.laid.content.rep.entryByFullUrl hq
  obtain ⟨-, -, G1, g1, p', g2, G2, E1, ep, E2, A, Z, hpl⟩ := hc.place ham.other hm he
  obtain ⟨i, r1, r2, r3, -, -⟩ := MimeTypeList.C10_register c.arch.zim.mimetypes hc.mimes.mutable (encode t)
  generalize hg : c.arch.zim.mimetypes.getIndex (encode t) true = gx at r1 r2 r3
  obtain ⟨rg, m⟩ := gx
  simp only at r1 r2 r3
  subst r1
  have hbe := Entry.both_inv hb
  obtain ⟨hcm, -⟩ := hc.listMime (hbe ▸ hb0) (hbe ▸ hbz) ht hg
  have hi : i < 65535 := by
    have := hcm.mimes.length
    simp only at this
    unfold MimeTypeList.len at r2
    omega
  have hclean := hc.laid.content.rep.store.clean q hq
  have hmut : q.2.mutable = true := by rw [← hclean.fresh]; rfl
  have hdirty : q.2.dirty = false := by rw [← hclean.fresh]; rfl
  have hold : q.2.oldFullUrl = some q.2.fullUrl := by
    have := congrArg Entry.oldFullUrl hclean.fresh
    exact this.symm
  obtain ⟨k1, k2, hk⟩ : ∃ k1 k2, q.2.kind = .content k1 k2 := by
    have hv := congrArg View.body hpl.view
    unfold Entry.view at hv
    rw [hpl.this.location] at hv
    simp only at hv
    cases hk : q.2.kind with
    | content k1 k2 => exact ⟨k1, k2, rfl⟩
    | redirect j => rw [hk] at hv; cases hv
  have hset : Zim.setMimetype v q.2 c.arch.zim =
      (.ok (if i ≠ q.2.mimetypeId then Entry.typed i q.2 else q.2), { c.arch.zim with mimetypes := m }) := by
    unfold Zim.setMimetype
    rw [hb]
    simp only
    rw [if_neg (by simpa using hb0), if_neg hbz, hg]
    simp only
    unfold Entry.setMimetypeId
    rw [if_neg (by omega), hmut]
    simp only [Bool.not_true, Bool.false_eq_true, if_false, Int.toNat_natCast]
    by_cases hne : i = q.2.mimetypeId
    · simp only [hne, ne_eq, not_true_eq_false, if_false]
    · simp only [hne, ne_eq, not_false_eq_true, if_true, Entry.typed, hmut]
  unfold Creator.setMimetype Creator.onArch Archive.onZim
  simp only [PyM.of_apply, PyM.get_bind, he, PyM.lift_ok_bind, PyM.bind_ok hset]
  have hfl : ∃ Z', Zim.flushEntry S.depth (if i ≠ q.2.mimetypeId then Entry.typed i q.2 else q.2)
      { c.arch.zim with mimetypes := m } = (.ok (), Z') := by
    split
    · unfold Zim.flushEntry
      rw [show (Entry.typed i q.2).mutable = q.2.mutable from rfl, hmut]
      simp only [Bool.not_true, Bool.false_eq_true, if_false, if_true]
      obtain ⟨d, hd'⟩ : ∃ d, S.depth = d + 1 := ⟨S.depth - 1, by omega⟩
      obtain ⟨j, hj⟩ := List.getElem?_of_mem hq
      have hp : (Entry.typed i q.2).Proper := by
        refine ⟨hclean.storable.url, hclean.storable.title, ?_, fun hf => ?_⟩
        · constructor
          · rintro ⟨r, hr⟩
            rw [show (Entry.typed i q.2).kind = q.2.kind from rfl, hk] at hr
            cases hr
          · intro hr
            rw [show (Entry.typed i q.2).mimetypeId = i from rfl] at hr
            omega
        · rw [show (Entry.typed i q.2).forceIsArticle = q.2.forceIsArticle from rfl, ← hclean.fresh] at hf
          cases hf
      obtain ⟨rr, z', hw, -, htot⟩ := hcm.laid.content.rep.writeEntry_inplace (e := Entry.typed i q.2) hj hold rfl rfl hp d true true
      obtain ⟨e', rfl⟩ := htot _ hcm.art ((Entry.toBytes_ok_iff _).2 ⟨Entry.packHead_ok _
        ⟨hclean.storable.ns, hclean.storable.url, hclean.storable.title, by show i < 2 ^ 16; omega, hclean.storable.numbers⟩, _,
        hclean.storable.title.choose_spec.1⟩) (fun j hj => by
          rw [show (Entry.typed i q.2).kind = q.2.kind from rfl, hk] at hj; cases hj)
      rw [hd', PyM.bind_ok hw]
      exact ⟨_, rfl⟩
    · unfold Zim.flushEntry
      rw [hmut, hdirty]
      exact ⟨_, rfl⟩
  obtain ⟨Z', hfl⟩ := hfl
  rw [hfl]
  exact ⟨_, rfl⟩

theorem EditHist.retype_total (hr : 2 ≤ r) (hS : S.Good md5 (some r)) (h : EditHist S mts c done recent rs)
    (hML : ML.length < 65535) (hmt : encode Creator.placeholder.mimetype ∈ ML) (hm : ∀ m ∈ mts, encode m ∈ ML)
    (ham : Amendable u recent rs) {v : StrArg} {b : Bytes} {t : String} (hb : v.both = .ok (b, t)) (ht : t ∈ mts) (hb0 : b ≠ [])
    (hbz : (0 : UInt8) ∉ b) (hex : ∃ p ∈ current done, p.1.fullUrl = u) (hd : 0 < S.depth) :
    ∃ c', Creator.setMimetype S u v c = (.ok (), c') := by
  obtain ⟨Gb, h1, h2⟩ := h.has hr hS hML hmt hm
  obtain ⟨p, hp, hpu⟩ := hex
  obtain ⟨l, hl, hpl⟩ := mem_current hp
  exact h2.retype_total h1 ham hML hb (hm t ht) hb0 hbz ⟨l, hl, p, hpl, hpu⟩ hd

/-- Removing a redirect, or an entry whose blob is kept, succeeds. -/
theorem Core.remove_total (h : Core gh mp S.X S.C ML (some r) a G rows cs extra es L m0 R B) {e : Entry}
    (he : a.zim.entryByFullUrl u = .ok e) (hO : ∀ x ∈ R, x.2.1 ≠ u ∧ Once m0 es x.1 x.2.1)
    (hart : marked (fun _ => False) es u ∨ ∀ w, marked (fun _ => False) es w → encode w < encode u) {mode : BlobMode}
    (hmode : mode = .keep ∨ e.isRedirect = true) (hd : 2 ≤ S.depth) (hn : a.zim.urls.len < 80 + r) (h2 : 80 + r ≤ 2 ^ 32)
    (bd : Entry → PyM Zim Unit) :
    ∃ Z', Zim.removeEntry bd S.depth (Zim.treatBlob S.X S.C S.kind S.calls mode) u a.zim = (.ok (), Z') := by
  obtain ⟨d, hd'⟩ : ∃ d, S.depth = d + 2 := ⟨S.depth - 2, by omega⟩
  have hrm := h.roomy (fun x hx => (hO x hx).2) (by rw [← h.laid.content.rep.len]; exact hn) h2
  obtain ⟨Z', hz, -⟩ := hrm.removeEntry he hart (h.unused hO) bd (Zim.treatBlob S.X S.C S.kind S.calls mode) (by
    rcases hmode with rfl | hm
    · right
      funext e
      unfold Zim.treatBlob
      cases e.kind <;> rfl
    · exact .inl hm) d
  exact ⟨Z', by rw [hd']; exact hz⟩

theorem encode_lt_of_le {w u : String} (h : encode w ≤ encode u) (hne : w ≠ u) : encode w < encode u := by
  by_contra hn
  exact hne (encode_injective (Std.le_antisymm h (Std.not_lt.1 hn)))

/-- Removing an item and keeping its blob succeeds. -/
theorem EditHist.remove_total (hr : 2 ≤ r) (hS : S.Good md5 (some r)) (h : EditHist S mts c done recent rs)
    (hML : ML.length < 65535) (hmt : encode Creator.placeholder.mimetype ∈ ML) (hm : ∀ m ∈ mts, encode m ∈ ML)
    (hrm : Removable u done recent rs) (hex : ∃ p ∈ current done, p.1.fullUrl = u) (hd : 2 ≤ S.depth)
    (hn : c.arch.zim.urls.len < 80 + r) (h2 : 80 + r ≤ 2 ^ 32) : ∃ c', Creator.remove S .keep u c = (.ok (), c') := by
  obtain ⟨Gb, h1, G, P1, P2, ⟨rows, cs, extra, es, L, m0, R, B, hc, hB⟩, -, -, -, -, hperm, -⟩ := h.has hr hS hML hmt hm
  obtain ⟨k1, k2, k3⟩ := h.sound
  have hs := k1.apart.separated k2 h1
  have hGr : ∀ p ∈ G.flatten, p ∈ recent := fun p hp => hperm.subset (List.mem_append_right _ hp)
  have hRs : ∀ x ∈ R, x ∈ rs := fun x hx => hB.subset (List.mem_append_left _ hx)
  have hcur := current_present (gh := true) h1 fun l hl => k1.urls l (List.mem_append_left _ hl)
  have hGp : present true G = G.flatten := present_all fun p hp => k3 p (hGr p hp)
  have hGn : (G.flatten.map urlOf).Nodup := by
    have := ((hperm.map urlOf).nodup_iff).2 (k1.urls recent (by simp))
    exact this.sublist ((List.sublist_append_right _ _).map _)
  obtain ⟨p, hp, hpu⟩ := hex
  have hpl : p ∈ lastOnes urlOf (present true (Gb.flatten ++ G)) := by
    rw [present_append, hGp]
    exact lastOnes_left (hcur.mem_iff.2 hp) fun q hq => by
      show q.1.fullUrl ≠ p.1.fullUrl
      rw [hpu]; exact hrm.flushed q (hGr q hq)
  obtain ⟨q, hq, hqu⟩ := hc.present_row (lastOnes_sub hpl)
  rw [hpu] at hqu
  have he : c.arch.zim.entryByFullUrl u = .ok q.2 := by rw [← hqu]; exact hc.laid.content.rep.entryByFullUrl hq
  have hart0 : marked (fun _ => False) es u ∨ ∀ w, marked (fun _ => False) es w → encode w < encode u := by
    by_cases hmu : marked (fun _ => False) es u
    · exact .inl hmu
    rcases hrm.articles with ⟨p, hp, hpu, hpa⟩ | hall
    · refine .inl ((hc.markedOf u).2 ⟨p, ?_, hpu, hpa⟩)
      rw [present_append, hGp]
      exact lastOnes_left (hcur.mem_iff.2 hp) fun q hq => by
        show q.1.fullUrl ≠ p.1.fullUrl
        rw [hpu]; exact hrm.flushed q (hGr q hq)
    · refine .inr fun w hw => encode_lt_of_le ?_ fun hwu => hmu (hwu ▸ hw)
      obtain ⟨p, hp, rfl, hpa⟩ := (hc.markedOf w).1 hw
      refine hall p ?_ hpa
      rw [present_append, hGp, lastOnes_append urlOf _ hGn] at hp
      rcases List.mem_append.1 hp with hp | hp
      · exact List.mem_append_left _ (hcur.mem_iff.1 (List.mem_filter.1 hp).1)
      · exact List.mem_append_right _ (hGr p hp)
  obtain ⟨Z', hz⟩ := hc.remove_total he (fun x hx => ⟨(hrm.redirects x (hRs x hx)).2,
    hc.onceOf hGr hperm k3 h1 hs hRs k1.other (hRs x hx) (hrm.targets x (hRs x hx))⟩) hart0 (.inl rfl) hd hn h2
    (Zim.treatBlob S.X S.C S.kind S.calls .empty)
  unfold Creator.remove Creator.onArch Archive.onZim
  simp only [PyM.of_apply, hz]
  exact ⟨_, rfl⟩

/-- Removing a redirect that is in the archive succeeds. -/
theorem EditHist.unlink_total (hr : 2 ≤ r) (hS : S.Good md5 (some r)) (h : EditHist S mts c done recent rs)
    (hML : ML.length < 65535) (hmt : encode Creator.placeholder.mimetype ∈ ML) (hm : ∀ m ∈ mts, encode m ∈ ML)
    (hrm : Unlinked u done recent rs) (hex : c.arch.zim.hasEntry u = .ok true) (hd : 2 ≤ S.depth)
    (hn : c.arch.zim.urls.len < 80 + r) (h2 : 80 + r ≤ 2 ^ 32) (mode : BlobMode) :
    ∃ c', Creator.remove S mode u c = (.ok (), c') := by
  obtain ⟨Gb, h1, G, P1, P2, ⟨rows, cs, extra, es, L, m0, R, B, hc, hB⟩, -, -, -, -, hperm, -⟩ := h.has hr hS hML hmt hm
  obtain ⟨k1, k2, k3⟩ := h.sound
  have hs := k1.apart.separated k2 h1
  have hGr : ∀ p ∈ G.flatten, p ∈ recent := fun p hp => hperm.subset (List.mem_append_right _ hp)
  have hRs : ∀ x ∈ R, x ∈ rs := fun x hx => hB.subset (List.mem_append_left _ hx)
  have hcur := current_present (gh := true) h1 fun l hl => k1.urls l (List.mem_append_left _ hl)
  have hGp : present true G = G.flatten := present_all fun p hp => k3 p (hGr p hp)
  have hGn : (G.flatten.map urlOf).Nodup := by
    have := ((hperm.map urlOf).nodup_iff).2 (k1.urls recent (by simp))
    exact this.sublist ((List.sublist_append_right _ _).map _)
  have hrep := hc.laid.content.rep
  obtain ⟨q, hq, hqu⟩ : Zim.HasUrl rows u := by
    obtain ⟨b, hb, hbu⟩ := hrep.hasEntry u
    rw [hex] at hb
    injection hb with hb
    exact hbu.1 hb.symm
  have he : c.arch.zim.entryByFullUrl u = .ok q.2 := by rw [← hqu]; exact hrep.entryByFullUrl hq
  have hw : u ∉ es.map Entry.fullUrl := by
    obtain ⟨x, hx, rfl⟩ := hrm.redirect
    exact hc.apart hs hGr hx
  have hred : q.2.isRedirect = true := by
    refine (hrep.store.clean _ hq).isRedirect.2 ?_
    have hcat := (hc.lists u q.2.view).2 ⟨q, hq, hqu, rfl⟩
    rw [catalogue_other m0 hw] at hcat
    obtain ⟨x, hx, hxu⟩ := hc.only _ _ hcat
    obtain ⟨v', hv', hsh⟩ := hc.shown x hx
    rw [hxu, hcat] at hv'
    injection hv' with hv'
    have hb := hsh.body
    rw [← hv'] at hb
    unfold Entry.view at hb
    simp only at hb
    cases hk : q.2.kind with
    | redirect i => exact ⟨i, rfl⟩
    | content c b => rw [hk] at hb; cases hb
  have hart0 : ∀ w, marked (fun _ => False) es w → encode w < encode u := by
    intro w hw'
    obtain ⟨p, hp, rfl, hpa⟩ := (hc.markedOf w).1 hw'
    refine encode_lt_of_le (hrm.articles p ?_ hpa) fun hwu => hw ?_
    · rw [present_append, hGp, lastOnes_append urlOf _ hGn] at hp
      rcases List.mem_append.1 hp with hp | hp
      · exact List.mem_append_left _ (hcur.mem_iff.1 (List.mem_filter.1 hp).1)
      · exact List.mem_append_right _ (hGr p hp)
    · rw [hc.entryUrls, ← hwu]
      exact List.mem_cons_of_mem _ (List.mem_map.2 ⟨p, lastOnes_sub hp, rfl⟩)
  obtain ⟨Z', hz⟩ := hc.remove_total he (fun x hx => ⟨hrm.unused x (hRs x hx),
    hc.onceOf hGr hperm k3 h1 hs hRs k1.other (hRs x hx) (hrm.targets x (hRs x hx))⟩) (.inr hart0) (.inr hred) (mode := mode) hd hn h2
    (Zim.treatBlob S.X S.C S.kind S.calls .empty)
  unfold Creator.remove Creator.onArch Archive.onZim
  simp only [PyM.of_apply, hz]
  exact ⟨_, rfl⟩

end
end Pyzim
