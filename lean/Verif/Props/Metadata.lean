import Verif.Props.Redirects

/-!
# Metadata (C45)
-/

namespace Pyzim

/-- the first byte of the full url is the namespace -/
theorem Entry.Clean.head {e : Entry} (h : e.Clean) : ∃ b, encode e.fullUrl = b :: encode e.url ∧ (e.ns = "M" ↔ b = 77) := by
  have hn := h.storable.ns
  obtain ⟨b, hb⟩ := List.length_eq_one_iff.1 hn
  refine ⟨b, ?_, ?_⟩
  · unfold Entry.fullUrl
    rw [encode_append, hb]
    rfl
  · have hM : encode "M" = [77] := by decide +kernel
    constructor
    · intro he
      rw [he, hM] at hb
      injection hb with hb
      exact hb.symm
    · intro he
      apply encode_injective
      rw [hb, hM, he]

namespace Zim

variable {z : Zim} {rows : List Row} {other : Nat → Prop}

theorem Rep.metadataKeysFrom (h : Rep z rows other) (n : Nat) : ∀ i, i + n = rows.length →
    z.metadataKeysFrom n i = .ok (((rows.drop i).takeWhile (fun r => decide (r.2.ns = "M"))).map (fun r => r.2.url)) := by
  induction n with
  | zero =>
    intro i hi
    rw [List.drop_of_length_le (by omega)]
    rfl
  | succ n ih =>
    intro i hi
    have hlt : i < rows.length := by omega
    have hg := List.getElem?_eq_getElem hlt
    rw [Zim.metadataKeysFrom, h.getByIndex hg]
    simp only
    rw [h.entryAt (List.getElem_mem hlt)]
    simp only
    rw [List.drop_eq_getElem_cons hlt, List.takeWhile_cons]
    by_cases hM : rows[i].2.ns = "M"
    · rw [if_neg (by simpa using hM), ih (i + 1) (by omega)]
      simp [hM]
    · rw [if_pos hM]
      simp [hM]

theorem takeWhile_eq_filter {α : Type} {p : α → Bool} {l : List α} (h : l.Pairwise (fun a b => p b = true → p a = true)) :
    l.takeWhile p = l.filter p := by
  induction l with
  | nil => rfl
  | cons a l ih =>
    rw [List.pairwise_cons] at h
    rw [List.takeWhile_cons, List.filter_cons]
    by_cases ha : p a = true
    · rw [if_pos ha, if_pos ha, ih h.2]
    · rw [if_neg ha, if_neg ha]
      symm
      rw [List.filter_eq_nil_iff]
      exact fun b hb hp => ha (h.1 b hb hp)

theorem Rep.metadataKeys (h : Rep z rows other) :
    z.metadataKeys = .ok ((rows.filter (fun r => decide (r.2.ns = "M"))).map (fun r => r.2.url)) := by
  have hM : encode "M" = [77] := by decide +kernel
  obtain ⟨n, hs, hn, h1, h2⟩ := h.search (encode "M")
  unfold Zim.metadataKeys PointerList.findFirstGreaterEquals
  rw [hs]
  simp only
  rw [if_neg (by rw [h.len]; omega), h.len, h.metadataKeysFrom _ n (by omega)]
  rw [takeWhile_eq_filter]
  · congr 2
    have hnil : (rows.take n).filter (fun r => decide (r.2.ns = "M")) = [] := by
      rw [List.filter_eq_nil_iff]
      intro r hr hp
      obtain ⟨b, hb, hbM⟩ := (h.store.clean r (List.mem_of_mem_take hr)).head
      have := h1 r hr
      rw [hb, hM, hbM.1 (by simpa using hp), List.cons_lt_cons_iff] at this
      rcases this with this | ⟨-, this⟩
      · exact absurd this (by decide)
      · exact absurd this (List.not_lt_nil _)
    conv_rhs => rw [← List.take_append_drop n rows, List.filter_append, hnil, List.nil_append]
  · have hsub : (rows.drop n).Sublist rows := List.drop_sublist n rows
    have hpw := (h.sorted.sublist hsub)
    refine List.Pairwise.imp_of_mem ?_ hpw
    intro r s hr hs hlt hp
    obtain ⟨b, hb, hbM⟩ := (h.store.clean r (hsub.subset hr)).head
    obtain ⟨c, hc, hcM⟩ := (h.store.clean s (hsub.subset hs)).head
    have h3 := h2 r hr
    rw [hb, hc, hcM.1 (by simpa using hp), List.cons_lt_cons_iff] at hlt
    rw [hb, hM, List.cons_lt_cons_iff] at h3
    rcases hlt with hlt | ⟨hlt, -⟩
    · exact absurd (Or.inl hlt) h3
    · simpa using hbM.2 hlt

/-- C45: `get_metadata_keys` returns the names `n` for which there is an entry "M" + `n`, each of them once, in the order
of their bytes, as strings or as their encodings. -/
theorem C45_keys (h : Ready z) : ∃ ks : List String, z.getMetadataKeys true = .ok (ks.map .str) ∧
    z.getMetadataKeys false = .ok (ks.map (fun k => .bytes (encode k))) ∧
    (∀ n, n ∈ ks ↔ Has z ("M" ++ n)) ∧ ks.Pairwise (fun a b => encode a < encode b) := by
  obtain ⟨rows, other, h⟩ := h
  refine ⟨(rows.filter (fun r => decide (r.2.ns = "M"))).map (fun r => r.2.url), ?_, ?_, fun n => ?_, ?_⟩
  · unfold getMetadataKeys
    rw [h.metadataKeys]
    rfl
  · unfold getMetadataKeys
    rw [h.metadataKeys]
    rfl
  · have hM : encode "M" = [77] := by decide +kernel
    rw [h.has_iff, List.mem_map]
    constructor
    · rintro ⟨r, hr, rfl⟩
      obtain ⟨hr, hp⟩ := List.mem_filter.1 hr
      refine ⟨r, hr, ?_⟩
      unfold Entry.fullUrl
      rw [of_decide_eq_true hp]
    · rintro ⟨r, hr, hru⟩
      obtain ⟨b, hb, hbM⟩ := (h.store.clean r hr).head
      rw [hru, encode_append, hM] at hb
      injection hb with hb1 hb2
      exact ⟨r, List.mem_filter.2 ⟨hr, by simpa using hbM.2 hb1.symm⟩, (encode_injective hb2).symm⟩
  · rw [List.pairwise_map]
    refine List.Pairwise.imp_of_mem ?_ (h.sorted.sublist List.filter_sublist)
    intro r s hr hs hlt
    obtain ⟨hr, hrp⟩ := List.mem_filter.1 hr
    obtain ⟨hs, hsp⟩ := List.mem_filter.1 hs
    obtain ⟨b, hb, hbM⟩ := (h.store.clean r hr).head
    obtain ⟨c, hc, hcM⟩ := (h.store.clean s hs).head
    rw [hb, hc, hbM.1 (by simpa using hrp), hcM.1 (by simpa using hsp), List.cons_lt_cons_iff] at hlt
    rcases hlt with hlt | ⟨-, hlt⟩
    · exact absurd hlt (by decide)
    · exact hlt

/-- C45: `get_metadata` returns `None` iff there is no such entry or following its redirects ends in a redirect that
leads nowhere. -/
theorem C45_none (h : Ready z) (read : Entry → PyRes Bytes) (key : String) (asUnicode : Bool) {n : Nat}
    (hn : z.urls.len ≤ n) :
    z.readMetadata read n key asUnicode = .ok none ↔ ¬ Has z ("M" ++ key) ∨
      ∃ v e, z.entryByFullUrl v = .ok e ∧ Reaches z v ("M" ++ key) ∧ (∃ i, e.kind = .redirect i) ∧ ∀ w, ¬ Leads z v w := by
  have h' := h
  obtain ⟨rows, other, hr⟩ := h'
  by_cases hex : HasUrl rows ("M" ++ key)
  · obtain ⟨r, hr', hru⟩ := hex
    have he := hr.entryByFullUrl hr'
    rw [hru] at he
    have hnot : ¬ ¬ Has z ("M" ++ key) := fun hh => hh ((hr.has_iff _).2 ⟨r, hr', hru⟩)
    rw [or_iff_right hnot, ← C67_not_found h he]
    unfold readMetadata
    rw [he]
    simp only
    constructor
    · intro hh
      refine ⟨n, ?_⟩
      cases hx : z.resolve n r.2 with
      | ok e' =>
        rw [hx] at hh
        simp only at hh
        cases hb : read e' with
        | error x => rw [hb] at hh; cases hh
        | ok b =>
          rw [hb] at hh
          cases asUnicode with
          | false => simp at hh
          | true =>
            simp only [if_true] at hh
            cases hd : decode b with
            | error x => rw [hd] at hh; cases hh
            | ok s => rw [hd] at hh; cases hh
      | error x =>
        rcases (C67_hangs h he).2 n x hx with rfl | rfl
        · rw [hx] at hh; cases hh
        · rfl
    · rintro ⟨m, hm⟩
      have : z.resolve n r.2 = .error .entryNotFound := by
        rcases Nat.le_total n m with hnm | hnm
        · rw [← C67_turns h he n m hn hnm, hm]
        · by_cases hlm : z.urls.len ≤ m
          · rw [C67_turns h he m n hlm hnm, hm]
          · rw [C67_turns h he z.urls.len n (Nat.le_refl _) hn]
            obtain ⟨rows, other, hr⟩ := h
            obtain ⟨q, hq, hqe, -⟩ := hr.row_of_entry he
            rw [← hqe] at hm ⊢
            rcases redirect_or q.2 with ⟨i, hk⟩ | hk
            · rw [resolve_loop hk] at hm ⊢
              rw [hr.resolveLoop_mono' (n := m) (by omega) hq (by rw [hm]; simp), hm]
            · rw [resolve_content hk] at hm; cases hm
      rw [this]
  · have he := hr.entryByFullUrl_missing (u := "M" ++ key) fun r hr' hh => hex ⟨r, hr', hh⟩
    refine ⟨fun _ => Or.inl fun hh => hex ((hr.has_iff _).1 hh), fun _ => ?_⟩
    unfold readMetadata
    rw [he]

/-- C45, for archives in which every redirect leads to an entry: `get_metadata` returns `None` iff there is no such
entry. -/
theorem C45_none_roomy {S : String → Prop} {L : Nat} (h : Roomy z S L) (read : Entry → PyRes Bytes) (key : String)
    (asUnicode : Bool) {n : Nat} (hn : z.urls.len ≤ n) :
    z.readMetadata read n key asUnicode = .ok none ↔ ¬ Has z ("M" ++ key) := by
  rw [C45_none h.ready read key asUnicode hn]
  refine ⟨fun hh => hh.resolve_right ?_, Or.inl⟩
  rintro ⟨v, e, he, -, ⟨i, hi⟩, hno⟩
  obtain ⟨rows, other, hr, -, -, -, -, hrange⟩ := h
  obtain ⟨r, hr', rfl, rfl⟩ := hr.row_of_entry he
  have := hrange r hr' i hi
  exact hno _ (hr.leads_iff.2 ⟨r, hr', rfl, i, rows[i], hi, List.getElem?_eq_getElem this, rfl⟩)

/-- C45: otherwise it returns the content of the entry to which the redirects lead. -/
theorem C45_value (h : Ready z) (read : Entry → PyRes Bytes) (key : String) {n : Nat} {v : StrArg} {asUnicode : Bool}
    (hv : z.readMetadata read n key asUnicode = .ok (some v)) :
    ∃ w e b, Reaches z w ("M" ++ key) ∧ z.entryByFullUrl w = .ok e ∧ (∀ i, e.kind ≠ .redirect i) ∧ read e = .ok b ∧
      (asUnicode = false → v = .bytes b) ∧ (asUnicode = true → ∃ s, v = .str s ∧ encode s = b) := by
  unfold readMetadata at hv
  cases he : z.entryByFullUrl ("M" ++ key) with
  | error x => rw [he] at hv; cases x <;> cases hv
  | ok e =>
    rw [he] at hv
    simp only at hv
    cases hx : z.resolve n e with
    | error x => rw [hx] at hv; cases x <;> cases hv
    | ok e' =>
      rw [hx] at hv
      simp only at hv
      obtain ⟨w, hw, hre, hk⟩ := (C67_resolves h he).1 ⟨n, hx⟩
      cases hb : read e' with
      | error x => rw [hb] at hv; cases hv
      | ok b =>
        rw [hb] at hv
        simp only at hv
        refine ⟨w, e', b, hre, hw, hk, hb, ?_, ?_⟩
        · rintro rfl
          simp only [Bool.false_eq_true, if_false] at hv
          injection hv with hv
          injection hv with hv
          exact hv.symm
        · rintro rfl
          simp only [if_true] at hv
          cases hd : decode b with
          | error x => rw [hd] at hv; cases hv
          | ok s =>
            rw [hd] at hv
            injection hv with hv
            injection hv with hv
            exact ⟨s, hv.symm, encode_of_decode hd⟩

/-- C45: a writable archive is flushed first; the value is that of the flushed archive. -/
theorem C45_flushes (flush : PyM Zim Unit) (read : Zim → Entry → PyRes Bytes) (n : Nat) (key : String) (asUnicode : Bool) :
    (∀ z', flush z = (.ok (), z') →
      getMetadata true flush read n key asUnicode z = (z'.readMetadata (read z') n key asUnicode, z')) ∧
    (∀ x z', flush z = (.error x, z') → getMetadata true flush read n key asUnicode z = (.error x, z')) ∧
    getMetadata false flush read n key asUnicode z = (z.readMetadata (read z) n key asUnicode, z) := by
  have hl : ∀ (r : PyRes (Option StrArg)) (z : Zim), PyM.lift r z = (r, z) := by
    intro r z
    cases r <;> rfl
  refine ⟨fun z' hf => ?_, fun x z' hf => ?_, ?_⟩
  · unfold getMetadata
    simp only [if_true]
    rw [PyM.bind_ok hf, PyM.get_bind, hl]
  · unfold getMetadata
    simp only [if_true]
    rw [PyM.bind_err hf]
  · unfold getMetadata
    simp only [Bool.false_eq_true, if_false]
    rw [PyM.pure_bind', PyM.get_bind, hl]

theorem dictSet_new {α : Type} {d : List (StrArg × α)} {k : StrArg} {v : α} (h : k ∉ d.map (·.1)) :
    dictSet d k v = d ++ [(k, v)] := by
  unfold dictSet
  rw [if_neg]
  intro hh
  obtain ⟨kv, hkv, he⟩ := List.any_eq_true.1 hh
  exact h (List.mem_map.2 ⟨kv, hkv, of_decide_eq_true he⟩)

theorem metadataDictLoop_ok (flush : PyM Zim Unit) (read : Zim → Entry → PyRes Bytes) (n : Nat) (ks : List String) :
    ∀ (d : List (StrArg × Option StrArg)) (res : List (StrArg × Option StrArg)) (z z' : Zim),
      (ks.map StrArg.str).Nodup → (∀ k ∈ ks, StrArg.str k ∉ d.map (·.1)) →
      metadataDictLoop false flush read n true (ks.map .str) d z = (.ok res, z') →
      z' = z ∧ ∃ vs : List (Option StrArg), vs.length = ks.length ∧ res = d ++ (ks.map StrArg.str).zip vs ∧
        ∀ i (hi : i < ks.length), ∃ v, vs[i]? = some v ∧
          z.readMetadata (read z) n ks[i] (!("Illustration_".toList.isPrefixOf ks[i].toList)) = .ok v := by
  induction ks with
  | nil =>
    intro d res z z' _ _ hok
    injection hok with h1 h2
    injection h1 with h1
    exact ⟨h2.symm, [], rfl, by simp [h1], fun i hi => absurd hi (by simp)⟩
  | cons k ks ih =>
    intro d res z z' hnd hd hok
    rw [List.map_cons, List.nodup_cons] at hnd
    rw [List.map_cons, metadataDictLoop] at hok
    obtain ⟨u, z1, h1, h2⟩ := PyM.bind_ok_iff.1 hok
    have h1' : k = u ∧ z = z1 := by
      injection h1 with h1 h3
      injection h1 with h1
      exact ⟨h1, h3⟩
    obtain ⟨rfl, rfl⟩ := h1'
    obtain ⟨v, z1, h3, h4⟩ := PyM.bind_ok_iff.1 h2
    rw [(C45_flushes flush read n _ _).2.2] at h3
    injection h3 with h3 h5
    subst h5
    obtain ⟨hz, vs, hvl, hres, hall⟩ := ih _ _ _ _ hnd.2 (by
      intro k' hk' hin
      rw [dictSet_new (hd k (by simp)), List.map_append, List.mem_append] at hin
      rcases hin with hin | hin
      · exact hd k' (by simp [hk']) hin
      · simp only [List.map_cons, List.map_nil, List.mem_singleton] at hin
        exact hnd.1 (hin ▸ List.mem_map_of_mem hk')) h4
    refine ⟨hz, v :: vs, by simp [hvl], ?_, ?_⟩
    · rw [hres, dictSet_new (hd k (by simp))]
      simp
    · intro i hi
      cases i with
      | zero => exact ⟨v, rfl, by simpa using h3⟩
      | succ i =>
        obtain ⟨v', hv', hr⟩ := hall i (by simpa using hi)
        exact ⟨v', by simpa using hv', by simpa using hr⟩

/-- C45: `get_metadata_dict` of an archive opened for reading has the keys of `get_metadata_keys` in their order; the
value of each is what `get_metadata` returns for it, undecoded for illustrations. -/
theorem C45_dict (h : Ready z) (flush : PyM Zim Unit) (read : Zim → Entry → PyRes Bytes) (n : Nat)
    {res : List (StrArg × Option StrArg)} {z' : Zim} (hok : getMetadataDict false flush read n true z = (.ok res, z')) :
    z' = z ∧ z.getMetadataKeys true = .ok (res.map (·.1)) ∧
      ∀ k v, (StrArg.str k, v) ∈ res →
        z.readMetadata (read z) n k (!("Illustration_".toList.isPrefixOf k.toList)) = .ok v := by
  obtain ⟨ks, hks, -, -, hpw⟩ := C45_keys h
  unfold getMetadataDict at hok
  rw [PyM.get_bind, hks, PyM.lift_ok_bind] at hok
  have hnd : (ks.map StrArg.str).Nodup := by
    unfold List.Nodup
    rw [List.pairwise_map]
    refine hpw.imp fun hlt he => ?_
    injection he with he
    rw [he] at hlt
    exact absurd hlt (Std.lt_irrefl)
  obtain ⟨hz, vs, hvl, hres, hall⟩ := metadataDictLoop_ok flush read n ks [] res z z' hnd (by simp) hok
  rw [List.nil_append] at hres
  refine ⟨hz, ?_, ?_⟩
  · rw [hks, hres, List.map_fst_zip (by simp [hvl])]
  · intro k v hkv
    rw [hres] at hkv
    obtain ⟨i, hi⟩ := List.getElem?_of_mem hkv
    rw [List.getElem?_zip_eq_some] at hi
    obtain ⟨hi1, hi2⟩ := hi
    rw [List.getElem?_map] at hi1
    cases hx : ks[i]? with
    | none => rw [hx] at hi1; cases hi1
    | some k' =>
      rw [hx] at hi1
      have : k' = k := by
        injection hi1 with hi1
        injection hi1
      subst this
      obtain ⟨hlt, hk⟩ := List.getElem?_eq_some_iff.1 hx
      obtain ⟨v', hv', hr⟩ := hall i hlt
      rw [hv'] at hi2
      have : v' = v := by injection hi2
      rw [← this, ← hk]
      exact hr

/-- the sample archive with two metadata entries and one behind them -/
def withMeta : Zim := write (page "X" "idx" "t") (write (page "M" "Title" "t") (write (page "M" "Name" "n") sample))

theorem withMeta_ready : Ready withMeta := by
  obtain ⟨S, hS, -⟩ := sample_roomy
  have r1 := hS.write (e := page "M" "Name" "n") (page_proper (by decide +kernel) (by decide +kernel)) rfl rfl
    (by decide +kernel) (by decide +kernel) (fun i hi => by cases hi) (by decide +kernel)
  have r2 := r1.write (e := page "M" "Title" "t") (page_proper (by decide +kernel) (by decide +kernel)) rfl rfl
    (by decide +kernel) (by decide +kernel) (fun i hi => by cases hi) (by decide +kernel)
  have r3 := r2.write (e := page "X" "idx" "t") (page_proper (by decide +kernel) (by decide +kernel)) rfl rfl
    (by decide +kernel) (by decide +kernel) (fun i hi => by cases hi) (by decide +kernel)
  exact r3.ready

/-- The hypotheses are met. -/
example : Ready withMeta ∧ withMeta.getMetadataKeys true = .ok [.str "Name", .str "Title"] ∧
    withMeta.readMetadata (fun e => .ok (encode e.url)) 9 "Title" true = .ok (some (.str "Title")) ∧
    withMeta.readMetadata (fun e => .ok (encode e.url)) 9 "Date" true = .ok none :=
  ⟨withMeta_ready, by decide +kernel, by decide +kernel, by decide +kernel⟩

end Zim
end Pyzim
