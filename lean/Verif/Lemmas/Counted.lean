import Verif.Lemmas.Tally

/-!
# The counter is told about every entry that a strategy writes
-/

namespace Pyzim
open Zim (Row Stored Clustered Lists Mirrored Mirrors catalogue catalogue_snoc Rep)

variable {D K : Type} {X : Codecs D} {C : Compressors K} {ML : List Bytes} {Z0 Z Z' : Zim} {cs0 cs : List Stored} {n0 : Nat}
  {rest : Nat → Prop} {m0 : Catalogue} {S0 : String → Prop} {z : ZimLog} {rows : List Row} {M : String → Prop} {n n' : Counter}

/-- The counter counts the entries of the archive. -/
def Tallied (M : String → Prop) (Z : Zim) (n : Counter) : Prop :=
  ∃ es, Z.iterEntries = .ok es ∧ TalliedBy M Z.mimetypes es n

theorem rep_urls {other : Nat → Prop} (h : Rep Z rows other) : ((rows.map Prod.snd).map Entry.fullUrl).Nodup := by
  rw [List.map_map]
  have := h.sorted
  refine (List.pairwise_map.2 (this.imp fun {r s} hrs e => ?_))
  simp only [Function.comp] at e
  rw [e] at hrs
  exact absurd hrs (Zim.lt_irrefl' _)

theorem lists_views {m : Catalogue} (h : Lists m rows) (v : View) :
    v ∈ (rows.map Prod.snd).map Entry.view ↔ m (v.ns ++ v.url) = some v := by
  rw [h]
  constructor
  · intro hv
    rw [List.map_map] at hv
    obtain ⟨r, hr, rfl⟩ := List.mem_map.1 hv
    exact ⟨r, hr, rfl, rfl⟩
  · rintro ⟨r, hr, -, rfl⟩
    rw [List.map_map]
    exact List.mem_map.2 ⟨r, hr, rfl⟩

theorem Tallied.byRows {other : Nat → Prop} (h : Tallied M Z n) (hr : Rep Z rows other) : TalliedBy M Z.mimetypes (rows.map Prod.snd) n := by
  obtain ⟨es, h1, h2⟩ := h
  rw [hr.iterEntries] at h1
  injection h1 with h1
  rw [h1]; exact h2

theorem Tallied.lists {other other' : Nat → Prop} {rows' : List Row} {m m' : Catalogue} (h : Tallied M Z n) (hr : Rep Z rows other)
    (hl : Lists m rows) (hr' : Rep Z' rows' other') (hl' : Lists m' rows')
    (hp : Z.mimetypes.mimetypes <+: Z'.mimetypes.mimetypes)
    (hm : ∀ (u : String) (v : View), v.mimetype ≠ 0xffff → (m u = some v ↔ m' u = some v)) : Tallied M Z' n :=
  ⟨_, hr'.iterEntries, (h.byRows hr).congr hp (rep_urls hr) (rep_urls hr') fun v hv => by
    rw [lists_views hl, lists_views hl', hm _ _ hv]⟩

/-- What stays true while a strategy works with an archive that counts. -/
def CountsOn (X : Codecs D) (C : Compressors K) (ML : List Bytes) (M : String → Prop) (Z0 : Zim) (cs0 : List Stored) (n0 : Nat)
    (rest : Nat → Prop) (m0 : Catalogue) (S0 : String → Prop) (c0 : Counter) (s : Zim × Counter) (Z : Zim) : Prop :=
  s.1 = Z ∧ (∃ z, Mirrored X C ML Z0 cs0 n0 rest m0 S0 z Z) ∧ Tallied M Z s.2 ∧ (s.2 = c0 ∨ s.2.dirty = true)

theorem Counting.onZim_ok {α : Type} {g : PyM Zim α} {s s' : Zim × Counter} {r : α}
    (h : Counting.onZim g s = (.ok r, s')) : g s.1 = (.ok r, s'.1) ∧ s'.2 = s.2 := by
  simp only [Counting.onZim, PyM.of_apply] at h
  injection h with h1 h2
  rw [← h2, ← h1]
  exact ⟨rfl, rfl⟩

/-- the old entry -/
theorem Zim.Rep.oldEntry {other : Nat → Prop} (h : Rep Z rows other) {e : Entry} (ho : e.oldFullUrl = some e.fullUrl) {old : Option Entry}
    (hold : Z.oldEntry e = .ok old) : (old = none → ∀ d ∈ rows.map Prod.snd, d.fullUrl ≠ e.fullUrl) ∧
      ∀ o, old = some o → o ∈ rows.map Prod.snd ∧ o.fullUrl = e.fullUrl := by
  unfold Zim.oldEntry at hold
  rw [ho] at hold
  simp only at hold
  rcases h.urlIndex_cases e.fullUrl with ⟨i, r, h1, h2, h3⟩ | ⟨h1, h2⟩
  · rw [h3] at hold
    simp only [h.getByIndex h1, bind, Except.bind, h.entryAt (List.mem_of_getElem? h1), pure, Except.pure] at hold
    injection hold with hold
    subst hold
    refine ⟨(fun x => by cases x), fun o ho => ?_⟩
    injection ho with ho
    subst ho
    exact ⟨List.mem_map_of_mem (List.mem_of_getElem? h1), h2⟩
  · rw [h2] at hold
    simp only at hold
    injection hold with hold
    subst hold
    refine ⟨fun _ d hd => ?_, (fun o x => by cases x)⟩
    obtain ⟨r, hr, rfl⟩ := List.mem_map.1 hd
    exact h1 r hr

theorem mimetypeOf_listed {m : MimeTypeList} (h : Zim.MimesIn ML m) {e : Entry} (he : e.isRedirect = false) {mt : String}
    (hm : Counter.mimetypeOf m e = .ok mt) : ∃ b ∈ ML, decode b = .ok mt := by
  rw [mimetypeOf_content he] at hm
  unfold mimetypeAt at hm
  cases hg : m.get (e.mimetypeId : Int) with
  | error x => rw [hg] at hm; cases hm
  | ok b =>
    rw [hg] at hm
    refine ⟨b, h.sub b ?_, hm⟩
    unfold MimeTypeList.get at hg
    split at hg
    · cases hg
    · split at hg
      · rename_i x hx
        injection hg with hg
        rw [← hg]
        exact List.mem_of_getElem? hx
      · cases hg

theorem CountsOn.sim (S : Setup D K) (hM : ¬ M "<redirect>") (hL : ∀ b ∈ ML, ∀ s, decode b = .ok s → M s) (c0 : Counter) :
    Backend.Sim (Counting.backend S) (Zim.backend S.X S.C S.depth) (fun it => ML.length < 65535 ∧ it.Addable ML)
      (CountsOn S.X S.C ML M Z0 cs0 n0 rest m0 S0 c0) := by
  constructor
  · rintro s s' Z it e ⟨rfl, ⟨z, hz⟩, hT, hd⟩ hi hok
    obtain ⟨h1, h2⟩ := Counting.onZim_ok hok
    obtain ⟨z', k1, k2, k3⟩ := hz.toEntry hi.1 hi.2.valid hi.2.listed hi.2.article h1
    refine ⟨s'.1, h1, ⟨rfl, ⟨z', k2⟩, ?_, by rw [h2]; exact hd⟩, k3⟩
    rw [h2]
    simp only [ZimLog.backend, PyM.of_apply] at k1
    injection k1 with k0 k1
    have hp : z.mts.mimetypes <+: z'.mts.mimetypes := by
      rw [← k1]
      simp only
      obtain ⟨id, q1, -⟩ := it.toEntry_spec z.mts (by obtain ⟨cs, rows, A⟩ := hz; exact A.mimes.mutable) hi.2.article
      rw [q1]
      simp only
      rcases Zim.getIndex_changes (show z.mts.getIndex (encode it.mimetype) true =
        ((z.mts.getIndex (encode it.mimetype) true).1, (z.mts.getIndex (encode it.mimetype) true).2) from rfl) with q | ⟨-, q⟩
      · rw [q]; exact List.prefix_rfl
      · rw [q]; exact List.prefix_append _ _
    have he : z'.entries = z.entries := by rw [← k1]
    obtain ⟨cs, rows, A⟩ := hz
    obtain ⟨cs', rows', A'⟩ := k2
    refine hT.lists A.clustered.rep A.lists A'.clustered.rep A'.lists (by rw [A.mts, A'.mts]; exact hp) fun u v _ => by rw [he]
  · rintro s s' Z m k ⟨rfl, ⟨z, hz⟩, hT, hd⟩ hm hok
    obtain ⟨h1, h2⟩ := Counting.onZim_ok hok
    obtain ⟨z', k1, k2⟩ := hz.writeCluster hm h1
    refine ⟨s'.1, h1, ⟨rfl, ⟨z', k2⟩, ?_, by rw [h2]; exact hd⟩⟩
    rw [h2]
    have he : z'.entries = z.entries ∧ z'.mts = z.mts := by
      simp only [ZimLog.backend, ZimLog.writeCluster, PyM.of_apply] at k1
      split at k1
      · cases k1
      · injection k1 with _ k1
        rw [← k1]
        exact ⟨rfl, rfl⟩
    obtain ⟨cs, rows, A⟩ := hz
    obtain ⟨cs', rows', A'⟩ := k2
    refine hT.lists A.clustered.rep A.lists A'.clustered.rep A'.lists (by rw [A.mts, A'.mts, he.2]; exact List.prefix_rfl) fun u v _ => by rw [he.1]
  · rintro s s' Z e ⟨rfl, ⟨z, hz⟩, hT, hd⟩ he hre hok
    simp only [Counting.backend] at hok
    rw [PyM.get_bind] at hok
    obtain ⟨old, s1, h1, hok⟩ := PyM.bind_ok_iff.1 hok
    rw [PyM.lift_apply] at h1
    injection h1 with h1 h1'
    subst h1'
    obtain ⟨⟨⟩, s2, h2, hok⟩ := PyM.bind_ok_iff.1 hok
    obtain ⟨h2, h3⟩ := Counting.onZim_ok h2
    simp only [Counting.onCounter, PyM.of_apply] at hok
    injection hok with hok1 hok2
    obtain ⟨z', k1, k2⟩ := hz.writeEntry he h2
    have hs : s'.1 = s2.1 := by rw [← hok2]
    have hn : s.2.afterEntryWrite s2.1.mimetypes e old = (.ok (), s'.2) := by
      rw [← hok2, ← hok1, h3]
    refine ⟨s'.1, by rw [hs]; exact h2, ?_⟩
    obtain ⟨cs, rows, A⟩ := hz
    obtain ⟨o1, o2⟩ := A.clustered.rep.oldEntry he.old h1
    have k1' : z'.entries = z.entries ++ [e] ∧ z'.mts = z.mts := by
      simp only [ZimLog.backend] at k1
      injection k1 with _ k1
      rw [← k1]
      exact ⟨rfl, rfl⟩
    have hclean : e.fresh.Clean := by
      have h2' := h2
      simp only [Zim.backend] at h2'
      obtain ⟨e', Z1, h4, -⟩ := PyM.bind_ok_iff.1 h2'
      obtain ⟨old', rows', f, -, -, -, -, -, hcl, -⟩ := A.clustered.rep.writeEntry_ok he.proper (fun _ => he.old) h4
      exact hcl
    have hZ := k2
    obtain ⟨cs', rows', A'⟩ := k2
    have hmts : s2.1.mimetypes = s.1.mimetypes := by rw [A'.mts, A.mts, k1'.2]
    have T := hT.byRows A.clustered.rep
    rw [hmts] at hn
    obtain ⟨t1, t2⟩ := T.write (fs := rows'.map Prod.snd) (rep_urls A.clustered.rep) (rep_urls A'.clustered.rep) (e := e)
      (fun v => by
        rw [lists_views A'.lists, lists_views A.lists, k1'.1, catalogue_snoc]
        unfold Catalogue.write
        constructor
        · intro hv
          split at hv
          · injection hv with hv; exact .inl hv.symm
          · rename_i hu
            rw [if_neg (by simpa using hu)] at hv
            exact .inr ⟨hv, hu⟩
        · rintro (rfl | ⟨hv, hu⟩)
          · rw [if_pos (show e.view.ns ++ e.view.url = e.fullUrl from rfl)]
          · rw [if_neg hu, if_neg (by simpa using hu)]; exact hv) hre o1
      (fun o ho => by
        obtain ⟨k1, k2⟩ := o2 o ho
        obtain ⟨r, hr, rfl⟩ := List.mem_map.1 k1
        exact ⟨k1, k2, ((Entry.C16_full_url _ _ (A.clustered.rep.store.clean r hr).storable.ns hclean.storable.ns).2.1 k2).1⟩) hM
      (fun mt hmt => by
        obtain ⟨b, hb, hbm⟩ := mimetypeOf_listed (by rw [A.mts]; exact A.mimes) hre hmt
        exact hL b hb mt hbm) hn
    rw [hs]
    refine ⟨hs, ⟨z', hZ⟩, ⟨_, A'.clustered.rep.iterEntries, by rw [hmts]; exact t1⟩, ?_⟩
    rcases t2 with t2 | t2
    · rcases hd with hd | hd
      · exact .inl (t2.trans hd)
      · exact .inr (by rw [t2]; exact hd)
    · exact .inr t2

end Pyzim
