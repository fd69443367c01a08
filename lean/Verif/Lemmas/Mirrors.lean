import Verif.Lemmas.Filled
import Verif.Lemmas.Stays
import Verif.Lemmas.Waits
import Verif.Props.Clusters

/-!
# The strategies do to the archive what they do to the reduced archive
-/

namespace Pyzim

/-! ### A new cluster stays a new cluster -/

namespace MCluster
variable {D : Type} {X : Codecs D}

/-- a cluster that wraps no cluster of a file, and belongs to the archive -/
def IsNew (m : MCluster D) : Prop := m.inner = .empty ∧ m.bound = true

theorem keeps_onInner {α : Type} (g : PyM (CSt D) α) (e : PyRes α) : Keeps IsNew (onInner g e) := by
  intro m hm
  unfold onInner
  rw [hm.1]
  exact hm

theorem keeps_offsets : Keeps IsNew (getNumberOfOffsets X) :=
  (keeps_onInner _ _).bind fun _ => Keeps.get.bind fun _ => Keeps.pure _

theorem keeps_number : Keeps IsNew (getNumberOfBlobs X) := keeps_offsets.bind fun _ => Keeps.pure _

theorem keeps_size (i : Nat) : Keeps IsNew (getBlobSize X i) := by
  unfold getBlobSize
  refine Keeps.get.bind fun m => ?_
  split
  · exact Keeps.pure _
  · exact keeps_onInner _ _

theorem keeps_sizesLoop : ∀ l : List Nat, Keeps IsNew (sizesLoop X l)
  | [] => Keeps.pure _
  | i :: rest => (keeps_size i).bind fun _ => (keeps_sizesLoop rest).bind fun _ => Keeps.pure _

theorem keeps_sizes : Keeps IsNew (blobSizes X) := keeps_number.bind fun _ => keeps_sizesLoop _

theorem keeps_extended : Keeps IsNew (isExtended X) := by
  unfold isExtended
  refine Keeps.get.bind fun m => ?_
  split
  · exact Keeps.pure _
  · split
    · exact Keeps.pure _
    · exact (keeps_onInner _ _).bind fun _ => keeps_offsets.bind fun _ => keeps_sizes.bind fun _ => Keeps.pure _

theorem keeps_total : Keeps IsNew (getTotalDecompressedSize X) := by
  unfold getTotalDecompressedSize getTotalOffsetSize getContentSize pointerSize
  refine Keeps.bind (Keeps.get.bind fun m => (Keeps.require _ _).bind fun _ => Keeps.bind (keeps_extended.bind fun e => ?_)
    fun _ => keeps_offsets.bind fun _ => Keeps.pure _) fun _ => Keeps.bind (keeps_sizes.bind fun _ => Keeps.pure _)
    fun _ => Keeps.pure _
  split
  · exact Keeps.raise _
  · exact Keeps.pure _
  · exact Keeps.pure _

theorem keeps_setBlob (i : Nat) (src : BlobSource) : Keeps IsNew (setBlob X i src) :=
  keeps_number.bind fun _ => (Keeps.require _ _).bind fun _ => Keeps.get.bind fun _ => (Keeps.require _ _).bind fun _ =>
    Keeps.modify fun _ h => h

theorem keeps_append (src : BlobSource) : Keeps IsNew (appendBlob X src) :=
  Keeps.get.bind fun _ => (Keeps.require _ _).bind fun _ => keeps_number.bind fun _ => (keeps_setBlob _ _).bind fun _ =>
    Keeps.pure _

theorem isNew_new (t : CompressionType) : IsNew (Simple.newCluster t : MCluster D) := ⟨rfl, rfl⟩

/-- what is written is not empty -/
theorem iterWrite_ne_nil {K : Type} {C : Compressors K} {m : MCluster D} {chunks : List Bytes}
    (h : (iterWrite X C m).1 = .ok chunks) : chunks.flatten ≠ [] := by
  have hp : iterWrite X C m = (.ok chunks, (iterWrite X C m).2) := by rw [← h]
  unfold iterWrite at hp
  obtain ⟨_, _, -, hp⟩ := PyM.bind_ok_iff.1 hp
  obtain ⟨e, _, -, hp⟩ := PyM.bind_ok_iff.1 hp
  rw [PyM.get_bind] at hp
  obtain ⟨t, _, -, hp⟩ := PyM.bind_ok_iff.1 hp
  obtain ⟨info, _, hi, hp⟩ := PyM.bind_ok_iff.1 hp
  obtain ⟨k, _, -, hp⟩ := PyM.bind_ok_iff.1 hp
  obtain ⟨raw, _, -, hp⟩ := PyM.bind_ok_iff.1 hp
  obtain ⟨out, _, -, hp⟩ := PyM.bind_ok_iff.1 hp
  rw [PyM.pure_apply] at hp
  injection hp with hp _
  injection hp with hp
  rw [PyM.lift_apply] at hi
  injection hi with hi _
  unfold Cluster.generateInfobyte at hi
  dsimp only at hi
  repeat' split at hi
  all_goals
    first
    | cases hi; done
    | (injection hi with hi
       rw [← hp, ← hi]
       simp)

end MCluster

/-! ### The archive and the reduced archive -/

namespace Zim
variable {D K : Type}

/-- what is shown after writing the entries one after the other -/
def catalogue (m0 : Catalogue) (es : List Entry) : Catalogue := es.foldl (fun m e => m.write e (some e.fullUrl)) m0

/-- the articles after writing the entries one after the other -/
def marked (S0 : String → Prop) (es : List Entry) : String → Prop :=
  es.foldl (fun S e u => (S u ∧ u ≠ e.fullUrl) ∨ (u = e.fullUrl ∧ MarksArticle e S)) S0

/-- None of the entries is the redirect `s`, and at most one, the first one of its url, is the target `t`. -/
structure Once (m0 : Catalogue) (es : List Entry) (s t : String) : Prop where
  source : s ∉ es.map Entry.fullUrl
  target : (es.map Entry.fullUrl).count t ≤ 1
  new : m0 t ≠ none → t ∉ es.map Entry.fullUrl

theorem Once.left {m0 : Catalogue} {es es' : List Entry} {s t : String} (h : Once m0 (es ++ es') s t) : Once m0 es s t := by
  have h1 := h.source
  have h2 := h.target
  have h3 := h.new
  rw [List.map_append] at h1 h2 h3
  rw [List.count_append] at h2
  exact ⟨fun hs => h1 (List.mem_append_left _ hs), by omega, fun hm ht => h3 hm (List.mem_append_left _ ht)⟩

theorem catalogue_snoc (m0 : Catalogue) (es : List Entry) (e : Entry) :
    catalogue m0 (es ++ [e]) = (catalogue m0 es).write e (some e.fullUrl) := by
  unfold catalogue
  rw [List.foldl_append]; rfl

theorem catalogue_other (m0 : Catalogue) {es : List Entry} {u : String} (hu : u ∉ es.map Entry.fullUrl) :
    catalogue m0 es u = m0 u := by
  induction es using snoc_induction with
  | h0 => rfl
  | h1 es x ih =>
    rw [List.map_append, List.mem_append, not_or] at hu
    rw [catalogue_snoc]
    unfold Catalogue.write
    have hx : ¬ u = x.fullUrl := by simpa using hu.2
    rw [if_neg hx, if_neg (by simpa using hx)]
    exact ih hu.1

/-- an entry that is written may not be the redirect or its target -/
theorem Once.apart {m0 : Catalogue} {es : List Entry} {e : Entry} {s t : String} (h : Once m0 (es ++ [e]) s t)
    (ht : catalogue m0 es t ≠ none) : s ≠ e.fullUrl ∧ t ≠ e.fullUrl := by
  have h1 := h.source
  have h2 := h.target
  have h3 := h.new
  rw [List.map_append] at h1 h2 h3
  refine ⟨fun hs => h1 (by rw [hs]; simp), fun hte => ?_⟩
  rw [List.count_append, hte] at h2
  simp only [List.map_cons, List.map_nil, List.count_singleton_self] at h2
  have hm : e.fullUrl ∉ es.map Entry.fullUrl := List.count_eq_zero.1 (by omega)
  rw [hte, catalogue_other m0 hm, ← hte] at ht
  exact h3 ht (by rw [hte]; simp)

/-- The mimetypes can be listed, and the list does not get too long. -/
structure MimesIn (ML : List Bytes) (m : MimeTypeList) : Prop where
  mutable : m.mutable = true
  nodup : m.mimetypes.Nodup
  sub : ∀ x ∈ m.mimetypes, x ∈ ML

theorem MimesIn.length {ML : List Bytes} {m : MimeTypeList} (h : MimesIn ML m) : m.mimetypes.length ≤ ML.length :=
  (List.subperm_of_subset h.nodup h.sub).length_le

theorem MimesIn.getIndex {ML : List Bytes} {m m' : MimeTypeList} (h : MimesIn ML m) {mt : Bytes} (hmt : mt ∈ ML)
    {r : PyRes (Option Nat)} (hg : m.getIndex mt true = (r, m')) : MimesIn ML m' := by
  obtain ⟨i, h1, h2, h3, h4, h5⟩ := MimeTypeList.C10_register m h.mutable mt
  by_cases hm : mt ∈ m.mimetypes
  · have := h4 hm
    rw [hg] at this
    simp only at this
    rw [this]; exact h
  · have hreg : (m.register mt).2.mutable = true := by
      unfold MimeTypeList.register
      repeat' split
      · exact h.mutable
      · exact h.mutable
      · exact h.mutable
    have hm' : m'.mutable = true := by
      unfold MimeTypeList.getIndex at hg
      cases hs : MimeTypeList.search mt 0 m.mimetypes with
      | some i =>
        rw [hs] at hg
        injection hg with _ hg; rw [← hg]; exact h.mutable
      | none =>
        rw [hs] at hg
        simp only [if_true] at hg
        cases hq : m.register mt with
        | mk q1 q2 =>
          rw [hq] at hg hreg
          cases q1 with
          | error e => injection hg with _ hg; rw [← hg]; exact hreg
          | ok u => injection hg with _ hg; rw [← hg]; exact hreg
    rcases getIndex_changes hg with rfl | ⟨_, e⟩
    · exact h
    · refine ⟨hm', ?_, ?_⟩
      · rw [e]
        exact List.nodup_append.2 ⟨h.nodup, by simp, fun a ha b hb hab => hm (by
          rw [List.mem_singleton] at hb; rw [← hb, ← hab]; exact ha)⟩
      · intro x hx
        rw [e] at hx
        rcases List.mem_append.1 hx with hx | hx
        · exact h.sub x hx
        · rw [List.mem_singleton] at hx; rw [hx]; exact hmt

/-- The archive `Z`, with the clusters `cs` and the entries `rows`, is what `Z0` becomes by what was done to the reduced
archive, which is `z` now. -/
structure Mirrors (X : Codecs D) (C : Compressors K) (ML : List Bytes) (Z0 : Zim) (cs0 : List Stored) (n0 : Nat) (rest : Nat → Prop)
    (m0 : Catalogue) (S0 : String → Prop) (z : ZimLog) (Z : Zim) (cs : List Stored) (rows : List Row) : Prop where
  works : Works (ClusterObj.ops X C) Z0 cs0 Z cs
  clustered : Clustered Z rows cs rest
  lists : Lists (catalogue m0 z.entries) rows
  art : Art Z.articles rows (marked S0 z.entries)
  clusters : z.clusters = cs.map Prod.snd
  mts : Z.mimetypes = z.mts
  mimes : MimesIn ML z.mts
  redirects : Z.bufferedRedirects = Z0.bufferedRedirects
  mainpage : Z.bufferedMainpage = Z0.bufferedMainpage
  arts : ArtsKept Z0.articles Z
  leads : ∀ s t, Once m0 z.entries s t → Leads Z0 s t → Leads Z s t
  count : n0 ≤ z.entries.length
  before : cs0 <+: cs
  stays : ∀ rows0, Clustered Z0 rows0 cs0 rest → Stays (· ∈ (z.entries.drop n0).map Entry.fullUrl) rows0 rows
  longer : Z0.file.length ≤ Z.file.length
  filled : ∀ k, Filled k Z0 → Filled k Z

/-- An entry that can be written. -/
structure Good (e : Entry) : Prop where
  proper : e.Proper
  old : e.oldFullUrl = some e.fullUrl
  ns : (encode e.ns).length = 1
  mimetype : e.mimetypeId < 2 ^ 16

variable {X : Codecs D} {C : Compressors K} {ML : List Bytes} {Z0 Z Z' : Zim} {cs0 cs : List Stored} {n0 : Nat} {rest : Nat → Prop}
  {m0 : Catalogue} {S0 : String → Prop} {z : ZimLog} {rows : List Row} {depth : Nat}

/-- `z` mirrors `Z` -/
def Mirrored (X : Codecs D) (C : Compressors K) (ML : List Bytes) (Z0 : Zim) (cs0 : List Stored) (n0 : Nat) (rest : Nat → Prop)
    (m0 : Catalogue) (S0 : String → Prop) (z : ZimLog) (Z : Zim) : Prop :=
  ∃ cs rows, Mirrors X C ML Z0 cs0 n0 rest m0 S0 z Z cs rows

theorem Mirrored.toEntry (h : Mirrored X C ML Z0 cs0 n0 rest m0 S0 z Z) (hML : ML.length < 65535) {it : Item} (hv : it.Valid)
    (hmt : encode it.mimetype ∈ ML) (ha : it.isArticle = true → it.ns = "C") {e : Entry}
    (hok : (backend X C depth).toEntry it Z = (.ok e, Z')) :
    ∃ z', (ZimLog.backend X C).toEntry it z = (.ok e, z') ∧ Mirrored X C ML Z0 cs0 n0 rest m0 S0 z' Z' ∧ Good e := by
  obtain ⟨cs, rows, h⟩ := h
  obtain ⟨id, h1, h2⟩ := Item.toEntry_spec it z.mts h.mimes.mutable ha
  have hid : id < 65535 := by
    obtain ⟨i, g1, g2, -⟩ := MimeTypeList.C10_register z.mts h.mimes.mutable (encode it.mimetype)
    rw [g1] at h2
    injection h2 with h2
    injection h2 with h2
    have hl := (h.mimes.getIndex hmt (m' := (z.mts.getIndex (encode it.mimetype) true).2)
      (r := (z.mts.getIndex (encode it.mimetype) true).1) rfl).length
    unfold MimeTypeList.len at g2
    omega
  have hne : encode it.mimetype ≠ [] := by
    intro he
    rw [encode_eq_nil] at he
    exact hv.mimetype.1 (by rw [he]; rfl)
  simp only [backend, PyM.of_apply, h.mts, h1] at hok
  injection hok with hok1 hok2
  injection hok1 with hok1
  refine ⟨{ z with mts := (z.mts.getIndex (encode it.mimetype) true).2 }, ?_, ⟨cs, rows, ?_⟩, ?_⟩
  · simp only [ZimLog.backend, PyM.of_apply, h1]
    rw [hok1]
  · rw [← hok2]
    exact ⟨.step h.works (.mimetype (reg := true) hne hv.mimetype.2 (by rw [h.mts])), h.clustered.mimes _, h.lists, h.art,
      h.clusters, rfl, h.mimes.getIndex hmt (r := _) rfl, h.redirects, h.mainpage, h.arts, h.leads,
      h.count, h.before, h.stays, h.longer, h.filled⟩
  · rw [← hok1]
    refine ⟨⟨hv.url.2, ⟨it.title, rfl, ?_⟩, ?_, ?_⟩, rfl, hv.ns, by simp only; omega⟩
    · unfold Item.title
      split
      · exact hv.url.2
      · exact hv.title _ (by assumption)
    · constructor
      · rintro ⟨r, hr⟩; cases hr
      · intro he; simp only at he; omega
    · intro hf
      simp only at hf
      injection hf with hf
      exact ha hf

theorem Mirrored.writeCluster (h : Mirrored X C ML Z0 cs0 n0 rest m0 S0 z Z) {m : MCluster D} (hm : m.IsNew) {n : Nat}
    (hok : (backend X C depth).writeCluster m Z = (.ok n, Z')) :
    ∃ z', (ZimLog.backend X C).writeCluster m z = (.ok n, z') ∧ Mirrored X C ML Z0 cs0 n0 rest m0 S0 z' Z' := by
  obtain ⟨cs, rows, h⟩ := h
  simp only [backend] at hok
  obtain ⟨⟨n', c'⟩, Z1, h1, hok⟩ := PyM.bind_ok_iff.1 hok
  rw [PyM.pure_apply] at hok
  injection hok with hn hz
  injection hn with hn
  simp only at hn
  subst hn hz
  unfold writeClusterObj chunkBound at h1
  rw [MCluster.onFile_empty hm.1] at h1
  simp only [ZimLog.backend, ZimLog.writeCluster, PyM.of_apply]
  cases hw : (MCluster.iterWrite X C m).1 with
  | error x =>
    exfalso
    have hd : ∀ file, (ClusterObj.ops X C).diskSize { m := m } file = .error x := by
      intro file
      show (MCluster.getDiskSize X C (m.onFile file)).1 = _
      rw [MCluster.onFile_empty hm.1]
      unfold MCluster.getDiskSize
      have hp : MCluster.iterWrite X C m = (.error x, (MCluster.iterWrite X C m).2) := by rw [← hw]
      rw [PyM.bind_err hp]
    unfold Zim.writeCluster at h1
    obtain ⟨_, _, -, h2⟩ := PyM.bind_ok_iff.1 h1
    rw [PyM.get_bind] at h2
    obtain ⟨_, _, -, h3⟩ := PyM.bind_ok_iff.1 h2
    obtain ⟨_, _, -, h4⟩ := PyM.bind_ok_iff.1 h3
    obtain ⟨_, _, -, h5⟩ := PyM.bind_ok_iff.1 h4
    obtain ⟨_, _, r2, -⟩ := PyM.bind_ok_iff.1 h5
    rw [PyM.lift_apply, hd] at r2
    cases r2
  | ok chunks =>
    rw [hw] at h1
    have hne := MCluster.iterWrite_ne_nil hw
    have hW := C53_new_cluster_writes (n := { m := m }) hm.1 hm.2 hw Z.file (InUse Z)
    obtain ⟨off, c'', z'', e1, e2, e3, e4, -, -, -, e5, -⟩ := h.clustered.writeCluster_new (fun x => (h.clustered.inUse x).1) hW hne rfl
      (num := none) (by simp) (fuel := chunks.length + 1) (by omega)
    simp only at h1
    rw [e1] at h1
    injection h1 with h1 h2
    injection h1 with h1
    injection h1 with h1 h3
    subst h1 h2 h3
    refine ⟨_, by rw [h.clusters, List.length_map], cs ++ [(off, chunks.flatten)], rows, ?_⟩
    refine ⟨.step h.works (.cluster (.new hW hne (Nat.lt_succ_self _) rfl e1 e4)), e2, h.lists, ?_, ?_, ?_, h.mimes, ?_, ?_, ?_, ?_,
      h.count, h.before.trans (List.prefix_append _ _), h.stays, Nat.le_trans h.longer e5.longer,
      fun k hk => h.clustered.filled (.new hW hne (Nat.lt_succ_self _) rfl e1 e4) (h.filled k hk)⟩
    · rw [e3.articles]; exact h.art
    · simp
    · rw [e3.mimetypes]; exact h.mts
    · rw [e3.redirects]; exact h.redirects
    · rw [e3.mainpage]; exact h.mainpage
    · unfold ArtsKept; rw [e3.articles]; exact h.arts
    · exact fun s t ho hl => e2.rep.leads_iff.2 (h.clustered.rep.leads_iff.1 (h.leads s t ho hl))

theorem Mirrored.writeEntry (h : Mirrored X C ML Z0 cs0 n0 rest m0 S0 z Z) {e : Entry} (he : Good e)
    (hok : (backend X C depth).writeEntry e Z = (.ok (), Z')) :
    ∃ z', (ZimLog.backend X C).writeEntry e z = (.ok (), z') ∧ Mirrored X C ML Z0 cs0 n0 rest m0 S0 z' Z' := by
  obtain ⟨cs, rows, h⟩ := h
  simp only [backend] at hok
  obtain ⟨e', Z1, h1, hok⟩ := PyM.bind_ok_iff.1 hok
  rw [PyM.pure_apply] at hok
  injection hok with _ hok
  subst hok
  refine ⟨_, rfl, cs, ?_⟩
  have hA : Accepts Z e := ⟨he.proper, fun _ => he.old⟩
  obtain ⟨old, rows', f, hold, hw, hrep, hf, -, -, -, hart⟩ := h.clustered.rep.writeEntry_ok he.proper (fun _ => he.old) h1
  have ho : old = e.fullUrl := by
    have := hold
    rw [he.old] at this
    injection this with this
    exact this.symm
  refine ⟨rows', .step h.works (.entry hA h1), h.clustered.framed hrep hf, ?_, ?_, ?_, ?_, h.mimes, ?_, ?_, ?_, ?_, ?_, h.before, ?_,
    ?_, fun k hk => filled_writeEntry k depth e true true _ _ _ (h.filled k hk) h1⟩
  · unfold catalogue
    rw [List.foldl_append]
    refine Lists.write h.lists (distinct_of_sorted hrep.sorted) ?_
    rw [← ho]
    exact hw.written h.clustered.rep.store.clean (distinct_of_sorted h.clustered.rep.sorted)
  · unfold marked
    rw [List.foldl_append]
    have := hart _ h.art
    have hs : (fun u => (marked S0 z.entries u ∧ u ≠ e.fullUrl) ∨ (u = e.fullUrl ∧ MarksArticle e (marked S0 z.entries))) =
        (fun u => (marked S0 z.entries u ∧ u ≠ e.fullUrl ∧ u ≠ old) ∨
        (u = e.fullUrl ∧ true = true ∧ asArticle e (marked S0 z.entries))) := by
      funext u
      rw [ho]
      simp only [and_self, true_and]
      rfl
    show Art Z1.articles rows' (fun u => (marked S0 z.entries u ∧ u ≠ e.fullUrl) ∨
      (u = e.fullUrl ∧ MarksArticle e (marked S0 z.entries)))
    rw [hs]
    exact this
  · exact h.clusters
  · rw [hf.mimetypes]; exact h.mts
  · rw [hf.redirects]; exact h.redirects
  · rw [hf.mainpage]; exact h.mainpage
  · have := keeps_writeEntry Z0.articles depth e true true Z h.arts
    rw [h1] at this
    exact this
  · intro s t hO hl
    have hl1 := h.leads s t hO.left hl
    obtain ⟨q, hq, hqu⟩ : ∃ q ∈ rows, q.2.fullUrl = t := by
      obtain ⟨r, -, -, i, q, -, hq, hqu⟩ := h.clustered.rep.leads_iff.1 hl1
      exact ⟨q, List.mem_of_getElem? hq, hqu⟩
    obtain ⟨k1, k2⟩ := hO.apart (by rw [(h.lists t q.2.view).2 ⟨q, hq, hqu, rfl⟩]; simp)
    exact C34_write_other_partial ⟨rows, _, h.clustered.rep⟩ hA h1 hl1 (by rw [he.old]; simpa using k1) (by rw [he.old]; simpa using k2)
  · have := h.count
    simp only [List.length_append]
    omega
  · intro rows0 h0
    have hc := h.count
    refine (h.stays rows0 h0).mono (V := (· ∈ ((z.entries ++ [e]).drop n0).map Entry.fullUrl)) (fun u hu => ?_) |>.trans ?_
    · rw [List.drop_append_of_le_length hc, List.map_append]
      exact List.mem_append_left _ hu
    · refine (hw.stays h.clustered.rep.store.clean (distinct_of_sorted h.clustered.rep.sorted)).mono fun u hu => ?_
      rw [List.drop_append_of_le_length hc, List.map_append]
      refine List.mem_append_right _ ?_
      rw [ho, or_self] at hu
      rw [hu]; simp
  · have := long_writeEntry Z0.file.length depth e true true Z h.longer
    rw [h1] at this
    exact this

theorem Good.setCluster {e e' : Entry} {v : Int} (h : Good e) (hs : e.setClusterNumber v = (.ok (), e')) : Good e' := by
  unfold Entry.setClusterNumber at hs
  cases hk : e.kind with
  | redirect r => rw [hk] at hs; cases hs
  | content c b =>
    have hm : ¬ e.mimetypeId = 0xffff := fun hm => by
      obtain ⟨r, hr⟩ := h.proper.kind.2 hm
      rw [hk] at hr; cases hr
    rw [hk] at hs
    simp only at hs
    repeat' split at hs
    all_goals
      first
      | cases hs; done
      | (injection hs with _ hs
         subst hs
         first
         | exact h
         | exact ⟨⟨h.proper.url, h.proper.title, ⟨fun hx => (nomatch hx.choose_spec), fun hh => absurd hh hm⟩, h.proper.article⟩, h.old, h.ns, h.mimetype⟩)

theorem Good.content {e e' : Entry} {v : Int} (h : Good e') (hs : e.setClusterNumber v = (.ok (), e')) : e'.isRedirect = false := by
  unfold Entry.setClusterNumber at hs
  cases hk : e.kind with
  | redirect r => rw [hk] at hs; cases hs
  | content c b =>
    have hk' : ∃ c b, e'.kind = .content c b := by
      rw [hk] at hs
      simp only at hs
      repeat' split at hs
      all_goals
        first
        | cases hs; done
        | (injection hs with _ hs
           subst hs
           first
           | exact ⟨_, _, hk⟩
           | exact ⟨_, _, rfl⟩)
    obtain ⟨c', b', hk'⟩ := hk'
    unfold Entry.isRedirect
    refine decide_eq_false fun hm => ?_
    obtain ⟨r, hr⟩ := h.proper.kind.2 hm
    rw [hk'] at hr; cases hr

theorem Good.setBlob {e e' : Entry} {v : Int} (h : Good e) (hs : e.setBlobNumber v = (.ok (), e')) : Good e' := by
  unfold Entry.setBlobNumber at hs
  cases hk : e.kind with
  | redirect r => rw [hk] at hs; cases hs
  | content c b =>
    have hm : ¬ e.mimetypeId = 0xffff := fun hm => by
      obtain ⟨r, hr⟩ := h.proper.kind.2 hm
      rw [hk] at hr; cases hr
    rw [hk] at hs
    simp only at hs
    repeat' split at hs
    all_goals
      first
      | cases hs; done
      | (injection hs with _ hs
         subst hs
         first
         | exact h
         | exact ⟨⟨h.proper.url, h.proper.title, ⟨fun hx => (nomatch hx.choose_spec), fun hh => absurd hh hm⟩, h.proper.article⟩, h.old, h.ns, h.mimetype⟩)

end Zim

/-! ### The strategies -/

/-- The strategy holds only what it can write. -/
structure Simple.Fit {D : Type} (s : Simple D) : Prop where
  isNew : s.cluster.IsNew
  good : ∀ e ∈ s.entries, Zim.Good e

/-- An item that can be added, with its mimetype listed. -/
structure Item.Addable (ML : List Bytes) (it : Item) : Prop where
  valid : it.Valid
  listed : encode it.mimetype ∈ ML
  article : it.isArticle = true → it.ns = "C"

/-- Whatever succeeds for one archive succeeds for the other one, with the same results, and leaves them related. -/
structure Backend.Sim {σ τ D : Type} (A : Backend σ D) (B : Backend τ D) (Q : Item → Prop) (R : σ → τ → Prop) : Prop where
  toEntry : ∀ {s s' : σ} {t : τ} {it : Item} {e : Entry}, R s t → Q it → A.toEntry it s = (.ok e, s') →
    ∃ t', B.toEntry it t = (.ok e, t') ∧ R s' t' ∧ Zim.Good e
  writeCluster : ∀ {s s' : σ} {t : τ} {m : MCluster D} {n : Nat}, R s t → m.IsNew → A.writeCluster m s = (.ok n, s') →
    ∃ t', B.writeCluster m t = (.ok n, t') ∧ R s' t'
  writeEntry : ∀ {s s' : σ} {t : τ} {e : Entry}, R s t → Zim.Good e → e.isRedirect = false → A.writeEntry e s = (.ok (), s') →
    ∃ t', B.writeEntry e t = (.ok (), t') ∧ R s' t'

section
variable {σ τ D : Type} {X : Codecs D} {A : Backend σ D} {B : Backend τ D} {Q : Item → Prop} {R : σ → τ → Prop} {Z Z' : σ} {z : τ}

theorem Simple.fit_new (t : CompressionType) (mx : Int) : (Simple.new t mx : Simple D).Fit :=
  ⟨MCluster.isNew_new t, by simp [Simple.new]⟩

theorem Backend.Sim.writeEntries (H : Backend.Sim A B Q R) {num : Nat} : ∀ {es : List Entry} {z : τ} {Z : σ},
    R Z z → (∀ e ∈ es, Zim.Good e) →
    Simple.writeEntries A.writeEntry num es Z = (.ok (), Z') →
    ∃ z', Simple.writeEntries B.writeEntry num es z = (.ok (), z') ∧
      R Z' z' := by
  intro es
  induction es with
  | nil =>
    intro z Z h _ hok
    injection hok with _ hok
    subst hok
    exact ⟨z, rfl, h⟩
  | cons e es ih =>
    intro z Z h hg hok
    unfold Simple.writeEntries at hok ⊢
    cases hs : e.setClusterNumber num with
    | mk r e1 =>
      rw [hs] at hok
      cases r with
      | error x => cases hok
      | ok u =>
        simp only at hok ⊢
        obtain ⟨⟨⟩, Z1, h1, hok⟩ := PyM.bind_ok_iff.1 hok
        have hg' := (hg e (by simp)).setCluster hs
        obtain ⟨z1, g1, g2⟩ := H.writeEntry h hg' (hg'.content hs) h1
        obtain ⟨z2, g3, g4⟩ := ih g2 (fun e he => hg e (by simp [he])) hok
        exact ⟨z2, by rw [PyM.bind_ok g1]; exact g3, g4⟩

theorem Backend.Sim.finalize (H : Backend.Sim A B Q R) {s s' : Simple D} (h : R Z z) (hf : s.Fit)
    (hok : Simple.finalizeOn A (s, Z) = (.ok (), (s', Z'))) :
    ∃ z', Simple.finalizeOn B (s, z) = (.ok (), (s', z')) ∧ R Z' z' ∧
      s'.Fit := by
  unfold Simple.finalizeOn at hok ⊢
  rw [PyM.get_bind] at hok ⊢
  obtain ⟨num, ⟨s1, Z1⟩, h1, hok⟩ := PyM.bind_ok_iff.1 hok
  simp only [Simple.onZim, PyM.of_apply] at h1
  injection h1 with h1 h2
  injection h2 with h2 h3
  obtain ⟨z1, g1, g2⟩ := H.writeCluster h (n := num) (s' := Z1) hf.isNew (by rw [← h1, ← h3])
  rw [PyM.bind_ok (show Simple.onZim (B.writeCluster s.cluster) (s, z) = (.ok num, (s, z1)) by
    simp only [Simple.onZim, PyM.of_apply, g1])]
  subst h2
  rw [PyM.modify_bind] at hok ⊢
  obtain ⟨⟨⟩, ⟨s2, Z2⟩, h4, hok⟩ := PyM.bind_ok_iff.1 hok
  simp only [Simple.onZim, PyM.of_apply] at h4
  injection h4 with h4 h5
  injection h5 with h5 h6
  obtain ⟨z2, g3, g4⟩ := H.writeEntries g2 (num := num) (es := s.entries) (Z' := Z2) hf.good (by rw [← h4, ← h6])
  rw [PyM.bind_ok (show Simple.onZim (Simple.writeEntries B.writeEntry num s.entries)
    ({ s with cluster := Simple.newCluster s.compressionType }, z1) =
      (.ok (), ({ s with cluster := Simple.newCluster s.compressionType }, z2)) by
    simp only [Simple.onZim, PyM.of_apply, g3])]
  rw [PyM.modify_apply] at hok ⊢
  injection hok with _ hok
  injection hok with hok1 hok2
  simp only at hok1 hok2
  subst hok2
  rw [← h5] at hok1
  refine ⟨z2, by rw [← hok1], g4, ?_⟩
  rw [← hok1]
  exact ⟨MCluster.isNew_new _, by simp⟩

theorem Backend.Sim.simpleAdd (H : Backend.Sim A B Q R) {s s' : Simple D} (h : R Z z) (hf : s.Fit)
    {it : Item} (hi : Q it)
    (hok : Simple.addItemOn X A it (s, Z) = (.ok (), (s', Z'))) :
    ∃ z', Simple.addItemOn X B it (s, z) = (.ok (), (s', z')) ∧
      R Z' z' ∧ s'.Fit := by
  unfold Simple.addItemOn at hok ⊢
  obtain ⟨needed, ⟨s1, Z1⟩, h1, hokA⟩ := PyM.bind_ok_iff.1 hok
  clear hok
  have h1' : Simple.newClusterNeeded (σ := τ) X it (s, z) = (.ok needed, (s1, z)) ∧ Z1 = Z ∧ s1.Fit := by
    unfold Simple.newClusterNeeded at h1 ⊢
    rw [PyM.get_bind] at h1 ⊢
    simp only at h1 ⊢
    split at h1
    · rename_i he
      rw [if_pos he]
      rw [PyM.pure_apply] at h1 ⊢
      injection h1 with h1 h2
      injection h2 with h2 h3
      subst h2 h3
      injection h1 with h1
      subst h1
      exact ⟨rfl, rfl, hf⟩
    · rename_i he
      rw [if_neg he]
      obtain ⟨cur, ⟨s2, Z2⟩, k1, h1a⟩ := PyM.bind_ok_iff.1 h1
      simp only [Simple.onCluster, PyM.of_apply] at k1
      injection k1 with k1 k2
      injection k2 with k2 k3
      rw [PyM.pure_apply] at h1a
      injection h1a with h1a h2
      injection h2 with h2 h3
      subst h2 h3
      rw [PyM.bind_ok (show Simple.onCluster (σ := τ) (MCluster.getTotalDecompressedSize X) (s, z) =
        (.ok cur, (s2, z)) by simp only [Simple.onCluster, PyM.of_apply, k1, k2])]
      rw [PyM.pure_apply, h1a]
      refine ⟨rfl, k3.symm, ?_⟩
      rw [← k2]
      exact ⟨MCluster.keeps_total _ hf.isNew, hf.good⟩
  obtain ⟨h1', rfl, hf1⟩ := h1'
  rw [PyM.bind_ok h1']
  obtain ⟨⟨⟩, ⟨s2, Z2⟩, h2, hokB⟩ := PyM.bind_ok_iff.1 hokA
  clear hokA
  have h2' : ∃ z2, (if needed then Simple.finalizeOn B else pure ()) (s1, z) = (.ok (), (s2, z2)) ∧
      R Z2 z2 ∧ s2.Fit := by
    cases needed with
    | true =>
      simp only [if_true] at h2 ⊢
      exact H.finalize h hf1 h2
    | false =>
      simp only [Bool.false_eq_true, if_false, PyM.pure_apply] at h2 ⊢
      injection h2 with _ h2
      injection h2 with h2 h3
      subst h2 h3
      exact ⟨z, rfl, h, hf1⟩
  obtain ⟨z2, h2', hm2, hf2⟩ := h2'
  rw [PyM.bind_ok h2']
  obtain ⟨e, ⟨s3, Z3⟩, h3, hokC⟩ := PyM.bind_ok_iff.1 hokB
  clear hokB
  simp only [Simple.onZim, PyM.of_apply] at h3
  injection h3 with h3 h4
  injection h4 with h4 h5
  obtain ⟨z3, g1, g2, g3⟩ := H.toEntry hm2 (e := e) (s' := Z3) hi
    (by rw [← h3, ← h5])
  rw [PyM.bind_ok (show Simple.onZim (B.toEntry it) (s2, z2) = (.ok e, (s2, z3)) by
    simp only [Simple.onZim, PyM.of_apply, g1])]
  subst h4
  obtain ⟨num, ⟨s4, Z4⟩, h6, hok⟩ := PyM.bind_ok_iff.1 hokC
  clear hokC
  simp only [Simple.onCluster, PyM.of_apply] at h6
  injection h6 with h6 h7
  injection h7 with h7 h8
  rw [PyM.bind_ok (show Simple.onCluster (σ := τ) (MCluster.appendBlob X it.source) (s2, z3) = (.ok num, (s4, z3)) by
    simp only [Simple.onCluster, PyM.of_apply, h6, h7])]
  subst h8
  have hf4 : s4.Fit := by
    rw [← h7]
    exact ⟨MCluster.keeps_append _ _ hf2.isNew, hf2.good⟩
  cases hb : e.setBlobNumber num with
  | mk r e1 =>
    rw [hb] at hok
    cases r with
    | error x => cases hok
    | ok u =>
      simp only [PyM.modify_apply] at hok ⊢
      injection hok with _ hok
      injection hok with hok1 hok2
      subst hok2
      refine ⟨z3, by rw [hok1], g2, ?_⟩
      rw [← hok1]
      refine ⟨hf4.isNew, fun e' he => ?_⟩
      rcases List.mem_append.1 he with he | he
      · exact hf4.good e' he
      · rw [List.mem_singleton] at he
        rw [he]
        exact g3.setBlob hb

theorem Backend.Sim.simpleFlush (H : Backend.Sim A B Q R) {s s' : Simple D} (h : R Z z) (hf : s.Fit)
    (hok : Simple.flushOn A (s, Z) = (.ok (), (s', Z'))) :
    ∃ z', Simple.flushOn B (s, z) = (.ok (), (s', z')) ∧
      R Z' z' ∧ s'.Fit := by
  unfold Simple.flushOn at hok ⊢
  rw [PyM.get_bind] at hok ⊢
  simp only at hok ⊢
  split at hok
  · rename_i he
    rw [if_pos he]
    rw [PyM.pure_apply] at hok
    injection hok with _ hok
    injection hok with h1 h2
    subst h1 h2
    exact ⟨z, rfl, h, hf⟩
  · rename_i he
    rw [if_neg he]
    exact H.finalize h hf hok

theorem Backend.Sim.flushAll (H : Backend.Sim A B Q R) : ∀ {L L' : List (String × Simple D)} {z : τ} {Z : σ},
    R Z z → (∀ q ∈ L, q.2.Fit) →
    ByMimetype.flushAllOn A L Z = (.ok (), L', Z') →
    ∃ z', ByMimetype.flushAllOn B L z = (.ok (), L', z') ∧
      R Z' z' ∧ ∀ q ∈ L', q.2.Fit := by
  intro L
  induction L with
  | nil =>
    intro L' z Z h _ hok
    unfold ByMimetype.flushAllOn at hok
    injection hok with _ hok
    injection hok with h1 h2
    subst h1 h2
    exact ⟨z, rfl, h, by simp⟩
  | cons q L ih =>
    intro L' z Z h hf hok
    obtain ⟨mt, cs⟩ := q
    unfold ByMimetype.flushAllOn at hok ⊢
    cases hq : Simple.flushOn A (cs, Z) with
    | mk r p =>
      obtain ⟨cs1, Z1⟩ := p
      rw [hq] at hok
      cases r with
      | error x => injection hok with hok _; cases hok
      | ok u =>
        simp only at hok
        obtain ⟨z1, g1, g2, g3⟩ := H.simpleFlush h (hf (mt, cs) (by simp)) hq
        injection hok with hok1 hok2
        injection hok2 with hok2 hok3
        obtain ⟨z2, k1, k2, k3⟩ := ih (L' := (ByMimetype.flushAllOn A L Z1).2.1) g2
          (fun q hq => hf q (by simp [hq])) (by rw [← hok1, ← hok3])
        rw [g1]
        simp only [k1]
        refine ⟨z2, by rw [hok2], k2, ?_⟩
        rw [← hok2]
        intro q hq
        rcases List.mem_cons.1 hq with rfl | hq
        · exact g3
        · exact k3 q hq

/-- The strategy holds only what it can write. -/
def Strategy.Fit : Strategy D → Prop
  | .simple s => s.Fit
  | .byMimetype s => DistinctKeys s.strategies ∧ ∀ q ∈ s.strategies, q.2.Fit

theorem Backend.Sim.add (H : Backend.Sim A B Q R) {s s' : Strategy D} (h : R Z z) (hf : s.Fit)
    {it : Item} (hi : Q it)
    (hok : Strategy.addItemOn X A it (s, Z) = (.ok (), (s', Z'))) :
    ∃ z', Strategy.addItemOn X B it (s, z) = (.ok (), (s', z')) ∧
      R Z' z' ∧ s'.Fit := by
  unfold Strategy.addItemOn at hok ⊢
  rw [PyM.of_apply] at hok ⊢
  cases s with
  | simple s =>
    simp only at hok ⊢
    cases hr : Simple.addItemOn X A it (s, Z) with
    | mk r p =>
      obtain ⟨s1, Z1⟩ := p
      rw [hr] at hok
      simp only at hok
      injection hok with h1 h2
      injection h2 with h2 h3
      subst h1 h2 h3
      obtain ⟨z', g1, g2, g3⟩ := H.simpleAdd h hf hi hr
      exact ⟨z', by rw [g1], g2, g3⟩
  | byMimetype s =>
    obtain ⟨hd, hf⟩ := hf
    simp only [ByMimetype.addItemOn, PyM.of_apply] at hok ⊢
    have hc : (ByMimetype.getCs it.mimetype s).1.Fit ∧ DistinctKeys (ByMimetype.getCs it.mimetype s).2.strategies ∧
        ∀ q ∈ (ByMimetype.getCs it.mimetype s).2.strategies, q.2.Fit := by
      unfold ByMimetype.getCs
      cases hg : dictGet it.mimetype s.strategies with
      | some cs => exact ⟨hf _ (mem_of_dictGet hg), hd, hf⟩
      | none =>
        refine ⟨Simple.fit_new _ _, dictSet_nodup _ _ _ hd, fun q hq => ?_⟩
        rcases mem_dictSet hd hq with rfl | ⟨hq, -⟩
        · exact Simple.fit_new _ _
        · exact hf q hq
    obtain ⟨c1, c2, c3⟩ := hc
    cases hr : Simple.addItemOn X A it ((ByMimetype.getCs it.mimetype s).1, Z) with
    | mk r p =>
      obtain ⟨s1, Z1⟩ := p
      rw [hr] at hok
      simp only at hok
      injection hok with h1 h2
      injection h2 with h2 h3
      subst h1 h2 h3
      obtain ⟨z', g1, g2, g3⟩ := H.simpleAdd h c1 hi hr
      refine ⟨z', by rw [g1], g2, dictSet_nodup _ _ _ c2, fun q hq => ?_⟩
      rcases mem_dictSet c2 hq with rfl | ⟨hq, -⟩
      · exact g3
      · exact c3 q hq

theorem Backend.Sim.flush (H : Backend.Sim A B Q R) {s s' : Strategy D} (h : R Z z) (hf : s.Fit)
    (hok : Strategy.flushOn A (s, Z) = (.ok (), (s', Z'))) :
    ∃ z', Strategy.flushOn B (s, z) = (.ok (), (s', z')) ∧
      R Z' z' ∧ s'.Fit := by
  unfold Strategy.flushOn at hok ⊢
  rw [PyM.of_apply] at hok ⊢
  cases s with
  | simple s =>
    simp only at hok ⊢
    cases hr : Simple.flushOn A (s, Z) with
    | mk r p =>
      obtain ⟨s1, Z1⟩ := p
      rw [hr] at hok
      simp only at hok
      injection hok with h1 h2
      injection h2 with h2 h3
      subst h1 h2 h3
      obtain ⟨z', g1, g2, g3⟩ := H.simpleFlush h hf hr
      exact ⟨z', by rw [g1], g2, g3⟩
  | byMimetype s =>
    obtain ⟨hd, hf⟩ := hf
    simp only [ByMimetype.flushOn, PyM.of_apply] at hok ⊢
    cases hr : ByMimetype.flushAllOn A s.strategies Z with
    | mk r p =>
      obtain ⟨L', Z1⟩ := p
      rw [hr] at hok
      simp only at hok
      injection hok with h1 h2
      injection h2 with h2 h3
      subst h1 h2 h3
      obtain ⟨z', g1, g2, g3⟩ := H.flushAll h hf hr
      refine ⟨z', by rw [g1], g2, ?_, g3⟩
      unfold DistinctKeys at hd ⊢
      have hk : ∀ {L L' : List (String × Simple D)} {Z Z1 : σ} {r : PyRes Unit},
          ByMimetype.flushAllOn A L Z = (r, L', Z1) → L'.map Prod.fst = L.map Prod.fst := by
        intro L
        induction L with
        | nil =>
          intro L' Z Z1 r h
          unfold ByMimetype.flushAllOn at h
          injection h with _ h
          injection h with h _
          rw [← h]
        | cons q L ih =>
          intro L' Z Z1 r h
          obtain ⟨mt, cs⟩ := q
          unfold ByMimetype.flushAllOn at h
          split at h
          · injection h with _ h
            injection h with h _
            rw [← h]
            rfl
          · simp only at h
            injection h with _ h
            injection h with h _
            rw [← h, List.map_cons, List.map_cons, ih (Z := _) (Z1 := _) (r := _) rfl]
      simp only
      rw [hk hr]
      exact hd

end

section
open Zim
variable {D K : Type} {X : Codecs D} {C : Compressors K} {ML : List Bytes} {Z0 Z Z' : Zim} {cs0 cs : List Stored}
  {rest : Nat → Prop} {m0 : Catalogue} {S0 : String → Prop} {z : ZimLog} {depth : Nat}

theorem Mirrored.sim (depth : Nat) : Backend.Sim (Zim.backend X C depth) (ZimLog.backend X C)
    (fun it => ML.length < 65535 ∧ it.Addable ML) (fun Z z => Mirrored X C ML Z0 cs0 n0 rest m0 S0 z Z) :=
  ⟨fun h hi hok => h.toEntry hi.1 hi.2.valid hi.2.listed hi.2.article hok, fun h hm hok => h.writeCluster hm hok,
    fun h he _ hok => h.writeEntry he hok⟩

theorem Mirrored.add {s s' : Strategy D} (h : Mirrored X C ML Z0 cs0 n0 rest m0 S0 z Z) (hf : s.Fit)
    (hML : ML.length < 65535) {it : Item} (hi : it.Addable ML)
    (hok : Strategy.addItemOn X (Zim.backend X C depth) it (s, Z) = (.ok (), (s', Z'))) :
    ∃ z', Strategy.addItemOn X (ZimLog.backend X C) it (s, z) = (.ok (), (s', z')) ∧
      Mirrored X C ML Z0 cs0 n0 rest m0 S0 z' Z' ∧ s'.Fit :=
  (Mirrored.sim depth).add h hf ⟨hML, hi⟩ hok

theorem Mirrored.flush {s s' : Strategy D} (h : Mirrored X C ML Z0 cs0 n0 rest m0 S0 z Z) (hf : s.Fit)
    (hok : Strategy.flushOn (Zim.backend X C depth) (s, Z) = (.ok (), (s', Z'))) :
    ∃ z', Strategy.flushOn (ZimLog.backend X C) (s, z) = (.ok (), (s', z')) ∧
      Mirrored X C ML Z0 cs0 n0 rest m0 S0 z' Z' ∧ s'.Fit :=
  (Mirrored.sim depth).flush h hf hok

end
end Pyzim
