import Verif.Lemmas.CachedClusters
import Verif.Lemmas.CachingSteps
import Verif.Lemmas.Mirrors
import Verif.Spec.Caching
import Verif.Props.Layout

/-! # A writable archive with a cache of clusters, from its opening on -/

namespace Pyzim
open Zim (Row Stored InCluster Clustered)
open MCluster (Plain compOf IsAt)
variable {D K : Type} {X : Codecs D} {C : Compressors K}

/-! ### The objects -/

/-- a cluster of the file -/
theorem objIs_load (hR : Replaceable X C) {kind : ClusterKind} {calls : Nat} {auto : Bool} {z : Zim} {rows : List Row}
    {cs : List Stored} {rest : Nat → Prop} {i : Nat} {st : Stored} {v : List Bytes} {o : ClusterObj D} (h : Clustered z rows cs rest)
    (hi : cs[i]? = some st) (hg : GoodCluster C st.2 v) (hl : (Caching.setup X C kind calls auto).load z i = .ok o) :
    ObjIs X C o st v ∧ (Caching.setup X C kind calls auto).dirty o = false := by
  obtain ⟨t, ht, hwa⟩ := hg
  obtain ⟨ext, hat⟩ := hwa.isCluster hR ht
  have hl : Zim.openCluster X kind calls z i = .ok o := hl
  have ho := Zim.openCluster_any h (off := st.1) (b := st.2) hi hat hl
  subst ho
  obtain ⟨ext', hp, hat'⟩ := plain_reset hR ht hwa (m := ({ inner := .real (Zim.clusterAt kind z st.1) } : MCluster D)) rfl rfl rfl rfl rfl rfl rfl
  exact ⟨⟨rfl, rfl, hwa.ne_nil ht, t, v, ext', t, ht, rfl, hp, Or.inr ⟨_, rfl, rfl, rfl, hat'⟩, fun _ => hwa⟩, rfl⟩

/-- `set_blob` -/
theorem ObjIs.setBlob {o : ClusterObj D} {st : Stored} {v : List Bytes} (h : ObjIs X C o st v) {file : Bytes}
    (hh : Holds file st.1 st.2) {b : Nat} (hb : b < v.length) {src : BlobSource} {c : Bytes} (hd : Delivers src c) :
    ∃ m', MCluster.setBlob X b src (o.m.onFile file) = (.ok (), m') ∧ ObjIs X C { o with m := m' } st (v.set b c) := by
  obtain ⟨t, orig, ext, comp, h1, h2, h3, h4, h5⟩ := h.view
  obtain ⟨m', e1, e2, e3, e4, e5, e6⟩ := (MCluster.setBlob_spec (h3 _ hh) b hd).1 (by omega)
  have hput : MCluster.putBlob v b c = v.set b c := by unfold MCluster.putBlob; rw [if_pos hb]
  rw [hput] at e2
  refine ⟨m', e1, ⟨h.offset, h.old, h.nonempty, t, orig, ext, comp, h1, ?_, ?_, ?_, ?_⟩⟩
  · have : (o.m.onFile file).forceComp = o.m.forceComp := by
      unfold MCluster.onFile; cases o.m.inner <;> rfl
    rw [← h2]; unfold compOf; rw [e4, this]
  · intro file' hh'
    rcases h4 with h4 | ⟨s, h4, h6, h7, h8⟩
    · have hm' : m'.inner = .empty := by
        have := MCluster.keeps_setBlob (X := X) b src (o.m.onFile file) ⟨by rw [MCluster.onFile_empty h4]; exact h4, (h3 _ hh).bound⟩
        rw [e1] at this
        exact this.1
      simp only
      rw [MCluster.onFile_empty hm']; exact e2
    · obtain ⟨A, hAe, hAc, -⟩ := h8 file st.1 hh
      have hgood : Cluster.Good A ⟨{ kind := s.c.kind, offset := st.1 }, ⟨file, 0⟩⟩ := (Cluster.Reached.fresh s.c.kind 0).good A
      have hat : IsAt A (o.m.onFile file) := by
        have hbd : s.c.bound = true := by
          have hp := (h3 _ hh).inner
          unfold MCluster.onFile at hp
          rw [h4] at hp
          obtain ⟨_, _, A, hg, -⟩ := hp
          exact hg.bound
        refine ⟨_, ?_, hgood⟩
        unfold MCluster.onFile
        rw [h4]
        simp only [hbd, h6]
      have hatm := MCluster.isAt_setBlob A b src _ hat
      rw [e1] at hatm
      obtain ⟨s', hs', hg'⟩ := hatm
      obtain ⟨A', hA'e, hA'c, -⟩ := h8 file' st.1 hh'
      have hi := MCluster.innerIs_fresh A' s'.c.kind
      rw [hA'e, hA'c] at hi
      have := e2.setInner hi
      have e : m'.onFile file' = m'.setInner (.real { c := { kind := s'.c.kind, offset := st.1 }, f := ⟨file', 0⟩ }) := by
        unfold MCluster.onFile
        simp only at hs'
        rw [hs']
        simp only [hg'.bound, hg'.offset]
      simp only
      rw [e]; exact this
  · rcases h4 with h4 | ⟨s, h4, h6, h7, h8⟩
    · left
      have := MCluster.keeps_setBlob (X := X) b src (o.m.onFile file) ⟨by rw [MCluster.onFile_empty h4]; exact h4, (h3 _ hh).bound⟩
      rw [e1] at this
      exact this.1
    · right
      obtain ⟨A, hAe, hAc, -⟩ := h8 file st.1 hh
      have hgood : Cluster.Good A ⟨{ kind := s.c.kind, offset := st.1 }, ⟨file, 0⟩⟩ := (Cluster.Reached.fresh s.c.kind 0).good A
      have hat : IsAt A (o.m.onFile file) := by
        have hbd : s.c.bound = true := by
          have hp := (h3 _ hh).inner
          unfold MCluster.onFile at hp
          rw [h4] at hp
          obtain ⟨_, _, A, hg, -⟩ := hp
          exact hg.bound
        refine ⟨_, ?_, hgood⟩
        unfold MCluster.onFile
        rw [h4]
        simp only [hbd, h6]
      have hatm := MCluster.isAt_setBlob A b src _ hat
      rw [e1] at hatm
      obtain ⟨s', hs', hg'⟩ := hatm
      exact ⟨s', hs', hg'.offset, h7, h8⟩
  · intro hf
    simp only at hf
    rw [e6] at hf
    cases hf

/-- `read_blob` -/
theorem ObjIs.readBlob {o : ClusterObj D} {st : Stored} {v : List Bytes} (h : ObjIs X C o st v) {file : Bytes}
    (hh : Holds file st.1 st.2) {b : Nat} (hb : b < v.length) {start stop : Option Nat} (hr : Cluster.rangeOk start stop = true)
    (hs : start.getD 0 ≤ v[b].length) :
    (MCluster.readBlob X b start stop (o.m.onFile file)).1 = .ok (partOf v[b] start stop) := by
  obtain ⟨t, orig, ext, comp, h1, h2, h3, h4, h5⟩ := h.view
  obtain ⟨i', e, -⟩ := MCluster.readBlob_spec (h3 _ hh).toRepr b start stop hr (by
    intro c hc
    rw [List.getElem?_eq_getElem hb] at hc
    injection hc with hc
    rw [← hc]; exact hs)
  rw [e, List.getElem?_eq_getElem hb]

/-- a new cluster -/
theorem Caching.NewWith.plain {t : CompressionType} {m : MCluster D} {v : List Bytes} (h : Caching.NewWith X t m v) :
    Plain X [] false .none v m ∧ m.inner = .empty ∧ m.forceComp = some t := by
  induction h with
  | empty =>
    have hp : Plain X [] false .none [] ({ inner := .empty } : MCluster D) := (MCluster.History.fresh (.inl ⟨rfl, rfl, rfl, rfl⟩)).plain
    exact ⟨⟨⟨hp.inner, hp.bound, hp.count, hp.get⟩, hp.removed, hp.added, hp.mutable⟩, rfl, rfl⟩
  | @append m m' v src c k h hd ha ih =>
    obtain ⟨h1, h2, h3⟩ := ih
    unfold MCluster.appendBlob at ha
    simp only [PyM.get_bind, h1.mutable, PyM.require_true_bind] at ha
    obtain ⟨i', g1, g2, -⟩ := MCluster.getNumberOfBlobs_spec h1.toRepr
    rw [PyM.bind_ok g1, Int.toNat_natCast] at ha
    obtain ⟨m2, e1, e2, e3, e4, -⟩ := (MCluster.setBlob_spec (h1.setInner g2) v.length hd).1 (Nat.le_refl _)
    rw [PyM.bind_ok e1] at ha
    have hm : m' = m2 := (congrArg Prod.snd ha).symm
    subst hm
    have hput : MCluster.putBlob v v.length c = v ++ [c] := by unfold MCluster.putBlob; rw [if_neg (Nat.lt_irrefl _)]
    rw [hput] at e2
    refine ⟨e2, ?_, e4.trans h3⟩
    have hi' : i' = .empty := by
      have := MCluster.keeps_number (X := X) m ⟨h2, h1.bound⟩
      rw [g1] at this
      exact this.1
    have := MCluster.keeps_setBlob (X := X) v.length src (m.setInner i') ⟨hi', h1.bound⟩
    rw [e1] at this
    exact this.1

/-- writing a new cluster -/
theorem Caching.NewWith.writes {t : CompressionType} (ht : t ≠ .unknown) {m : MCluster D} {v : List Bytes}
    (h : Caching.NewWith X t m v) (kind : ClusterKind) (calls : Nat) (auto : Bool) (z : Zim) (size : Nat)
    (hs : (Caching.setup X C kind calls auto).O.diskSize { m := m } z.file = .ok size) :
    ∃ chunks, (Caching.setup X C kind calls auto).O.Writes { m := m } z.file (fun _ => False) chunks ∧
      chunks.flatten ≠ [] ∧ chunks.length < (Caching.setup X C kind calls auto).bound { m := m } z ∧ ∀ file' off c',
        Holds file' off chunks.flatten →
        (Caching.setup X C kind calls auto).O.afterFlush ((Caching.setup X C kind calls auto).O.setOffset { m := m } off) file' = .ok c' →
        ObjIs X C c' (off, chunks.flatten) v ∧ (Caching.setup X C kind calls auto).dirty c' = false := by
  obtain ⟨hp, h4, hf⟩ := h.plain
  have hs : (MCluster.getDiskSize X C (m.onFile z.file)).1 = .ok size := hs
  rw [MCluster.onFile_empty h4] at hs
  cases hch : (MCluster.iterWrite X C m).1 with
  | error x =>
    unfold MCluster.getDiskSize at hs
    rw [PyM.bind_err (s' := (MCluster.iterWrite X C m).2) (e := x) (by rw [← hch])] at hs
    cases hs
  | ok chunks =>
  have hcomp : compOf .none m = t := by unfold compOf; rw [hf]; rfl
  have hwa : WrittenAs C t chunks.flatten v := by
    have := written_as hp.toRepr hch
    rwa [hcomp] at this
  have hne := hwa.ne_nil ht
  have hwr : (ClusterObj.ops X C).Writes { m := m } z.file (fun _ => False) chunks :=
    Zim.C53_new_cluster_writes h4 hp.bound hch _ _
  refine ⟨chunks, hwr, hne, Zim.chunkBound_gt hwr, ?_⟩
  intro file' off c' hh haf
  have haf : ((MCluster.getDiskSize X C ((m.setOffset off).reset.onFile file')).1 >>= fun size =>
    pure ({ m := { (m.setOffset off).reset with dirty := false }, offset := some off, old := size } : ClusterObj D)) = .ok c' := haf
  rw [MCluster.setOffset_empty h4, Zim.reset_empty h4, MCluster.onFile_empty h4, MCluster.C19_disk_size hch] at haf
  have haf : ({ m := { m with dirty := false }, offset := some off, old := chunks.flatten.length } : ClusterObj D) = c' :=
    Except.ok.inj haf
  subst haf
  refine ⟨⟨rfl, rfl, hne, t, [], false, .none, ht, hcomp, fun file _ => ?_, Or.inl h4, fun _ => hwa⟩, rfl⟩
  rw [MCluster.onFile_empty (show ({ m with dirty := false } : MCluster D).inner = .empty from h4)]
  exact ⟨⟨hp.inner, hp.bound, hp.count, hp.get⟩, hp.removed, hp.added, hp.mutable⟩

/-- the blobs of a cluster in the file -/
theorem GoodCluster.holdsBlobs (hR : Replaceable X C) {b : Bytes} {v : List Bytes} (h : GoodCluster C b v) : HoldsBlobs X b v := by
  obtain ⟨t, ht, hwa⟩ := h
  obtain ⟨ext, hat⟩ := hwa.isCluster hR ht
  intro file o rst hrst hfile s hs
  obtain ⟨A, -⟩ := hat file o (by
    intro j hj
    rw [← List.getElem?_drop, hfile, List.getElem?_append_left hj])
  exact A.blobs hs

/-! ### The archive -/

namespace Caching
open Archive (Laid)

/-- what holds between the calls -/
def Inv (X : Codecs D) (C : Compressors K) (R : Reading) (reserve : Option Nat) (n : Nat) (s : Caching (ClusterObj D))
    (V : List (List Bytes)) (T : List Nat) : Prop :=
  s.arch.zim.articles.dirty = false ∧ ∃ rows cs extra L, Laid reserve s.arch rows cs extra ∧
    Top (setup X C R.kind R.calls true) (ObjIs X C) (GoodCluster C) rows
      (fun x => extra x ∨ ∃ p ∈ s.arch.fixed reserve, SpaceAllocator.InBlock p x) n s cs V T L

variable {R : Reading} {reserve : Option Nat} {n : Nat} {s s' : Caching (ClusterObj D)} {V V' : List (List Bytes)} {T T' : List Nat}

/-- after a method -/
theorem Inv.moved {rows : List Row} {cs cs' : List Stored} {extra : Nat → Prop} {L' : List (Nat × Nat)}
    (ha : s.arch.zim.articles.dirty = false) (hl : Laid reserve s.arch rows cs extra)
    (ht : Top (setup X C R.kind R.calls true) (ObjIs X C) (GoodCluster C) rows
      (fun x => extra x ∨ ∃ p ∈ s.arch.fixed reserve, SpaceAllocator.InBlock p x) n s' cs' V' T' L')
    (hm : Moved (fun x => extra x ∨ ∃ p ∈ s.arch.fixed reserve, SpaceAllocator.InBlock p x) s s' cs cs') :
    Inv X C R reserve n s' V' T' := by
  refine ⟨by rw [hm.same.articles]; exact ha, rows, cs', extra, L', ?_⟩
  rcases hm.change with ⟨e1, e2⟩ | hd
  · rw [e1, e2]
    rw [e2] at ht
    exact ⟨hl, ht⟩
  · have hfix : s'.arch.fixed reserve = s.arch.fixed reserve := by
      rw [hm.arch]
      unfold Archive.fixed Archive.mimePiece
      simp only [hm.same.header]
    rw [hfix]
    refine ⟨?_, ht⟩
    rw [hm.arch]
    exact hl.kept (ht.inv.base.to ht.num) (hm.same.kept hm.bytes hd)

theorem Opened.inv (h : Opened C reserve s V) : Inv X C R reserve s.cache.maxSize s V [] := by
  obtain ⟨cs, ⟨rows, extra, hl⟩, hlen, hg⟩ := h.clusters
  obtain ⟨n, hn, hc⟩ := h.cache
  refine ⟨h.articles, rows, cs, extra, [], hl, ⟨?_, rfl, ⟨.of hl.content, hlen.symm, by simp, by simp, by simp, ?_⟩,
    hl.content.num, List.nodup_nil, by simp, by simp⟩⟩
  · rw [hc]; exact LastCache.repr_new n hn
  · exact fun i st v a1 a2 _ => Or.inr (hg i st v a1 a2)

theorem inv_set (hR : Replaceable X C) (h : Inv X C R reserve n s V T) {i b r : Nat} {v : List Bytes} {src : BlobSource} {c : Bytes}
    (hv : V[i]? = some v) (hb : b < v.length) (hd : Delivers src c) (hT : i ∈ T ∨ T.length < n)
    (hok : setContent R.depth X C R.kind R.calls true i b src s = (.ok r, s')) :
    Inv X C R reserve n s' (V.set i (v.set b c)) (if i ∈ T then T else i :: T) := by
  obtain ⟨ha, rows, cs, extra, L, hl, ht⟩ := h
  unfold setContent at hok
  obtain ⟨r', s1, h1, hok⟩ := PyM.bind_ok_iff.1 hok
  obtain ⟨cs', L', ht', hm, st, o, hi, ho, hobj, hin, -⟩ := get_top (contract hR _ _ _) rfl
    (fun h1 h2 h3 h4 => objIs_load hR h1 h2 h3 h4) ht hv h1
  rw [PyM.bind_ok (getObj_ok ho), PyM.get_bind] at hok
  obtain ⟨m', e1, e2⟩ := hobj.setBlob (ht'.inv.base.held _ (List.mem_of_getElem? hi)) hb hd
  simp only at e1
  rw [e1] at hok
  have hs : s' = { s1 with objs := s1.objs.set r' { o with m := m' } } := (congrArg Prod.snd hok).symm
  subst hs
  have hset := ht'.set hi (hin (hT.imp id Or.inl)) e2 hT
  exact Inv.moved ha hl hset ⟨hm.bytes, hm.same, hm.arch, hm.change⟩

theorem inv_get (hR : Replaceable X C) (h : Inv X C R reserve n s V T) {i r : Nat} (hi : i < V.length)
    (hok : getCluster (setup X C R.kind R.calls true) R.depth i s = (.ok r, s')) :
    Inv X C R reserve n s' V T := by
  obtain ⟨ha, rows, cs, extra, L, hl, ht⟩ := h
  obtain ⟨cs', L', ht', hm, -⟩ := get_top (contract hR _ _ _) rfl (fun h1 h2 h3 h4 => objIs_load hR h1 h2 h3 h4) ht
    (List.getElem?_eq_getElem hi) hok
  exact Inv.moved ha hl ht' hm

theorem readContent_get {i b : Nat} {start stop : Option Nat} {d : Bytes}
    (hok : readContent R.depth X C R.kind R.calls true i b start stop s = (.ok d, s')) :
    ∃ r, getCluster (setup X C R.kind R.calls true) R.depth i s = (.ok r, s') := by
  unfold readContent at hok
  obtain ⟨r, s1, h1, hok⟩ := PyM.bind_ok_iff.1 hok
  obtain ⟨o, s2, h2, hok2⟩ := PyM.bind_ok_iff.1 hok
  obtain ⟨-, rfl⟩ := getObj_inv h2
  rw [PyM.get_bind] at hok2
  have : s2 = s' := congrArg Prod.snd hok2
  exact ⟨r, by rw [← this]; exact h1⟩

theorem inv_read (hR : Replaceable X C) (h : Inv X C R reserve n s V T) {i b : Nat} {start stop : Option Nat} {d : Bytes}
    {v : List Bytes} (hv : V[i]? = some v) (hb : b < v.length) (hr : Cluster.rangeOk start stop = true)
    (hs : start.getD 0 ≤ v[b].length)
    (hok : readContent R.depth X C R.kind R.calls true i b start stop s = (.ok d, s')) : d = partOf v[b] start stop := by
  obtain ⟨ha, rows, cs, extra, L, hl, ht⟩ := h
  unfold readContent at hok
  obtain ⟨r, s1, h1, hok⟩ := PyM.bind_ok_iff.1 hok
  obtain ⟨cs', L', ht', hm, st, o, hi, ho, hobj, -⟩ := get_top (contract hR _ _ _) rfl
    (fun h1 h2 h3 h4 => objIs_load hR h1 h2 h3 h4) ht hv h1
  rw [PyM.bind_ok (getObj_ok ho), PyM.get_bind] at hok
  have := hobj.readBlob (ht'.inv.base.held _ (List.mem_of_getElem? hi)) hb hr hs
  simp only at this
  rw [this] at hok
  exact (Except.ok.inj (congrArg Prod.fst hok)).symm

theorem inv_flushCluster (hR : Replaceable X C) (h : Inv X C R reserve n s V T) {i r : Nat} {s1 : Caching (ClusterObj D)}
    (hi : i < V.length) (h1 : getCluster (setup X C R.kind R.calls true) R.depth i s = (.ok r, s1))
    (h2 : flushObj (setup X C R.kind R.calls true) R.depth r s1 = (.ok (), s')) :
    Inv X C R reserve n s' V (T.filter (· ≠ i)) := by
  obtain ⟨ha, rows, cs, extra, L, hl, ht⟩ := h
  obtain ⟨cs', L', ht', hm, st, o, hi, ho, hobj, hin, honly⟩ := get_top (contract hR _ _ _) rfl
    (fun h1 h2 h3 h4 => objIs_load hR h1 h2 h3 h4) ht (List.getElem?_eq_getElem hi) h1
  obtain ⟨cs2, L2, ht2, hm2⟩ := flush_top (contract hR _ _ _) rfl ht' hi ho (fun hd => hin (Or.inr (Or.inr hd))) honly h2
  exact Inv.moved ha hl ht2 (hm.trans hm2)

theorem inv_add (hR : Replaceable X C) (h : Inv X C R reserve n s V T) {t : CompressionType} (htu : t ≠ .unknown)
    {m : MCluster D} {v : List Bytes} (hnew : NewWith X t m v) (hT : T.length < n) {k : Nat}
    (hok : addCluster (setup X C R.kind R.calls true) R.depth { m := m } s = (.ok k, s')) :
    k = V.length ∧ Inv X C R reserve n s' (V ++ [v]) T := by
  obtain ⟨ha, rows, cs, extra, L, hl, ht⟩ := h
  obtain ⟨hk, cs', L', ht', hm⟩ := add_top (contract hR _ _ _) rfl ht hT rfl (hnew.writes htu R.kind R.calls true) hok
  exact ⟨hk, Inv.moved ha hl ht' hm⟩

theorem inv_flush (hR : Replaceable X C) {E : Archive.Env} {md5 : Bytes → Bytes} (hE : E.Good md5)
    (h : Inv X C R E.policy.reserveMimetypeSpace n s V T) (hok : flushAll X C E R s = (.ok (), s')) :
    Inv X C R E.policy.reserveMimetypeSpace n s' V [] ∧ Stores X E.policy.reserveMimetypeSpace s' V ∧
      (s.arch.isDirty = true ∨ s'.arch ≠ s.arch → s'.arch.zim.Checksummed md5) := by
  obtain ⟨ha, rows, cs, extra, L, hl, ht⟩ := h
  have hclosed : s.arch.zim.closed = false := hl.content.rep.isOpen
  have hmut : s.arch.zim.mutable = true := hl.content.rep.isMutable
  unfold flushAll flush at hok
  rw [PyM.get_bind, hclosed, hmut] at hok
  simp only [Bool.not_false, PyM.require_true_bind] at hok
  obtain ⟨⟨⟩, s1, h1, hok⟩ := PyM.bind_ok_iff.1 hok
  obtain ⟨cs1, L1, ht1, hm1⟩ := clear_top (contract hR _ _ _) rfl ht h1
  have hinv1 : Inv X C R E.policy.reserveMimetypeSpace n s1 V [] := Inv.moved ha hl ht1 hm1
  have hsame : s1.arch.isDirty = false → s1.arch = s.arch := by
    intro hd
    rcases hm1.change with ⟨e, -⟩ | hd'
    · exact e
    · unfold Archive.isDirty at hd
      rw [hd'] at hd
      simp at hd
  have hdirty : s.arch.isDirty = true → s1.arch.isDirty = true := by
    intro hd
    rcases hm1.change with ⟨e, -⟩ | hd'
    · rw [e]; exact hd
    · unfold Archive.isDirty
      rw [hd']
      simp
  obtain ⟨ha1, rows1, cs1, extra1, L1, hl1, ht1⟩ := hinv1
  have hgood : ∀ (i : Nat) (st : Stored) (v : List Bytes), cs1[i]? = some st → V[i]? = some v → HoldsBlobs X st.2 v :=
    fun i st v a1 a2 => (ht1.saved (contract hR _ _ _) a1 a2).holdsBlobs hR
  rw [PyM.get_bind] at hok
  cases hd : s1.arch.isDirty with
  | false =>
    rw [hd] at hok
    have hs : s' = s1 := (congrArg Prod.snd hok).symm
    subst hs
    refine ⟨⟨ha1, rows1, cs1, extra1, L1, hl1, ht1⟩, ⟨hd, cs1, ⟨rows1, extra1, hl1⟩, ht1.inv.len.symm, hgood⟩, ?_⟩
    rintro (h | h)
    · rw [hdirty h] at hd; cases hd
    · exact absurd (hsame hd) h
  | true =>
    rw [hd] at hok
    simp only [if_true] at hok
    obtain ⟨a', e1, e2⟩ : ∃ a', Archive.flushDirty E.hasher E.short E.chunksize E.policy (pure ()) (fun _ => pure ()) s1.arch = (.ok (), a') ∧
        s' = { s1 with arch := a' } := by
      have g1 := congrArg Prod.fst hok
      have g2 := congrArg Prod.snd hok
      simp only [PyM.of_apply] at g1 g2
      exact ⟨_, Prod.ext g1 rfl, g2.symm⟩
    have hfl : Archive.flush E.hasher E.short E.chunksize E.policy (pure ()) (fun _ => pure ()) s1.arch = (.ok (), a') := by
      unfold Archive.flush
      have hc1 : s1.arch.zim.closed = false := hl1.content.rep.isOpen
      have hm1 : s1.arch.zim.mutable = true := hl1.content.rep.isMutable
      rw [PyM.get_bind, hc1, hm1]
      simp only [Bool.not_false, PyM.require_true_bind, hd, if_true]
      exact e1
    obtain ⟨f1, f2, rows2, f3⟩ := Archive.Laid.flush (O := ClusterObj.ops X C) (truncate := E.policy.truncate) hE.computes hE.delivers hE.chunks hl1
      (cs' := cs1) ⟨fun _ => ⟨s1.arch.zim, cs1, s1.arch.zim, rfl, .refl, fun h => (by rw [ha1] at h; cases h), fun _ => rfl⟩, fun _ => rfl⟩ hfl
    subst e2
    have hart : a'.zim.articles.dirty = false := by
      simp only [Archive.isDirty, Bool.or_eq_false_iff] at f1
      exact f1.2
    refine ⟨⟨hart, rows2, cs1, extra1, L1, f3, ⟨ht1.repr, ht1.size, ⟨.of f3.content, ht1.inv.len, ht1.inv.item, ht1.inv.refs,
      ht1.inv.keys, ht1.inv.settled⟩, f3.content.num, ht1.nodup, ht1.few, ht1.flag⟩⟩, ⟨f1, cs1, ⟨rows2, extra1, f3⟩,
      ht1.inv.len.symm, hgood⟩, fun _ => f2 hd⟩

theorem inv_history (hR : Replaceable X C) {E : Archive.Env} {md5 : Bytes → Bytes} (hE : E.Good md5)
    (h0 : Opened C E.policy.reserveMimetypeSpace s V) (h : History X C E R s V s' V' T) :
    Inv X C R E.policy.reserveMimetypeSpace s.cache.maxSize s' V' T := by
  induction h with
  | start => exact h0.inv
  | set _ hv hb hd hT hok ih => exact inv_set hR ih hv hb hd hT hok
  | read _ hi hok ih =>
    obtain ⟨r, hg⟩ := readContent_get hok
    exact inv_get hR ih hi hg
  | flushCluster _ hi h1 h2 ih => exact inv_flushCluster hR ih hi h1 h2
  | add _ ht hn hT hok ih => exact (inv_add hR ih ht hn hT hok).2
  | flush _ hok ih => exact (inv_flush hR hE ih hok).1

end Caching
end Pyzim
