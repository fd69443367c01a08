import Verif.Lemmas.SetContent

/-!
# Setting the content of an entry in any cluster
-/

namespace Pyzim
open Zim (Row Stored Clustered InCluster InUse ClusterWrite)

section
variable {D K : Type} {X : Codecs D} {C : Compressors K}

/-- The file has a cluster with these blobs at the offset, of the given kind; it ends where its bytes end. -/
def IsCluster (X : Codecs D) (file : Bytes) (o : Nat) (ext : Bool) (t : CompressionType) (blobs : List Bytes) (size : Nat) : Prop :=
  ∃ A : ClusterAt X file o blobs, A.ext = ext ∧ A.comp = t ∧
    (if t = .none then size = (clusterBody (if ext then 8 else 4) blobs).length + 1 else
      ∃ n, size = n + 1 ∧ Occupies X.ops A.raw A.R n ∧ Closed X.ops A.raw A.R ∧ A.tail = [])

theorem infobyte_bits {t : CompressionType} {ext : Bool} {info : Bytes} (hne : t ≠ .unknown)
    (h : Cluster.generateInfobyte t ext = .ok info) :
    ∃ b : UInt8, info = [b] ∧ ((b.toNat % 16 : Nat) : Int) = t.value ∧ ((b.toNat / 16 % 2 = 1) ↔ ext = true) := by
  cases t <;> cases ext <;>
    first
    | exact absurd rfl hne
    | (simp only [Cluster.generateInfobyte, CompressionType.value] at h
       simp at h
       subst h
       exact ⟨_, rfl, by decide, by decide⟩)

theorem WrittenAs.isCluster (hR : Replaceable X C) {t : CompressionType} (hne : t ≠ .unknown) {b : Bytes} {blobs : List Bytes}
    (h : WrittenAs C t b blobs) : ∃ ext, ∀ file o, Holds file o b → IsCluster X file o ext t blobs b.length := by
  obtain ⟨ext, info, k, chunks, out, h1, h2, h3, h4, h5, rfl⟩ := h
  refine ⟨ext, fun file o hh => ?_⟩
  by_cases ht : t = .none
  · subst ht
    rw [MCluster.infobyte_none] at h1
    injection h1 with h1
    have e : info ++ out = plainBytes ext blobs := by
      rw [hR.plain.same k h2 _ _ h3, h4, ← h1]; rfl
    rw [e] at hh ⊢
    obtain ⟨A, a1, a2⟩ := MCluster.plain_at hR.plain hh h5
    refine ⟨A, a1, a2, ?_⟩
    rw [if_pos rfl]
    simp [plainBytes]
  · obtain ⟨i, rfl, b1, b2⟩ := infobyte_bits hne h1
    obtain ⟨pre, post, e1, e2⟩ := hh.split (by simp)
    obtain ⟨d₀, R, s1, s2, s3, s4⟩ := (hR.other t ht).streams k h2 _ _ h3 post
    rw [h4] at s2
    refine ⟨⟨ext, t, i, out ++ post, [], d₀, R, b1, b2, ?_, s1, by rw [List.append_nil]; exact s2, h5⟩, rfl, rfl, ?_⟩
    · rw [e1, ← e2]
      simp
    · rw [if_neg ht]
      exact ⟨out.length, by simp, s4, s3, rfl⟩

end

namespace MCluster
variable {D K : Type} {X : Codecs D} {C : Compressors K} {orig view : List Bytes} {ext : Bool} {t : CompressionType}

/-- the blobs of a cluster -/
theorem _root_.Pyzim.ClusterAt.blobs {file : Bytes} {o : Nat} (A : ClusterAt X file o orig) {s : CSt D}
    (hs : Cluster.Reached X file o s) : (Cluster.getNumberOfBlobs X s).1 = .ok (orig.length : Int) ∧
      ∀ i (hi : i < orig.length), Cluster.Gives X s i orig[i] := by
  have hg := hs.good A
  refine ⟨?_, fun i hi => ⟨?_, Cluster.C21_read_whole_blob A hs i hi,
    fun start stop hr => Cluster.C21_read_blob A hs i hi start stop hr.1 hr.2,
    fun bs hbs start stop hr calls => Cluster.C22_iter_read_blob A hs i hi bs hbs start stop hr.1 hr.2 calls⟩⟩
  · obtain ⟨s', h1, _⟩ := Cluster.getNumberOfBlobs_spec A hg
    rw [h1]
  · obtain ⟨s', h1, _⟩ := Cluster.getBlobSize_spec A hg i
    rw [List.getElem?_eq_getElem hi] at h1
    rw [h1]

/-- what a measurement that comes to its end finds -/
theorem measured {file : Bytes} {o size calls : Nat} {s : CSt D} (h : IsCluster X file o ext t orig size)
    (hs : Cluster.Reached X file o s) {n : Int} (hn : (Cluster.getTotalCompressedSize X calls s).1 = .ok n) : n = (size : Int) := by
  obtain ⟨A, he, hc, hsize⟩ := h
  have hg := hs.good A
  unfold Cluster.getTotalCompressedSize at hn
  simp only [PyM.get_bind, hg.bound, PyM.require_true_bind] at hn
  obtain ⟨s1, h1, h2, h3⟩ := Cluster.readInfobyteIfNeeded_spec A hg
  rw [PyM.bind_ok h1] at hn
  simp only [PyM.get_bind, h2.comp, Option.some.injEq] at hn
  rw [hc] at hn
  by_cases ht : t = .none
  · rw [if_pos ht] at hn hsize
    obtain ⟨s2, g1, -⟩ := Cluster.getTotalDecompressedSize_spec A h2.toGood
    rw [PyM.bind_ok g1, PyM.pure_apply] at hn
    injection hn with hn
    rw [← hn, hsize]
    unfold Cluster.width
    rw [he]
    simp
  · rw [if_neg ht] at hn hsize
    obtain ⟨n', rfl, hO, hcl, htail⟩ := hsize
    obtain ⟨s2, g1, g2, g3⟩ := Cluster.openReader_inside A h2.toGood (q := 0) (by omega)
    rw [PyM.bind_ok g1] at hn
    obtain ⟨r, hr, hI, hp⟩ := g2.open_
    obtain ⟨res, r', f', k1, k2, k3, k4⟩ := DReader.iterRead_spec (plain := Cluster.plainOf A) A.streams (-1)
      4096 (by omega) calls 0 r s2.f hI
    rcases k4 with ⟨cs, fin, rfl, -⟩ | ⟨_, hcl', _⟩
    rotate_left
    · exact absurd hcl hcl'
    have hw : Cluster.withReader (DReader.iterRead X.ops (-1) 4096 calls 0) s2 =
        (.ok (cs, fin), CSt.mk { s2.c with reader := some r' } f') := by
      unfold Cluster.withReader; simp only [hr, k1]
    rw [PyM.bind_ok hw] at hn
    cases fin with
    | false => simp only [PyM.require_false_bind] at hn; cases hn
    | true =>
    simp only [PyM.require_true_bind] at hn
    obtain ⟨e1, e2⟩ := DReader.iterRead_end A.streams hO (by omega) (by omega) calls 0 r s2.f cs r' f' hI k1
    have hs := hO.surplus _ _ _ k2.rel e1
    have hw2 : Cluster.withReader (fun r f => let (x, r) := r.totalCompressedSize X.ops; (x, r, f))
        (CSt.mk { s2.c with reader := some r' } f') = (.ok (n' : Int),
          CSt.mk { s2.c with reader := some { r' with dec := (X.ops.unusedData r'.dec).2 } } f') := by
      unfold Cluster.withReader DReader.totalCompressedSize
      simp only [e1, Bool.true_eq_false, if_false]
      rw [hs, show ((n' + (X.ops.unusedData r'.dec).1.length : Nat) : Int) -
        ((X.ops.unusedData r'.dec).1.length : Int) = (n' : Int) by omega]
    rw [PyM.bind_ok hw2, PyM.pure_apply] at hn
    injection hn with hn
    rw [← hn]
    simp

/-- An unmodified wrapper is written as the cluster. -/
theorem written_same (hR : Replaceable X C) {m : MCluster D} (h : Repr X view ext t view m) (hb : m.blobs = [])
    (ha : m.added = []) (hr : m.removed = []) (hfe : m.forceExt = none) (hfc : m.forceComp = none) {b : Bytes} {info : Bytes} {k : K}
    {cs : List Bytes} {out : Bytes} (h1 : Cluster.generateInfobyte t ext = .ok info) (h2 : C.new t = .ok k) (h3 : Compresses C k cs out)
    (h4 : cs.flatten = clusterBody (if ext then 8 else 4) view) (h5 : PlainFits ext view) (hbytes : b = info ++ out) :
    ∃ chunks, (iterWrite X C m).1 = .ok chunks ∧ chunks.flatten = b := by
  have hm : m.hasModifications = false := by simp [hasModifications, hb, ha, hr]
  have he : extOf ext view m = ext := by simp [extOf, hfe, hm]
  have hc : compOf t m = t := by simp [compOf, hfc]
  obtain ⟨res, i', g1, g2, g3, -⟩ := iterWrite_full (C := C) h
  obtain ⟨g4, -⟩ := g3 info (by rw [hc, he]; exact h1) k (by rw [hc]; exact h2)
  obtain ⟨cs', g5, g6⟩ := g4 (by unfold widthOf; rw [he]; exact h5)
  have hout : ∃ out', Compresses C k cs' out' ∧ out' = out := by
    have hfl : cs'.flatten = cs.flatten := by
      rw [g5, h4]; unfold widthOf; rw [he]
    by_cases ht : t = .none
    · subst ht
      obtain ⟨o, ho⟩ := hR.plain.works k h2 cs'
      exact ⟨o, ho, by rw [hR.plain.same k h2 _ _ ho, hR.plain.same k h2 _ _ h3, hfl]⟩
    · obtain ⟨o, ho⟩ := (hR.other t ht).works k h2 cs'
      exact ⟨o, ho, (hR.other t ht).even k h2 _ _ _ _ ho h3 hfl⟩
  obtain ⟨out', ho, rfl⟩ := hout
  obtain ⟨outs, hos⟩ := compresses_compressAll ho
  have ho' : outs.flatten = out' := by
    by_cases ht : t = .none
    · subst ht
      rw [hR.plain.same k h2 _ _ ho, hR.plain.same k h2 _ _ (compressAll_compresses hos)]
    · exact (hR.other t ht).even k h2 _ _ _ _ (compressAll_compresses hos) ho rfl
  rw [hos] at g6
  exact ⟨_, by rw [g1, g6]; rfl, by rw [List.flatten_cons, ho', hbytes]⟩

end MCluster

section
open MCluster
variable {D K : Type} {X : Codecs D} {C : Compressors K} {orig view : List Bytes} {ext : Bool} {t : CompressionType}

/-- A wrapper of a cluster in the file keeps the contract of `write_cluster`. -/
theorem stored_writes_any (hR : Replaceable X C) (hne : t ≠ .unknown) {n : ClusterObj D} {s : CSt D} (hin : n.m.inner = .real s)
    (hr : Repr X orig ext t view n.m) (hc : compOf t n.m = t) {b : Bytes} {size : Nat}
    (hat : ∀ file o, Holds file o b → IsCluster X file o ext t orig size)
    {chunks : List Bytes} (hw : (iterWrite X C n.m).1 = .ok chunks) {file : Bytes} {own : Nat → Prop}
    (hold : Holds file s.c.offset b)
    (hown : ∀ x, s.c.offset ≤ x → x < s.c.offset + b.length → own x) :
    (ClusterObj.ops X C).Writes n file own chunks := by
  have hb : s.c.bound = true := by
    have h := hr.inner
    rw [hin] at h
    obtain ⟨_, _, A, hg, -⟩ := h
    exact hg.bound
  have hon : ∀ file', Zim.KeepsBytes own file file' → (iterWrite X C (n.m.onFile file')).1 = .ok chunks := by
    intro file' hk
    have hh : Holds file' s.c.offset b := by
      intro j hj
      have h1 := hold j hj
      rw [List.getElem?_eq_getElem hj] at h1 ⊢
      exact hk _ _ (hown _ (by omega) (by omega)) h1
    obtain ⟨A, he, hcm, -⟩ := hat _ _ hh
    have hi := innerIs_fresh A s.c.kind
    rw [he, hcm] at hi
    have := iterWrite_setInner (C := C) hr hi
    rw [hw] at this
    rw [← this]
    unfold onFile
    rw [hin]
    simp only [hb]
  refine ⟨hr.bound, ?_, ?_, ?_⟩
  · intro file' hk
    exact C19_disk_size (hon file' hk)
  · intro file' hk i
    show ((iterWrite X C (n.m.onFile file')).1 >>= fun chunks => pure chunks[i]?) = _
    rw [hon file' hk]; rfl
  · intro file' off hh
    obtain ⟨info, k, cs, outs, hi1, hk1, hfit, hcs, hca, hout⟩ := iterWrite_ok hr hw
    rw [hc] at hi1 hk1
    have hwa : WrittenAs C t chunks.flatten view :=
      ⟨_, info, k, cs, outs.flatten, hi1, hk1, compressAll_compresses hca, hcs, hfit, by rw [hout]; rfl⟩
    have hflat : chunks.flatten = info ++ outs.flatten := by rw [hout]; rfl
    have hcl : ∃ A : ClusterAt X file' off view, A.ext = extOf ext view n.m ∧ A.comp = t := by
      by_cases ht : t = .none
      · subst ht
        rw [MCluster.infobyte_none] at hi1
        injection hi1 with hi1
        have e : chunks.flatten = plainBytes (extOf ext view n.m) view := by
          rw [hflat, hR.plain.same k hk1 _ _ (compressAll_compresses hca), hcs, ← hi1]; rfl
        rw [e] at hh
        obtain ⟨A, a1, a2⟩ := MCluster.plain_at hR.plain hh hfit
        exact ⟨A, a1, a2⟩
      · obtain ⟨i, rfl, b1, b2⟩ := infobyte_bits hne hi1
        rw [hflat] at hh
        obtain ⟨pre, post, e1, e2⟩ := hh.split (by simp)
        obtain ⟨d₀, R, s1, s2, s3, s4⟩ := (hR.other t ht).streams k hk1 _ _ (compressAll_compresses hca) post
        rw [hcs] at s2
        refine ⟨⟨extOf ext view n.m, t, i, outs.flatten ++ post, [], d₀, R, b1, b2, ?_, s1, by rw [List.append_nil]; exact s2, hfit⟩, rfl, rfl⟩
        rw [e1, ← e2]
        simp
    obtain ⟨A, he, hcm⟩ := hcl
    have hi := innerIs_fresh A s.c.kind
    rw [he, hcm] at hi
    have hrep : Repr X view (extOf ext view n.m) t view ((n.m.setOffset off).reset.onFile file') := by
      unfold setOffset reset onFile
      rw [hin]
      refine ⟨?_, hr.bound, by simp, fun i => ?_⟩
      · simp only [Cluster.reset, hb]
        exact hi
      · simp [adjustIndex]
    obtain ⟨cs', h3, h4⟩ := written_same (C := C) hR hrep (by unfold setOffset reset onFile; rw [hin])
      (by unfold setOffset reset onFile; rw [hin]) (by unfold setOffset reset onFile; rw [hin])
      (by unfold setOffset reset onFile; rw [hin]) (by unfold setOffset reset onFile; rw [hin]) hi1 hk1
      (compressAll_compresses hca) hcs hfit hflat
    have hd := C19_disk_size h3
    rw [h4] at hd
    refine ⟨{ n with m := { (n.m.setOffset off).reset with dirty := false }, offset := some off,
                     old := chunks.flatten.length }, ?_, rfl, rfl⟩
    show ((getDiskSize X C ((n.m.setOffset off).reset.onFile file')).1 >>= _) = _
    rw [hd]
    rfl
end

namespace Zim
variable {D K : Type} {X : Codecs D} {C : Compressors K} {z z' : Zim} {rows : List Row} {cs : List Stored} {rest : Nat → Prop}

/-- opening a cluster of the file, if it succeeds -/
theorem openCluster_any (h : Clustered z rows cs rest) {i off : Nat} {b : Bytes} {ext : Bool} {t : CompressionType}
    {orig : List Bytes} (hi : cs[i]? = some (off, b)) (hat : ∀ file o, Holds file o b → IsCluster X file o ext t orig b.length)
    {kind : ClusterKind} {calls : Nat} {o : ClusterObj D} (hok : openCluster X kind calls z i = .ok o) :
    o = { m := { inner := .real (clusterAt kind z off) }, offset := some off, old := b.length } := by
  unfold openCluster at hok
  rw [h.getByIndex hi] at hok
  simp only [bind, Except.bind] at hok
  rw [if_neg (by rw [h.rep.isOpen]; simp)] at hok
  simp only [Int.toNat_natCast] at hok
  cases hs : (Cluster.getTotalCompressedSize X calls (clusterAt kind z off : CSt D)).1 with
  | error x => rw [hs] at hok; cases hok
  | ok n =>
    rw [hs] at hok
    have := MCluster.measured (hat _ _ (h.held _ (List.mem_of_getElem? hi))) (.fresh kind 0) hs
    injection hok with hok
    rw [← hok, this]
    simp

/-- `set_content` of an entry, if it succeeds -/
theorem setContent_any (hR : Replaceable X C) (h : Clustered z rows cs rest) {i bl off : Nat} {b : Bytes} {t : CompressionType}
    {orig : List Bytes} (hi : cs[i]? = some (off, b)) (hne : t ≠ .unknown) (hwa : WrittenAs C t b orig)
    {e : Entry} (he : e.kind = .content i bl) (hb : bl < orig.length) {src : BlobSource} {c : Bytes}
    (hd : Delivers src c) {kind : ClusterKind} {calls : Nat} (hok : setContent X C kind calls e src z = (.ok (), z')) :
    ∃ off' b', WrittenAs C t b' (orig.set bl c) ∧ HoldsBlobs X b' (orig.set bl c) ∧
      ClusterWrite (ClusterObj.ops X C) z cs z' (cs.set i (off', b')) ∧ z'.clusters.dirty = true := by
  obtain ⟨ext, hat⟩ := hwa.isCluster hR hne
  have hold := h.held _ (List.mem_of_getElem? hi)
  obtain ⟨A, hAe, hAc, -⟩ := hat _ _ hold
  have hg : Cluster.Good A (clusterAt kind z off) := (Cluster.Reached.fresh kind 0).good A
  have hw : MCluster.Wraps X orig ext t (.real (clusterAt kind z off : CSt D)) :=
    .inr ⟨z.file, off, A, _, rfl, .fresh kind 0, hAe, hAc⟩
  obtain ⟨m, h1, h2, h3, h4, h5, h6⟩ := (MCluster.setBlob_spec (MCluster.History.fresh hw).plain bl hd).1 (by omega)
  have hput : MCluster.putBlob orig bl c = orig.set bl c := by unfold MCluster.putBlob; rw [if_pos hb]
  rw [hput] at h2
  have hatm : MCluster.IsAt A m := by
    have := MCluster.isAt_setBlob A bl src { inner := .real (clusterAt kind z off) } ⟨_, rfl, hg⟩
    rw [h1] at this
    exact this
  obtain ⟨s, hs, hgs⟩ := hatm
  have hcomp : MCluster.compOf t m = t := by unfold MCluster.compOf; rw [h4]; rfl
  unfold setContent at hok
  rw [he] at hok
  simp only at hok
  cases hm : e.mutable with
  | false => rw [hm, PyM.require_false_bind] at hok; cases hok
  | true =>
  simp only [hm, PyM.require_true_bind, PyM.get_bind] at hok
  cases ho : openCluster X kind calls z i with
  | error x => rw [ho, PyM.lift_err_bind] at hok; cases hok
  | ok o =>
  rw [ho, PyM.lift_ok_bind, openCluster_any h hi hat ho, h1] at hok
  simp only at hok
  rw [if_pos h6] at hok
  obtain ⟨⟨n, c'⟩, z1, hwo, hok⟩ := PyM.bind_ok_iff.1 hok
  rw [PyM.pure_apply] at hok
  injection hok with _ hok
  subst hok
  have hfile : (MCluster.iterWrite X C (m.onFile z.file)).1 = (MCluster.iterWrite X C m).1 := by
    have hi := MCluster.innerIs_fresh A s.c.kind
    rw [hAe, hAc] at hi
    rw [← MCluster.iterWrite_setInner (C := C) h2.toRepr hi]
    unfold MCluster.onFile
    rw [hs]
    simp only [hgs.bound, show s.c.offset = off from hgs.offset]
  cases hch : (MCluster.iterWrite X C m).1 with
  | error x =>
    exfalso
    have hds : (ClusterObj.ops X C).diskSize ({ m := m, offset := some off, old := b.length } : ClusterObj D) z.file = .error x := by
      show (MCluster.getDiskSize X C (m.onFile z.file)).1 = _
      unfold MCluster.getDiskSize
      rw [PyM.bind_err (s' := (MCluster.iterWrite X C (m.onFile z.file)).2) (e := x) (by rw [← hch, ← hfile])]
    unfold writeClusterObj writeCluster at hwo
    rw [show decide (∀ n ∈ (none : Option Int), 0 ≤ n) = true by simp] at hwo
    simp only [PyM.require_true_bind, PyM.get_bind, h.rep.isMutable, h.rep.isOpen, Bool.not_false] at hwo
    rw [show (ClusterObj.ops X C).isBound ({ m := m, offset := some off, old := b.length } : ClusterObj D) = true from h2.toRepr.bound,
      PyM.require_true_bind, hds, PyM.lift_err_bind] at hwo
    cases hwo
  | ok chunks =>
  have hwa' : WrittenAs C t chunks.flatten (orig.set bl c) := by
    have := written_as h2.toRepr hch
    rw [hcomp] at this
    exact this
  have hwr : (ClusterObj.ops X C).Writes ({ m := m, offset := some off, old := b.length } : ClusterObj D)
      z.file (InUse z) chunks := by
    refine stored_writes_any hR hne hs h2.toRepr hcomp hat hch (by rw [hgs.offset]; exact hold) ?_
    rw [hgs.offset]
    exact fun x hx1 hx2 => (h.inUse x).2 (Or.inr (Or.inl ⟨_, List.mem_of_getElem? hi, hx1, hx2⟩))
  have hcne : chunks.flatten ≠ [] := by
    obtain ⟨ext', info, k, cs', out, w1, -, -, -, -, w6⟩ := hwa'
    obtain ⟨b0, rfl, -⟩ := infobyte_bits hne w1
    rw [w6]; simp
  obtain ⟨off', c'', z'', e1, -, -, e4, -, -, -, -, e5⟩ := h.writeCluster_old (num := none) (fun x => (h.inUse x).1) hwr hcne hi rfl rfl
    (by simp) (chunkBound_gt hwr)
  have hz : z'' = z1 ∧ c'' = c' := by
    have := (show writeClusterObj X C _ z = _ from e1).symm.trans hwo
    injection this with q1 q2
    injection q1 with q1
    injection q1 with q1 q3
    exact ⟨q2, q3⟩
  obtain ⟨rfl, rfl⟩ := hz
  obtain ⟨ext', hat'⟩ := hwa'.isCluster hR hne
  refine ⟨off', chunks.flatten, hwa', ?_, .replace hwr hcne (chunkBound_gt hwr) hi rfl rfl (by simp) e1 e4, e5⟩
  intro file o rst hrst hfile s hs
  obtain ⟨A', -⟩ := hat' file o (by
    intro j hj
    rw [← List.getElem?_drop, hfile, List.getElem?_append_left hj])
  exact A'.blobs hs

end Zim
end Pyzim
