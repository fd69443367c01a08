import Verif.Model.ClusterObj
import Verif.Props.ModCluster
import Verif.Spec.Clusters
import Verif.Lemmas.ArchiveStore

namespace Pyzim
namespace MCluster
variable {D KC : Type} {X : Codecs D} {C : Compressors KC} {orig view : List Bytes} {ext : Bool} {comp : CompressionType}

/-- the chunks of the data of blob `i` -/
def dataOf (view : List Bytes) (m : MCluster D) (i : Nat) : List Bytes :=
  match m.blobs.lookup i with
  | some src => src.pieces 8192
  | none => [(view[i]?).getD []]

theorem dataLoop_eq : ∀ (l : List Nat) {m : MCluster D}, Repr X orig ext comp view m → (∀ i ∈ l, i < view.length) →
    ∃ i', dataLoop X l m = (.ok (l.flatMap (dataOf view m)), m.setInner i') ∧ InnerIs X orig ext comp i' := by
  intro l
  induction l with
  | nil => intro m h _; exact ⟨m.inner, rfl, h.inner⟩
  | cons i l ih =>
    intro m h hl
    unfold dataLoop
    simp only [PyM.get_bind]
    have hi := hl i (by simp)
    have hg := h.get i
    cases hlk : m.blobs.lookup i with
    | some src =>
      simp only [PyM.pure_bind']
      obtain ⟨i2, g1, g2⟩ := ih h (fun j hj => hl j (by simp [hj]))
      rw [PyM.bind_ok g1]
      refine ⟨i2, ?_, g2⟩
      rw [List.flatMap_cons, dataOf, hlk]
      rfl
    | none =>
      rw [hlk] at hg
      simp only at hg
      simp only
      obtain ⟨i1, h1, h2⟩ := innerReadBlob_spec h.inner (adjustIndex m.removed i) none none rfl (fun b _ => by simp)
      rw [hg, List.getElem?_eq_getElem hi] at h1
      rw [PyM.bind_ok h1]
      simp only [PyM.pure_bind']
      obtain ⟨i2, g1, g2⟩ := ih (h.setInner h2) (fun j hj => hl j (by simp [hj]))
      rw [PyM.bind_ok g1]
      refine ⟨i2, ?_, g2⟩
      rw [List.flatMap_cons, dataOf, hlk, List.getElem?_eq_getElem hi]
      simp [partOf]
      rfl

/-- the chunks given to the compressor -/
def rawOf (ext : Bool) (view : List Bytes) (m : MCluster D) : PyRes (List Bytes) :=
  if blobOffset (widthOf ext view m) view view.length < 256 ^ widthOf ext view m then
    .ok (offsetTable (widthOf ext view m) view :: (List.range view.length).flatMap (dataOf view m))
  else .error .structError

theorem iterWriteRaw_eq {m : MCluster D} (h : Repr X orig ext comp view m) (hk : Known ext comp m) :
    ∃ i', iterWriteRaw X m = (rawOf ext view m, m.setInner i') ∧ InnerIs X orig ext comp i' := by
  unfold iterWriteRaw rawOf
  obtain ⟨i1, h1, h2, h3⟩ := getTotalOffsetSize_spec h hk
  rw [PyM.bind_ok h1]
  obtain ⟨i2, g1, g2, g3⟩ := getNumberOfBlobs_spec (h.setInner h2)
  rw [PyM.bind_ok g1]
  obtain ⟨i3, k1, k2⟩ := packOffsetsLoop_spec (widthOf ext view m) view.length 0
    ((h.setInner h2).setInner g2) (.inr (.inr g3)) rfl (by omega)
  rw [blobOffset_zero, ← List.range_eq_range', ← List.range_eq_range'] at k1
  rw [Int.toNat_natCast]
  by_cases hf : blobOffset (widthOf ext view m) view view.length < 256 ^ widthOf ext view m
  · rw [if_pos hf] at k1 ⊢
    rw [PyM.bind_ok k1]
    obtain ⟨i4, l1, l2, l3⟩ := getNumberOfBlobs_spec (((h.setInner h2).setInner g2).setInner k2)
    rw [PyM.bind_ok l1, Int.toNat_natCast]
    obtain ⟨i5, m1, m2⟩ := dataLoop_eq (List.range view.length)
      ((((h.setInner h2).setInner g2).setInner k2).setInner l2) (fun i hi => List.mem_range.1 hi)
    rw [PyM.bind_ok m1]
    exact ⟨i5, rfl, m2⟩
  · rw [if_neg hf] at k1 ⊢
    rw [PyM.bind_err k1]
    exact ⟨i3, rfl, k2⟩

/-- what `iter_write` yields: it depends on the blobs shown, but not on where the wrapped cluster is -/
def writtenOf (C : Compressors KC) (ext : Bool) (comp : CompressionType) (view : List Bytes) (m : MCluster D) :
    PyRes (List Bytes) := do
  let info ← Cluster.generateInfobyte (compOf comp m) (extOf ext view m)
  let k ← C.new (compOf comp m)
  let raw ← rawOf ext view m
  let out ← compressAll C k raw
  pure (info :: out)

theorem iterWrite_eq {m : MCluster D} (h : Repr X orig ext comp view m) :
    (iterWrite X C m).1 = writtenOf C ext comp view m := by
  unfold iterWrite
  obtain ⟨i1, h1, h2, h3⟩ := readInfobyteIfNeeded_spec h.inner
  rw [PyM.bind_ok h1]
  obtain ⟨i2, g1, g2, g3⟩ := isExtended_spec (h.setInner h2) (.inr (.inr h3))
  rw [PyM.bind_ok g1]
  simp only [PyM.get_bind]
  have hcomp : compression ((m.setInner i1).setInner i2) = some (compOf comp m) := by
    unfold compression compOf
    cases hf : m.forceComp with
    | some t => rfl
    | none =>
      simp only [innerCompression, Option.getD_none]
      have hk := g3 h3
      cases i2 with
      | empty => simp only; rw [g2.2.2]
      | real s => exact hk.2
  rw [hcomp]
  simp only [PyM.lift_ok_bind, Option.getD_some]
  rw [show extOf ext view (m.setInner i1) = extOf ext view m from rfl]
  unfold writtenOf
  cases hi : Cluster.generateInfobyte (compOf comp m) (extOf ext view m) with
  | error e => simp only [PyM.lift_err_bind]; rfl
  | ok info =>
    simp only [PyM.lift_ok_bind]
    cases hc : C.new (compOf comp m) with
    | error e => simp only [PyM.lift_err_bind]; rfl
    | ok k =>
      simp only [PyM.lift_ok_bind]
      obtain ⟨i3, k1, k2⟩ := iterWriteRaw_eq ((h.setInner h2).setInner g2) (.inr (.inr (g3 h3)))
      have hr : rawOf ext view ((m.setInner i1).setInner i2) = rawOf ext view m := rfl
      rw [hr] at k1
      cases hraw : rawOf ext view m with
      | error e => rw [hraw] at k1; rw [PyM.bind_err k1]; rfl
      | ok raw =>
        rw [hraw] at k1
        rw [PyM.bind_ok k1]
        cases hca : compressAll C k raw with
        | error e =>
          simp only [PyM.lift_err_bind]
          show Except.error e = ((compressAll C k raw) >>= _)
          rw [hca]; rfl
        | ok out =>
          simp only [PyM.lift_ok_bind]
          show _ = ((compressAll C k raw) >>= _)
          rw [hca]; rfl

/-- The wrapped cluster may be read from anywhere. -/
theorem iterWrite_setInner {m : MCluster D} (h : Repr X orig ext comp view m) {i : Inner D}
    (hi : InnerIs X orig ext comp i) : (iterWrite X C (m.setInner i)).1 = (iterWrite X C m).1 := by
  rw [iterWrite_eq h, iterWrite_eq (h.setInner hi)]
  rfl

/-! ### Uncompressed clusters -/

/-- a wrapped cluster in a file, freshly opened -/
theorem innerIs_fresh {file : Bytes} {o : Nat} (A : ClusterAt X file o orig) (kind : ClusterKind) :
    InnerIs X orig A.ext A.comp (.real { c := { kind := kind, offset := o }, f := ⟨file, 0⟩ }) :=
  ⟨file, o, A, (Cluster.Reached.fresh kind 0).good A, rfl, rfl⟩


theorem plainBytes_ne_nil (ext : Bool) (blobs : List Bytes) : plainBytes ext blobs ≠ [] := by
  simp [plainBytes]

theorem plain_at (P : Passthrough X C) {file : Bytes} {o : Nat} (hf : Holds file o (plainBytes ext view))
    (hfit : PlainFits ext view) : Nonempty { A : ClusterAt X file o view // A.ext = ext ∧ A.comp = .none } := by
  obtain ⟨pre, post, h1, h2⟩ := hf.split (plainBytes_ne_nil ext view)
  obtain ⟨d₀, R, hd, hs⟩ := P.reads (clusterBody (if ext then 8 else 4) view ++ post)
  refine ⟨⟨⟨ext, .none, if ext then 0x11 else 0x01, clusterBody (if ext then 8 else 4) view ++ post, post, d₀, R, ?_, ?_,
    ?_, hd, hs, hfit⟩, rfl, rfl⟩⟩
  · cases ext <;> decide
  · cases ext <;> decide
  · rw [h1, ← h2]
    simp [plainBytes]

theorem infobyte_none (e : Bool) : Cluster.generateInfobyte .none e = .ok [if e then 0x11 else 0x01] := by
  cases e <;> rfl

theorem written_plain (P : Passthrough X C) {m : MCluster D} (h : Repr X orig ext comp view m)
    (hc : compOf comp m = .none) {chunks : List Bytes} (hw : (iterWrite X C m).1 = .ok chunks) :
    chunks.flatten = plainBytes (extOf ext view m) view ∧ PlainFits (extOf ext view m) view := by
  obtain ⟨info, k, cs, outs, hi, hk, hfit, hcs, hca, rfl⟩ := iterWrite_ok h hw
  rw [hc] at hi hk
  rw [infobyte_none] at hi
  injection hi with hi
  have h1 := P.same k hk cs _ (compressAll_compresses hca)
  refine ⟨?_, hfit⟩
  rw [List.flatten_cons, h1, hcs, ← hi]
  rfl

/-- An unmodified wrapper of an uncompressed cluster is written as this cluster. -/
theorem written_unmodified (P : Passthrough X C) {m : MCluster D} (h : Repr X view ext .none view m) (hb : m.blobs = [])
    (ha : m.added = []) (hr : m.removed = []) (hfe : m.forceExt = none) (hfc : m.forceComp = none)
    (hk : ∃ k, C.new .none = .ok k) (hfit : PlainFits ext view) :
    ∃ chunks, (iterWrite X C m).1 = .ok chunks ∧ chunks.flatten = plainBytes ext view := by
  have hm : m.hasModifications = false := by simp [hasModifications, hb, ha, hr]
  have he : extOf ext view m = ext := by simp [extOf, hfe, hm]
  have hc : compOf .none m = .none := by simp [compOf, hfc]
  obtain ⟨k, hk⟩ := hk
  obtain ⟨res, i', h1, h2, h3, -⟩ := iterWrite_full (C := C) h
  obtain ⟨h4, -⟩ := h3 [if extOf ext view m then 0x11 else 0x01] (by rw [hc, infobyte_none]) k (by rw [hc]; exact hk)
  obtain ⟨cs, h5, h6⟩ := h4 (by unfold widthOf; rw [he]; exact hfit)
  obtain ⟨out, ho⟩ := P.works k hk cs
  obtain ⟨outs, ho⟩ := compresses_compressAll ho
  rw [ho] at h6
  refine ⟨_, by rw [h1, h6]; rfl, ?_⟩
  rw [List.flatten_cons, P.same k hk cs _ (compressAll_compresses ho), h5]
  unfold widthOf
  rw [he]
  rfl

theorem onFile_empty {m : MCluster D} (h : m.inner = .empty) (file : Bytes) : m.onFile file = m := by
  unfold onFile; rw [h]

theorem setOffset_empty {m : MCluster D} (h : m.inner = .empty) (o : Nat) : m.setOffset o = m := by
  unfold setOffset; rw [h]

end MCluster

section
open MCluster
variable {D KC : Type} {X : Codecs D} {C : Compressors KC} {orig view : List Bytes} {ext : Bool}

/-- A wrapper of an uncompressed cluster in the file keeps the contract of `write_cluster`. -/
theorem stored_writes (P : Passthrough X C) {n : ClusterObj D} {s : CSt D} (hin : n.m.inner = .real s)
    (hr : Repr X orig ext .none view n.m) (hc : compOf .none n.m = .none) (hfit : PlainFits ext orig)
    {chunks : List Bytes} (hw : (iterWrite X C n.m).1 = .ok chunks) {file : Bytes} {own : Nat → Prop}
    (hold : Holds file s.c.offset (plainBytes ext orig))
    (hown : ∀ x, s.c.offset ≤ x → x < s.c.offset + (plainBytes ext orig).length → own x) :
    (ClusterObj.ops X C).Writes n file own chunks := by
  have hb : s.c.bound = true := by
    have h := hr.inner
    rw [hin] at h
    obtain ⟨_, _, A, hg, -⟩ := h
    exact hg.bound
  have hon : ∀ file', Zim.KeepsBytes own file file' → (iterWrite X C (n.m.onFile file')).1 = .ok chunks := by
    intro file' hk
    have hh : Holds file' s.c.offset (plainBytes ext orig) := by
      intro j hj
      have h1 := hold j hj
      rw [List.getElem?_eq_getElem hj] at h1 ⊢
      exact hk _ _ (hown _ (by omega) (by omega)) h1
    obtain ⟨A, he, hcm⟩ := plain_at P hh hfit
    have hi := innerIs_fresh A s.c.kind
    rw [he, hcm] at hi
    have := iterWrite_setInner (C := C) hr hi
    rw [hw] at this
    rw [← this]
    unfold onFile
    rw [hin]
    simp only [hb]
  refine ⟨hr.bound, ?_, ?_, ?_⟩
  · intro file' hk
    exact C19_disk_size (hon file' hk)
  · intro file' hk i
    show ((iterWrite X C (n.m.onFile file')).1 >>= fun chunks => pure chunks[i]?) = _
    rw [hon file' hk]; rfl
  · intro file' off hh
    obtain ⟨h1, h2⟩ := written_plain P hr hc hw
    rw [h1] at hh
    obtain ⟨A, he, hcm⟩ := plain_at P hh h2
    have hi := innerIs_fresh A s.c.kind
    rw [he, hcm] at hi
    have hk : ∃ k, C.new .none = .ok k := by
      obtain ⟨info, k, cs, outs, -, hk, -⟩ := iterWrite_ok hr hw
      rw [hc] at hk
      exact ⟨k, hk⟩
    have hrep : Repr X view (extOf ext view n.m) .none view ((n.m.setOffset off).reset.onFile file') := by
      unfold setOffset reset onFile
      rw [hin]
      refine ⟨?_, hr.bound, by simp, fun i => ?_⟩
      · simp only [Cluster.reset, hb]
        exact hi
      · simp [adjustIndex]
    obtain ⟨cs', h3, h4⟩ := written_unmodified (C := C) P hrep (by unfold setOffset reset onFile; rw [hin])
      (by unfold setOffset reset onFile; rw [hin]) (by unfold setOffset reset onFile; rw [hin])
      (by unfold setOffset reset onFile; rw [hin]) (by unfold setOffset reset onFile; rw [hin]) hk h2
    have hd := C19_disk_size h3
    rw [h4, ← h1] at hd
    refine ⟨{ n with m := { (n.m.setOffset off).reset with dirty := false }, offset := some off,
                     old := chunks.flatten.length }, ?_, rfl, rfl⟩
    show ((getDiskSize X C ((n.m.setOffset off).reset.onFile file')).1 >>= _) = _
    rw [hd]
    rfl
end
end Pyzim
