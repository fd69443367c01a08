import Verif.Lemmas.Mirrors
import Verif.Model.Creator

/-!
# Setting the content of an entry in an uncompressed cluster
-/

namespace Pyzim
open Zim (Row Stored Clustered InCluster InUse ClusterWrite)

namespace MCluster
variable {D : Type} {X : Codecs D} {file : Bytes} {o : Nat} {orig : List Bytes}

/-- The wrapped cluster is the one at offset `o` of the file. -/
def IsAt (A : ClusterAt X file o orig) (m : MCluster D) : Prop := ∃ s, m.inner = .real s ∧ Cluster.Good A s

theorem isAt_setBlob (A : ClusterAt X file o orig) (i : Nat) (src : BlobSource) : Keeps (IsAt A) (setBlob X i src) := by
  have h1 : Keeps (IsAt A) (innerNumBlobs X) := by
    rintro m ⟨s, hs, hg⟩
    unfold innerNumBlobs onInner
    obtain ⟨s', h1, h2, -⟩ := Cluster.getNumberOfBlobs_spec A hg
    rw [hs]
    simp only [h1]
    exact ⟨s', rfl, h2.toGood⟩
  have h2 : Keeps (IsAt A) (getNumberOfBlobs X) :=
    Keeps.bind (h1.bind fun _ => Keeps.get.bind fun _ => Keeps.pure _) fun _ => Keeps.pure _
  exact h2.bind fun _ => (Keeps.require _ _).bind fun _ => Keeps.get.bind fun _ => (Keeps.require _ _).bind fun _ =>
    Keeps.modify fun _ h => h

/-- An uncompressed cluster that is not too large can be written. -/
theorem iterWrite_plain {K : Type} {C : Compressors K} {ext : Bool} {view : List Bytes} (P : Passthrough X C)
    (hk : ∃ k, C.new .none = .ok k) {m : MCluster D} (h : Repr X orig ext .none view m) (hc : m.forceComp = none)
    (he : m.forceExt = none) (hm : m.hasModifications = true) (hh : 8 * (view.length + 1) + view.flatten.length < 2 ^ 64) :
    ∃ chunks, (iterWrite X C m).1 = .ok chunks := by
  obtain ⟨k, hk⟩ := hk
  obtain ⟨res, i', h1, -, h3⟩ := iterWrite_spec (C := C) h
  have hcomp : compOf .none m = .none := by unfold compOf; rw [hc]; rfl
  rw [hcomp] at h3
  obtain ⟨a, -⟩ := h3 _ (infobyte_none _) k hk
  obtain ⟨cs, -, hr⟩ := a (by
    unfold widthOf extOf blobOffset
    rw [he, hm]
    simp only [Bool.true_eq_false, if_false, List.take_length]
    by_cases h32 : 2 ^ 32 ≤ 4 * (view.length + 1) + view.flatten.length
    · rw [decide_eq_true h32, if_pos rfl]; omega
    · rw [decide_eq_false h32, if_neg (by simp)]; omega)
  obtain ⟨out, hout⟩ := P.works k hk cs
  obtain ⟨outs, ho⟩ := compresses_compressAll hout
  rw [h1, hr, ho]
  exact ⟨_, rfl⟩

end MCluster

namespace Zim
variable {D K : Type} {X : Codecs D} {C : Compressors K} {z : Zim} {rows : List Row} {cs : List Stored} {rest : Nat → Prop}

/-- A cluster object of a cluster of the file that is not compressed. -/
def plainObj (kind : ClusterKind) (z : Zim) (off : Nat) (ext : Bool) (orig : List Bytes) : ClusterObj D where
  m := { inner := .real (clusterAt kind z off) }
  offset := some off
  old := (plainBytes ext orig).length

/-- opening a cluster of the file that is not compressed -/
theorem openCluster_plain (P : Passthrough X C) (h : Clustered z rows cs rest) {i off : Nat} {ext : Bool} {orig : List Bytes}
    (hi : cs[i]? = some (off, plainBytes ext orig)) (hfit : PlainFits ext orig) (kind : ClusterKind) (calls : Nat) :
    openCluster X kind calls z i = .ok (plainObj kind z off ext orig) := by
  obtain ⟨A, he, hc⟩ := MCluster.plain_at P (h.held _ (List.mem_of_getElem? hi)) hfit
  have hg : Cluster.Good A (clusterAt kind z off) := (Cluster.Reached.fresh kind 0).good A
  have hsize : (Cluster.getTotalCompressedSize X calls (clusterAt kind z off)).1 =
      .ok (((plainBytes ext orig).length : Nat) : Int) := by
    unfold Cluster.getTotalCompressedSize
    simp only [PyM.get_bind, hg.bound, PyM.require_true_bind]
    obtain ⟨s1, h1, h2, -⟩ := Cluster.readInfobyteIfNeeded_spec A hg
    rw [PyM.bind_ok h1]
    simp only [PyM.get_bind, h2.comp, hc, if_true]
    obtain ⟨s2, g1, -⟩ := Cluster.getTotalDecompressedSize_spec A h2.toGood
    rw [PyM.bind_ok g1, PyM.pure_apply]
    unfold Cluster.width plainBytes
    rw [he]
    simp
  unfold openCluster
  rw [h.getByIndex hi]
  simp only [bind, Except.bind]
  rw [if_neg (by rw [h.rep.isOpen]; simp)]
  simp only [Int.toNat_natCast]
  rw [hsize]
  rfl

theorem chunkBound_gt {c : ClusterObj D} {own : Nat → Prop} {chunks : List Bytes}
    (hw : (ClusterObj.ops X C).Writes c z.file own chunks) : chunks.length < chunkBound X C c z := by
  have h1 : ∀ i : Nat, ((MCluster.iterWrite X C (c.m.onFile z.file)).1 >>= fun chunks => pure chunks[i]?) =
      (.ok chunks[i]? : PyRes _) := hw.chunk z.file (fun _ _ _ h => h)
  unfold chunkBound
  cases hr : (MCluster.iterWrite X C (c.m.onFile z.file)).1 with
  | error x =>
    have := h1 0
    rw [hr] at this
    cases this
  | ok l =>
    have h2 : ∀ i : Nat, l[i]? = chunks[i]? := by
      intro i
      have := h1 i
      rw [hr] at this
      injection this
    rw [List.ext_getElem? h2]
    exact Nat.lt_succ_self _

/-- `set_content` of an entry in an uncompressed cluster -/
theorem setContent_plain (P : Passthrough X C) (hk : ∃ k, C.new .none = .ok k) (h : Clustered z rows cs rest) {i b off : Nat}
    {ext : Bool} {orig : List Bytes} (hi : cs[i]? = some (off, plainBytes ext orig)) (hfit : PlainFits ext orig)
    {e : Entry} (he : e.kind = .content i b) (hm : e.mutable = true) (hb : b < orig.length) {src : BlobSource} {c : Bytes}
    (hd : Delivers src c) (hh : 8 * (orig.length + 1) + (orig.set b c).flatten.length < 2 ^ 64)
    (kind : ClusterKind) (calls : Nat) :
    ∃ z' off' ext', setContent X C kind calls e src z = (.ok (), z') ∧ PlainFits ext' (orig.set b c) ∧
      ClusterWrite (ClusterObj.ops X C) z cs z' (cs.set i (off', plainBytes ext' (orig.set b c))) := by
  have hold := h.held _ (List.mem_of_getElem? hi)
  obtain ⟨A, hAe, hAc⟩ := MCluster.plain_at P hold hfit
  have hg : Cluster.Good A (clusterAt kind z off) := (Cluster.Reached.fresh kind 0).good A
  have hw : MCluster.Wraps X orig ext .none (.real (clusterAt kind z off : CSt D)) :=
    .inr ⟨z.file, off, A, _, rfl, .fresh kind 0, hAe, hAc⟩
  obtain ⟨m, h1, h2, h3, h4, h5, h6⟩ := (MCluster.setBlob_spec (MCluster.History.fresh hw).plain b hd).1 (by omega)
  have hput : MCluster.putBlob orig b c = orig.set b c := by unfold MCluster.putBlob; rw [if_pos hb]
  rw [hput] at h2
  have hat : MCluster.IsAt A m := by
    have := MCluster.isAt_setBlob A b src { inner := .real (clusterAt kind z off) } ⟨_, rfl, hg⟩
    rw [h1] at this
    exact this
  obtain ⟨s, hs, hgs⟩ := hat
  have hcomp : MCluster.compOf .none m = .none := by unfold MCluster.compOf; rw [h4]; rfl
  obtain ⟨chunks, hch⟩ := MCluster.iterWrite_plain P hk h2.toRepr (by rw [h4]) (by rw [h3]) h5 (by simpa using hh)
  obtain ⟨hpl, hpf⟩ := MCluster.written_plain P h2.toRepr hcomp hch
  have hwr : (ClusterObj.ops X C).Writes ({ m := m, offset := some off, old := (plainBytes ext orig).length } : ClusterObj D)
      z.file (InUse z) chunks := by
    refine stored_writes P hs h2.toRepr hcomp hfit hch (by rw [hgs.offset]; exact hold) ?_
    rw [hgs.offset]
    exact fun x hx1 hx2 => (h.inUse x).2 (Or.inr (Or.inl ⟨_, List.mem_of_getElem? hi, hx1, hx2⟩))
  have hne : chunks.flatten ≠ [] := by rw [hpl]; exact MCluster.plainBytes_ne_nil _ _
  obtain ⟨off', c', z', e1, -, -, e4, -⟩ := h.writeCluster_old (num := none) (fun x => (h.inUse x).1) hwr hne hi rfl rfl
    (by simp) (chunkBound_gt hwr)
  refine ⟨z', off', _, ?_, hpf, ?_⟩
  · unfold setContent
    rw [he]
    simp only [hm, PyM.require_true_bind, PyM.get_bind, openCluster_plain P h hi hfit, PyM.lift_ok_bind]
    rw [show MCluster.setBlob X b src (plainObj kind z off ext orig : ClusterObj D).m = _ from h1]
    simp only [plainObj]
    rw [if_pos h6, PyM.bind_ok (show writeClusterObj X C _ z = _ from e1)]
    rfl
  · rw [← hpl]
    exact .replace hwr hne (chunkBound_gt hwr) hi rfl rfl (by simp) e1 e4

end Zim
end Pyzim
