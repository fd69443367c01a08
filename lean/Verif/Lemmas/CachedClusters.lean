import Verif.Lemmas.Caching
import Verif.Lemmas.SetAny
import Verif.Props.Clusters

/-! # The cluster objects of a writable archive with a cache -/

namespace Pyzim
open Zim (Stored InCluster)
open MCluster
variable {D K : Type} {X : Codecs D} {C : Compressors K}

/-- The object is the cluster stored at `st`, and users see the blobs `v`. -/
structure ObjIs (X : Codecs D) (C : Compressors K) (o : ClusterObj D) (st : Stored) (v : List Bytes) : Prop where
  offset : o.offset = some st.1
  old : o.old = st.2.length
  nonempty : st.2 ≠ []
  view : ∃ t orig ext comp, t ≠ .unknown ∧ compOf comp o.m = t ∧
    (∀ file, Holds file st.1 st.2 → Plain X orig ext comp v (o.m.onFile file)) ∧
    (o.m.inner = .empty ∨ ∃ s, o.m.inner = .real s ∧ s.c.offset = st.1 ∧ comp = t ∧
      ∀ file off, Holds file off st.2 → IsCluster X file off ext comp orig st.2.length) ∧
    (o.m.dirty = false → WrittenAs C t st.2 v)

/-- The bytes are a cluster with these blobs. -/
def GoodCluster (C : Compressors K) (b : Bytes) (v : List Bytes) : Prop := ∃ t, t ≠ .unknown ∧ WrittenAs C t b v

theorem MCluster.onFile_onFile (m : MCluster D) (f g : Bytes) : (m.onFile f).onFile g = m.onFile g := by
  unfold onFile
  cases h : m.inner with
  | empty => simp only [h]
  | real s => rfl

theorem MCluster.reset_onFile (m : MCluster D) (f g : Bytes) (o : Nat) :
    (((m.onFile f).setOffset o).reset).onFile g = ((m.setOffset o).reset).onFile g := by
  unfold onFile setOffset reset
  cases h : m.inner with
  | empty => simp only [h]
  | real s => rfl

theorem holds_self (off : Nat) (b : Bytes) : Holds (List.replicate off 0 ++ b) off b := by
  intro i hi
  rw [List.getElem?_append_right (by simp)]
  simp

theorem WrittenAs.ne_nil {t : CompressionType} (hne : t ≠ .unknown) {b : Bytes} {v : List Bytes} (h : WrittenAs C t b v) :
    b ≠ [] := by
  obtain ⟨ext, info, k, chunks, out, h1, -, -, -, -, rfl⟩ := h
  obtain ⟨i, rfl, -⟩ := infobyte_bits hne h1
  simp

/-- a new wrapper of a cluster that was written as `v`, unmodified -/
theorem plain_reset (hR : Replaceable X C) {t : CompressionType} (hne : t ≠ .unknown) {b : Bytes} {v : List Bytes}
    (hwa : WrittenAs C t b v) {m : MCluster D} {s : CSt D} (hin : m.inner = .real s) (hoff : s.c.bound = true)
    (hb : m.blobs = []) (ha : m.added = []) (hr : m.removed = []) (hbd : m.bound = true) (hmu : m.isMutable = true) :
    ∃ ext, (∀ file, Holds file s.c.offset b → Plain X v ext t v (m.onFile file)) ∧
      ∀ file off, Holds file off b → IsCluster X file off ext t v b.length := by
  obtain ⟨ext, hat⟩ := hwa.isCluster hR hne
  refine ⟨ext, fun file hh => ?_, hat⟩
  obtain ⟨A, he, hcm, -⟩ := hat _ _ hh
  have hi := innerIs_fresh A s.c.kind
  rw [he, hcm] at hi
  have e : m.onFile file = { m with inner := .real { c := { kind := s.c.kind, offset := s.c.offset }, f := ⟨file, 0⟩ } } := by
    unfold onFile; rw [hin]; simp only [hoff]
  rw [e]
  refine ⟨⟨hi, hbd, by simp [ha, hr], fun i => ?_⟩, hr, by simp [ha], hmu⟩
  simp [hb, hr, adjustIndex]

theorem contract (hR : Replaceable X C) (kind : ClusterKind) (calls : Nat) (auto : Bool) :
    Caching.Contract (Caching.setup X C kind calls auto) (ObjIs X C) (GoodCluster C) where
  clean := fun {o st v} h hd => by
    obtain ⟨t, orig, ext, comp, h1, h2, h3, h4, h5⟩ := h.view
    exact ⟨t, h1, h5 hd⟩
  offset h := h.offset
  oldSize h := h.old
  writes := fun {o st v z size} h hh hs => by
    obtain ⟨t, orig, ext, comp, h1, h2, h3, h4, h5⟩ := h.view
    have hp := h3 _ hh
    have hs : (getDiskSize X C (o.m.onFile z.file)).1 = .ok size := hs
    cases hch : (iterWrite X C (o.m.onFile z.file)).1 with
    | error x =>
      unfold getDiskSize at hs
      rw [PyM.bind_err (s' := (iterWrite X C (o.m.onFile z.file)).2) (e := x) (by rw [← hch])] at hs
      cases hs
    | ok chunks =>
    have hcomp : compOf comp (o.m.onFile z.file) = t := by
      rw [← h2]; unfold compOf onFile
      cases o.m.inner <;> rfl
    have hwa : WrittenAs C t chunks.flatten v := by
      have := written_as hp.toRepr hch
      rwa [hcomp] at this
    have hne := hwa.ne_nil h1
    rcases h4 with h4 | ⟨s, h4, h6, h7, h8⟩
    · have hon := onFile_empty h4
      have hp' : Plain X orig ext comp v o.m := by rw [hon] at hp; exact hp
      have hw : (iterWrite X C o.m).1 = .ok chunks := by rw [hon] at hch; exact hch
      have hwr : (ClusterObj.ops X C).Writes o z.file (InCluster st) chunks :=
        Zim.C53_new_cluster_writes h4 hp'.bound hw _ _
      refine ⟨chunks, hwr, hne, Zim.chunkBound_gt hwr, ?_⟩
      intro file' off c' hf haf
      have haf : ((getDiskSize X C ((o.m.setOffset off).reset.onFile file')).1 >>= fun size =>
        pure { o with m := { (o.m.setOffset off).reset with dirty := false }, offset := some off, old := size }) = .ok c' := haf
      rw [setOffset_empty h4, Zim.reset_empty h4, onFile_empty h4, C19_disk_size hw] at haf
      have haf : ({ o with m := { o.m with dirty := false }, offset := some off, old := chunks.flatten.length } : ClusterObj D) = c' :=
        Except.ok.inj haf
      subst haf
      refine ⟨⟨rfl, rfl, hne, t, orig, ext, comp, h1, h2, fun file _ => ?_, Or.inl h4, fun _ => hwa⟩, rfl⟩
      rw [onFile_empty (show ({ o.m with dirty := false } : MCluster D).inner = .empty from h4)]
      exact ⟨⟨hp'.inner, hp'.bound, hp'.count, hp'.get⟩, hp'.removed, hp'.added, hp'.mutable⟩
    · subst h7
      have hin : (o.m.onFile z.file).inner = .real ⟨{ kind := s.c.kind, bound := s.c.bound, offset := s.c.offset }, ⟨z.file, 0⟩⟩ := by
        unfold onFile; rw [h4]
      have hbd : s.c.bound = true := by
        have h := hp.inner
        rw [hin] at h
        obtain ⟨_, _, A, hg, -⟩ := h
        exact hg.bound
      have hwn := stored_writes_any hR h1 (n := { o with m := o.m.onFile z.file }) hin hp.toRepr hcomp h8 hch (file := z.file)
        (own := InCluster st) (by simp only [h6]; exact hh) (by simp only [h6]; exact fun x a b => ⟨a, b⟩)
      have hset : ∀ file' off, (ClusterObj.ops X C).afterFlush ((ClusterObj.ops X C).setOffset o off) file' =
          (getDiskSize X C ((o.m.setOffset off).reset.onFile file')).1 >>= fun size =>
            pure { o with m := { (o.m.setOffset off).reset with dirty := false }, offset := some off, old := size } :=
        fun _ _ => rfl
      have hsz : ∀ file' off, Holds file' off chunks.flatten →
          (getDiskSize X C ((o.m.setOffset off).reset.onFile file')).1 = .ok chunks.flatten.length := by
        intro file' off hf
        obtain ⟨c', g1, g2, g3⟩ := hwn.after file' off hf
        have g1 : ((getDiskSize X C (((o.m.onFile z.file).setOffset off).reset.onFile file')).1 >>= fun size =>
          pure ({ m := { ((o.m.onFile z.file).setOffset off).reset with dirty := false }, offset := some off, old := size } : ClusterObj D)) = .ok c' := g1
        rw [reset_onFile] at g1
        cases hg : (getDiskSize X C ((o.m.setOffset off).reset.onFile file')).1 with
        | error x => rw [hg] at g1; cases g1
        | ok n =>
          rw [hg] at g1
          rw [← Except.ok.inj g1] at g3
          rw [show n = chunks.flatten.length from g3]
      have hwr : (ClusterObj.ops X C).Writes o z.file (InCluster st) chunks := by
        refine ⟨?_, ?_, ?_, ?_⟩
        · have : (o.m.onFile z.file).bound = o.m.bound := by unfold onFile; rw [h4]
          show o.m.bound = true
          rw [← this]; exact hp.bound
        · intro file' hk
          have := hwn.size file' hk
          have this : (getDiskSize X C ((o.m.onFile z.file).onFile file')).1 = .ok chunks.flatten.length := this
          rw [onFile_onFile] at this
          exact this
        · intro file' hk i
          have := hwn.chunk file' hk i
          have this : ((iterWrite X C ((o.m.onFile z.file).onFile file')).1 >>= fun chunks => pure chunks[i]?) = .ok chunks[i]? := this
          rw [onFile_onFile] at this
          exact this
        · intro file' off hf
          rw [hset, hsz file' off hf]
          exact ⟨_, rfl, rfl, rfl⟩
      refine ⟨chunks, hwr, hne, Zim.chunkBound_gt hwr, ?_⟩
      intro file' off c' hf haf
      have haf : (ClusterObj.ops X C).afterFlush ((ClusterObj.ops X C).setOffset o off) file' = .ok c' := haf
      rw [hset, hsz file' off hf] at haf
      have haf := Except.ok.inj haf
      subst haf
      have hin' : ({ (o.m.setOffset off).reset with dirty := false } : MCluster D).inner = .real { s with c := ({ s.c with offset := off } : Cluster D).reset } := by
        unfold setOffset reset; rw [h4]
      obtain ⟨ext', hpl, hat'⟩ := plain_reset hR h1 hwa hin' hbd (by unfold setOffset reset; rw [h4])
        (by unfold setOffset reset; rw [h4]) (by unfold setOffset reset; rw [h4])
        (by
          have := hp.bound
          unfold setOffset reset; unfold onFile at this; rw [h4] at this ⊢; exact this)
        (by
          have := hp.mutable
          unfold setOffset reset; unfold onFile at this; rw [h4] at this ⊢; exact this)
      refine ⟨⟨rfl, rfl, hne, comp, v, ext', comp, ?_, ?_, hpl, Or.inr ⟨_, hin', rfl, rfl, hat'⟩, fun _ => hwa⟩, rfl⟩
      · exact h1
      · unfold compOf setOffset reset; rw [h4]; rfl

end Pyzim
