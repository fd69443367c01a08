import Verif.Props.Layout
import Verif.Lemmas.CachedArchive
import Verif.Lemmas.ToyCodec

/-!
# C82: modifying clusters through the cache
-/

namespace Pyzim
namespace Caching
variable {D K : Type} {X : Codecs D} {C : Compressors K} {E : Archive.Env} {R : Reading} {md5 : Bytes → Bytes}
  {s s1 s2 : Caching (ClusterObj D)} {V V1 : List (List Bytes)} {T : List Nat}

/-- **C82.** Whatever was set, flushed and added before, reading the content of an entry delivers what was set last, whether
the cluster is cached, was written when it left the cache or was never modified. Missing: histories with more modified
clusters than fit into the cache (`C82_lost` shows that changes are lost then). -/
theorem C82_read_partial (hR : Replaceable X C) (hE : E.Good md5) (h0 : Opened C E.policy.reserveMimetypeSpace s V)
    (h : History X C E R s V s1 V1 T) {i b : Nat} {v : List Bytes} (hv : V1[i]? = some v) (hb : b < v.length)
    {start stop : Option Nat} (hr : RangeIn v[b] start stop) {d : Bytes}
    (hok : readContent R.depth X C R.kind R.calls true i b start stop s1 = (.ok d, s2)) : d = partOf v[b] start stop := by
  refine inv_read hR (inv_history hR hE h0 h) hv hb ?_ ?_ hok
  · cases start <;> cases stop <;> simp only [Cluster.rangeOk]
    rename_i a b
    exact decide_eq_true (hr.1 a b rfl rfl)
  · cases start with
    | none => exact Nat.zero_le _
    | some a => exact hr.2 a rfl

/-- **C82.** A successful flush writes everything that was set since the archive was opened: the file is a sane archive in
which every cluster has the contents that were set last. -/
theorem C82_flush_partial (hR : Replaceable X C) (hE : E.Good md5) (h0 : Opened C E.policy.reserveMimetypeSpace s V)
    (h : History X C E R s V s1 V1 T) (hok : flushAll X C E R s1 = (.ok (), s2)) :
    Stores X E.policy.reserveMimetypeSpace s2 V1 ∧
      (s1.arch.isDirty = true ∨ s2.arch ≠ s1.arch → s2.arch.zim.Checksummed md5) :=
  (inv_flush hR hE (inv_history hR hE h0 h) hok).2

/-- **C82.** A new cluster gets the next number, whatever the cache had to write for it. -/
theorem C82_add_partial (hR : Replaceable X C) (hE : E.Good md5) (h0 : Opened C E.policy.reserveMimetypeSpace s V)
    (h : History X C E R s V s1 V1 T) {t : CompressionType} (ht : t ≠ .unknown) {m : MCluster D} {v : List Bytes}
    (hn : NewWith X t m v) (hT : T.length < s.cache.maxSize) {k : Nat}
    (hok : addCluster (setup X C R.kind R.calls true) R.depth { m := m } s1 = (.ok k, s2)) : k = V1.length :=
  (inv_add hR (inv_history hR hE h0 h) ht hn hT hok).1

/-! ## Concrete histories -/

/-- a new cluster with one blob -/
def demoNew (c : Bytes) : MCluster (Bytes ⊕ Toy.Esc) :=
  (MCluster.appendBlob Toy.codecs (MCluster.mem c) { inner := .empty, forceComp := some .zstd }).2

abbrev DemoState := Caching (ClusterObj (Bytes ⊕ Toy.Esc))

def demoR : Reading := ⟨.onDisk, 200, 8⟩

def demoE : Archive.Env := Archive.demoEnv (some 20)

def demoAdd (c : Bytes) : PyM DemoState Nat :=
  addCluster (setup Toy.codecs Toy.compressors .onDisk 200 true) 8 { m := demoNew c }

def demoSet (i : Nat) (c : Bytes) : PyM DemoState Nat :=
  setContent 8 Toy.codecs Toy.compressors .onDisk 200 true i 0 (MCluster.mem c)

def demoRead (i : Nat) : PyM DemoState Bytes :=
  readContent 8 Toy.codecs Toy.compressors .onDisk 200 true i 0 none none

def demoFlushAll : PyM DemoState Unit := flushAll Toy.codecs Toy.compressors demoE demoR

/-- an archive with one cluster was opened; the cache has room for two clusters -/
def demoC0 : DemoState := { arch := Archive.demo5 (some 20), cache := { maxSize := 2 } }

def demoC2 : DemoState := (demoAdd [3] demoC0).2
def demoC3 : DemoState := (demoAdd [4] demoC2).2
def demoC4 : DemoState := (demoFlushAll demoC3).2
def demoC5 : DemoState := (demoSet 0 [9, 9, 9] demoC4).2
def demoC6 : DemoState := (demoSet 1 [8] demoC5).2
def demoC7 : DemoState := (demoFlushAll demoC6).2

/-- more clusters are modified than fit into the cache -/
def demoL1 : DemoState := (demoSet 2 [7] demoC6).2
def demoL2 : DemoState := (demoFlushAll demoL1).2

/-- a cluster is added although all cached clusters are modified -/
def demoK1 : DemoState := (demoAdd [5] demoC6).2

/-- a modified cluster is only cached when the archive is closed -/
def demoClose : PyM DemoState Unit :=
  close (setup Toy.codecs Toy.compressors .onDisk 200 true) 8
    (Archive.flushDirty demoE.hasher demoE.short demoE.chunksize demoE.policy (pure ()) (fun _ => pure ()))

def demoX1 : DemoState := (demoClose demoC5).2

theorem demo_runs : ((demoAdd [3] demoC0).1 = .ok 1 ∧ (demoAdd [4] demoC2).1 = .ok 2 ∧
    (demoFlushAll demoC3).1 = .ok () ∧ (demoSet 0 [9, 9, 9] demoC4).1 = .ok 2 ∧ (demoSet 1 [8] demoC5).1 = .ok 3 ∧
    (demoFlushAll demoC6).1 = .ok () ∧ (demoRead 2 demoC6).1 = .ok [4] ∧ (demoRead 0 demoC6).1 = .ok [9, 9, 9] ∧ (demoRead 0 demoC4).1 = .ok [7, 8]) ∧
    ((demoSet 2 [7] demoC6).1 = .ok 4 ∧ (demoRead 2 demoL1).1 = .ok [4] ∧ (demoFlushAll demoL1).1 = .ok () ∧
      (demoRead 2 demoL2).1 = .ok [4] ∧ (demoRead 0 demoL2).1 = .ok [9, 9, 9]) ∧
    ((demoAdd [5] demoC6).1 = .error .keyError ∧ (demoFlushAll demoK1).1 = .error .keyError) ∧
    ((demoClose demoC5).1 = .ok () ∧ demoX1.arch.zim.file = demoC4.arch.zim.file ∧ demoC5.arch.isDirty = false ∧
      (demoRead 0 demoC5).1 = .ok [9, 9, 9]) ∧
    demoC0.arch.zim.articles.dirty = false := by
  decide +kernel

theorem demo_pair {α : Type} {f : PyM DemoState α} {s : DemoState} {x : PyRes α} (h : (f s).1 = x) : f s = (x, (f s).2) :=
  Prod.ext h rfl

theorem sampleCluster_written : WrittenAs Toy.compressors .none Zim.sampleCluster [[7, 8]] :=
  ⟨false, [1], false, [[8, 0, 0, 0, 10, 0, 0, 0, 7, 8]], [8, 0, 0, 0, 10, 0, 0, 0, 7, 8], rfl, rfl, Toy.compresses.2 rfl,
    by decide +kernel, by unfold PlainFits; decide +kernel, rfl⟩

theorem demoC0_arch : demoC0.arch = Archive.demo5 (some 20) := by simp only [demoC0]

theorem demoC0_cache : demoC0.cache = { maxSize := 2 } := by simp only [demoC0]

theorem demoC0_room {n : Nat} (h : n < 2) : n < demoC0.cache.maxSize := by rw [demoC0_cache]; exact h

theorem demoC0_clusters : ∃ cs, Archive.Sane (some 20) demoC0.arch cs ∧ cs.length = 1 ∧
    ∀ (st : Zim.Stored), cs[0]? = some st → st.2 = Zim.sampleCluster := by
  obtain ⟨off, -, h⟩ := Archive.demo5_sane (r := 20) (Or.inl rfl)
  rw [demoC0_arch]
  exact ⟨_, h, rfl, fun st h1 => by cases h1; rfl⟩

theorem demoC0_opened : Opened Toy.compressors (some 20) demoC0 [[[7, 8]]] where
  cache := ⟨2, by omega, demoC0_cache⟩
  objs := rfl
  articles := demo_runs.2.2.2.2
  clusters := by
    obtain ⟨cs, h, h1, h2⟩ := demoC0_clusters
    refine ⟨cs, h, h1, fun i st v h3 h4 => ?_⟩
    have hi : i = 0 := by
      have := (List.getElem?_eq_some_iff.1 h4).1
      simpa using this
    subst hi
    obtain rfl : [[7, 8]] = v := Option.some.inj h4
    rw [h2 st h3]
    exact ⟨.none, by decide, sampleCluster_written⟩

theorem demoNew_with {c : Bytes}
    (h : (MCluster.appendBlob Toy.codecs (MCluster.mem c) { inner := .empty, forceComp := some .zstd }).1 = .ok 0) :
    NewWith Toy.codecs .zstd (demoNew c) [c] :=
  .append (v := []) .empty (MCluster.mem_delivers c) (Prod.ext h rfl)

abbrev DemoHist := History Toy.codecs Toy.compressors demoE demoR demoC0 [[[7, 8]]]

theorem demoAdd_run {c : Bytes} {s : DemoState} {x : PyRes Nat} (h : (demoAdd c s).1 = x) :
    addCluster (setup Toy.codecs Toy.compressors demoR.kind demoR.calls true) demoR.depth { m := demoNew c } s =
      (x, (demoAdd c s).2) := demo_pair h

theorem demoSet_run {i : Nat} {c : Bytes} {s : DemoState} {x : PyRes Nat} (h : (demoSet i c s).1 = x) :
    setContent demoR.depth Toy.codecs Toy.compressors demoR.kind demoR.calls true i 0 (MCluster.mem c) s =
      (x, (demoSet i c s).2) := demo_pair h

theorem demoFlushAll_run {s : DemoState} {x : PyRes Unit} (h : (demoFlushAll s).1 = x) :
    flushAll Toy.codecs Toy.compressors demoE demoR s = (x, (demoFlushAll s).2) := demo_pair h

theorem demo_hist2 : DemoHist demoC2 [[[7, 8]], [[3]]] [] :=
  .add (V1 := [[[7, 8]]]) .start (by decide) (demoNew_with (by decide +kernel)) (demoC0_room (by decide)) (demoAdd_run demo_runs.1.1)

theorem demo_hist3 : DemoHist demoC3 [[[7, 8]], [[3]], [[4]]] [] :=
  .add (V1 := [[[7, 8]], [[3]]]) demo_hist2 (by decide) (demoNew_with (by decide +kernel)) (demoC0_room (by decide))
    (demoAdd_run demo_runs.1.2.1)

theorem demo_hist4 : DemoHist demoC4 [[[7, 8]], [[3]], [[4]]] [] :=
  .flush demo_hist3 (demoFlushAll_run demo_runs.1.2.2.1)

theorem demo_hist5 : DemoHist demoC5 [[[9, 9, 9]], [[3]], [[4]]] [0] :=
  .set (i := 0) (b := 0) (v := [[7, 8]]) (c := [9, 9, 9]) demo_hist4 rfl (by decide) (MCluster.mem_delivers _)
    (.inr (demoC0_room (by decide))) (demoSet_run demo_runs.1.2.2.2.1)

theorem demo_hist6 : DemoHist demoC6 [[[9, 9, 9]], [[8]], [[4]]] [1, 0] :=
  .set (i := 1) (b := 0) (v := [[3]]) (c := [8]) demo_hist5 rfl (by decide) (MCluster.mem_delivers _)
    (.inr (demoC0_room (by decide))) (demoSet_run demo_runs.1.2.2.2.2.1)

/-- the content that was set and is only cached; the content that was never modified -/
example : (demoRead 0 demoC6).1 = .ok [9, 9, 9] ∧ (demoRead 2 demoC6).1 = .ok [4] ∧
    ∀ {d : Bytes} {s : DemoState}, demoRead 1 demoC6 = (.ok d, s) → d = [8] :=
  ⟨demo_runs.1.2.2.2.2.2.2.2.1, demo_runs.1.2.2.2.2.2.2.1, fun hok =>
    C82_read_partial Toy.replaceable (Archive.demoEnv_good (some 20)) demoC0_opened demo_hist6 (i := 1) (b := 0) (v := [[8]]) rfl
      (by decide) ⟨by simp, by simp⟩ hok⟩

/-- a flush writes both clusters that were set -/
example : Stores Toy.codecs (some 20) demoC7 [[[9, 9, 9]], [[8]], [[4]]] :=
  (C82_flush_partial Toy.replaceable (Archive.demoEnv_good (some 20)) demoC0_opened demo_hist6
    (demo_pair demo_runs.1.2.2.2.2.2.1)).1

/-- a fourth cluster -/
example {k : Nat} {s : DemoState} (hok : demoAdd [5] demoC4 = (.ok k, s)) : k = 3 :=
  C82_add_partial Toy.replaceable (Archive.demoEnv_good (some 20)) demoC0_opened demo_hist4 (by decide) (demoNew_with (by decide +kernel)) (demoC0_room (by decide)) hok

/-- C82 is false if more clusters are modified than fit into the cache: setting a content succeeds, but it is lost at
once. (The cache writes a modified cluster to make room for the one being loaded; the written cluster is put into the
cache again, and this goes on until the cluster that was just loaded has to leave. It is modified afterwards.) -/
theorem C82_lost : ∃ (s s1 s2 : DemoState) (r : Nat), DemoHist s [[[9, 9, 9]], [[8]], [[4]]] [1, 0] ∧
    demoSet 2 [7] s = (.ok r, s1) ∧ (demoRead 2 s1).1 = .ok [4] ∧ demoFlushAll s1 = (.ok (), s2) ∧
    (demoRead 2 s2).1 = .ok [4] :=
  have h := demo_runs.2.1
  ⟨demoC6, demoL1, demoL2, 4, demo_hist6, demo_pair h.1, h.2.1, demo_pair h.2.2.1, h.2.2.2.1⟩

/-- If all cached clusters are modified, adding a cluster raises `KeyError`, and so does every flush afterwards. (The
cluster being written is put into the cache before its offset is in the list of clusters, and leaves the cache again.) -/
theorem C82_add_fails : ∃ (s s1 : DemoState), DemoHist s [[[9, 9, 9]], [[8]], [[4]]] [1, 0] ∧
    demoAdd [5] s = (.error .keyError, s1) ∧ (demoFlushAll s1).1 = .error .keyError :=
  have h := demo_runs.2.2.1
  ⟨demoC6, demoK1, demo_hist6, demo_pair h.1, h.2⟩

/-- Closing an archive does not flush it if the only changes are to cached clusters: `close` succeeds, and the content
that was set is not in the file. -/
theorem C82_close_loses : ∃ (s s1 s2 : DemoState) (r : Nat), DemoHist s [[[7, 8]], [[3]], [[4]]] [] ∧
    (demoRead 0 s).1 = .ok [7, 8] ∧ demoSet 0 [9, 9, 9] s = (.ok r, s1) ∧ (demoRead 0 s1).1 = .ok [9, 9, 9] ∧
    demoClose s1 = (.ok (), s2) ∧ s2.arch.zim.file = s.arch.zim.file :=
  have h := demo_runs.2.2.2.1
  ⟨demoC4, demoC5, demoX1, 2, demo_hist4, demo_runs.1.2.2.2.2.2.2.2.2, demo_pair demo_runs.1.2.2.2.1, h.2.2.2,
    demo_pair h.1, h.2.1⟩

end Caching
end Pyzim
