import Verif.Lemmas.LayoutLoad
import Verif.Props.Clusters

/-!
# C37, C39: the layout of the file after a flush, and opening it again
-/

namespace Pyzim
namespace Archive
open SpaceAllocator (InBlock)
open Zim (Row Stored InRow InCluster Works)

variable {K : Type} {O : ClusterOps K} {E : Env} {md5 : Bytes → Bytes} {reserve : Option Nat} {a a0 a1 a2 : Archive}
  {cs cs0 cs1 cs2 : List Stored} {content : PyM Zim Unit} {setContent : Bytes → PyM Zim Unit}

/-- The assumptions about the hash function, the reads and the chunk size. -/
structure Env.Good (E : Env) (md5 : Bytes → Bytes) : Prop where
  computes : E.hasher.Computes md5
  delivers : Delivering E.short
  chunks : 0 < E.chunksize

theorem notDirty (h : a.isDirty = false) : a.zim.header.dirty = false ∧ a.zim.mimetypes.dirty = false ∧
    a.zim.urls.dirty = false ∧ a.zim.clusters.dirty = false := by
  simp only [isDirty, Bool.or_eq_false_iff] at h
  exact ⟨h.1.1.1.1.2, h.1.1.1.2, h.1.1.2, h.1.2⟩

theorem load_loaded {rows : List Row} {extra : Nat → Prop} (h : Laid reserve a rows cs extra) (hd : a.isDirty = false)
    {titles articles : Zim → PyRes PointerList} {w : Bool} (hl : load titles articles w a.zim.file = .ok a2) :
    ∃ as, a2 = loaded w as a := by
  obtain ⟨d1, d2, d3, d4⟩ := notDirty hd
  obtain ⟨has, -, e⟩ := h.toParts.load d1 d2 d3 d4 titles articles w
  rw [e] at hl
  split at hl
  · cases hl
  · injection hl with hl
    exact ⟨_, hl.symm⟩

theorem sane_hist (hE : E.Good md5) (h0 : Sane E.policy.reserveMimetypeSpace a0 cs0)
    (hist : LayoutHist O E a0 cs0 a1 cs1) : Sane E.policy.reserveMimetypeSpace a1 cs1 := by
  induction hist with
  | start => exact h0
  | work _ hw ih =>
    obtain ⟨rows, extra, h⟩ := ih
    obtain ⟨rows', h'⟩ := h.works hw
    exact ⟨rows', extra, h'⟩
  | touch _ ih =>
    obtain ⟨rows, extra, h⟩ := ih
    exact ⟨rows, extra, h.dirty true⟩
  | flush _ hC hok ih =>
    obtain ⟨rows, extra, h⟩ := ih
    obtain ⟨-, -, rows', h'⟩ := h.flush (truncate := E.policy.truncate) hE.computes hE.delivers hE.chunks hC hok
    exact ⟨rows', extra, h'⟩
  | reopen _ hd hl ih =>
    obtain ⟨rows, extra, h⟩ := ih
    obtain ⟨as, rfl⟩ := load_loaded h hd hl
    obtain ⟨d1, d2, d3, d4⟩ := notDirty hd
    obtain ⟨extra', h'⟩ := h.load d1 d2 d3 d4 as
    exact ⟨rows, extra', h'⟩

/-- the bytes of a row -/
def rowBytes (r : Row) : Bytes :=
  match r.2.toBytes with
  | .ok b => b
  | .error _ => []

theorem Laid.laidOut {rows : List Row} {extra : Nat → Prop} (h : Laid reserve a rows cs extra) (hd : a.isDirty = false) :
    LaidOut a.zim (rows.map (fun r => (r.1, rowBytes r))) cs := by
  obtain ⟨d1, d2, d3, d4⟩ := notDirty hd
  obtain ⟨hck, hlen⟩ := h.ends d1 d2 d3 d4
  obtain ⟨b1, hb1, hh1⟩ := h.header d1
  obtain ⟨hh2, hp2⟩ := h.mimetypes d2
  obtain ⟨b3, hb3, hh3, hn3, hs3⟩ := h.urls d3
  obtain ⟨b4, hb4, hh4, hn4, hs4⟩ := h.clusters d4
  have hrow : ∀ r ∈ rows, r.2.toBytes = .ok (rowBytes r) ∧ Holds a.zim.file r.1 (rowBytes r) ∧
      ∀ x, Occupied (r.1, rowBytes r) x ↔ InRow r x := by
    intro r hr
    obtain ⟨b, hb, hh⟩ := h.content.rep.store.stored r hr
    have : rowBytes r = b := by unfold rowBytes; rw [hb]
    rw [this]
    exact ⟨hb, hh, fun x => (Zim.inRow_bytes hb x).symm⟩
  -- the fixed pieces
  have hp : ∀ (p : Nat × Bytes), p ∈ ([(0, b1), (a.zim.header.mimeListPosition, a.zim.mimetypes.toBytes),
      (a.zim.header.urlPointerPosition, b3), (a.zim.header.clusterPointerPosition, b4)] : List (Nat × Bytes)) →
      Holds a.zim.file p.1 p.2 ∧ ∃ q ∈ a.fixed reserve, ∀ x, Occupied p x → InBlock q x := by
    intro p hp
    simp only [List.mem_cons, List.not_mem_nil, or_false] at hp
    rcases hp with rfl | rfl | rfl | rfl
    · exact ⟨hh1, (0, 80), by simp [fixed], fun x hx => by rw [← Header.toBytes_length hb1]; exact hx⟩
    · exact ⟨hh2, a.mimePiece reserve, by simp [fixed], fun x hx => hp2.piece x hx⟩
    · refine ⟨hh3, (a.zim.header.urlPointerPosition, a.urlSize), by simp [fixed], fun x hx => ?_⟩
      rw [hs3, ← show b3.length = 8 * a.zim.urls.len from PointerList.toBytes_length (by omega) hb3]; exact hx
    · refine ⟨hh4, (a.zim.header.clusterPointerPosition, a.clusterSize), by simp [fixed], fun x hx => ?_⟩
      rw [hs4, ← show b4.length = 8 * a.zim.clusters.len from PointerList.toBytes_length (by omega) hb4]; exact hx
  have hdis : ([(0, b1), (a.zim.header.mimeListPosition, a.zim.mimetypes.toBytes),
      (a.zim.header.urlPointerPosition, b3), (a.zim.header.clusterPointerPosition, b4)] : List (Nat × Bytes)).Pairwise
      (fun p q => ∀ x, ¬ (Occupied p x ∧ Occupied q x)) := by
    have hd := h.disjoint
    have f1 : ∀ x, Occupied (0, b1) x → InBlock (0, 80) x := fun x hx => by rw [← Header.toBytes_length hb1]; exact hx
    have f2 : ∀ x, Occupied (a.zim.header.mimeListPosition, a.zim.mimetypes.toBytes) x → InBlock (a.mimePiece reserve) x :=
      fun x hx => hp2.piece x hx
    have f3 : ∀ x, Occupied (a.zim.header.urlPointerPosition, b3) x → InBlock (a.zim.header.urlPointerPosition, a.urlSize) x :=
      fun x hx => by
        rw [hs3, ← show b3.length = 8 * a.zim.urls.len from PointerList.toBytes_length (by omega) hb3]; exact hx
    have f4 : ∀ x, Occupied (a.zim.header.clusterPointerPosition, b4) x →
        InBlock (a.zim.header.clusterPointerPosition, a.clusterSize) x := fun x hx => by
      rw [hs4, ← show b4.length = 8 * a.zim.clusters.len from PointerList.toBytes_length (by omega) hb4]; exact hx
    simp only [fixed, List.pairwise_cons, List.mem_cons, List.not_mem_nil, or_false, forall_eq_or_imp, forall_eq] at hd ⊢
    obtain ⟨⟨g12, g13, g14⟩, ⟨g23, g24⟩, g34, -⟩ := hd
    refine ⟨⟨fun x hx => g12 x (f1 x hx.1) (f2 x hx.2), fun x hx => g13 x (f1 x hx.1) (f3 x hx.2),
      fun x hx => g14 x (f1 x hx.1) (f4 x hx.2)⟩, ⟨fun x hx => g23 x (f2 x hx.1) (f3 x hx.2),
      fun x hx => g24 x (f2 x hx.1) (f4 x hx.2)⟩, fun x hx => g34 x (f3 x hx.1) (f4 x hx.2), by simp⟩
  refine ⟨⟨b1, b3, b4, hb1, hb3, hb4, ?_⟩, ?_, ?_, ?_, h.content.pointers, ?_, by rw [hck]; exact hlen⟩
  · show Within _ _ ([(0, b1), (a.zim.header.mimeListPosition, a.zim.mimetypes.toBytes),
      (a.zim.header.urlPointerPosition, b3), (a.zim.header.clusterPointerPosition, b4)] ++ _)
    refine ⟨?_, List.pairwise_append.2 ⟨hdis, List.pairwise_append.2 ⟨?_, ?_, ?_⟩, ?_⟩, ?_⟩
    · intro p hm
      rcases List.mem_append.1 hm with hm | hm
      · exact (hp p hm).1
      rcases List.mem_append.1 hm with hm | hm
      · obtain ⟨r, hr, rfl⟩ := List.mem_map.1 hm
        exact (hrow r hr).2.1
      · exact h.content.held p hm
    · rw [List.pairwise_map]
      refine h.content.rep.store.disjoint.imp_of_mem fun {r s} hr hs hrs x hx => ?_
      exact hrs x (((hrow r hr).2.2 x).1 hx.1) (((hrow s hs).2.2 x).1 hx.2)
    · exact h.content.disjoint.imp fun hcd x hx => hcd x hx.1 hx.2
    · intro p hm q hq x hx
      obtain ⟨r, hr, rfl⟩ := List.mem_map.1 hm
      exact h.content.rep.store.apart r hr x (((hrow r hr).2.2 x).1 hx.1) (Or.inr ⟨q, hq, hx.2⟩)
    · intro p hm q hq x hx
      obtain ⟨b, hb, hin⟩ := (hp p hm).2
      rcases List.mem_append.1 hq with hq | hq
      · obtain ⟨r, hr, rfl⟩ := List.mem_map.1 hq
        exact h.content.rep.store.apart r hr x (((hrow r hr).2.2 x).1 hx.2) (Or.inl (Or.inr ⟨b, hb, hin x hx.1⟩))
      · exact h.content.apart q hq x hx.2 (Or.inr ⟨b, hb, hin x hx.1⟩)
    · intro p hm x hx
      rw [hck]
      rcases List.mem_append.1 hm with hm | hm
      · obtain ⟨b, hb, hin⟩ := (hp p hm).2
        exact h.toParts.fixed_lt hb (hin x hx)
      rcases List.mem_append.1 hm with hm | hm
      · obtain ⟨r, hr, rfl⟩ := List.mem_map.1 hm
        exact h.toParts.row_lt hr (((hrow r hr).2.2 x).1 hx)
      · exact h.toParts.cluster_lt hm hx
  · rw [List.map_map]; exact h.content.rep.urls
  · intro p hm
    obtain ⟨r, hr, rfl⟩ := List.mem_map.1 hm
    exact ⟨r.2, h.content.rep.entryAt hr, (hrow r hr).1⟩
  · rw [hn3, List.length_map]; exact h.content.rep.len
  · rw [hn4]
    unfold PointerList.len
    rw [h.content.pointers, List.length_map]

/-- C37. After a flush, the header, the mimetype list, both pointer lists, all entries and all clusters are in the file on
pairwise disjoint pieces below the checksum position, and the file ends with 16 bytes at the checksum position. If there
was anything to flush, these are the checksum. This holds after every history of modifications, flushes and openings of a
file that was laid out like this. -/
theorem C37_layout (hE : E.Good md5) (h0 : Sane E.policy.reserveMimetypeSpace a0 cs0)
    (hist : LayoutHist O E a0 cs0 a1 cs1) (hC : Contents O content setContent a1 cs1 cs2)
    (hok : flush E.hasher E.short E.chunksize E.policy content setContent a1 = (.ok (), a2)) :
    (∃ entries, LaidOut a2.zim entries cs2) ∧ (a1.isDirty = true → a2.zim.Checksummed md5) ∧ a2.isDirty = false := by
  obtain ⟨rows, extra, h⟩ := sane_hist hE h0 hist
  obtain ⟨h1, h2, rows', h3⟩ :=
    h.flush (truncate := E.policy.truncate) hE.computes hE.delivers hE.chunks hC hok
  exact ⟨⟨_, h3.laidOut h1⟩, h2, h1⟩

/-- C37, for every history of a new archive. (The policy asserts that more than two bytes are reserved.) -/
theorem C37_new (hE : E.Good md5) {r : Nat} (hr : E.policy.reserveMimetypeSpace = some r) (h2 : 2 < r) {uuid : Bytes}
    (hu : uuid.length = 16) (hnew : Archive.new E.policy.reserveMimetypeSpace uuid = .ok a0)
    (hist : LayoutHist O E a0 [] a1 cs1) (hC : Contents O content setContent a1 cs1 cs2)
    (hok : flush E.hasher E.short E.chunksize E.policy content setContent a1 = (.ok (), a2)) :
    (∃ entries, LaidOut a2.zim entries cs2) ∧ (a1.isDirty = true → a2.zim.Checksummed md5) ∧ a2.isDirty = false := by
  obtain ⟨a, h1, -, hl⟩ := Laid.new (r := r) (by omega) hu
  rw [hr, h1] at hnew
  injection hnew with hnew
  subst hnew
  exact C37_layout hE ⟨[], _, by rw [hr]; exact hl⟩ hist hC hok

/-- A new archive can always be created, and there is something to flush. -/
theorem C37_new_succeeds {r : Nat} (h2 : 2 < r) {uuid : Bytes} (hu : uuid.length = 16) :
    ∃ a, Archive.new (some r) uuid = .ok a ∧ a.isDirty = true ∧ Sane (some r) a [] := by
  obtain ⟨a, h1, h2, hl⟩ := Laid.new (r := r) (by omega) hu
  exact ⟨a, h1, h2, [], _, hl⟩

/-- C39. Opening a file without unflushed changes succeeds if the article title list can be read, and gives the same
header, mimetypes and pointers; every url and every index then leads to the same entry. -/
theorem C39_open (h : Sane reserve a cs) (hd : a.isDirty = false) (titles articles : Zim → PyRes PointerList) (w : Bool)
    (harts : ∀ z, ∃ l, articles z = .ok l) :
    ∃ a2, load titles articles w a.zim.file = .ok a2 ∧
      a2.zim.header = { a.zim.header with mutable := w } ∧
      a2.zim.mimetypes = { a.zim.mimetypes with mutable := w } ∧
      a2.zim.urls = { a.zim.urls with mutable := w } ∧
      a2.zim.clusters = { a.zim.clusters with mutable := w } ∧
      a2.zim.file = a.zim.file ∧
      (∀ u, a2.zim.entryByFullUrl u = a.zim.entryByFullUrl u) ∧
      (∀ i, a2.zim.entryByIndex i = a.zim.entryByIndex i) ∧
      (∀ u, a2.zim.hasEntry u = a.zim.hasEntry u) := by
  obtain ⟨rows, extra, h⟩ := h
  obtain ⟨d1, d2, d3, d4⟩ := notDirty hd
  obtain ⟨has, -, e⟩ := h.toParts.load d1 d2 d3 d4 titles articles w
  obtain ⟨as, has'⟩ : ∃ as, (if has then articles (loaded w { pointers := [] } a).zim else .ok { pointers := [] }) = .ok as := by
    cases has with
    | false => exact ⟨_, rfl⟩
    | true =>
      obtain ⟨l, hl⟩ := harts (loaded w { pointers := [] } a).zim
      exact ⟨l, by rw [if_pos rfl]; exact hl⟩
  rw [has'] at e
  refine ⟨loaded w as a, e, ?_, ?_, ?_, ?_, rfl, fun u => rfl, fun i => rfl, fun u => rfl⟩
  · show ({ a.zim.header with dirty := false, mutable := w } : Header) = _
    rw [← d1]
  · show ({ a.zim.mimetypes with dirty := false, mutable := w } : MimeTypeList) = _
    rw [← d2]
  · show ({ a.zim.urls with dirty := false, mutable := w } : PointerList) = _
    rw [← d3]
  · show ({ a.zim.clusters with dirty := false, mutable := w } : PointerList) = _
    rw [← d4]

/-- C39, for the file that a flush leaves, after every history of a new archive. -/
theorem C39_flush_open (hE : E.Good md5) {r : Nat} (hr : E.policy.reserveMimetypeSpace = some r) (h2 : 2 < r) {uuid : Bytes}
    (hu : uuid.length = 16) (hnew : Archive.new E.policy.reserveMimetypeSpace uuid = .ok a0)
    (hist : LayoutHist O E a0 [] a1 cs1) (hC : Contents O content setContent a1 cs1 cs2)
    (hok : flush E.hasher E.short E.chunksize E.policy content setContent a1 = (.ok (), a2))
    (titles articles : Zim → PyRes PointerList) (w : Bool) (harts : ∀ z, ∃ l, articles z = .ok l) :
    ∃ a3, load titles articles w a2.zim.file = .ok a3 ∧
      a3.zim.header = { a2.zim.header with mutable := w } ∧
      a3.zim.mimetypes = { a2.zim.mimetypes with mutable := w } ∧
      a3.zim.urls = { a2.zim.urls with mutable := w } ∧
      a3.zim.clusters = { a2.zim.clusters with mutable := w } ∧
      a3.zim.file = a2.zim.file ∧
      (∀ u, a3.zim.entryByFullUrl u = a2.zim.entryByFullUrl u) ∧
      (∀ i, a3.zim.entryByIndex i = a2.zim.entryByIndex i) ∧
      (∀ u, a3.zim.hasEntry u = a2.zim.hasEntry u) := by
  obtain ⟨a, h1, -, hl⟩ := Laid.new (r := r) (by omega) hu
  rw [hr, h1] at hnew
  injection hnew with hnew
  subst hnew
  have h0 : Sane E.policy.reserveMimetypeSpace a [] := ⟨[], _, by rw [hr]; exact hl⟩
  exact C39_open (sane_hist hE h0 (.flush hist hC hok)) (C37_layout hE h0 hist hC hok).2.2 titles articles w harts

/-! ## A concrete history -/

open Zim (writeCluster rawOps oneBlob oneBlob_writes write write_eq page page_proper toyHasher toyHash toyHasher_computes
  HasClusters C53_new)

/-- surroundings with the given number of bytes reserved for the mimetypes -/
def demoEnv (r : Option Nat) : Env :=
  { hasher := toyHasher, short := fun pos n => if pos % 2 = 1 then 1 else n, chunksize := 7, policy := ⟨true, r⟩ }

theorem demoEnv_good (r : Option Nat) : (demoEnv r).Good toyHash where
  computes := toyHasher_computes
  delivers pos n hn := by
    show 0 < if pos % 2 = 1 then 1 else n
    split <;> omega
  chunks := Nat.succ_pos 6

/-- a new archive -/
def demo0 (r : Option Nat) : Archive :=
  match Archive.new r (List.replicate 16 1) with
  | .ok a => a
  | .error _ => { zim := Zim.blank, mimeSize := 0, urlSize := 0, clusterSize := 0 }

/-- with a mimetype, … -/
def demo1 (r : Option Nat) : Zim :=
  { (demo0 r).zim with mimetypes := ((demo0 r).zim.mimetypes.getIndex [116] true).2 }

/-- … a cluster … -/
def demo2 (r : Option Nat) : Zim := (writeCluster rawOps 9 (oneBlob [7, 8]) none (demo1 r)).2

/-- … and two entries -/
def demo3 (r : Option Nat) : Zim := write (page "C" "b" "y") (write (page "C" "a" "x") (demo2 r))

def demoFlush (r : Option Nat) (a : Archive) : PyRes Unit × Archive :=
  flush (demoEnv r).hasher (demoEnv r).short (demoEnv r).chunksize (demoEnv r).policy (pure ()) (fun _ => pure ()) a

/-- flushed -/
def demo4 (r : Option Nat) : Archive := (demoFlush r { demo0 r with zim := demo3 r }).2

theorem flush_eq {a : Archive} {r : Option Nat} (h : (demoFlush r a).1 = .ok ()) :
    flush (demoEnv r).hasher (demoEnv r).short (demoEnv r).chunksize (demoEnv r).policy (pure ()) (fun _ => pure ()) a =
      (.ok (), (demoFlush r a).2) := by
  rw [← h]; rfl

theorem demo_works {r : Nat} (hr : r = 20 ∨ r = 3) : ∃ off, Works rawOps (demo0 (some r)).zim [] (demo3 (some r))
    [(off, Zim.sampleCluster)] := by
  obtain ⟨a, ha, -, hl⟩ := Laid.new (r := r) (by omega) (uuid := List.replicate 16 1) (by simp)
  have h0 : demo0 (some r) = a := by unfold demo0; rw [ha]
  rw [← h0] at hl
  have w1 : Works rawOps (demo0 (some r)).zim [] (demo1 (some r)) [] :=
    .step .refl (.mimetype (mt := [116]) (reg := true) (by decide) (by decide) rfl)
  obtain ⟨rows, h1, -⟩ := hl.toParts.content.works w1
  obtain ⟨off, c', z', h2, h3, -, -⟩ := C53_new ⟨_, _, h1⟩ (oneBlob_writes _ _) (by decide) rfl (num := none)
    (by simp) (fuel := 9) (by decide)
  refine ⟨off, ?_⟩
  have hz : z' = demo2 (some r) := by unfold demo2; rw [h2]
  rw [hz] at h2
  have w2 := w1.step (.cluster (.new (oneBlob_writes _ _) (by decide) (by decide) rfl h2 h3))
  obtain ⟨_, h4⟩ := write_eq (e := page "C" "a" "x") (z := demo2 (some r)) (by rcases hr with rfl | rfl <;> decide +kernel)
  obtain ⟨_, h5⟩ := write_eq (e := page "C" "b" "y") (z := write (page "C" "a" "x") (demo2 (some r)))
    (by rcases hr with rfl | rfl <;> decide +kernel)
  have p1 := page_proper (n := "C") (u := "a") (t := "x") (by decide +kernel) (by decide +kernel)
  have p2 := page_proper (n := "C") (u := "b") (t := "y") (by decide +kernel) (by decide +kernel)
  exact (w2.step (.entry ⟨p1, fun _ => rfl⟩ h4)).step (.entry ⟨p2, fun _ => rfl⟩ h5)

theorem demo_contents {a : Archive} {cs : List Stored} {b : Bytes} (hb : a.zim.articles.toBytes 4 = .ok b) :
    Contents rawOps (pure ()) (fun _ => pure ()) a cs cs :=
  ⟨fun _ => ⟨a.zim, cs, a.zim, rfl, .refl, fun _ => ⟨b, hb, rfl, .refl⟩, fun _ => rfl⟩, fun _ => rfl⟩

theorem demo_new (r : Nat) : Archive.new (some r) (List.replicate 16 1) = .ok (demo0 (some r)) := rfl

/-- The hypotheses of `C37_new` and `C39_flush_open` hold for this history. -/
example : ∃ cs, LayoutHist rawOps (demoEnv (some 20)) (demo0 (some 20)) [] { demo0 (some 20) with zim := demo3 (some 20) } cs ∧
    Contents rawOps (pure ()) (fun _ => pure ()) { demo0 (some 20) with zim := demo3 (some 20) } cs cs ∧
    (demoFlush (some 20) { demo0 (some 20) with zim := demo3 (some 20) }).1 = .ok () := by
  obtain ⟨off, h⟩ := demo_works (r := 20) (Or.inl rfl)
  exact ⟨_, .work .start h, demo_contents (b := []) (by decide +kernel), by decide +kernel⟩

example : (demo4 (some 20)).zim.header.checksumPosition = 175 ∧ (demo4 (some 20)).zim.file.length = 191 ∧
    (demo4 (some 20)).zim.header.mimeListPosition = 80 ∧ (demo4 (some 20)).zim.header.urlPointerPosition = 159 ∧
    (demo4 (some 20)).zim.header.clusterPointerPosition = 151 ∧
    (demo4 (some 20)).zim.urls.pointers = [111, 131] ∧ (demo4 (some 20)).zim.clusters.pointers = [100] := by decide +kernel

/-- the archive opened again -/
def demo5 (r : Option Nat) : Archive :=
  match load (fun _ => .error .hang) (fun _ => .error .hang) true (demo4 r).zim.file with
  | .ok a => a
  | .error _ => demo0 r

theorem demo5_sane {r : Nat} (hr : r = 20 ∨ r = 3) : ∃ off, LayoutHist rawOps (demoEnv (some r)) (demo0 (some r)) []
    (demo5 (some r)) [(off, Zim.sampleCluster)] ∧ Sane (some r) (demo5 (some r)) [(off, Zim.sampleCluster)] := by
  obtain ⟨off, h⟩ := demo_works hr
  have h0 : Sane (demoEnv (some r)).policy.reserveMimetypeSpace (demo0 (some r)) [] := by
    obtain ⟨a, ha, -, hl⟩ := Laid.new (r := r) (by omega) (uuid := List.replicate 16 1) (by simp)
    have h0 : demo0 (some r) = a := by unfold demo0; rw [ha]
    rw [h0]
    exact ⟨[], _, hl⟩
  have hist : LayoutHist rawOps (demoEnv (some r)) (demo0 (some r)) [] (demo4 (some r)) [(off, Zim.sampleCluster)] :=
    .flush (.work .start h)
      (demo_contents (b := []) (by rcases hr with rfl | rfl <;> decide +kernel))
      (flush_eq (by rcases hr with rfl | rfl <;> decide +kernel))
  have hist2 : LayoutHist rawOps (demoEnv (some r)) (demo0 (some r)) [] (demo5 (some r)) [(off, Zim.sampleCluster)] := by
    refine .reopen hist (by rcases hr with rfl | rfl <;> decide +kernel) (titles := fun _ => .error .hang)
      (articles := fun _ => .error .hang) ?_
    have hs : (load (fun _ => .error .hang) (fun _ => .error .hang) true (demo4 (some r)).zim.file).toOption.isSome = true := by
      rcases hr with rfl | rfl <;> decide +kernel
    unfold demo5
    generalize load _ _ _ _ = x at hs ⊢
    cases x with
    | error x => cases hs
    | ok a => rfl
  exact ⟨off, hist2, sane_hist (demoEnv_good _) h0 hist2⟩

/-- with a further mimetype -/
def demo6 : Archive := { demo5 (some 3) with
    zim := { (demo5 (some 3)).zim with mimetypes := ((demo5 (some 3)).zim.mimetypes.getIndex [117, 118] true).2 } }

theorem demo6_flush : (demoFlush (some 20) demo6).1 = .ok () := by decide +kernel

theorem demo6_pointers : (demo5 (some 3)).zim.clusters.pointers = [83] ∧
    (demoFlush (some 20) demo6).2.zim.clusters.pointers = [83] := by decide +kernel

theorem demo6_byte : (demoFlush (some 20) demo6).2.zim.file[83]? = some 118 := by decide +kernel

theorem register_works (z : Zim) (cs : List Stored) {mt : Bytes} (h : mt ≠ []) (h0 : (0 : UInt8) ∉ mt) :
    Works rawOps z cs { z with mimetypes := (z.mimetypes.getIndex mt true).2 } cs :=
  .step .refl (.mimetype (mt := mt) (reg := true) h h0 rfl)

theorem demo6_works (cs : List Stored) : Works rawOps (demo5 (some 3)).zim cs demo6.zim cs :=
  register_works (demo5 (some 3)).zim cs (mt := [117, 118]) (by decide) (by decide)

/-- C37 needs that the space reserved for the mimetypes is the same as when the archive was created: an archive which was
created with less (or by another program) is damaged if a mimetype is added. Here, a cluster is overwritten. (The
default of the policy is to reserve 2048 bytes, also for archives that are opened.) -/
theorem C37_other_reserve_false : ∃ (a : Archive) (off : Nat) (cluster : Bytes), Sane (some 3) a [(off, cluster)] ∧
    a.isDirty = false ∧ Holds a.zim.file off cluster ∧
    ∃ a1 a2 : Archive, Works rawOps a.zim [(off, cluster)] a1.zim [(off, cluster)] ∧ a1 = { a with zim := a1.zim } ∧
      flush (demoEnv (some 20)).hasher (demoEnv (some 20)).short (demoEnv (some 20)).chunksize (demoEnv (some 20)).policy
        (pure ()) (fun _ => pure ()) a1 = (.ok (), a2) ∧
      a2.zim.clusters.pointers = [(off : Int)] ∧ ¬ Holds a2.zim.file off cluster := by
  obtain ⟨off, -, h⟩ := demo5_sane (r := 3) (Or.inr rfl)
  have hd : (demo5 (some 3)).isDirty = false := by decide +kernel
  refine ⟨demo5 (some 3), off, Zim.sampleCluster, h, hd, ?_, demo6, (demoFlush (some 20) demo6).2, demo6_works _, rfl,
    flush_eq demo6_flush, ?_⟩
  all_goals obtain ⟨rows, extra, h⟩ := h
  · exact h.content.held _ (List.mem_singleton.2 rfl)
  · obtain ⟨hp, hp'⟩ := demo6_pointers
    have hoff : off = 83 := by
      have := h.content.pointers
      rw [hp] at this
      simp at this
      omega
    subst hoff
    refine ⟨hp', fun hh => ?_⟩
    have h1 := hh 0 (by decide)
    rw [Nat.add_zero, demo6_byte] at h1
    cases h1

/-- Without reserved space, the first flush of a new archive makes the first byte of the header available for other
data: the next request for one byte is given this byte. -/
theorem C37_unreserved_header : ∃ a : Archive, (demoFlush none { demo0 none with zim := demo1 none }) = (.ok (), a) ∧
    ¬ Zim.InUse a.zim 0 ∧ (Zim.allocate 1 a.zim).1 = .ok 0 := by
  refine ⟨(demoFlush none { demo0 none with zim := demo1 none }).2, flush_eq (by decide +kernel), ?_, by decide +kernel⟩
  rintro ⟨-, h⟩
  have hf : (demoFlush none { demo0 none with zim := demo1 none }).2.zim.space.freeBlocks = [(0, 1)] := by decide +kernel
  rw [hf] at h
  exact h ⟨(0, 1), by simp, by simp only [InBlock]; omega⟩

def setZim (a : Archive) (z : Zim) : Archive := { a with zim := z }

theorem setZim_zim (a : Archive) (z : Zim) : (setZim a z).zim = z := rfl

theorem setZim_eq (a : Archive) (z : Zim) : setZim a z = { a with zim := (setZim a z).zim } := rfl

/-- an entry rewritten in place -/
def demo7 : Archive := setZim (demo4 (some 20)) (write (page "C" "a" "z") (demo4 (some 20)).zim)

theorem demo7_zim : write (page "C" "a" "z") (demo4 (some 20)).zim = demo7.zim := by
  unfold demo7; rw [setZim_zim]

theorem demo7_eq : demo7 = { demo4 (some 20) with zim := demo7.zim } := by unfold demo7; exact setZim_eq _ _

theorem demo7_hash : ¬ demo7.zim.Checksummed toyHash := by
  intro hc
  have : (demo7.zim.file.drop demo7.zim.header.checksumPosition).take 16 ≠
      toyHash (demo7.zim.file.take demo7.zim.header.checksumPosition) := by decide +kernel
  exact this hc.hash

theorem demo4_hash : (demo4 (some 20)).zim.Checksummed toyHash ∧ (demo4 (some 20)).isDirty = false :=
  ⟨⟨by decide +kernel, by decide +kernel⟩, by decide +kernel⟩

/-- C38 needs that the archive knows that something was written: writing an entry of the same size in the place of the old
one is not noticed, a following flush does nothing and the checksum is wrong. -/
theorem C38_unnoticed_rewrite : ∃ (a a1 : Archive) (e e' : Entry), a.zim.Checksummed toyHash ∧ a.isDirty = false ∧
    Zim.Accepts a.zim e ∧ Zim.writeEntry 9 e true true a.zim = (.ok e', a1.zim) ∧ a1 = { a with zim := a1.zim } ∧
    demoFlush (some 20) a1 = (.ok (), a1) ∧ ¬ a1.zim.Checksummed toyHash := by
  obtain ⟨e', he'⟩ := write_eq (e := page "C" "a" "z") (z := (demo4 (some 20)).zim) (by decide +kernel)
  refine ⟨demo4 (some 20), demo7, page "C" "a" "z", e',
    demo4_hash.1, demo4_hash.2, ⟨page_proper (n := "C") (by decide +kernel) (by decide +kernel), fun _ => rfl⟩, (by rw [← demo7_zim]; exact he'), demo7_eq, ?_,
    demo7_hash⟩
  exact Zim.C38_clean (by decide +kernel) (by decide +kernel) (by decide +kernel)

/-- Opening does not check that the file is a ZIM file (`Header.check_compatible` is never called). -/
theorem C39_magic_unchecked : ∃ (file : Bytes) (a : Archive),
    load (fun _ => .error .hang) (fun _ => .error .hang) true file = .ok a ∧
    a.zim.header.checkCompatible = .error .notAZimFile := by
  refine ⟨[1, 2, 3, 4, 6, 0, 3, 0] ++ List.replicate 48 0 ++ [80] ++ List.replicate 24 0, _, rfl, ?_⟩
  decide +kernel

end Archive
end Pyzim
