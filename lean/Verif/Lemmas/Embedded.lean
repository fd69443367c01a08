import Verif.Lemmas.Shift
import Verif.Spec.Embedded

/-! An archive with bytes in front of it. -/

namespace Pyzim
namespace Embedded
variable {D : Type} {X : Codecs D} {kind : ClusterKind} {calls : Nat}

/-- The archive with bytes in front of it. -/
def behind (pre : Bytes) (z : Zim) : Embedded := ⟨pre.length, { z with file := pre ++ z.file }⟩

variable (pre : Bytes) (z : Zim)

theorem behind_entryAt (l : Int) : (behind pre z).entryAt l = z.entryAt l := by
  have h : Entry.fromFile ⟨pre ++ z.file, 0⟩ (some (pre.length + l.toNat)) =
      shiftOpt pre (Entry.fromFile ⟨z.file, 0⟩ (some l.toNat)) := Entry.fromFile_shift pre ⟨z.file, 0⟩ l.toNat
  simp only [entryAt, Zim.entryAt, behind, h]
  split
  · rfl
  · rcases Entry.fromFile ⟨z.file, 0⟩ (some l.toNat) with _ | ⟨r, f⟩ <;> rfl

theorem behind_entryAt' : (behind pre z).entryAt = z.entryAt := funext (behind_entryAt pre z)

theorem behind_urlKey : (behind pre z).urlKey = z.urlKey := by
  funext l
  unfold urlKey Zim.urlKey
  rw [behind_entryAt]
  cases z.entryAt l <;> rfl

theorem behind_entryByIndex : (behind pre z).entryByIndex = z.entryByIndex := by
  funext i
  unfold entryByIndex Zim.entryByIndex
  rw [behind_entryAt']
  rfl

theorem behind_entryByFullUrl (u : String) : (behind pre z).entryByFullUrl u = z.entryByFullUrl u := by
  unfold entryByFullUrl Zim.entryByFullUrl
  rw [behind_urlKey, behind_entryAt']
  rfl

theorem behind_hasEntry (u : String) : (behind pre z).hasEntry u = z.hasEntry u := by
  unfold hasEntry Zim.hasEntry
  rw [behind_urlKey]
  rfl

theorem behind_mainpage : (behind pre z).mainpageEntry = z.mainpageEntry := by
  unfold mainpageEntry Zim.mainpageEntry
  rw [behind_entryAt']
  rfl

theorem behind_resolve (n : Nat) (x : Entry) : (behind pre z).resolve n x = z.resolve n x := by
  have h : ∀ n x, (behind pre z).resolveLoop n x = z.resolveLoop n x := by
    intro n
    induction n with
    | zero => intro x; rfl
    | succ n ih =>
      intro x
      unfold resolveLoop Zim.resolveLoop
      rw [behind_entryByIndex]
      simp only [ih]
      split
      · rcases x.kind with _ | i
        · rfl
        · dsimp only
          cases z.entryByIndex i <;> rfl
      · rfl
  unfold resolve Zim.resolve
  rw [h]
  cases x.kind <;> rfl

theorem cluster_behind (p : Nat) : (⟨{ kind := kind, offset := pre.length + p }, PyFile.seek ⟨pre ++ z.file, 0⟩ pre.length⟩ : CSt D) =
    Cluster.shiftC pre (Zim.clusterAt kind z p) := rfl

variable {z}

theorem behind_read (hz : z.mutable = false) (x : Entry) (a b : Option Int) :
    (behind pre z).readContent X kind x a b = z.readContent X kind calls x a b := by
  unfold readContent Zim.readContent
  rcases x.kind with ⟨c, i⟩ | i
  · simp only [bind, Except.bind]
    rcases Zim.checkRange a b with _ | r
    · rfl
    · simp only [Zim.readBlobOf, hz, Bool.false_eq_true, if_false, clusterByIndex, behind, bind, Except.bind, pure, Except.pure]
      rcases z.clusters.getByIndex c with _ | p
      · rfl
      · cases z.closed
        · simp only [Bool.false_eq_true, if_false]
          rw [Cluster.readBlob_seeks X i r.1 r.2 _ _ pre.length ⟨rfl, rfl, rfl⟩ rfl, cluster_behind, Cluster.readBlob_eqv]
        · rfl
  · rfl

theorem behind_pieces (hz : z.mutable = false) (x : Entry) (bs : Nat) (a b : Option Int) (n : Nat) :
    (behind pre z).iterContent X kind x bs a b n = z.iterContent X kind calls x bs a b n := by
  unfold iterContent Zim.iterContent
  rcases x.kind with ⟨c, i⟩ | i
  · dsimp only
    split
    · rfl
    simp only [bind, Except.bind]
    rcases Zim.checkRange a b with _ | r
    · rfl
    · simp only [Zim.iterBlobOf, hz, Bool.false_eq_true, if_false, clusterByIndex, behind, bind, Except.bind, pure, Except.pure]
      rcases z.clusters.getByIndex c with _ | p
      · rfl
      · cases z.closed
        · simp only [Bool.false_eq_true, if_false]
          rw [Cluster.iterReadBlob_seeks X i bs r.1 r.2 n _ _ pre.length ⟨rfl, rfl, rfl⟩ rfl, cluster_behind,
            Cluster.iterReadBlob_eqv]
        · rfl
  · rfl

theorem behind_size (hz : z.mutable = false) (x : Entry) :
    (behind pre z).contentSize X kind x = z.contentSize X kind calls x := by
  unfold contentSize Zim.contentSize
  rcases x.kind with ⟨c, i⟩ | i
  · simp only [hz, Bool.false_eq_true, if_false, clusterByIndex, behind, bind, Except.bind, pure, Except.pure]
    rcases z.clusters.getByIndex c with _ | p
    · rfl
    · cases z.closed
      · simp only [Bool.false_eq_true, if_false]
        rw [Cluster.getBlobSize_seeks X i _ _ pre.length ⟨rfl, rfl, rfl⟩ rfl, cluster_behind, Cluster.getBlobSize_eqv]
      · rfl
  · rfl

theorem behind_alike (hz : z.mutable = false) : ReadsAlike X kind calls (behind pre z) z where
  header := rfl
  mimetypes := rfl
  titleList := rfl
  articleList := rfl
  byIndex i := congrFun (behind_entryByIndex pre z) i
  byUrl := behind_entryByFullUrl pre z
  has := behind_hasEntry pre z
  mainpage := behind_mainpage pre z
  entries a b := by unfold iterEntries Zim.iterEntries; rw [behind_entryAt']; rfl
  articles a b := by unfold iterArticles Zim.iterArticles; rw [behind_entryByIndex]; rfl
  resolve := behind_resolve pre z
  size := behind_size pre hz
  read := behind_read pre hz
  pieces := behind_pieces pre hz

theorem behind_list (hz : z.mutable = false) (follow : Nat) (u : String) :
    listFromEntry X kind follow u (behind pre z) = Zim.listFromEntry X kind calls follow u z := by
  have h := behind_alike (X := X) (kind := kind) (calls := calls) pre hz
  unfold listFromEntry Zim.listFromEntry
  rw [h.byUrl]
  rcases z.entryByFullUrl u with _ | e
  · rfl
  · simp only [bind, Except.bind]
    rw [h.resolve]
    rcases z.resolve follow e with _ | e'
    · rfl
    · dsimp only
      rw [h.read]

/-- Archives of version 6.3 or later have no list of all titles. -/
def NewVersion (h : Header) : Prop := 6 < h.majorVersion ∨ (h.majorVersion = 6 ∧ 3 ≤ h.minorVersion)

instance (h : Header) : Decidable (NewVersion h) := by unfold NewVersion; infer_instance

/-- What is loaded before the lists of titles. -/
def raw (file : Bytes) (h : Header) (mt : MimeTypeList) (urls clusters : PointerList) (ts : Option PointerList) : Zim :=
  { file := file
    header := { h with mutable := false }
    mimetypes := { mt with mutable := false }
    urls := { urls with mutable := false }
    clusters := { clusters with mutable := false }
    articles := { pointers := [], mutable := false }
    titles := ts
    space := SpaceAllocator.new h.checksumPosition
    clusterNum := clusters.len
    mutable := false }

/-- Opening an archive behind other bytes. `titles` is how the list of all titles is read. -/
theorem load_behind (follow : Nat) (file : Bytes) (titles : Zim → PyRes PointerList)
    (ht : ∀ h mt urls clusters, Header.fromFile ⟨file, 0⟩ 0 = .ok h → ¬ NewVersion h →
      PointerList.fromFile 8 ⟨file, 0⟩ h.entryCount h.urlPointerPosition = .ok urls →
      titleList X kind follow (behind pre (raw file h mt urls clusters none)) = titles (raw file h mt urls clusters none)) :
    load X kind follow pre.length (pre ++ file) =
      (Archive.load titles (Zim.listFromEntry X kind calls follow "Xlisting/titleOrdered/v1") false file).map
        (fun a => behind pre a.zim) := by
  have h1 : Header.fromFile ⟨pre ++ file, 0⟩ pre.length = Header.fromFile ⟨file, 0⟩ 0 := Header.fromFile_shift pre ⟨file, 0⟩ 0
  have h2 : ∀ p, MimeTypeList.fromFile ⟨pre ++ file, 0⟩ (some (pre.length + p)) =
      shiftOpt pre (MimeTypeList.fromFile ⟨file, 0⟩ (some p)) := fun p => MimeTypeList.fromFile_shift pre ⟨file, 0⟩ p
  have h3 : ∀ n p, PointerList.fromFile 8 ⟨pre ++ file, 0⟩ n (pre.length + p) = PointerList.fromFile 8 ⟨file, 0⟩ n p :=
    fun n p => PointerList.fromFile_shift pre 8 ⟨file, 0⟩ n p
  unfold load Archive.load
  simp only [h1, h2, h3, bind, Except.bind]
  rcases hh : Header.fromFile ⟨file, 0⟩ 0 with _ | h
  · rfl
  dsimp only
  rcases MimeTypeList.fromFile ⟨file, 0⟩ (some h.mimeListPosition) with _ | ⟨mt, f⟩
  · rfl
  simp only [shiftOpt, Option.map_some]
  rcases hu : PointerList.fromFile 8 ⟨file, 0⟩ h.entryCount h.urlPointerPosition with _ | urls
  · rfl
  dsimp only
  rcases PointerList.fromFile 8 ⟨file, 0⟩ h.clusterCount h.clusterPointerPosition with _ | clusters
  · rfl
  dsimp only
  have e0 := behind_hasEntry pre (raw file h mt urls clusters none) "Xlisting/titleOrdered/v1"
  simp only [behind, raw] at e0
  have e1 : ∀ ts, _ := fun ts => behind_list (X := X) (kind := kind) (calls := calls)
    (z := raw file h mt urls clusters ts) pre rfl follow "Xlisting/titleOrdered/v1"
  simp only [behind, raw] at e1
  by_cases hv : 6 < h.majorVersion ∨ (h.majorVersion = 6 ∧ 3 ≤ h.minorVersion)
  · simp only [hv, if_true]
    rw [e0]
    rcases Zim.hasEntry _ "Xlisting/titleOrdered/v1" with _ | b
    · rfl
    · cases b
      · rfl
      · simp only [if_true]
        rw [e1]
        rcases Zim.listFromEntry X kind calls follow "Xlisting/titleOrdered/v1" _ with _ | l <;> rfl
  · have hT := ht h mt urls clusters hh hv hu
    simp only [behind, raw] at hT
    simp only [hv, if_false]
    rw [hT]
    rcases titles _ with _ | l
    · rfl
    · dsimp only
      rw [e0]
      rcases Zim.hasEntry _ "Xlisting/titleOrdered/v1" with _ | b
      · rfl
      · cases b
        · rfl
        · simp only [if_true]
          rw [e1]
          rcases Zim.listFromEntry X kind calls follow "Xlisting/titleOrdered/v1" _ with _ | l <;> rfl

/-- What is known of the file of an archive that could be opened. -/
theorem load_parts {titles articles : Zim → PyRes PointerList} {file : Bytes} {a : Archive}
    (h : Archive.load titles articles false file = .ok a) :
    ∃ hd urls, Header.fromFile ⟨file, 0⟩ 0 = .ok hd ∧
      PointerList.fromFile 8 ⟨file, 0⟩ hd.entryCount hd.urlPointerPosition = .ok urls ∧ a.zim.file = file ∧
      a.zim.urls = { urls with mutable := false } ∧ a.zim.mutable = false := by
  unfold Archive.load at h
  simp only [bind, Except.bind] at h
  rcases hh : Header.fromFile ⟨file, 0⟩ 0 with _ | hd
  · rw [hh] at h; cases h
  rw [hh] at h
  dsimp only at h
  rcases hm : MimeTypeList.fromFile ⟨file, 0⟩ (some hd.mimeListPosition) with _ | ⟨mt, f⟩
  · rw [hm] at h; cases h
  rw [hm] at h
  dsimp only at h
  rcases hu : PointerList.fromFile 8 ⟨file, 0⟩ hd.entryCount hd.urlPointerPosition with _ | urls
  · rw [hu] at h; cases h
  rw [hu] at h
  dsimp only at h
  refine ⟨hd, urls, rfl, hu, ?_⟩
  rcases hc : PointerList.fromFile 8 ⟨file, 0⟩ hd.clusterCount hd.clusterPointerPosition with _ | clusters
  · rw [hc] at h; cases h
  rw [hc] at h
  dsimp only at h
  repeat' split at h
  all_goals first
    | (cases h; exact ⟨rfl, rfl, rfl⟩)
    | cases h

theorem load_mutable {titles articles : Zim → PyRes PointerList} {file : Bytes} {a : Archive}
    (h : Archive.load titles articles false file = .ok a) : a.zim.mutable = false := by
  obtain ⟨_, _, _, _, _, _, h⟩ := load_parts h
  exact h

end Embedded
end Pyzim
