import Verif.Props.Creator

/-!
# Reading the content of the entries of an archive, as a whole, in part, in pieces (C73, C74)
-/

namespace Pyzim

/-- `content[a:b]` of Python, for `0 ≤ a ≤ b`. -/
def slice (content : Bytes) (a b : Nat) : Bytes := (content.take b).drop a

/-- The entry has the given content: its size is reported, and it is read as a whole, up to a position, between two
positions (the end may lie behind the end of the content, the start not), and in pieces of at most `bs` bytes. -/
structure HasContent {D : Type} (X : Codecs D) (kind : ClusterKind) (calls : Nat) (z : Zim) (e : Entry)
    (content : Bytes) : Prop where
  size : z.contentSize X kind calls e = .ok (content.length : Int)
  whole : z.readContent X kind calls e = .ok content
  upTo : ∀ b : Nat, z.readContent X kind calls e none (some b) = .ok (content.take b)
  part : ∀ a b : Nat, a ≤ b → a ≤ content.length → z.readContent X kind calls e (some a) (some b) = .ok (slice content a b)
  pieces : ∀ bs, 0 < bs → ∀ n, PiecesOf content bs n (z.iterContent X kind calls e bs none none n)
  piecesUpTo : ∀ bs, 0 < bs → ∀ (b n : Nat), PiecesOf (content.take b) bs n (z.iterContent X kind calls e bs none (some b) n)
  piecesOfPart : ∀ bs, 0 < bs → ∀ a b : Nat, a ≤ b → a ≤ content.length → ∀ n,
    PiecesOf (slice content a b) bs n (z.iterContent X kind calls e bs (some a) (some b) n)

section
variable {D K : Type} {X : Codecs D} {kind : ClusterKind} {calls : Nat} {z : Zim} {e : Entry}

theorem partOf_none (content : Bytes) : partOf content none none = content := by
  simp [partOf]

theorem partOf_upTo (content : Bytes) (b : Nat) : partOf content none (some b) = content.take b := by
  simp [partOf, List.take_eq_take_iff]

theorem partOf_part (content : Bytes) (a b : Nat) : partOf content (some a) (some b) = slice content a b := by
  simp only [partOf, slice, Option.getD_some]
  rw [List.drop_take, List.take_eq_take_iff, List.length_drop]
  omega

/-- what the methods of the entry give is what the methods of the cluster give -/
theorem HasContent.of_cluster {s : CSt D} {c b : Nat} {content : Bytes} (hk : e.kind = .content c b)
    (h : Cluster.Gives X s b content)
    (h1 : z.contentSize X kind calls e = (Cluster.getBlobSize X b s).1)
    (h2 : ∀ start stop, z.readBlobOf X kind calls c b start stop = (Cluster.readBlob X b start stop s).1)
    (h3 : ∀ bs start stop n, z.iterBlobOf X kind calls c b bs start stop n = (Cluster.iterReadBlob X b bs start stop n s).1) :
    HasContent X kind calls z e content := by
  have r : ∀ start stop start' stop', Zim.checkRange start stop = .ok (start', stop') →
      z.readContent X kind calls e start stop = (Cluster.readBlob X b start' stop' s).1 := by
    intro start stop start' stop' hr
    unfold Zim.readContent
    rw [hk]
    simp only [hr, bind, Except.bind, h2]
  have i : ∀ start stop start' stop' bs n, Zim.checkRange start stop = .ok (start', stop') → RangeIn content start' stop' →
      0 < bs → PiecesOf (partOf content start' stop') bs n (z.iterContent X kind calls e bs start stop n) := by
    intro start stop start' stop' bs n hr hin hbs
    unfold Zim.iterContent
    rw [hk]
    simp only
    by_cases hn : n = 0
    · rw [if_pos hn]
      exact ⟨[], false, rfl, by simp, by simp, by simp, by omega⟩
    · rw [if_neg hn]
      simp only [hr, bind, Except.bind, h3]
      exact h.pieces bs hbs start' stop' hin n
  have c1 : ∀ b : Nat, Zim.checkRange none (some (b : Int)) = .ok (none, some b) := by
    intro b
    unfold Zim.checkRange
    simp
  have c2 : ∀ a b : Nat, a ≤ b → Zim.checkRange (some (a : Int)) (some (b : Int)) = .ok (some a, some b) := by
    intro a b hab
    unfold Zim.checkRange
    dsimp only
    rw [if_neg (by omega), if_neg (by omega)]
    simp
  have i0 : ∀ b, RangeIn content none b := fun b => ⟨fun _ _ hh => (by cases hh), fun _ hh => (by cases hh)⟩
  have i2 : ∀ a b : Nat, a ≤ b → a ≤ content.length → RangeIn content (some a) (some b) := by
    intro a b h1 h2
    refine ⟨fun _ _ hh hh' => ?_, fun _ hh => ?_⟩
    · injection hh with hh; injection hh' with hh'; omega
    · injection hh with hh; omega
  refine ⟨h1.trans h.size, ?_, fun b => ?_, fun a b h1 h2 => ?_, fun bs hbs n => ?_, fun bs hbs b n => ?_,
    fun bs hbs a b h1 h2 n => ?_⟩
  · rw [r none none none none rfl]; exact h.whole
  · rw [r _ _ _ _ (c1 b), h.part _ _ (i0 _), partOf_upTo]
  · rw [r _ _ _ _ (c2 a b h1), h.part _ _ (i2 a b h1 h2), partOf_part]
  · have := i none none none none bs n rfl (i0 _) hbs
    rwa [partOf_none] at this
  · have := i _ _ _ _ bs n (c1 b) (i0 _) hbs
    rwa [partOf_upTo] at this
  · have := i _ _ _ _ bs n (c2 a b h1) (i2 a b h1 h2) hbs
    rwa [partOf_part] at this

/-- in an archive opened for reading -/
theorem HasContent.of_readonly {c off b : Nat} {content : Bytes} (hm : z.mutable = false) (ho : z.closed = false)
    (hk : e.kind = .content c b) (hc : z.clusters.getByIndex (c : Int) = .ok (off : Int))
    (h : Cluster.Gives X (Zim.clusterAt kind z off) b content) : HasContent X kind calls z e content := by
  refine .of_cluster hk h ?_ (fun start stop => ?_) (fun bs start stop n => ?_)
  · unfold Zim.contentSize
    rw [hk]
    simp only [hm, Bool.false_eq_true, if_false, hc, ho, bind, Except.bind]
    rfl
  · unfold Zim.readBlobOf
    simp only [hm, Bool.false_eq_true, if_false, hc, ho, bind, Except.bind]
    rfl
  · unfold Zim.iterBlobOf
    simp only [hm, Bool.false_eq_true, if_false, hc, ho, bind, Except.bind]
    rfl

/-- in a writable archive -/
theorem HasContent.of_writable {c off b : Nat} {content : Bytes} (hm : z.mutable = true)
    (hk : e.kind = .content c b) (hc : z.clusters.getByIndex (c : Int) = .ok (off : Int))
    (h : Cluster.Gives X (Zim.clusterAt kind z off) b content) {n : Int} (hn : z.contentSize X kind calls e = .ok n) :
    HasContent X kind calls z e content := by
  obtain ⟨o, ho⟩ : ∃ o, Zim.openCluster X kind calls z c = .ok o := by
    unfold Zim.contentSize at hn
    rw [hk] at hn
    simp only [hm, if_true] at hn
    cases hx : Zim.openCluster X kind calls z c with
    | error x => rw [hx] at hn; cases hn
    | ok o => exact ⟨o, rfl⟩
  have hom : o.m = { inner := .real (Zim.clusterAt kind z off) } := by
    unfold Zim.openCluster at ho
    rw [hc] at ho
    simp only [bind, Except.bind] at ho
    cases hcl : z.closed with
    | true => rw [hcl] at ho; cases ho
    | false =>
      rw [hcl] at ho
      simp only [Bool.false_eq_true, if_false] at ho
      cases hs : (Cluster.getTotalCompressedSize X calls (Zim.clusterAt kind z (off : Int).toNat)).1 with
      | error x => rw [hs] at ho; cases ho
      | ok n =>
        rw [hs] at ho
        injection ho with ho
        rw [← ho]
        rfl
  refine .of_cluster hk h ?_ (fun start stop => ?_) (fun bs start stop n => ?_)
  · unfold Zim.contentSize
    rw [hk]
    simp only [hm, if_true, ho, bind, Except.bind, hom]
    rfl
  · unfold Zim.readBlobOf
    simp only [hm, if_true, ho, bind, Except.bind, hom]
    rfl
  · unfold Zim.iterBlobOf
    simp only [hm, if_true, ho, bind, Except.bind, hom]
    rfl

end

namespace Creator
variable {D K : Type} {S : Setup D K} {md5 : Bytes → Bytes} {r : Nat} {c c' : Creator D} {done : List (List Sourced)}
  {recent : List Sourced} {rs : List Zim.Redirect} {mts : List String}

/-- the entries of the items -/
theorem found (hr : 2 ≤ r) (hS : S.Good md5 (some r)) (h : CreatorHist S c done recent rs)
    (hA : Apart rs (done ++ [recent])) (hd : c.arch.isDirty = false) (hmts : mts.length < 65534) (hl : ∀ l ∈ done ++ [recent], Batch mts l) :
    c.arch.zim.mutable = true ∧ c.arch.zim.closed = false ∧
    (∀ (kind : ClusterKind) (calls follow : Nat) (titles : Zim → PyRes PointerList),
      openArchive { S with kind := kind, calls := calls, follow := follow } titles false c.arch.zim.file =
        .ok (Archive.loaded false { pointers := c.arch.zim.articles.pointers } c.arch)) ∧
    ∀ p ∈ current (done ++ [recent]), ∃ e i off j, Core.Found S.X c.arch p e i off j := by
  refine h.found hr hS hA hd (ML := encode placeholder.mimetype :: mts.map encode) ?_ List.mem_cons_self ?_
  · rw [List.length_cons, List.length_map]; omega
  · intro l h
    have := hl l h
    exact ⟨this.urls, this.size, fun p hp => ⟨List.mem_cons_of_mem _ (List.mem_map.2 ⟨_, this.mimetypes p hp, rfl⟩),
      this.other p hp⟩⟩

/-- **C73.** However the archive came about: once there are no unsaved changes, everybody who opens the file gets the
content of each item from the methods of its entry, as a whole, in part and in pieces. -/
theorem C73_opened (hr : 2 ≤ r) (hS : S.Good md5 (some r)) (h : CreatorHist S c done recent rs)
    (hA : Apart rs (done ++ [recent])) (hd : c.arch.isDirty = false) (hmts : mts.length < 65534) (hl : ∀ l ∈ done ++ [recent], Batch mts l)
    (kind : ClusterKind) (calls follow : Nat) (titles : Zim → PyRes PointerList) :
    ∃ a, openArchive { S with kind := kind, calls := calls, follow := follow } titles false c.arch.zim.file = .ok a ∧
      ∀ p ∈ current (done ++ [recent]), ∃ e, a.zim.entryByFullUrl p.1.fullUrl = .ok e ∧
        HasContent S.X kind calls a.zim e p.2 := by
  obtain ⟨-, -, h3, h4⟩ := found hr hS h hA hd hmts hl
  refine ⟨_, h3 kind calls follow titles, fun p hp => ?_⟩
  obtain ⟨e, i, off, j, hf⟩ := h4 p hp
  exact ⟨e, hf.found, .of_readonly rfl rfl hf.kind hf.cluster (hf.blob kind)⟩

/-- **C73.** The same in the archive that is being written, once there are no unsaved changes, if the cluster can be opened
(`get_size` returns): it is measured then. -/
theorem C73_live (hr : 2 ≤ r) (hS : S.Good md5 (some r)) (h : CreatorHist S c done recent rs)
    (hA : Apart rs (done ++ [recent])) (hd : c.arch.isDirty = false) (hmts : mts.length < 65534) (hl : ∀ l ∈ done ++ [recent], Batch mts l)
    (kind : ClusterKind) (calls : Nat) :
    ∀ p ∈ current (done ++ [recent]), ∃ e, c.arch.zim.entryByFullUrl p.1.fullUrl = .ok e ∧
      ((c.arch.zim.contentSize S.X kind calls e).isOk → HasContent S.X kind calls c.arch.zim e p.2) := by
  obtain ⟨h1, h2, -, h4⟩ := found hr hS h hA hd hmts hl
  intro p hp
  obtain ⟨e, i, off, j, hf⟩ := h4 p hp
  refine ⟨e, hf.found, fun hok => ?_⟩
  cases hn : c.arch.zim.contentSize S.X kind calls e with
  | error x => rw [hn] at hok; cases hok
  | ok n => exact .of_writable h1 hf.kind hf.cluster (hf.blob kind) hn

end Creator

namespace Zim
variable {D : Type} {X : Codecs D} {kind : ClusterKind} {calls : Nat} {z : Zim} {e : Entry}

/-- **C73.** A negative start or end, or an end before the start, is refused, whatever the content; the iteration is
refused when the first piece is asked for. -/
theorem C73_range {c b : Nat} (hk : e.kind = .content c b) (start stop : Option Int)
    (h : (∃ a, start = some a ∧ a < 0) ∨ (∃ b, stop = some b ∧ b < 0) ∧ start = none ∨
      ∃ a b, start = some a ∧ stop = some b ∧ (b < 0 ∨ b < a)) :
    z.readContent X kind calls e start stop = .error .valueError ∧
    ∀ bs n, z.iterContent X kind calls e bs start stop (n + 1) = .error .valueError := by
  have hr : checkRange start stop = .error .valueError := by
    rcases h with ⟨a, rfl, ha⟩ | ⟨⟨b, rfl, hb⟩, rfl⟩ | ⟨a, b, rfl, rfl, hab⟩
    · cases stop <;> simp only [checkRange, ha, if_true]
    · simp only [checkRange, hb, if_true]
    · simp only [checkRange]
      by_cases ha : a < 0
      · rw [if_pos ha]
      · rw [if_neg ha, if_pos hab]
  refine ⟨?_, fun bs n => ?_⟩
  · unfold readContent
    rw [hk]
    simp only [hr, bind, Except.bind]
  · unfold iterContent
    rw [hk]
    simp only [hr, bind, Except.bind, Nat.succ_ne_zero, if_false]

/-- **C73.** Redirects have no content. -/
theorem C73_redirect {i : Nat} (hk : e.kind = .redirect i) (start stop : Option Int) (bs n : Nat) :
    z.readContent X kind calls e start stop = .error .attributeError ∧
    z.iterContent X kind calls e bs start stop n = .error .attributeError ∧
    z.contentSize X kind calls e = .error .attributeError := by
  refine ⟨?_, ?_, ?_⟩
  · unfold readContent; rw [hk]
  · unfold iterContent; rw [hk]
  · unfold contentSize; rw [hk]

/-! ### Reading to the end -/

/-- **C74, in full:** the content is read from a position to its end if no end is given. -/
def C74Full (D : Type) : Prop := ∀ (X : Codecs D) (kind : ClusterKind) (calls : Nat) (z : Zim) (e : Entry) (content : Bytes),
  HasContent X kind calls z e content → ∀ a : Nat, a ≤ content.length →
    z.readContent X kind calls e (some (a : Int)) none = .ok (content.drop a)

/-- **C74.** A start without an end always raises `TypeError` (`None` is compared with a number). -/
theorem C74_open_end_raises {c b : Nat} (hk : e.kind = .content c b) (a : Nat) :
    z.readContent X kind calls e (some (a : Int)) none = .error .typeError ∧
    ∀ bs n, z.iterContent X kind calls e bs (some (a : Int)) none (n + 1) = .error .typeError := by
  have hr : checkRange (some (a : Int)) none = .error .typeError := by
    simp only [checkRange]
    rw [if_neg (by omega)]
  refine ⟨?_, fun bs n => ?_⟩
  · unfold readContent
    rw [hk]
    simp only [hr, bind, Except.bind]
  · unfold iterContent
    rw [hk]
    simp only [hr, bind, Except.bind, Nat.succ_ne_zero, if_false]

/-- **C74, the part that holds:** if the end is given as the size of the content (or anything larger). -/
theorem C74_to_end_partial {content : Bytes} (h : HasContent X kind calls z e content) (a b : Nat) (ha : a ≤ content.length)
    (hb : content.length ≤ b) :
    z.readContent X kind calls e (some (a : Int)) (some (b : Int)) = .ok (content.drop a) := by
  rw [h.part a b (by omega) ha, slice, List.take_of_length_le hb]

end Zim

namespace Creator

theorem demoE_content : ∃ a, openArchive { demoSetup with kind := .remembering, calls := 0, follow := 0 }
      (fun _ => .error .hang) false demoE.arch.zim.file = .ok a ∧
    ∃ e, a.zim.entryByFullUrl "Ca" = .ok e ∧ HasContent Cluster.rawCodecs .remembering 0 a.zim e [7, 8] := by
  obtain ⟨a, h1, h2⟩ := C73_opened (by omega) demoSetup_good demoE_hist (apart_nil _) demoE_clean (by decide) demoE_batches .remembering 0 0
    (fun _ => .error .hang)
  refine ⟨a, h1, ?_⟩
  exact h2 (Strategy.item "a" "text/html" [7, 8]) (by simp [current])

theorem C74_full_fails : ¬ Zim.C74Full Bytes := by
  intro h
  obtain ⟨a, -, e, -, hc⟩ := demoE_content
  have h1 := h _ _ _ _ _ _ hc 1 (by decide)
  cases hk : e.kind with
  | redirect i =>
    have := hc.whole
    rw [(Zim.C73_redirect hk none none 0 0).1] at this
    cases this
  | content i j =>
    rw [(Zim.C74_open_end_raises hk 1).1] at h1
    cases h1

/-- the archive itself can read the content -/
theorem demoE_live : (do let e ← demoE.arch.zim.entryByFullUrl "Ca"
                         demoE.arch.zim.contentSize Cluster.rawCodecs .remembering 64 e) = .ok 2 := by decide +kernel

end Creator
end Pyzim
