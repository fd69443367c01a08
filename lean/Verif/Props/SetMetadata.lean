import Verif.Model.SetMetadata
import Verif.Props.Creator
import Verif.Props.Metadata

/-!
# Metadata of an archive being filled (C72), and calls that are refused (C48)
-/

namespace Pyzim

/-- The value of a metadata key: the content of the item with this url in the namespace `M`. -/
def metadataOf (items : List Sourced) (key : String) : Option Bytes :=
  (items.find? fun p => p.1.ns = "M" ∧ p.1.url = key).map Prod.snd

/-- the bytes of a value: a string is encoded as UTF-8 -/
def valueBytes : StrArg → Bytes
  | .str s => encode s
  | .bytes b => b

/-- The item made by `set_metadata`, with its content. -/
def metadataItem (key : String) (value : StrArg) (mimetype : String) : Sourced :=
  ({ ns := "M", url := key, mimetype := mimetype, source := (BlobSourceObj.inMemory (valueBytes value)).toSource,
     titleRaw := none, isArticle := false }, valueBytes value)

/-- The archive has the metadata given by the items: `get_metadata` returns the value of each key, as bytes and, if it is
one, as a string, and `None` for other keys; `get_metadata_keys` returns the keys in the order of their bytes. -/
structure ShowsMetadata {D : Type} (X : Codecs D) (kind : ClusterKind) (calls follow : Nat) (z : Zim)
    (items : List Sourced) : Prop where
  bytes : ∀ key, z.readMetadata (z.readContent X kind calls) follow key false = .ok ((metadataOf items key).map .bytes)
  text : ∀ key s, metadataOf items key = some (encode s) →
    z.readMetadata (z.readContent X kind calls) follow key true = .ok (some (.str s))
  keys : ∃ ks : List String, z.getMetadataKeys true = .ok (ks.map .str) ∧
    (∀ k, k ∈ ks ↔ ∃ p ∈ items, p.1.ns = "M" ∧ p.1.url = k) ∧ ks.Pairwise (fun a b => encode a < encode b)

section
variable {D K : Type} {S : Setup D K} {md5 : Bytes → Bytes} {r : Nat} {c c' : Creator D} {done : List (List Sourced)}
  {recent : List Sourced} {rs : List Zim.Redirect} {mts : List String}

theorem CreatorHist.admissible (h : CreatorHist S c done recent rs) : ∀ l ∈ done ++ [recent], ∀ p ∈ l, Item.Admissible p := by
  induction h with
  | new => intro l hl p hp; simp at hl; subst hl; simp at hp
  | add _ hp _ ih =>
    intro l hl q hq
    rcases List.mem_append.1 hl with hl | hl
    · exact ih l (List.mem_append_left _ hl) q hq
    · rw [List.mem_singleton] at hl
      subst hl
      rcases List.mem_append.1 hq with hq | hq
      · exact ih _ (by simp) q hq
      · rw [List.mem_singleton] at hq
        rw [hq]; exact hp
  | redirect _ _ _ _ ih => exact ih
  | @set c c' done recent rs u src content _ _ _ _ _ hd _ ih =>
    intro l hl q hq
    rcases List.mem_append.1 hl with hl | hl
    · rcases setContentIn_new hl with hl | ⟨l', hl', rfl⟩
      · exact ih l (List.mem_append_left _ hl) q hq
      · obtain ⟨p, hp, rfl⟩ := List.mem_map.1 hq
        have := ih l' (List.mem_append_left _ hl') p hp
        unfold withContent
        split
        · exact ⟨⟨this.1.1, this.1.2, this.1.3, this.1.4⟩, hd, this.2.2⟩
        · exact this
    · exact ih l (List.mem_append_right _ hl) q hq
  | flush _ _ ih =>
    intro l hl q hq
    rcases List.mem_append.1 hl with hl | hl
    · exact ih l hl q hq
    · simp at hl; subst hl; simp at hq
  | reopen _ _ _ _ _ _ ih => exact ih

theorem current_mem {ls : List (List Sourced)} {p : Sourced} (h : p ∈ current ls) : ∃ l ∈ ls, p ∈ l := by
  induction ls using snoc_induction with
  | h0 => cases h
  | h1 ls l ih =>
    rw [current_snoc] at h
    rcases List.mem_append.1 h with h | h
    · obtain ⟨l, h1, h2⟩ := ih (List.mem_filter.1 h).1
      exact ⟨l, List.mem_append_left _ h1, h2⟩
    · exact ⟨l, by simp, h⟩

theorem current_nodup {ls : List (List Sourced)} (h : ∀ l ∈ ls, (l.map urlOf).Nodup) : ((current ls).map urlOf).Nodup := by
  induction ls using snoc_induction with
  | h0 => exact List.nodup_nil
  | h1 ls l ih =>
    rw [current_snoc, List.map_append, List.nodup_append]
    refine ⟨(ih fun l hl => h l (List.mem_append_left _ hl)).sublist (List.filter_sublist.map _), h l (by simp), ?_⟩
    intro u hu v hv huv
    obtain ⟨p, hp, rfl⟩ := List.mem_map.1 hu
    obtain ⟨q, hq, hqv⟩ := List.mem_map.1 hv
    have := List.all_eq_true.1 (List.mem_filter.1 hp).2 q hq
    simp only [ne_eq, decide_not, Bool.not_eq_true', decide_eq_false_iff_not] at this
    exact this (hqv.trans huv.symm)

theorem fullUrl_M {it : Item} (h : it.Valid) (key : String) : it.fullUrl = "M" ++ key ↔ it.ns = "M" ∧ it.url = key := by
  unfold Item.fullUrl
  constructor
  · intro he
    have h1 := congrArg encode he
    rw [encode_append, encode_append] at h1
    obtain ⟨h2, h3⟩ := List.append_inj h1 (h.ns.trans (by decide +kernel))
    exact ⟨encode_injective h2, encode_injective h3⟩
  · rintro ⟨h1, h2⟩
    rw [h1, h2]

theorem M_ne_articles (key : String) : "M" ++ key ≠ URL_ARTICLES := by
  intro h
  have := congrArg encode h
  rw [encode_append] at this
  have h2 := congrArg List.head? this
  rw [show encode "M" = [77] by decide +kernel] at h2
  rw [show (encode URL_ARTICLES).head? = some 88 by decide +kernel] at h2
  simp at h2

theorem metadataOf_some {items : List Sourced} (hn : (items.map urlOf).Nodup) (hv : ∀ p ∈ items, p.1.Valid) {p : Sourced}
    (hp : p ∈ items) {key : String} (h1 : p.1.ns = "M") (h2 : p.1.url = key) : metadataOf items key = some p.2 := by
  unfold metadataOf
  cases hf : items.find? fun p => p.1.ns = "M" ∧ p.1.url = key with
  | none =>
    have := List.find?_eq_none.1 hf p hp
    simp [h1, h2] at this
  | some q =>
    have h3 := List.mem_of_find?_eq_some hf
    have h4 := List.find?_some hf
    simp only [Bool.decide_and, Bool.and_eq_true, decide_eq_true_eq] at h4
    have : q = p := by
      refine List.inj_on_of_nodup_map hn h3 hp ?_
      show q.1.fullUrl = p.1.fullUrl
      unfold Item.fullUrl
      rw [h4.1, h4.2, h1, h2]
    rw [this]; rfl

theorem metadataOf_none {items : List Sourced} {key : String} (h : ∀ p ∈ items, ¬ (p.1.ns = "M" ∧ p.1.url = key)) :
    metadataOf items key = none := by
  unfold metadataOf
  rw [List.find?_eq_none.2 fun p hp => by simpa using h p hp]
  rfl

theorem readContent_content {X : Codecs D} {kind : ClusterKind} {calls : Nat} {z : Zim} {e : Entry} {b : Bytes}
    (h : z.readContent X kind calls e = .ok b) : ∃ i j, e.kind = .content i j := by
  unfold Zim.readContent at h
  cases hk : e.kind with
  | redirect i => rw [hk] at h; cases h
  | content i j => exact ⟨i, j, rfl⟩

theorem resolve_content' {z : Zim} {n : Nat} {e : Entry} {i j : Nat} (h : e.kind = .content i j) : z.resolve n e = .ok e := by
  unfold Zim.resolve
  rw [h]

theorem ShowsItems.metadata {X : Codecs D} {kind : ClusterKind} {calls : Nat} {z : Zim} {items : List Sourced}
    (h : ShowsItems X kind calls z items rs) (hM : ∀ r ∈ rs, ∀ key, r.1 ≠ "M" ++ key) {z' : Zim} (hz : Zim.Ready z')
    (hk' : z.getMetadataKeys true = z'.getMetadataKeys true) (hf : ∀ u, z.entryByFullUrl u = z'.entryByFullUrl u) (hn : (items.map urlOf).Nodup) (hv : ∀ p ∈ items, p.1.Valid)
    (follow : Nat) : ShowsMetadata X kind calls follow z items := by
  have hex : ∀ key, (∃ p ∈ items, p.1.ns = "M" ∧ p.1.url = key) ∨ ∀ p ∈ items, ¬ (p.1.ns = "M" ∧ p.1.url = key) := by
    intro key
    by_cases hh : ∃ p ∈ items, p.1.ns = "M" ∧ p.1.url = key
    · exact .inl hh
    · exact .inr fun p hp hc => hh ⟨p, hp, hc⟩
  refine ⟨fun key => ?_, fun key s hs => ?_, ?_⟩
  · rcases hex key with ⟨p, hp, h1, h2⟩ | hno
    · obtain ⟨e, he, -, -, -, -, -, hr⟩ := h.item p hp
      rw [(fullUrl_M (hv p hp) key).2 ⟨h1, h2⟩] at he
      obtain ⟨i, j, hk⟩ := readContent_content hr
      rw [metadataOf_some hn hv hp h1 h2]
      unfold Zim.readMetadata
      rw [he]
      simp only
      rw [resolve_content' hk]
      simp only [hr]
      rfl
    · rw [metadataOf_none hno]
      have := h.missing ("M" ++ key) (M_ne_articles key) (fun p hp he => hno p hp ((fullUrl_M (hv p hp) key).1 he))
        fun r hr => hM r hr key
      unfold Zim.readMetadata
      rw [this]; rfl
  · rcases hex key with ⟨p, hp, h1, h2⟩ | hno
    · obtain ⟨e, he, -, -, -, -, -, hr⟩ := h.item p hp
      rw [(fullUrl_M (hv p hp) key).2 ⟨h1, h2⟩] at he
      obtain ⟨i, j, hk⟩ := readContent_content hr
      rw [metadataOf_some hn hv hp h1 h2] at hs
      injection hs with hs
      unfold Zim.readMetadata
      rw [he]
      simp only
      rw [resolve_content' hk]
      simp only [hr, hs, decode_encode, if_true]
    · rw [metadataOf_none hno] at hs
      cases hs
  · obtain ⟨ks, h1, -, h2, h3⟩ := Zim.C45_keys hz
    refine ⟨ks, hk'.trans h1, fun k => ?_, h3⟩
    rw [h2 k]
    obtain ⟨rows, other, hrep⟩ := hz
    rcases hex k with ⟨p, hp, g1, g2⟩ | hno
    · refine ⟨fun _ => ⟨p, hp, g1, g2⟩, fun _ => ?_⟩
      obtain ⟨e, he, -⟩ := h.item p hp
      rw [(fullUrl_M (hv p hp) k).2 ⟨g1, g2⟩, hf] at he
      obtain ⟨q, hq, -, hu⟩ := hrep.row_of_entry he
      exact (hrep.has_iff _).2 ⟨q, hq, hu⟩
    · refine ⟨fun hh => ?_, fun ⟨p, hp, hh⟩ => absurd hh (hno p hp)⟩
      obtain ⟨q, hq, hu⟩ := (hrep.has_iff _).1 hh
      have g := hrep.entryByFullUrl hq
      rw [hu, ← hf, h.missing ("M" ++ k) (M_ne_articles k) (fun p hp he => hno p hp ((fullUrl_M (hv p hp) k).1 he))
        fun r hr => hM r hr k] at g
      cases g

/-- reading in the archive itself gives what reading the file gives -/
theorem readContent_live {X : Codecs D} {kind : ClusterKind} {calls : Nat} {a : Archive} {as : PointerList} {e : Entry}
    {b b' : Bytes} (h : (Archive.loaded false as a).zim.readContent X kind calls e = .ok b)
    (hl : a.zim.readContent X kind calls e = .ok b') : b' = b := by
  obtain ⟨i, j, hk⟩ := readContent_content h
  unfold Zim.readContent at h hl
  rw [hk] at h hl
  simp only [Zim.checkRange, bind, Except.bind] at h hl
  unfold Zim.readBlobOf at h hl
  rw [if_neg (by simp [Archive.loaded])] at h
  have hg : (Archive.loaded false as a).zim.clusters.getByIndex (i : Int) = a.zim.clusters.getByIndex (i : Int) := rfl
  rw [hg] at h
  cases hp : a.zim.clusters.getByIndex (i : Int) with
  | error x => rw [hp] at h; cases h
  | ok pos =>
    rw [hp] at h
    have hr : (Cluster.readBlob X j none none (Zim.clusterAt kind a.zim pos.toNat)).1 = .ok b := h
    cases hm : a.zim.mutable with
    | false =>
      rw [hm, hp] at hl
      simp only [Bool.false_eq_true, if_false, bind, Except.bind] at hl
      cases hc : a.zim.closed with
      | true => rw [hc] at hl; cases hl
      | false =>
        rw [hc] at hl
        simp only [Bool.false_eq_true, if_false] at hl
        rw [hr] at hl
        injection hl with hl
        exact hl.symm
    | true =>
      rw [hm] at hl
      simp only [if_true, bind, Except.bind] at hl
      unfold Zim.openCluster at hl
      rw [hp] at hl
      simp only [bind, Except.bind] at hl
      cases hc : a.zim.closed with
      | true => rw [hc] at hl; cases hl
      | false =>
        rw [hc] at hl
        simp only [Bool.false_eq_true, if_false] at hl
        cases hs : (Cluster.getTotalCompressedSize X calls (Zim.clusterAt kind a.zim pos.toNat)).1 with
        | error x => rw [hs] at hl; cases hl
        | ok n =>
          rw [hs] at hl
          have hl' : (MCluster.readBlob X j none none
            ({ inner := .real (Zim.clusterAt kind a.zim pos.toNat) } : MCluster D)).1 = .ok b' := hl
          have : (MCluster.readBlob X j none none
            ({ inner := .real (Zim.clusterAt kind a.zim pos.toNat) } : MCluster D)).1 =
              (Cluster.readBlob X j none none (Zim.clusterAt kind a.zim pos.toNat)).1 := rfl
          rw [this, hr] at hl'
          injection hl' with hl'
          exact hl'.symm

theorem loaded_metadataKeysFrom (w : Bool) (as : PointerList) (a : Archive) (n : Nat) : ∀ i,
    (Archive.loaded w as a).zim.metadataKeysFrom n i = a.zim.metadataKeysFrom n i := by
  induction n with
  | zero => intro i; rfl
  | succ n ih =>
    intro i
    rw [Zim.metadataKeysFrom, Zim.metadataKeysFrom, ih]
    rfl

theorem loaded_getMetadataKeys (w : Bool) (as : PointerList) (a : Archive) (u : Bool) :
    (Archive.loaded w as a).zim.getMetadataKeys u = a.zim.getMetadataKeys u := by
  unfold Zim.getMetadataKeys Zim.metadataKeys
  simp only [loaded_metadataKeysFrom]
  rfl

namespace Creator

/-- **C72.** A successful `set_metadata` adds an item in the namespace `M` with the value as its content (so the archive
is one of those C70 and C72 are about). -/
theorem C72_set {key mimetype : String} {value : StrArg} (h : CreatorHist S c done recent rs)
    (hok : setMetadata S key value mimetype c = (.ok (), c')) :
    CreatorHist S c' done (recent ++ [metadataItem key value mimetype]) rs := by
  unfold setMetadata at hok
  have hreq : ∀ (b : Bool) (x : PyErr) (c c1 : Creator D), PyM.require b x c = (.ok (), c1) → c1 = c := by
    intro b x c c1 hh
    cases b <;> simp [PyM.require, PyM.raise, pure, PyM.pure] at hh
    exact hh.symm
  obtain ⟨⟨⟩, c1, k1, h1⟩ := PyM.bind_ok_iff.1 hok
  obtain rfl := hreq _ _ _ _ k1
  rw [PyM.get_bind] at h1
  obtain ⟨⟨⟩, c2, k2, h2⟩ := PyM.bind_ok_iff.1 h1
  obtain rfl := hreq _ _ _ _ k2
  obtain ⟨⟨⟩, c3, k3, h3⟩ := PyM.bind_ok_iff.1 h2
  obtain rfl := hreq _ _ _ _ k3
  cases hit : Item.new "M" key mimetype (BlobSourceObj.inMemory value.content).toSource none false with
  | error x => rw [hit, PyM.lift_err_bind] at h3; cases h3
  | ok it =>
    rw [hit, PyM.lift_ok_bind] at h3
    rw [show value.content = valueBytes value by cases value <;> rfl] at hit
    obtain ⟨rfl, hv⟩ := (Item.C54_new _ _ _ _ _ _ _).1 hit
    refine .add (p := metadataItem key value mimetype) h ⟨hv, ?_, fun hh => by cases hh⟩ h3
    exact MCluster.mem_delivers _

/-- **C72.** The metadata that was set before the last flush is found by everybody who opens the file. (No redirects were
made in the namespace of the metadata.) -/
theorem C72_reopened (hr : 2 ≤ r) (hS : S.Good md5 (some r)) (h : CreatorHist S c done recent rs)
    (hA : Apart rs (done ++ [recent])) (hM : ∀ r ∈ rs, ∀ key, r.1 ≠ "M" ++ key) (hd : c.arch.isDirty = false) (hmts : mts.length < 65534) (hl : ∀ l ∈ done ++ [recent], Batch mts l)
    (kind : ClusterKind) (calls follow : Nat) (titles : Zim → PyRes PointerList) :
    ∃ a, openArchive { S with kind := kind, calls := calls, follow := follow } titles false c.arch.zim.file = .ok a ∧
      ShowsMetadata S.X kind calls follow a.zim (current (done ++ [recent])) := by
  obtain ⟨a, h1, h2⟩ := C70_items_survive hr hS h hA hd hmts hl kind calls follow titles
  refine ⟨a, h1, ?_⟩
  obtain ⟨Gb, -, G, P1, P2, ⟨rows, cs, extra, es, L, m0, R, B, hc, -⟩, -⟩ := h.has hr hS hA (ML := encode placeholder.mimetype :: mts.map encode)
    (by rw [List.length_cons, List.length_map]; omega) List.mem_cons_self fun l h =>
      ⟨(hl l h).urls, (hl l h).size, fun p hp => ⟨List.mem_cons_of_mem _ (List.mem_map.2 ⟨_, (hl l h).mimetypes p hp, rfl⟩), (hl l h).other p hp⟩⟩
  have h3 := hc.opens (S := { S with kind := kind, calls := calls, follow := follow }) hS.passthrough hd titles false
  rw [h3] at h1
  injection h1 with h1
  subst h1
  exact h2.metadata hM ⟨rows, _, hc.laid.content.rep⟩ (loaded_getMetadataKeys _ _ _ _) (fun _ => rfl) (current_nodup fun l h => (hl l h).urls)
    (fun p hp => by obtain ⟨l, k1, k2⟩ := current_mem hp; exact (h.admissible l k1 p k2).1) follow

/-- **C72.** In the archive that is being written, `get_metadata` sees everything that was set, without a flush by the
user: if it returns, then it returns the value, as bytes or as a string, or `None` for keys that were not set. (No redirects were
made in the namespace of the metadata.) -/
theorem C72_live (hr : 2 ≤ r) (hS : S.Good md5 (some r)) (h : CreatorHist S c done recent rs)
    (hA : Apart rs (done ++ [recent])) (hM : ∀ r ∈ rs, ∀ key, r.1 ≠ "M" ++ key) (hmts : mts.length < 65534) (hl : ∀ l ∈ done ++ [recent], Batch mts l) {key : String} {v : Option StrArg}
    {asUnicode : Bool} (hok : getMetadata S key asUnicode c = (.ok v, c')) :
    (asUnicode = false → v = (metadataOf (current (done ++ [recent])) key).map .bytes) ∧
    (asUnicode = true → (metadataOf (current (done ++ [recent])) key = none → v = none) ∧
      ∀ b, metadataOf (current (done ++ [recent])) key = some b → ∃ s, v = some (.str s) ∧ encode s = b) := by
  have hML : (encode placeholder.mimetype :: mts.map encode).length < 65535 := by
    rw [List.length_cons, List.length_map]; omega
  have hm : ∀ l ∈ done ++ [recent], (l.map urlOf).Nodup ∧ NotHuge l ∧ ∀ p ∈ l, encode p.1.mimetype ∈ encode placeholder.mimetype :: mts.map encode ∧
      p.1.fullUrl ≠ URL_ARTICLES := fun l h =>
    ⟨(hl l h).urls, (hl l h).size, fun p hp => ⟨List.mem_cons_of_mem _ (List.mem_map.2 ⟨_, (hl l h).mimetypes p hp, rfl⟩), (hl l h).other p hp⟩⟩
  obtain ⟨Gb, -, G, P1, P2, ⟨rows, cs, extra, es, L, m0, R, B, hc, -⟩, -⟩ := h.has hr hS hA hML List.mem_cons_self hm
  unfold getMetadata at hok
  rw [PyM.get_bind, hc.laid.content.rep.isMutable] at hok
  simp only [if_true] at hok
  obtain ⟨⟨⟩, c1, hf, h1⟩ := PyM.bind_ok_iff.1 hok
  rw [PyM.get_bind] at h1
  have h2 : c1.arch.zim.readMetadata (c1.arch.zim.readContent S.X S.kind S.calls) S.follow key asUnicode = .ok v := by
    cases hx : c1.arch.zim.readMetadata (c1.arch.zim.readContent S.X S.kind S.calls) S.follow key asUnicode with
    | error x => rw [hx, PyM.lift_apply] at h1; cases h1
    | ok w => rw [hx, PyM.lift_apply] at h1; injection h1
  obtain ⟨hd, a, g1, g2⟩ := C70_after_flush hr hS h hA hf hmts hl S.kind S.calls S.follow (fun _ => .error .hang)
  have hh := CreatorHist.flush h hf
  obtain ⟨Gb', -, G', P1', P2', ⟨rows', cs', extra', es', L', m0', R', B', hc', -⟩, -⟩ := hh.has hr hS (hA.sub (List.Sublist.refl _) fun x hx p hp => by
    rcases List.mem_append.1 hx with hx | hx
    · exact ⟨x, hx, hp⟩
    · rw [List.mem_singleton] at hx; subst hx; cases hp) hML List.mem_cons_self (by
    intro l hl'
    rcases List.mem_append.1 hl' with hl' | hl'
    · exact hm l hl'
    · rw [List.mem_singleton] at hl'
      rw [hl']
      exact ⟨by simp, by unfold NotHuge; simp, by simp⟩)
  have g3 := hc'.opens (S := { S with kind := S.kind, calls := S.calls, follow := S.follow }) hS.passthrough hd
    (fun _ => .error .hang) false
  rw [g3] at g1
  injection g1 with g1
  subst g1
  have g4 := g2.metadata hM ⟨rows', _, hc'.laid.content.rep⟩ (loaded_getMetadataKeys _ _ _ _) (fun _ => rfl) (current_nodup fun l h => (hl l h).urls)
    (fun p hp => by obtain ⟨l, k1, k2⟩ := current_mem hp; exact (h.admissible l k1 p k2).1) S.follow
  have g5 := g4.bytes key
  unfold Zim.readMetadata at h2 g5
  rw [Archive.loaded_entryByFullUrl] at g5
  cases he : c1.arch.zim.entryByFullUrl ("M" ++ key) with
  | error x =>
    rw [he] at h2 g5
    by_cases hx : x = .entryNotFound
    · subst hx
      simp only at h2 g5
      injection h2 with h2
      injection g5 with g5
      subst h2
      cases hmo : metadataOf (current (done ++ [recent])) key with
      | none => exact ⟨fun _ => rfl, fun _ => ⟨fun _ => rfl, fun b hb => by cases hb⟩⟩
      | some b => rw [hmo] at g5; cases g5
    · cases x <;> first | exact absurd rfl hx | cases h2
  | ok e =>
    rw [he] at h2 g5
    simp only at h2 g5
    have hk : ∃ i j, e.kind = .content i j := by
      cases hkd : e.kind with
      | content i j => exact ⟨i, j, rfl⟩
      | redirect i =>
        exfalso
        have hp : ∃ p ∈ current (done ++ [recent]), p.1.fullUrl = "M" ++ key := by
          by_contra hno
          have := g2.missing ("M" ++ key) (M_ne_articles key) (fun p hp hpe => hno ⟨p, hp, hpe⟩)
            fun r hr => hM r hr key
          rw [Archive.loaded_entryByFullUrl, he] at this
          cases this
        obtain ⟨p, hp, hpe⟩ := hp
        obtain ⟨e', k1, -, -, -, -, -, k2⟩ := g2.item p hp
        rw [Archive.loaded_entryByFullUrl, hpe, he] at k1
        injection k1 with k1
        subst k1
        obtain ⟨i, j, k3⟩ := readContent_content k2
        rw [hkd] at k3
        cases k3
    obtain ⟨i, j, hk⟩ := hk
    rw [resolve_content' hk] at h2 g5
    simp only at h2 g5
    cases hb : c1.arch.zim.readContent S.X S.kind S.calls e with
    | error x => rw [hb] at h2; cases h2
    | ok b =>
      cases hb' : (Archive.loaded false { pointers := c1.arch.zim.articles.pointers } c1.arch).zim.readContent S.X S.kind
        S.calls e with
      | error x => rw [hb'] at g5; cases g5
      | ok b' =>
        have hbb := readContent_live hb' hb
        subst hbb
        rw [hb] at h2
        rw [hb'] at g5
        simp only [Bool.false_eq_true, if_false] at g5
        injection g5 with g5
        cases hmo : metadataOf (current (done ++ [recent])) key with
        | none => rw [hmo] at g5; cases g5
        | some b' =>
          rw [hmo] at g5
          have hbe : b = b' := by
            injection g5 with g5
            injection g5
          subst hbe
          refine ⟨?_, ?_⟩
          · rintro rfl
            simp only [Bool.false_eq_true, if_false] at h2
            injection h2 with h2
            exact h2.symm
          · rintro rfl
            simp only [if_true] at h2
            refine ⟨(fun hh => by cases hh), fun b' hb2 => ?_⟩
            injection hb2 with hb2
            subst hb2
            cases hdd : decode b with
            | error x => rw [hdd] at h2; cases h2
            | ok s =>
              rw [hdd] at h2
              injection h2 with h2
              exact ⟨s, h2.symm, encode_of_decode hdd⟩

/-- **C72.** `set_metadata` refuses empty keys, keys and mimetypes with a zero byte, and an empty mimetype; nothing is
changed then. -/
theorem C72_refused {key mimetype : String} {value : StrArg} (ho : c.arch.zim.closed = false) (hm : c.arch.zim.mutable = true)
    (hk : key = "" ∨ (0 : UInt8) ∈ encode key ∨ mimetype = "" ∨ (0 : UInt8) ∈ encode mimetype) :
    setMetadata S key value mimetype c = (.error .valueError, c) := by
  unfold setMetadata
  by_cases h1 : key = ""
  · rw [show decide (key ≠ "") = false by simpa using h1, PyM.require_false_bind]
  · rw [show decide (key ≠ "") = true by simpa using h1, PyM.require_true_bind, PyM.get_bind, ho, Bool.not_false,
      PyM.require_true_bind, hm, PyM.require_true_bind]
    have hx : Item.new "M" key mimetype (BlobSourceObj.inMemory value.content).toSource none false = .error .valueError := by
      have hl : ∀ s : String, s.length = 0 ↔ s = "" := fun s => by
        rw [← String.length_toList, List.length_eq_zero_iff]; exact String.toList_eq_nil_iff
      unfold Item.new Item.setNamespace
      dsimp only
      rw [if_neg (show ¬ (encode "M").length ≠ 1 by decide +kernel)]
      simp only
      unfold Item.setUrl
      rw [if_neg (by rw [hl]; exact h1)]
      by_cases h2 : (0 : UInt8) ∈ encode key
      · rw [if_pos h2]
      · rw [if_neg h2]
        simp only
        unfold Item.setMimetype
        by_cases h3 : mimetype.length = 0
        · rw [if_pos h3]
        · rw [if_neg h3]
          rw [hl] at h3
          have h4 : (0 : UInt8) ∈ encode mimetype := by
            rcases hk with hk | hk | hk | hk
            · exact absurd hk h1
            · exact absurd hk h2
            · exact absurd hk h3
            · exact hk
          rw [if_pos h4]
    rw [hx, PyM.lift_err_bind]

/-- **C48.** The methods of an archive that is closed raise `ZimFileClosed`, those of one that was opened for reading raise
`NonMutable`; nothing is changed. -/
theorem C48_archive (it : Item) (force : Bool) (key mimetype : String) (value : StrArg) (hkey : key ≠ "") :
    (c.arch.zim.closed = true → addItem S it force c = (.error .zimFileClosed, c) ∧
      setMetadata S key value mimetype c = (.error .zimFileClosed, c) ∧ flush S c = (.error .zimFileClosed, c)) ∧
    (c.arch.zim.closed = false → c.arch.zim.mutable = false → addItem S it force c = (.error .nonMutable, c) ∧
      setMetadata S key value mimetype c = (.error .nonMutable, c) ∧ flush S c = (.error .nonMutable, c)) := by
  have hd : decide (key ≠ "") = true := by simpa using hkey
  refine ⟨fun ho => ⟨?_, ?_, ?_⟩, fun ho hm => ⟨?_, ?_, ?_⟩⟩
  · unfold addItem
    rw [PyM.get_bind, ho, Bool.not_true, PyM.require_false_bind]
  · unfold setMetadata
    rw [hd, PyM.require_true_bind, PyM.get_bind, ho, Bool.not_true, PyM.require_false_bind]
  · unfold flush
    rw [PyM.get_bind, ho, Bool.not_true, PyM.require_false_bind]
  · unfold addItem
    rw [PyM.get_bind, ho, Bool.not_false, PyM.require_true_bind, hm, PyM.require_false_bind]
  · unfold setMetadata
    rw [hd, PyM.require_true_bind, PyM.get_bind, ho, Bool.not_false, PyM.require_true_bind, hm, PyM.require_false_bind]
  · unfold flush
    rw [PyM.get_bind, ho, Bool.not_false, PyM.require_true_bind, hm, PyM.require_false_bind]

/-! ### A concrete archive -/

/-- metadata is set in the new archive -/
def demoM : Creator Bytes := step (setMetadata demoSetup "Title" (.str "Ä") "text/plain") demoA

theorem demoM_eq : setMetadata demoSetup "Title" (.str "Ä") "text/plain" demoA = (.ok (), demoM) :=
  step_eq (g := setMetadata demoSetup "Title" (.str "Ä") "text/plain") (by decide +kernel)

theorem demoM_hist : CreatorHist demoSetup demoM [] [metadataItem "Title" (.str "Ä") "text/plain"] [] :=
  C72_set demoA_hist demoM_eq

/-- the hypotheses of `C72_live` are met -/
theorem demoM_get : (getMetadata demoSetup "Title" true demoM).1 = .ok (some (.str "Ä")) := by decide +kernel

theorem run_value {α : Type} {g : PyM (Creator Bytes) α} {c : Creator Bytes} {v : α} (h : (g c).1 = .ok v) :
    ∃ c', g c = (.ok v, c') := ⟨(g c).2, Prod.ext h rfl⟩

example : ∃ c', getMetadata demoSetup "Title" true demoM = (.ok (some (.str "Ä")), c') := run_value demoM_get

example : ∀ l ∈ [] ++ [[metadataItem "Title" (.str "Ä") "text/plain"]], Batch ["text/plain"] l := by
  intro l hl
  simp only [List.nil_append, List.mem_cons, List.not_mem_nil, or_false] at hl
  subst hl
  exact ⟨by decide +kernel, by decide +kernel, by decide +kernel, by unfold NotHuge; decide +kernel⟩

/-- **C72, finding.** `get_metadata_keys` does not flush: a key that was set is not listed before the next flush. -/
theorem C72_keys_pending : demoM.arch.zim.getMetadataKeys true = .ok [] := by decide +kernel

end Creator
end
end Pyzim
