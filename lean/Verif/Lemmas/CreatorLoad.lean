import Verif.Lemmas.CreatorCoreFlush

/-!
# An archive filled by strategies: opening it
-/

namespace Pyzim
open Zim (Row Stored Clustered Works Lists Art MimesIn Mirrored catalogue marked clusterAt Redirect)
open SpaceAllocator (InBlock)

variable {D K : Type} {ML : List Bytes} {reserve : Option Nat} {a a' : Archive}
  {G G' : List (List Sourced)} {rows : List Row} {cs : List Stored} {extra : Nat → Prop} {es : List Entry} {L : Bytes}
  {m0 : Catalogue} {R B : List Redirect}

namespace Zim
variable {X : Codecs D} {C : Compressors K} {z : Zim} {rest : Nat → Prop}

/-- reading a blob of an uncompressed cluster in a writable archive -/
theorem readBlobOf_writable (P : Passthrough X C) (h : Clustered z rows cs rest) {i off b : Nat} {ext : Bool}
    {orig : List Bytes} {c : Bytes} (hi : cs[i]? = some (off, plainBytes ext orig)) (hfit : PlainFits ext orig)
    (hb : orig[b]? = some c) (kind : ClusterKind) (calls : Nat) : readBlobOf X kind calls z i b none none = .ok c := by
  unfold readBlobOf
  rw [if_pos h.rep.isMutable, openCluster_plain P h hi hfit kind calls]
  obtain ⟨A, hAe, hAc⟩ := MCluster.plain_at P (h.held _ (List.mem_of_getElem? hi)) hfit
  have hw : MCluster.Wraps X orig ext .none (.real (clusterAt kind z off : CSt D)) :=
    .inr ⟨z.file, off, A, _, rfl, .fresh kind 0, hAe, hAc⟩
  obtain ⟨i', h1, -⟩ := MCluster.readBlob_spec (MCluster.History.fresh hw).plain.toRepr b none none rfl (by simp)
  simp only [bind, Except.bind]
  rw [show (plainObj kind z off ext orig : ClusterObj D).m = { inner := .real (clusterAt kind z off) } from rfl, h1, hb]
  simp [partOf]

/-- reading a blob of an uncompressed cluster in an archive that is not writable -/
theorem readBlobOf_readOnly (P : Passthrough X C) (h : Clustered z rows cs rest) {i off b : Nat} {ext : Bool}
    {orig : List Bytes} {c : Bytes} (hi : cs[i]? = some (off, plainBytes ext orig)) (hfit : PlainFits ext orig)
    (hb : orig[b]? = some c) (kind : ClusterKind) (calls : Nat) {z' : Zim} (hm : z'.mutable = false)
    (hf : z'.file = z.file) (hc : z'.clusters.pointers = z.clusters.pointers) (ho : z'.closed = false) :
    readBlobOf X kind calls z' i b none none = .ok c := by
  obtain ⟨A, hAe, hAc⟩ := MCluster.plain_at P (h.held _ (List.mem_of_getElem? hi)) hfit
  unfold readBlobOf
  have hg := h.getByIndex hi
  rw [if_neg (by rw [hm]; simp)]
  unfold PointerList.getByIndex at hg ⊢
  rw [hc, hg]
  simp only [bind, Except.bind]
  rw [if_neg (by rw [ho]; simp)]
  simp only [Int.toNat_natCast]
  have hs : (clusterAt kind z' off : CSt D) = clusterAt kind z off := by unfold clusterAt; rw [hf]
  rw [hs]
  obtain ⟨hlt, hbe⟩ := List.getElem?_eq_some_iff.1 hb
  obtain ⟨res, s', h1, -, -, -, h2⟩ := Cluster.readBlob_spec A ((Cluster.Reached.fresh kind 0).good A) b none none
  rw [show Cluster.readBlob X b none none (clusterAt kind z off : CSt D) = _ from h1]
  rcases h2 hlt rfl with h2 | ⟨-, -, -, h2⟩
  · rw [h2, hbe]; simp [partOf]
  · simp at h2

end Zim

theorem Archive.notDirty_of {a : Archive} (h : a.isDirty = false) : a.zim.header.dirty = false ∧
    a.zim.mimetypes.dirty = false ∧ a.zim.urls.dirty = false ∧ a.zim.clusters.dirty = false ∧
    a.zim.articles.dirty = false := by
  unfold Archive.isDirty at h
  simp only [Bool.or_eq_false_iff] at h
  exact ⟨h.1.1.1.1.2, h.1.1.1.2, h.1.1.2, h.1.2, h.2⟩

/-- the cluster with the article title list -/
theorem Readable.head {X : Codecs D} (h : Readable gh X reserve a G rows cs extra es L m0 R) :
    ∃ off ext, cs[0]? = some (off, plainBytes ext [L]) ∧ PlainFits ext [L] := h.first

/-- the checksum follows the clusters -/
theorem Core.behind {X : Codecs D} (h : Core gh mp X C ML reserve a G rows cs extra es L m0 R B) (hd : a.isDirty = false) {c : Stored} (hc : c ∈ cs) :
    ∃ rest, rest ≠ [] ∧ a.zim.file.drop c.1 = c.2 ++ rest := by
  obtain ⟨d1, d2, d3, d4, d5⟩ := Archive.notDirty_of hd
  obtain ⟨-, hlen⟩ := h.laid.ends d1 d2 d3 d4
  have hne : c.2.length ≠ 0 := fun e => h.laid.content.nonempty c hc (List.length_eq_zero_iff.1 e)
  have hu := (h.laid.content.inUse (c.1 + (c.2.length - 1))).2 (.inr (.inl ⟨c, hc, by unfold Zim.InCluster; omega⟩))
  have hlt := hu.1
  have hh := Holds.drop_take (h.laid.content.held c hc)
  refine ⟨a.zim.file.drop (c.1 + c.2.length), ?_, ?_⟩
  · intro e
    have := congrArg List.length e
    rw [List.length_drop, List.length_nil] at this
    omega
  · rw [← List.take_append_drop c.2.length (a.zim.file.drop c.1), hh, List.drop_drop]

theorem Core.readable {X : Codecs D} (h : Core gh mp X C ML reserve a G rows cs extra es L m0 R B) (hd : a.isDirty = false) :
    Readable gh X reserve a G rows cs extra es L m0 R := by
  obtain ⟨d1, d2, d3, d4, d5⟩ := Archive.notDirty_of hd
  exact ⟨h.laid.toParts, ⟨d1, d2, d3, d4⟩, h.head, h.blobs_before fun c hc => h.behind hd hc, h.entries, h.other, h.lists, h.art, h.listed d5,
    h.shown, h.only⟩

/-- opening the file, if the article title list can be read -/
theorem Readable.opens {S : Setup D K} (h : Readable gh S.X reserve a G rows cs extra es L m0 R) (titles : Zim → PyRes PointerList)
    (w : Bool) (hread : Zim.readBlobOf S.X S.kind S.calls (Archive.loaded w { pointers := [] } a).zim 0 0 none none = .ok L) :
    Creator.openArchive S titles w a.zim.file = .ok (Archive.loaded w { pointers := a.zim.articles.pointers } a) := by
  obtain ⟨d1, d2, d3, d4⟩ := h.clean
  unfold Creator.openArchive
  obtain ⟨has, h1, h2⟩ := h.parts.load d1 d2 d3 d4 titles
    (Zim.listFromEntry S.X S.kind S.calls S.follow URL_ARTICLES) w
  rw [h2]
  obtain ⟨e, he1, he2, he3⟩ := listing_of h.entries h.other h.lists h.parts.content
  have hhas : has = true := by
    have hsh := h.parts.content.rep.shows_iff.2 h.lists
    have hh := hsh.has URL_ARTICLES
    cases hm : catalogue m0 es URL_ARTICLES with
    | none =>
      have := hsh.missing _ hm
      rw [he1] at this
      cases this
    | some v =>
      rw [hm, show a.zim.hasEntry URL_ARTICLES = .ok has from h1] at hh
      injection hh with hh
  have hb := h.listed
  have hfrom : PointerList.fromBytes 4 L = .ok { pointers := a.zim.articles.pointers, dirty := false, mutable := true } := by
    obtain ⟨c, c1, -, c2⟩ := PointerList.C04_write_read 4 (by omega) a.zim.articles
      (packFields_map_fits 4 a.zim.articles.pointers L hb)
    rw [hb] at c1
    injection c1 with c1
    rw [c1]; exact c2
  have hlist : Zim.listFromEntry S.X S.kind S.calls S.follow URL_ARTICLES (Archive.loaded w { pointers := [] } a).zim =
      .ok { pointers := a.zim.articles.pointers, dirty := false, mutable := true } := by
    unfold Zim.listFromEntry
    rw [Archive.loaded_entryByFullUrl, he1]
    simp only [bind, Except.bind]
    unfold Zim.resolve
    rw [he2]
    simp only
    unfold Zim.readContent
    rw [he2]
    simp only [Zim.checkRange, bind, Except.bind]
    rw [hread]
    exact hfrom
  rw [hhas, if_pos rfl, hlist]

theorem Readable.opens_readOnly {S : Setup D K} {C : Compressors K} (P : Passthrough S.X C)
    (h : Readable gh S.X reserve a G rows cs extra es L m0 R) (titles : Zim → PyRes PointerList) :
    Creator.openArchive S titles false a.zim.file = .ok (Archive.loaded false { pointers := a.zim.articles.pointers } a) := by
  obtain ⟨off, ext, hcs, hfit⟩ := h.head
  exact h.opens titles false (Zim.readBlobOf_readOnly P h.parts.content hcs hfit rfl S.kind S.calls rfl rfl rfl rfl)

/-- opening the file of an archive without unsaved changes -/
theorem Core.opens {S : Setup D K} {C : Compressors K} (P : Passthrough S.X C)
    (h : Core gh mp S.X S.C ML reserve a G rows cs extra es L m0 R B) (hd : a.isDirty = false) (titles : Zim → PyRes PointerList) (w : Bool) :
    Creator.openArchive S titles w a.zim.file = .ok (Archive.loaded w { pointers := a.zim.articles.pointers } a) := by
  have hR := h.readable hd
  obtain ⟨d1, d2, d3, d4⟩ := hR.clean
  obtain ⟨off, ext, hcs, hfit⟩ := hR.head
  obtain ⟨extra', hl⟩ := h.laid.load d1 d2 d3 d4 { pointers := [] }
  refine hR.opens titles w ?_
  cases w with
  | true => exact Zim.readBlobOf_writable P hl.content hcs hfit rfl S.kind S.calls
  | false => exact Zim.readBlobOf_readOnly P hl.content hcs hfit rfl S.kind S.calls rfl rfl rfl rfl

/-- opening the archive for writing again -/
theorem Core.reopened {X : Codecs D} (h : Core gh none X C ML reserve a G rows cs extra es L m0 R []) (hd : a.isDirty = false) :
    ∃ extra', Core gh none X C ML reserve (Archive.loaded true { pointers := a.zim.articles.pointers } a) G rows cs extra' es L m0 R [] ∧
      (Archive.loaded true { pointers := a.zim.articles.pointers } a).isDirty = false := by
  obtain ⟨d1, d2, d3, d4, d5⟩ := Archive.notDirty_of hd
  obtain ⟨extra', hl⟩ := h.laid.load d1 d2 d3 d4 { pointers := a.zim.articles.pointers }
  refine ⟨extra', ⟨hl, h.first, ?_, h.other, h.lists, ?_, ?_, rfl, rfl, fun _ => h.listed d5, h.shown, h.only, ?_⟩, rfl⟩
  · exact h.entries.imp fun _ _ h => h.mono (show a.zim.mimetypes.mimetypes <+:
      (Archive.loaded true { pointers := a.zim.articles.pointers } a).zim.mimetypes.mimetypes from List.prefix_rfl)
  · exact ⟨rfl, h.art.nonneg, h.art.nodup, h.art.mem, h.art.sorted, h.art.inC, h.art.dom⟩
  · exact ⟨rfl, h.mimes.nodup, h.mimes.sub⟩
  · intro r hr hO
    have h1 := h.leads r hr hO
    exact ⟨hl.content.rep.leads_iff.2 (h.laid.content.rep.leads_iff.1 h1.leads), h1.title⟩

end Pyzim
