import Verif.Lemmas.LayoutSteps
import Verif.Props.Checksum

namespace Pyzim
namespace Archive
open SpaceAllocator (InBlock)
open Zim (Row Stored Clustered Works SameContent KeepsBytes Kept InRow InCluster onZim_ok updateChecksum_ok
  checksummed_wr truncateAt updateChecksum)

variable {K : Type} {O : ClusterOps K} {reserve : Option Nat} {a a' : Archive} {rows : List Row} {cs cs' : List Stored}
  {extra : Nat → Prop}

/-- the file changes outside of the pieces -/
theorem Parts.changeAll {rows' : List Row} {extra' : Nat → Prop} (h : Parts reserve a rows cs extra) (hh : a'.zim.header = a.zim.header)
    (hm : a'.zim.mimetypes = a.zim.mimetypes) (hu : a'.zim.urls = a.zim.urls) (hc : a'.zim.clusters = a.zim.clusters)
    (h1 : a'.mimeSize = a.mimeSize) (h2 : a'.urlSize = a.urlSize) (h3 : a'.clusterSize = a.clusterSize)
    (ha : ∀ p ∈ a.fixed reserve, ∀ x, InBlock p x → ¬ extra' x)
    (hcont : Clustered a'.zim rows' cs' (fun x => extra' x ∨ ∃ p ∈ a.fixed reserve, InBlock p x))
    (hk : KeepsBytes (fun x => ∃ p ∈ a.fixed reserve, InBlock p x) a.zim.file a'.zim.file) :
    Parts reserve a' rows' cs' extra' := by
  have hfix : a'.fixed reserve = a.fixed reserve := by
    unfold fixed mimePiece
    rw [hh, h1, h2, h3]
  have hkeep : ∀ {p : Block} {off : Nat} {c : Bytes}, p ∈ a.fixed reserve →
      (∀ x, InBlock (off, c.length) x → InBlock p x) → Holds a.zim.file off c → Holds a'.zim.file off c :=
    fun hp hin hh => hk.holds hh fun x h1 h2 => ⟨_, hp, hin x ⟨h1, h2⟩⟩
  refine ⟨by rw [hfix]; exact hcont, by rw [hfix]; exact h.disjoint, by rw [hfix]; exact ha, by rw [hm]; exact h.room,
    by rw [hh]; exact h.version, by rw [hm]; exact h.listable, ?_, ?_, ?_, ?_⟩
  · rw [hh]
    intro hd
    obtain ⟨c, hc, hh⟩ := h.header hd
    exact ⟨c, hc, hkeep (p := (0, 80)) (by simp [fixed]) (by rw [Header.toBytes_length hc]; exact fun x hx => hx) hh⟩
  · rw [hm, hh, h1]
    intro hd
    obtain ⟨e1, e2⟩ := h.mimetypes hd
    exact ⟨hkeep (p := a.mimePiece reserve) (by simp [fixed]) e2.piece e1, e2⟩
  · rw [hu, hh, h2]
    intro hd
    obtain ⟨c, hc, hh, e1, e2⟩ := h.urls hd
    refine ⟨c, hc, hkeep (p := (a.zim.header.urlPointerPosition, a.urlSize)) (by simp [fixed]) ?_ hh, e1, e2⟩
    rw [PointerList.toBytes_length (by omega) hc, e2]; exact fun x hx => hx
  · rw [hc, hh, h3]
    intro hd
    obtain ⟨c, hc, hh, e1, e2⟩ := h.clusters hd
    refine ⟨c, hc, hkeep (p := (a.zim.header.clusterPointerPosition, a.clusterSize)) (by simp [fixed]) ?_ hh, e1, e2⟩
    rw [PointerList.toBytes_length (by omega) hc, e2]; exact fun x hx => hx

theorem Parts.change (h : Parts reserve a rows cs extra) (hh : a'.zim.header = a.zim.header)
    (hm : a'.zim.mimetypes = a.zim.mimetypes) (hu : a'.zim.urls = a.zim.urls) (hc : a'.zim.clusters = a.zim.clusters)
    (h1 : a'.mimeSize = a.mimeSize) (h2 : a'.urlSize = a.urlSize) (h3 : a'.clusterSize = a.clusterSize)
    (hcont : Clustered a'.zim rows cs (fun x => extra x ∨ ∃ p ∈ a.fixed reserve, InBlock p x))
    (hk : KeepsBytes (fun x => ∃ p ∈ a.fixed reserve, InBlock p x) a.zim.file a'.zim.file) :
    Parts reserve a' rows cs extra := h.changeAll hh hm hu hc h1 h2 h3 h.apart hcont hk

/-- bytes in use are below the end of the managed file -/
theorem Parts.fixed_lt (h : Parts reserve a rows cs extra) {p : Block} (hp : p ∈ a.fixed reserve) {x : Nat}
    (hx : InBlock p x) : x < a.zim.space.fileEnd :=
  h.content.rep.store.space.used_lt (Or.inl (Or.inl (Or.inr ⟨p, hp, hx⟩)))

theorem Parts.row_lt (h : Parts reserve a rows cs extra) {r : Row} (hr : r ∈ rows) {x : Nat}
    (hx : InRow r x) : x < a.zim.space.fileEnd :=
  h.content.rep.store.space.used_lt (Or.inr ⟨r, hr, hx⟩)

theorem Parts.cluster_lt (h : Parts reserve a rows cs extra) {c : Stored} (hc : c ∈ cs) {x : Nat}
    (hx : InCluster c x) : x < a.zim.space.fileEnd :=
  h.content.rep.store.space.used_lt (Or.inl (Or.inr ⟨c, hc, hx⟩))

/-- writing the checksum behind everything -/
theorem Parts.tail (h : Parts reserve a rows cs extra) {d : Bytes} (hd : d.length = 16) :
    Parts reserve { a with zim := { a.zim with file := wr a.zim.file a.zim.space.fileEnd d } } rows cs extra := by
  refine h.change rfl rfl rfl rfl rfl rfl rfl ?_ ?_
  · refine h.content.swap ⟨rfl, rfl, rfl, rfl, rfl, rfl, rfl, rfl, rfl⟩ ?_ (fun c hc => ?_) h.content.apart
    · refine h.content.rep.store.write _ _ (fun r hr x hx hx' => ?_) (by omega)
      have := h.row_lt hr hx
      omega
    · refine (h.content.held c hc).wr fun x h1 h2 hx => ?_
      have := h.cluster_lt hc (x := x) ⟨h1, h2⟩
      omega
  · refine Zim.keepsBytes_wr fun x hq hx => ?_
    obtain ⟨q, hq, hqx⟩ := hq
    have := h.fixed_lt hq hqx
    omega

theorem Parts.dirty (h : Parts reserve a rows cs extra) (d : Bool) : Parts reserve { a with dirty := d } rows cs extra :=
  h.change rfl rfl rfl rfl rfl rfl rfl h.content (Zim.KeepsBytes.refl _ _)

theorem Laid.dirty (h : Laid reserve a rows cs extra) (d : Bool) : Laid reserve { a with dirty := d } rows cs extra :=
  ⟨h.toParts.dirty d, h.ends⟩

theorem Parts.articles (h : Parts reserve a rows cs extra) (l : PointerList) :
    Parts reserve { a with zim := { a.zim with articles := l } } rows cs extra :=
  h.change rfl rfl rfl rfl rfl rfl rfl (h.content.same ⟨rfl, rfl, rfl, rfl, rfl, rfl, rfl, rfl, rfl⟩ rfl rfl)
    (Zim.KeepsBytes.refl _ _)

/-- `flush`, if there is something to write -/
theorem Laid.flush {H : Hasher} {md5 : Bytes → Bytes} {short : Nat → Nat → Nat} {chunksize : Nat} {truncate : Bool}
    {content : PyM Zim Unit} {setContent : Bytes → PyM Zim Unit}
    (hH : H.Computes md5) (hs : Delivering short) (hc : 0 < chunksize)
    (h : Laid reserve a rows cs extra) (hC : Contents O content setContent a cs cs')
    (hok : flush H short chunksize ⟨truncate, reserve⟩ content setContent a = (.ok (), a')) :
    a'.isDirty = false ∧ (a.isDirty = true → a'.zim.Checksummed md5) ∧ ∃ rows', Laid reserve a' rows' cs' extra := by
  have hopen := h.content.rep.isOpen
  have hck : a.isDirty = true → a'.zim.Checksummed md5 := fun hd => (Zim.C38_flush hH hs hc hok hd).1
  refine ⟨?_, hck, ?_⟩
  all_goals
    unfold Archive.flush at hok
    rw [PyM.get_bind] at hok
    obtain ⟨⟨⟩, s1, h1, hok⟩ := PyM.bind_ok_iff.1 hok
    obtain rfl : s1 = a := by unfold PyM.require at h1; injection h1 with _ h1; exact h1.symm
    obtain ⟨⟨⟩, s2, h2, hok⟩ := PyM.bind_ok_iff.1 hok
    obtain rfl : s2 = s1 := by unfold PyM.require at h2; injection h2 with _ h2; exact h2.symm
    cases hd : s2.isDirty with
    | false =>
      rw [if_neg (by simp [hd])] at hok
      cases hok
      first
      | exact hd
      | rw [hC.clean hd]; exact ⟨rows, h⟩
    | true =>
    rw [if_pos hd] at hok
    unfold flushDirty at hok
    obtain ⟨⟨⟩, a1, e1, hok⟩ := PyM.bind_ok_iff.1 hok
    obtain ⟨⟨⟩, a2, e2, hok⟩ := PyM.bind_ok_iff.1 hok
    obtain ⟨⟨⟩, a3, e3, hok⟩ := PyM.bind_ok_iff.1 hok
    obtain ⟨⟨⟩, a4, e4, hok⟩ := PyM.bind_ok_iff.1 hok
    obtain ⟨⟨⟩, a5, e5, hok⟩ := PyM.bind_ok_iff.1 hok
    obtain ⟨⟨⟩, a6, e6, hok⟩ := PyM.bind_ok_iff.1 hok
    obtain ⟨⟨⟩, a7, e7, hok⟩ := PyM.bind_ok_iff.1 hok
    rw [PyM.get_bind] at hok
    obtain ⟨⟨⟩, a8, e8, hok⟩ := PyM.bind_ok_iff.1 hok
    rw [PyM.modify_apply] at hok
    injection hok with _ hok
    -- content
    obtain ⟨z1, cs1, z2, hz1, hw1, hart, hnart⟩ := hC.works hd
    obtain ⟨f1, f2⟩ := onZim_ok e1
    rw [hz1] at f1
    injection f1 with _ f1
    rw [← f1] at f2
    obtain ⟨rows1, p1, -⟩ := h.toParts.works hw1
    rw [← f2] at p1
    -- articles
    obtain ⟨g1, g2⟩ := onZim_ok e2
    have hart2 : a2.zim.articles.dirty = false ∧ ∃ rows2, Parts reserve a2 rows2 cs' extra := by
      unfold flushArticles at g1
      rw [PyM.get_bind, ← f1] at g1
      cases hda : z1.articles.dirty with
      | false =>
        rw [if_neg (by simp [hda]), PyM.pure_apply] at g1
        injection g1 with _ g1
        refine ⟨by rw [← g1]; exact hda, rows1, ?_⟩
        rw [hnart hda, show a2 = a1 by rw [g2, ← g1, f1]]
        exact p1
      | true =>
        obtain ⟨b, hb, hset, hw2⟩ := hart hda
        rw [if_pos hda, hb, PyM.lift_ok_bind, PyM.bind_ok hset, PyM.modify_apply] at g1
        injection g1 with _ g1
        refine ⟨by rw [← g1], ?_⟩
        rw [f1] at hw2
        obtain ⟨rows2, p2, -⟩ := p1.works hw2
        refine ⟨rows2, ?_⟩
        have := p2.articles { z2.articles with dirty := false }
        rw [g2, ← g1]
        exact this
    obtain ⟨ha2, rows2, p2⟩ := hart2
    obtain ⟨p3, m3, u3, c3, ar3, -, -⟩ := p2.flushMimetypes e3
    obtain ⟨p4, c4, m4, u4, ar4, -⟩ := p3.flushClusters e4
    obtain ⟨p5, u5, m5, c5, ar5, -⟩ := p4.flushUrls e5
    obtain ⟨p6, h6, u6, c6, ar6, m6, s6, k6⟩ := p5.flushHeader e6
    obtain ⟨i7, j7⟩ := onZim_ok e7
    obtain ⟨_, hlen, hz7⟩ := updateChecksum_ok hH hs hc i7
    rw [k6] at hz7 hlen
    rw [hz7] at j7
    have hl := hH.length (a6.zim.file.take a6.zim.space.fileEnd)
    have p7 := p6.tail hl
    rw [← j7] at p7
    have hlen7 : a7.zim.file.length = a7.zim.space.fileEnd + 16 := by
      have h16 := p6.content.rep.store.length
      rw [j7]
      show (wr a6.zim.file a6.zim.space.fileEnd _).length = a6.zim.space.fileEnd + 16
      rw [wr_length _ _ (fun h => by rw [h] at hl; simp at hl), hl]
      omega
    have hk7 : a7.zim.header.checksumPosition = a7.zim.space.fileEnd := by rw [j7]; exact k6
    have h8 : a8 = a7 := by
      cases truncate with
      | false =>
        simp only [Bool.false_eq_true, if_false, PyM.pure_apply] at e8
        injection e8 with _ e8
        exact e8.symm
      | true =>
        simp only [if_true] at e8
        obtain ⟨i8, j8⟩ := onZim_ok e8
        unfold truncateAt at i8
        rw [if_neg (by rw [p7.content.rep.isOpen]; simp), hk7, ← hlen7, Nat.sub_self, List.replicate_zero,
          List.append_nil, List.take_length] at i8
        injection i8 with _ i8
        rw [j8, ← i8]
    rw [h8] at hok
    first
    | (rw [← hok]
       have q1 : a7.zim.header.dirty = false := by rw [j7]; exact h6
       have q2 : a7.zim.mimetypes.dirty = false := by rw [j7]; show a6.zim.mimetypes.dirty = false; rw [m6, m5, m4]; exact m3
       have q3 : a7.zim.urls.dirty = false := by rw [j7]; show a6.zim.urls.dirty = false; rw [u6]; exact u5
       have q4 : a7.zim.clusters.dirty = false := by rw [j7]; show a6.zim.clusters.dirty = false; rw [c6, c5]; exact c4
       have q5 : a7.zim.articles.dirty = false := by
         rw [j7]; show a6.zim.articles.dirty = false; rw [ar6, ar5, ar4, ar3]; exact ha2
       simp only [isDirty, q1, q2, q3, q4, q5, Bool.or_self])
    | (refine ⟨rows2, ?_⟩
       rw [← hok]
       exact ⟨p7.dirty false, fun _ _ _ _ => ⟨hk7, hlen7⟩⟩)

end Archive
end Pyzim
