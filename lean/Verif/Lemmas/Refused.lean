import Verif.Lemmas.Within
import Verif.Lemmas.Interrupted
import Verif.Lemmas.HistFilled
import Verif.Spec.Refused

/-!
# A flush that is refused keeps what was added
-/

namespace Pyzim
open Zim (Row Stored Redirect Filled Mirrored Once catalogue_other)

section
variable {D K : Type} {X : Codecs D} {C : Compressors K} {ML : List Bytes} {a : Archive}
  {G : List (List Sourced)} {rows : List Row} {cs : List Stored} {extra : Nat → Prop} {es : List Entry} {L : Bytes}
  {m0 : Catalogue} {R B : List Redirect}

/-- flushing a strategy -/
theorem Core.flushStrategy_both {reserve : Option Nat} {t : CompressionType} {mx : Int} {P : List Sourced} {s s' : Strategy D} {Z' : Zim}
    {depth : Nat} (W : Working X C t) (h : Core false none X C ML reserve a G rows cs extra es L m0 R B)
    (hw : s.Waits X t mx a.zim.mimetypes P) (hf : s.Fit)
    (hh : NotHuge P) (ho : ∀ q ∈ P, q.1.fullUrl ≠ URL_ARTICLES)
    (hok : Strategy.flushOn (Zim.backend X C depth) (s, a.zim) = (.ok (), (s', Z'))) :
    ∃ rows' cs' es' G', Core false none X C ML reserve { a with zim := Z' } (G ++ G') rows' cs' extra es' L m0 R B ∧
      s'.Waits X t mx Z'.mimetypes [] ∧ s'.Fit ∧ G'.flatten.Perm P ∧ Z'.mimetypes = a.zim.mimetypes ∧
      Onward reserve (fun _ => False) a rows cs extra es { a with zim := Z' } rows' cs' es' := by
  obtain ⟨z', h1, h2, h3⟩ := Mirrored.flush (h.mirrored (C := C)) hf hok
  obtain ⟨s'', z'', G', g1, g2, g4, g5, g6, -⟩ := Strategy.Waits.flush (z := logOf a cs es) W hw hh
  rw [h1] at g1
  injection g1 with _ g1
  injection g1 with g1 g1'
  subst g1 g1'
  obtain ⟨rows', cs', hc, h4⟩ := h.step h2 g4 (by rw [g2]; exact List.prefix_rfl) (fun q hq => ho q (g6.subset hq))
  exact ⟨rows', cs', _, G', hc, by rw [h2.mimetypes]; exact g5, h3, g6, by rw [h2.mimetypes, g2]; rfl, h4⟩

/-- the buffered redirects are all written, or those that cannot be written stay buffered -/
theorem Core.refuse {r : Nat} (h : Core false none X C ML (some r) a G rows cs extra es L m0 R B) (hn : NewSources es m0 B)
    (hO : ∀ r ∈ R, Once m0 es r.1 r.2.1) (hroom : B = [] ∨ rows.length + B.length < 80 + r ∧ 80 + r ≤ 2 ^ 32) (blob : Entry → PyM Zim Unit)
    (d : Nat) {passes : Nat} (hp : B.length + 1 ≤ passes) :
    (∃ Z', Zim.finalizeOperations blob (d + 2) passes a.zim = (.ok (), Z') ∧ ∀ k, Filled k a.zim → Filled k Z') ∨
    ∃ Z' rows' m0' R' U, Zim.finalizeOperations blob (d + 2) passes a.zim = (.error .unresolvedRedirect, Z') ∧
      Core false none X C ML (some r) { a with zim := Z' } G rows' cs extra es L m0' (R ++ R') U ∧
      Z'.mimetypes = a.zim.mimetypes ∧ (R' ++ U).Perm B ∧ (∀ k, Filled k a.zim → Filled k Z') ∧
      Onward (some r) (· ∈ B.map (·.1)) a rows cs extra es { a with zim := Z' } rows' cs es := by
  by_cases hB : B = []
  · exact .inl ⟨_, Zim.finalizeOperations_nothing blob (d + 2) (by omega) (h.redirects.trans hB) h.mainpage, fun _ h => h⟩
  · obtain ⟨k1, k2⟩ := hroom.resolve_left hB
    have hrm := h.roomy hO (by omega) k2
    have hb := h.redirects
    obtain ⟨Z2, _, h3, -⟩ := hrm.redirectLoop d passes _ _ ⟨by rw [hb]; exact hn.valid, by rw [hb]; exact hn.nodup, (by
        rw [hb]
        intro q hq hh
        obtain ⟨s, hs, hsu⟩ := (h.laid.content.rep.has_iff _).1 hh
        have := (h.lists _ _).2 ⟨s, hs, hsu, rfl⟩
        rw [catalogue_other m0 (hn.entries q hq), hn.redirects q hq] at this
        cases this), by rw [hb, h.laid.content.rep.len]; exact k1⟩ (by rw [hb]; exact hp)
    obtain ⟨-, -, -, -, -, g2, -⟩ := Core.redirectLoop passes h hn h3
    obtain ⟨rows', m0', R', U, g1, g3, g4⟩ := Core.redirectLoop_onward passes h hn h3
    have hfill : ∀ k, Filled k a.zim → Filled k Z2 := fun k hk => Zim.filled_redirectLoop _ _ _ _ _ hk h3
    have hU : Z2.bufferedRedirects = U := g1.redirects
    unfold Zim.finalizeOperations Zim.applyRedirects
    by_cases hl : U = []
    · refine .inl ⟨Z2, ?_, hfill⟩
      rw [PyM.bind_ok (a := ()) (s' := Z2) (by
        rw [PyM.bind_ok h3, PyM.get_bind, hU, hl]
        rfl)]
      unfold Zim.applySetMainpageUrl
      rw [PyM.get_bind, show Z2.bufferedMainpage = none from g1.mainpage]
      rfl
    · refine .inr ⟨Z2, rows', m0', R', U, ?_, g1, g2, g3, hfill, g4⟩
      refine PyM.bind_err ?_
      rw [PyM.bind_ok h3, PyM.get_bind, hU]
      unfold PyM.require
      rw [if_neg (by simpa using hl)]
end

variable {D K : Type} {S : Setup D K} {md5 : Bytes → Bytes} {r : Nat} {ML : List Bytes} {G0 : List (List Sourced)}
  {items : List Sourced} {rs : List Redirect} {c c' : Creator D}

/-- a flush that fails although everything fits: some redirects could not be written, everything that was added is kept -/
theorem HasAt.refused {G : List (List Sourced)} {P1 P2 : List Sourced} {rows : List Row} {cs : List Stored} {extra : Nat → Prop}
    {es : List Entry} {L : Bytes} {m0 : Catalogue} {R B : List Redirect} (hr : 2 ≤ r) (hS : S.Good md5 (some r)) (hd : 2 ≤ S.depth) (hps : rs.length + 1 ≤ S.passes)
    (h : HasAt false none S ML (some r) G0 items rs c G P1 P2)
    (hc : Core false none S.X S.C ML (some r) c.arch (G0 ++ G) rows cs extra es L m0 R B) (hB : (R ++ B).Perm rs)
    (hh : NotHuge items) (hs : Separate rs G0 items)
    (hz : Filled (80 + r) c.arch.zim) (hp : c.PlainHead) (hm : mimesSize ML ≤ r) (hf : Fits r (G0.flatten ++ items) rs)
    {x : PyErr} (hok : Creator.flush S c = (.error x, c')) (hlen : c'.arch.zim.file.length < 2 ^ 64)
    (hdirty : c'.arch.isDirty = true) :
    x = .unresolvedRedirect ∧ ∃ G' rows' cs' es' m0' R' U, HasAt false none S ML (some r) G0 items rs c' (G ++ G') [] [] ∧
      Core false none S.X S.C ML (some r) c'.arch (G0 ++ (G ++ G')) rows' cs' extra es' L m0' R' U ∧ (R' ++ U).Perm rs ∧
      Onward (some r) (· ∈ B.map (·.1)) c.arch rows cs extra es c'.arch rows' cs' es' ∧ Filled (80 + r) c'.arch.zim := by
  obtain ⟨-, ⟨t, mx1, W, hw1⟩, ⟨mx2, hw2⟩, hf1, hf2, hperm, hcl⟩ := h
  obtain ⟨d, hdd⟩ : ∃ d, S.depth = d + 2 := ⟨S.depth - 2, by omega⟩
  have hflush : Creator.flush S c = (if c.arch.isDirty then (do
      Creator.onMain (Strategy.flushOn (Zim.backend S.X S.C S.depth))
      Creator.onPlain (Strategy.flushOn (Zim.backend S.X S.C S.depth))
      Creator.onArch (Archive.flushDirty S.H S.short S.chunksize S.policy
        (Zim.finalizeOperations S.blob S.depth S.passes) (Creator.setListing S))) else pure () : PyM (Creator D) Unit) c := by
    unfold Creator.flush
    rw [PyM.get_bind, PyM.bind_ok (show PyM.require (!c.arch.zim.closed) .zimFileClosed c = (.ok (), c) by
      rw [hc.laid.content.rep.isOpen]; rfl), PyM.bind_ok (show PyM.require c.arch.zim.mutable .nonMutable c = (.ok (), c) by
      rw [hc.laid.content.rep.isMutable]; rfl)]
  rw [hflush] at hok
  cases hdt : c.arch.isDirty with
  | false =>
    rw [hdt, if_neg (by simp)] at hok
    cases hok
  | true =>
  rw [hdt, if_pos rfl] at hok
  have hn1 : NotHuge P1 := (hh.perm hperm).sublist (by rw [List.append_assoc]; exact List.sublist_append_left _ _)
  have hn2 : NotHuge P2 := (hh.perm hperm).sublist (by
    rw [List.append_assoc]
    exact (List.sublist_append_left _ _).trans (List.sublist_append_right _ _))
  have hall : ((G0 ++ G).flatten ++ (P1 ++ P2)).Perm (G0.flatten ++ items) := by
    rw [List.flatten_append, List.append_assoc]
    exact (List.perm_append_comm.trans hperm).append_left _
  have hRl : R.length ≤ rs.length := by rw [← hB.length_eq, List.length_append]; omega
  have hRs : ∀ q ∈ R, q ∈ rs := fun q hq => hB.subset (List.mem_append_left _ hq)
  -- the first strategy
  have hs1 : List.Subperm ((G0 ++ G).flatten ++ P1) (G0.flatten ++ items) :=
    ((List.sublist_append_left P1 P2).append_left _).subperm.trans hall.subperm
  obtain ⟨s1, Z1, e1⟩ := hc.flushStrategy_total W hw1 hf1 hn1 (hf.fresh hs1 hRs) (hf.room hc hs1 hRl) d
  rw [← hdd] at e1
  obtain ⟨rows1, cs1, es1, G1, g1, g2, g3, g4, g5, g6⟩ := hc.flushStrategy_both W hw1 hf1 hn1
    (fun q hq => hf.articles q (hs1.subset (List.mem_append_right _ hq))) e1
  have z1 := hc.filled_flush hf1 e1 hz
  -- the second strategy
  have hs2 : List.Subperm ((G0 ++ G ++ G1).flatten ++ P2) (G0.flatten ++ items) := by
    rw [List.flatten_append, List.append_assoc]
    exact ((g4.append_right P2).append_left _).subperm.trans hall.subperm
  obtain ⟨s2, Z2, e2⟩ := g1.flushStrategy_total hS.plain (by simp only; rw [g5]; exact hw2) hf2 hn2 (hf.fresh hs2 hRs)
    (hf.room g1 hs2 hRl) d
  rw [← hdd] at e2
  obtain ⟨rows2, cs2, es2, G2, k1, k2, k3, k4, k5, k6⟩ := g1.flushStrategy_both hS.plain (by simp only; rw [g5]; exact hw2) hf2 hn2
    (fun q hq => hf.articles q (hs2.subset (List.mem_append_right _ hq))) e2
  have z2 := g1.filled_flush hf2 e2 z1
  have hs3 : (G0 ++ G ++ G1 ++ G2).flatten.Perm (G0.flatten ++ items) := by
    rw [List.flatten_append, List.flatten_append, List.append_assoc]
    exact ((g4.append k4).append_left _).trans hall
  have hpm : (G ++ G1 ++ G2).flatten.Perm items := by
    simp only [List.flatten_append]
    refine List.Perm.trans ?_ hperm
    refine ((g4.append_left _).append k4).trans ?_
    rw [List.append_assoc]
    exact List.perm_append_comm
  have hk := k1
  rw [List.append_assoc G0, List.append_assoc G0] at hk
  have hn := hk.newSources hs hB fun p hp => hpm.subset hp
  have hBl : R.length + B.length = rs.length := by rw [← hB.length_eq, List.length_append]
  have hlen' : (G0 ++ G ++ G1 ++ G2).flatten.length = (G0.flatten ++ items).length := hs3.length_eq
  have hent := hf.entries
  have p1 : Z1.PlainHead := by
    have := (Zim.backend_plain S.X S.C S.depth).flush (c.main, c.arch.zim) hp
    rwa [e1] at this
  have p2 : Z2.PlainHead := by
    have := (Zim.backend_plain S.X S.C S.depth).flush (c.plain, Z1) p1
    rwa [e2] at this
  have f1 : Creator.onMain (Strategy.flushOn (Zim.backend S.X S.C S.depth)) c =
      (.ok (), { c with main := s1, arch := { c.arch with zim := Z1 } }) := by
    simp only [Creator.onMain, PyM.of_apply, e1]
  have f2 : Creator.onPlain (Strategy.flushOn (Zim.backend S.X S.C S.depth)) { c with main := s1, arch := { c.arch with zim := Z1 } } =
      (.ok (), { c with main := s1, plain := s2, arch := { c.arch with zim := Z2 } }) := by
    simp only [Creator.onPlain, PyM.of_apply, e2]
  rw [PyM.bind_ok f1, PyM.bind_ok f2] at hok
  simp only [Creator.onArch, PyM.of_apply] at hok
  injection hok with o1 o2
  have hro : B = [] ∨ rows2.length + B.length < 80 + r ∧ 80 + r ≤ 2 ^ 32 := by
    rcases hf.redirects with e | ⟨q1, q2⟩
    · rw [e, List.length_nil] at hBl
      exact .inl (List.length_eq_zero_iff.1 (by omega))
    · have := k1.rows_length
      exact .inr ⟨by omega, q2⟩
  rcases k1.refuse hn (hf.once k1 hs3.subperm hB) hro S.blob d (passes := S.passes) (by omega) with
    ⟨Z', e0, hz'⟩ | ⟨Z', rows', m0', R', U, e0, hcore, hmt, hRU, hz', k7⟩
  · exfalso
    rw [← hdd] at e0
    have key : Archive.OkOr (Archive.flushDirty S.H S.short S.chunksize S.policy (Zim.finalizeOperations S.blob S.depth S.passes)
        (Creator.setListing S)) { c.arch with zim := Z2 } := by
      rw [Archive.flushDirty_eq]
      have e : Archive.onZim (Zim.finalizeOperations S.blob S.depth S.passes) { c.arch with zim := Z2 } =
          (.ok (), { c.arch with zim := Z' }) := by
        unfold Archive.onZim
        rw [show Zim.finalizeOperations S.blob S.depth S.passes ({ c.arch with zim := Z2 } : Archive).zim = (.ok (), Z') from e0]
      refine Archive.OkOr.bind (.inl ⟨_, e⟩) fun a2 h2 => ?_
      have hp2 : a2.zim.PlainHead := keeps_ok (P := fun a : Archive => a.zim.PlainHead)
        (Archive.plain_onZim (Zim.plain_finalizeOperations _ _ _)) h2 p2
      rw [e] at h2
      injection h2 with _ h2
      subst h2
      obtain ⟨rows', m0', R', q1, -, q3⟩ := k1.finalize hn e0
      refine Core.flushLists_total hr hS q1 (hz' _ z2) hp2 ⟨?_, hm⟩
      rw [List.length_append, q3.length_eq]
      omega
    rcases key with ⟨a', e⟩ | e
    · rw [e] at o1
      cases o1
    · rw [← o2] at hlen
      exact absurd hlen (Nat.not_lt.2 e)
  · rw [← hdd] at e0
    have e : Archive.flushDirty S.H S.short S.chunksize S.policy (Zim.finalizeOperations S.blob S.depth S.passes)
        (Creator.setListing S) { c.arch with zim := Z2 } = (.error .unresolvedRedirect, { c.arch with zim := Z' }) := by
      rw [Archive.flushDirty_eq]
      refine PyM.bind_err ?_
      unfold Archive.onZim
      rw [show Zim.finalizeOperations S.blob S.depth S.passes ({ c.arch with zim := Z2 } : Archive).zim =
        (.error .unresolvedRedirect, Z') from e0]
    rw [e] at o1 o2
    injection o1 with o1
    subst o2
    rw [List.append_assoc G0, List.append_assoc G0] at hcore
    have hper : (R ++ R' ++ U).Perm rs := by
      rw [List.append_assoc]
      exact (hRU.append_left _).trans hB
    have hon := (g6.trans k6).trans k7
    rw [List.append_assoc G] at hcore hpm
    refine ⟨o1.symm, G1 ++ G2, rows', cs2, es2, m0', R ++ R', U, ⟨⟨rows', cs2, extra, es2, L, m0', R ++ R', U, hcore, hper⟩, ⟨t, mx1, W, ?_⟩,
      ⟨mx2, ?_⟩, g3, k3, by simpa using hpm, fun hd => ?_⟩, hcore, hper, ?_, hz' _ z2⟩
    · refine g2.mono ?_
      simp only [hmt, k5]
      exact List.prefix_rfl
    · refine k2.mono ?_
      simp only [hmt]
      exact List.prefix_rfl
    · rw [hdirty] at hd
      cases hd
    · exact hon.mono fun u hu => hu.elim (fun h => h.elim False.elim False.elim) id

/-- … whatever its parts are -/
theorem Has.refused (hr : 2 ≤ r) (hS : S.Good md5 (some r)) (hd : 2 ≤ S.depth) (hps : rs.length + 1 ≤ S.passes)
    (h : Has false none S ML (some r) G0 items rs c) (hh : NotHuge items) (hs : Separate rs G0 items)
    (hz : Filled (80 + r) c.arch.zim) (hp : c.PlainHead) (hm : mimesSize ML ≤ r) (hf : Fits r (G0.flatten ++ items) rs)
    {x : PyErr} (hok : Creator.flush S c = (.error x, c')) (hlen : c'.arch.zim.file.length < 2 ^ 64)
    (hdirty : c'.arch.isDirty = true) :
    x = .unresolvedRedirect ∧ Has false none S ML (some r) G0 items rs c' ∧ Filled (80 + r) c'.arch.zim := by
  obtain ⟨G, P1, P2, h⟩ := h
  obtain ⟨rows, cs, extra, es, L, m0, R, B, hc, hB⟩ := h.core
  obtain ⟨h1, G', -, -, -, -, -, -, h2, -, -, -, h3⟩ := h.refused hr hS hd hps hc hB hh hs hz hp hm hf hok hlen hdirty
  exact ⟨h1, ⟨_, _, _, h2⟩, h3⟩

/-- what adding an item does to the space of the archive -/
theorem Has.filled_add {k : Nat} (h : Has false none S ML (some r) G0 items rs c) (hML : ML.length < 65535) {p : Sourced}
    (hi : p.1.Addable ML) {force : Bool} (hok : Creator.addItem S p.1 force c = (.ok (), c')) (h0 : Filled k c.arch.zim) :
    Filled k c'.arch.zim := by
  obtain ⟨G, P1, P2, ⟨rows, cs, extra, es, L, m0, R, B, hc, hB⟩, -, -, hf1, hf2, -, -⟩ := h
  unfold Creator.addItem at hok
  rw [PyM.get_bind, PyM.bind_ok (show PyM.require (!c.arch.zim.closed) .zimFileClosed c = (.ok (), c) by
    rw [hc.laid.content.rep.isOpen]; rfl), PyM.bind_ok (show PyM.require c.arch.zim.mutable .nonMutable c = (.ok (), c) by
    rw [hc.laid.content.rep.isMutable]; rfl)] at hok
  obtain ⟨⟨⟩, c1, h1, hokA⟩ := PyM.bind_ok_iff.1 hok
  clear hok
  rw [PyM.modify_apply] at hokA
  injection hokA with _ hokA
  rw [← hokA]
  cases force with
  | true =>
    simp only [if_true, Creator.onPlain, PyM.of_apply] at h1
    cases hr : Strategy.addItemOn S.X (Zim.backend S.X S.C S.depth) p.1 (c.plain, c.arch.zim) with
    | mk r q =>
      obtain ⟨s', Z'⟩ := q
      rw [hr] at h1
      injection h1 with h1 h1'
      simp only at h1
      subst h1
      rw [← h1']
      exact hc.filled_add hf2 hML hi hr h0
  | false =>
    simp only [Bool.false_eq_true, if_false, Creator.onMain, PyM.of_apply] at h1
    cases hr : Strategy.addItemOn S.X (Zim.backend S.X S.C S.depth) p.1 (c.main, c.arch.zim) with
    | mk r q =>
      obtain ⟨s', Z'⟩ := q
      rw [hr] at h1
      injection h1 with h1 h1'
      simp only at h1
      subst h1
      rw [← h1']
      exact hc.filled_add hf1 hML hi hr h0

theorem filled_redirected {k : Nat} {q : Redirect} (hok : Creator.addFullUrlRedirect S q.1 q.2.1 q.2.2 c = (.ok (), c'))
    (h : Filled k c.arch.zim) : Filled k c'.arch.zim := by
  simp only [Creator.addFullUrlRedirect, Creator.onArch, Archive.onZim, PyM.of_apply] at hok
  cases hr : Zim.addFullUrlRedirect S.depth q.1 q.2.1 q.2.2 c.arch.zim with
  | mk res Z' =>
  rw [hr] at hok
  injection hok with hok hok'
  simp only at hok
  subst hok
  rw [← hok']
  exact Zim.filled_addFullUrlRedirect _ _ _ _ _ _ _ h hr

variable {c0 : Creator D} {done : List (List Sourced)} {recent : List Sourced} {rs0 : List Redirect} {mts : List String}

theorem InLimits.mimes {lists : List (List Sourced)} (h : InLimits r mts lists rs) : mimesSize (stored mts) ≤ r := by
  have := h.space
  unfold mimesSize stored
  rw [List.map_cons, List.map_map]
  exact this

theorem Retried.valid (h : Retried S c0 c items rs) : ∀ q ∈ rs, q.Valid := by
  induction h with
  | start => intro q hq; cases hq
  | add _ _ _ ih => exact ih
  | redirect _ hv _ _ ih =>
    intro q hq
    rcases List.mem_append.1 hq with hq | hq
    · exact ih q hq
    · rw [List.mem_singleton] at hq
      exact hq ▸ hv
  | refused _ _ _ _ ih => exact ih

theorem append_valid {l l' : List Redirect} (h : ∀ q ∈ l, q.Valid) (h' : ∀ q ∈ l', q.Valid) : ∀ q ∈ l ++ l', q.Valid := fun q hq =>
  (List.mem_append.1 hq).elim (h q) (h' q)

/-- what the archive has after some flushes were refused -/
theorem Retried.has (hr : 2 ≤ r) (hS : S.Good md5 (some r)) (hd : 2 ≤ S.depth) (h0 : CreatorHist S c0 done recent rs0)
    (h : Retried S c0 c items rs) (hw : InLimits r mts (done ++ [recent ++ items]) (rs0 ++ rs))
    (hps : (rs0 ++ rs).length + 1 ≤ S.passes) :
    (∃ Gb, List.Forall₂ (fun G l => G.flatten.Perm l) Gb done ∧
      Has false none S (stored mts) (some r) Gb.flatten (recent ++ items) (rs0 ++ rs) c) ∧
    Filled (80 + r) c.arch.zim ∧ c.PlainHead := by
  induction h with
  | start =>
    rw [List.append_nil, List.append_nil] at *
    have hF := hw.fine
    exact ⟨h0.has hr hS hF.apart (stored_few hw.few) List.mem_cons_self hF.lists,
      h0.filled hr hS (stored_few hw.few) List.mem_cons_self hF, h0.plainHead hr hS (stored_few hw.few) List.mem_cons_self hF⟩
  | @add c c' items rs p force hprev hp hok ih =>
    rw [← List.append_assoc] at hw ⊢
    obtain ⟨⟨Gb, h1, h2⟩, h3, h4⟩ := ih hw.add hps
    have hl := hw.fine.lists (recent ++ items ++ [p]) (by simp)
    have hi : p.1.Addable (stored mts) := ⟨hp.1, (hl.2.2 _ (by simp)).1, hp.2.2⟩
    exact ⟨⟨Gb, h1, h2.add hS (hl.2.1.sublist (List.sublist_append_left _ [p])) (stored_few hw.few) hp.2 hi
      (fun q hq => (hl.2.2 q hq).2) hok⟩, h2.filled_add (stored_few hw.few) hi hok h3, keeps_ok (Creator.plain_addItem _ _) hok h4⟩
  | @redirect c c' items rs q hprev hv hok hdt ih =>
    rw [← List.append_assoc] at hw hps ⊢
    obtain ⟨⟨Gb, h1, h2⟩, h3, h4⟩ := ih
      (hw.sub (List.Sublist.refl _) (fun l hl => ⟨l, hl, List.Sublist.refl _⟩) (List.sublist_append_left _ _)) (by
        simp only [List.length_append, List.length_cons, List.length_nil] at hps ⊢
        omega)
    refine ⟨⟨Gb, h1, h2.redirect (hw.apart.separate (append_valid (append_valid h0.valid hprev.valid) ?_) h1) hok hdt⟩,
      filled_redirected hok h3, keeps_ok (Creator.plain_addFullUrlRedirect _ _ _) hok h4⟩
    intro x hx
    rw [List.mem_singleton] at hx
    exact hx ▸ hv
  | @refused c c' items rs x hprev hok hlen hdt ih =>
    obtain ⟨⟨Gb, h1, h2⟩, h3, h4⟩ := ih hw hps
    obtain ⟨-, k1, k2⟩ := h2.refused hr hS hd hps (hw.fine.lists (recent ++ items) (by simp)).2.1
      (hw.apart.separate (append_valid h0.valid hprev.valid) h1) h3 h4 hw.mimes (hw.fits (all_perm h1 _)) hok hlen hdt
    exact ⟨⟨Gb, h1, k1⟩, k2, keeps_ok Creator.plain_flush hok h4⟩

/-- what additions and refused flushes leave as it is: all entries that were there -/
theorem Retried.onward (hr : 2 ≤ r) (hS : S.Good md5 (some r)) (hd : 2 ≤ S.depth) (h0 : CreatorHist S c0 done recent rs0)
    {Gb : List (List (List Sourced))} (h1 : List.Forall₂ (fun G l => G.flatten.Perm l) Gb done)
    {G : List (List Sourced)} {P1 P2 : List Sourced} {rows : List Row} {cs : List Stored} {extra : Nat → Prop} {es : List Entry}
    {L : Bytes} {m0 : Catalogue} {R : List Redirect}
    (hat : HasAt false none S (stored mts) (some r) Gb.flatten recent rs0 c0 G P1 P2)
    (hc : Core false none S.X S.C (stored mts) (some r) c0.arch (Gb.flatten ++ G) rows cs extra es L m0 R [])
    (hG : G.flatten.Perm recent) (hB : R.Perm rs0)
    (h : Retried S c0 c items rs) (hw : InLimits r mts (done ++ [recent ++ items]) (rs0 ++ rs))
    (hps : (rs0 ++ rs).length + 1 ≤ S.passes) :
    ∃ Gn P1' P2' rows' cs' es' m0' R' B',
      HasAt false none S (stored mts) (some r) Gb.flatten (recent ++ items) (rs0 ++ rs) c (G ++ Gn) P1' P2' ∧
      Core false none S.X S.C (stored mts) (some r) c.arch (Gb.flatten ++ (G ++ Gn)) rows' cs' extra es' L m0' R' B' ∧
      (R' ++ B').Perm (rs0 ++ rs) ∧
      Onward (some r) (fun u => ∀ x ∈ rows, x.2.fullUrl ≠ u) c0.arch rows cs extra es c.arch rows' cs' es' := by
  induction h with
  | start => exact ⟨[], P1, P2, rows, cs, es, m0, R, [], by simpa using hat, by simpa using hc, by simpa using hB, .refl⟩
  | @add c c' items rs p force hprev hp hok ih =>
    rw [← List.append_assoc] at hw ⊢
    obtain ⟨Gn, P1', P2', rows', cs', es', m0', R', B', k1, k2, k3, k4⟩ := ih hw.add hps
    have hl := hw.fine.lists (recent ++ items ++ [p]) (by simp)
    obtain ⟨G', Q1, Q2, rows2, cs2, es2, l1, l2, l3⟩ := k1.add hS k2 k3 (hl.2.1.sublist (List.sublist_append_left _ [p]))
      (stored_few hw.few) hp.2 ⟨hp.1, (hl.2.2 _ (by simp)).1, hp.2.2⟩ (fun q hq => (hl.2.2 q hq).2) hok
    rw [List.append_assoc G] at l1 l2
    exact ⟨Gn ++ G', Q1, Q2, rows2, cs2, es2, m0', R', B', l1, l2, k3, (k4.trans l3).mono fun u hu => hu.elim id False.elim⟩
  | @redirect c c' items rs q hprev hv hok hdt ih =>
    rw [← List.append_assoc] at hw hps ⊢
    obtain ⟨Gn, P1', P2', rows', cs', es', m0', R', B', k1, k2, k3, k4⟩ := ih
      (hw.sub (List.Sublist.refl _) (fun l hl => ⟨l, hl, List.Sublist.refl _⟩) (List.sublist_append_left _ _)) (by
        simp only [List.length_append, List.length_cons, List.length_nil] at hps ⊢
        omega)
    have hs : Separate (rs0 ++ rs ++ [q]) Gb.flatten (recent ++ items) := by
      refine hw.apart.separate (append_valid (append_valid h0.valid hprev.valid) ?_) h1
      intro x hx
      rw [List.mem_singleton] at hx
      exact hx ▸ hv
    obtain ⟨rows2, m2, R2, B2, l1, l2, l3, l4⟩ := k1.redirect k2 k3 hs hok hdt
    refine ⟨Gn, P1', P2', rows2, cs', es', m2, R2, B2, l1, l2, l3, (k4.trans l4).mono fun u hu => ?_⟩
    rcases hu with hu | rfl
    · exact hu
    · intro x hx hu
      have h2 := (hc.lists _ _).2 ⟨x, hx, rfl, rfl⟩
      by_cases hue : x.2.fullUrl ∈ es.map Entry.fullUrl
      · rw [hu] at hue
        exact hc.apart (hs.sub (List.Sublist.refl _) fun q hq => List.mem_append_left _ hq) (fun p hp => hG.subset hp)
          (List.mem_append_right _ (by simp)) hue
      · rw [catalogue_other m0 hue] at h2
        obtain ⟨z, hz, hzu⟩ := hc.only _ _ h2
        have := hs.nodup
        rw [List.map_append, List.nodup_append] at this
        exact this.2.2 _ (List.mem_map_of_mem (List.mem_append_left _ (hB.subset hz))) _ (List.mem_map_of_mem (List.mem_singleton.2 rfl))
          (hzu.trans hu)
  | @refused c c' items rs x hprev hok hlen hdt ih =>
    obtain ⟨Gn, P1', P2', rows', cs', es', m0', R', B', k1, k2, k3, k4⟩ := ih hw hps
    obtain ⟨-, h3, h4⟩ := hprev.has hr hS hd h0 hw hps
    have hs := hw.apart.separate (append_valid h0.valid hprev.valid) h1
    obtain ⟨-, G', rows2, cs2, es2, m2, R2, B2, l1, l2, l3, l4, -⟩ := k1.refused hr hS hd hps k2 k3
      (hw.fine.lists (recent ++ items) (by simp)).2.1 hs h3 h4 hw.mimes (hw.fits (all_perm h1 _)) hok hlen hdt
    rw [List.append_assoc G] at l1 l2
    refine ⟨Gn ++ G', [], [], rows2, cs2, es2, m2, R2, B2, l1, l2, l3, (k4.trans l4).mono fun u hu => ?_⟩
    rcases hu with hu | hu
    · exact hu
    · intro x hx hxu
      have hno := k2.newSources hs k3 fun p hp => k1.perm.subset (List.mem_append_right _ hp)
      obtain ⟨y, hy, hyu⟩ := List.mem_map.1 hu
      have h2 := hno.entries y hy
      rw [← hxu] at hyu
      obtain ⟨x', hx', hxu'⟩ := k4.stays x hx (by
        rintro (h3 | h3)
        · exact h3 x hx rfl
        · rw [← hyu] at h3
          exact h2 ((List.drop_sublist _ _).map _ |>.subset h3))
      have h3 := (k2.lists _ _).2 ⟨x', hx', rfl, rfl⟩
      rw [Entry.blank_fullUrl hxu'.2, ← hyu, catalogue_other m0' h2, hno.redirects y hy] at h3
      cases h3

/-- the file after some flushes were refused -/
theorem Retried.shows (hr : 2 ≤ r) (hS : S.Good md5 (some r)) (hd : 2 ≤ S.depth) (h0 : CreatorHist S c0 done recent rs0)
    (hcl : c0.arch.isDirty = false)
    (h : Retried S c0 c items rs) (hw : InLimits r mts (done ++ [recent ++ items]) (rs0 ++ rs))
    (hps : (rs0 ++ rs).length + 1 ≤ S.passes)
    (kind : ClusterKind) (calls follow : Nat) (titles : Zim → PyRes PointerList) :
    ∃ a, Creator.openArchive { S with kind := kind, calls := calls, follow := follow } titles false c.arch.zim.file = .ok a ∧
      ShowsItems S.X kind calls a.zim (current (done ++ [recent])) rs0 := by
  have hF0 : InLimits r mts (done ++ [recent]) rs0 := hw.sub (by
      rw [List.flatten_append, List.flatten_append]
      exact List.Sublist.append_left (by simp) _) (fun l hl => by
      rcases List.mem_append.1 hl with hl | hl
      · exact ⟨l, List.mem_append_left _ hl, List.Sublist.refl _⟩
      · rw [List.mem_singleton] at hl
        subst hl
        exact ⟨_, List.mem_append_right _ (List.mem_singleton.2 rfl), List.sublist_append_left _ _⟩) (List.sublist_append_left _ _)
  have hF := hF0.fine
  obtain ⟨Gb, h1, G, P1, P2, hat⟩ := h0.has hr hS hF.apart (stored_few hw.few) List.mem_cons_self hF.lists
  obtain ⟨rows, cs, extra, es, L, m0, R, B, hc, hB⟩ := hat.core
  obtain ⟨rfl, rfl, hb⟩ := hat.clean hcl
  replace hb := hb rfl
  have hperm : G.flatten.Perm recent := by simpa using hat.perm
  obtain rfl : B = [] := hc.redirects.symm.trans hb
  rw [List.append_nil] at hB
  obtain ⟨Gn, P1', P2', rows', cs', es', m0', R', B', k1, k2, k3, k4⟩ := h.onward hr hS hd h0 h1 hat hc hperm hB hw hps
  have hl := hw.fine.lists (recent ++ items) (by simp)
  have hGn : ∀ p ∈ Gn.flatten, p ∈ items := by
    intro p hp
    have h4 : ((P1' ++ P2' ++ Gn.flatten) ++ G.flatten).Perm (items ++ recent) := by
      refine List.Perm.trans ?_ (k1.perm.trans List.perm_append_comm)
      rw [List.flatten_append, List.append_assoc]
      exact List.Perm.append_left _ List.perm_append_comm
    exact ((List.perm_append_right_iff recent).1 ((List.Perm.append_left _ hperm).symm.trans h4)).subset (List.mem_append_right _ hp)
  refine hc.shows_still hS hcl hperm hB h1 (hw.apart.sub (List.sublist_append_left _ _) fun x hx q hq => ⟨x, hx, hq⟩)
    h0.valid (fun l hl => (hF.lists l hl).1) (fun p hp => (hl.2.2 p (List.mem_append_right _ hp)).2) ?_ k2 hGn k4
    (fun x hx hu => hu x hx rfl) kind calls follow titles
  intro p hp l hl q hq hpq
  have hu := hw.urls
  rw [List.flatten_append, show [recent ++ items].flatten = recent ++ items by simp, ← List.append_assoc, List.map_append,
    List.nodup_append] at hu
  refine hu.2.2 _ (List.mem_map_of_mem (f := fun p : Sourced => p.1.fullUrl) ?_) _ (List.mem_map_of_mem hp) hpq.symm
  rcases List.mem_append.1 hl with hl | hl
  · exact List.mem_append_left _ (List.mem_flatten.2 ⟨l, hl, hq⟩)
  · rw [List.mem_singleton] at hl
    exact List.mem_append_right _ (hl ▸ hq)

end Pyzim
