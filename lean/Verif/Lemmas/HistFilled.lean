import Verif.Lemmas.HistHead
import Verif.Lemmas.CreatorTotal

/-!
# The space that an archive occupies is filled, in the histories of an archive
-/

namespace Pyzim
open Zim (Row Stored Redirect Filled Mirrored)
variable {D K : Type} {S : Setup D K} {c c' : Creator D} {ML : List Bytes} {rs : List Redirect} {done : List (List Sourced)}
  {recent : List Sourced} {X : Codecs D} {C : Compressors K} {reserve : Option Nat} {a a' : Archive}
  {G G' : List (List Sourced)} {rows : List Row} {cs : List Stored} {extra : Nat → Prop} {es : List Entry} {L : Bytes}
  {m0 : Catalogue} {R B : List Redirect} {k : Nat}

theorem Zim.Mirrored.filled {Z0 Z : Zim} {cs0 : List Stored} {n0 : Nat} {rest : Nat → Prop} {m0 : Catalogue} {S0 : String → Prop}
    {z : ZimLog} (h : Mirrored X C ML Z0 cs0 n0 rest m0 S0 z Z) (hz : Filled k Z0) : Filled k Z := by
  obtain ⟨cs, rows, h⟩ := h
  exact h.filled k hz

theorem Core.filled_add {s s' : Strategy D} {Z' : Zim} {depth : Nat}
    (h : Core false none X C ML reserve a G rows cs extra es L m0 R B) (hf : s.Fit) (hML : ML.length < 65535) {it : Item} (hi : it.Addable ML)
    (hok : Strategy.addItemOn X (Zim.backend X C depth) it (s, a.zim) = (.ok (), (s', Z'))) (hz : Filled k a.zim) :
    Filled k Z' := by
  obtain ⟨z', -, h2, -⟩ := Mirrored.add (h.mirrored (C := C)) hf hML hi hok
  exact h2.filled hz

theorem Core.filled_flush {s s' : Strategy D} {Z' : Zim} {depth : Nat}
    (h : Core false none X C ML reserve a G rows cs extra es L m0 R B) (hf : s.Fit)
    (hok : Strategy.flushOn (Zim.backend X C depth) (s, a.zim) = (.ok (), (s', Z'))) (hz : Filled k a.zim) :
    Filled k Z' := by
  obtain ⟨z', -, h2, -⟩ := Mirrored.flush (h.mirrored (C := C)) hf hok
  exact h2.filled hz

theorem Core.filled_clean (h : Core false none X C ML reserve a G rows cs extra es L m0 R B) (hd : a.isDirty = false) : Filled k a.zim := by
  have : a.zim.file.length = a.zim.space.fileEnd + 16 := by
    unfold Archive.isDirty at hd
    simp only [Bool.or_eq_false_iff] at hd
    exact (h.laid.ends (by simp [hd]) (by simp [hd]) (by simp [hd]) (by simp [hd])).2
  unfold Filled
  omega

/-- In a history, the file is at least as long as the space that is in use, apart from the room reserved at its start. -/
theorem CreatorHist.filled {md5 : Bytes → Bytes} {r : Nat} (hr : 2 ≤ r)
    (hS : S.Good md5 (some r)) (h : CreatorHist S c done recent rs) (hML : ML.length < 65535)
    (hmt : encode Creator.placeholder.mimetype ∈ ML) (hF : Fine ML rs done recent) : Filled (80 + r) c.arch.zim := by
  induction h with
  | new hu W n1 n2 hok => exact (Has.newDirty (gh := false) hr hS hu W n1 n2 hML hmt hok).2.2
  | @add c c' done recent rs p force hprev hp hok ih =>
    obtain ⟨Gb, -, G, P1, P2, ⟨rows, cs, extra, es, L, m0, R, B, hc, hB⟩, -, -, hf1, hf2, -, -⟩ :=
      hprev.has hr hS hF.add.apart hML hmt hF.add.lists
    have hi : p.1.Addable ML := ⟨hp.1, ((hF.lists (recent ++ [p]) (by simp)).2.2 _ (by simp)).1, hp.2.2⟩
    have h0 := ih hF.add
    unfold Creator.addItem at hok
    rw [PyM.get_bind, PyM.bind_ok (show PyM.require (!c.arch.zim.closed) .zimFileClosed c = (.ok (), c) by
      rw [hc.laid.content.rep.isOpen]; rfl), PyM.bind_ok (show PyM.require c.arch.zim.mutable .nonMutable c = (.ok (), c) by
      rw [hc.laid.content.rep.isMutable]; rfl)] at hok
    obtain ⟨⟨⟩, c1, h1, hokA⟩ := PyM.bind_ok_iff.1 hok
    clear hok
    rw [PyM.modify_apply] at hokA
    injection hokA with _ hokA
    rw [← hokA]
    cases force with
    | true =>
      simp only [if_true, Creator.onPlain, PyM.of_apply] at h1
      cases hr : Strategy.addItemOn S.X (Zim.backend S.X S.C S.depth) p.1 (c.plain, c.arch.zim) with
      | mk r q =>
        obtain ⟨s', Z'⟩ := q
        rw [hr] at h1
        injection h1 with h1 h1'
        simp only at h1
        subst h1
        rw [← h1']
        exact hc.filled_add hf2 hML hi hr h0
    | false =>
      simp only [Bool.false_eq_true, if_false, Creator.onMain, PyM.of_apply] at h1
      cases hr : Strategy.addItemOn S.X (Zim.backend S.X S.C S.depth) p.1 (c.main, c.arch.zim) with
      | mk r q =>
        obtain ⟨s', Z'⟩ := q
        rw [hr] at h1
        injection h1 with h1 h1'
        simp only at h1
        subst h1
        rw [← h1']
        exact hc.filled_add hf1 hML hi hr h0
  | @redirect c c' done recent rs r _ hv hok hd ih =>
    simp only [Creator.addFullUrlRedirect, Creator.onArch, Archive.onZim, PyM.of_apply] at hok
    cases hr : Zim.addFullUrlRedirect S.depth r.1 r.2.1 r.2.2 c.arch.zim with
    | mk res Z' =>
    rw [hr] at hok
    injection hok with hok hok'
    simp only at hok
    subst hok
    rw [← hok']
    exact Zim.filled_addFullUrlRedirect _ _ _ _ _ _ _ (ih hF.redirect) hr
  | @set c c' done recent rs u src content hprev hR hh hu hrec hd hok ih =>
    have hF' := hF.set hh
    obtain ⟨Gb, -, G, P1, P2, ⟨rows, cs, extra, es, L, m0, R, B, hc, hB⟩, -⟩ := hprev.has hr hS hF'.apart hML hmt hF'.lists
    obtain ⟨z', hz, rfl⟩ := Creator.setContent_ok hok
    obtain ⟨-, -, cs', -, -, -, k⟩ := hc.setContent hR hd hu hz
    exact k _ (ih hF')
  | @flush c c' done recent rs hprev hok ih =>
    obtain ⟨Gb, h1, h2⟩ := hprev.has hr hS hF.flush.apart hML hmt hF.flush.lists
    have hl := hF.lists recent (by simp)
    obtain ⟨⟨G, -, G', P1, P2, ⟨rows, cs, extra, es, L, m0, R, B, hc, hB⟩, -⟩, k⟩ := h2.flush hS hl.2.1 (fun q hq => (hl.2.2 q hq).2)
      (hF.flush.apart.separate hprev.valid h1) hok
    exact hc.filled_clean k
  | reopen hprev hd W n1 n2 hok ih =>
    obtain ⟨Gb, -, h2⟩ := hprev.has hr hS hF.apart hML hmt hF.lists
    obtain ⟨G, P1, P2, ⟨rows, cs, extra, es, L, m0, R, B, hc, hB⟩, -⟩ := (h2.reopen hS hd W n1 n2 hok).1
    exact hc.filled_clean (h2.reopen hS hd W n1 n2 hok).2

end Pyzim
