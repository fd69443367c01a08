import Verif.Lemmas.CreatorFlushTotal

/-!
# An archive filled by strategies: creating it succeeds
-/

namespace Pyzim
open Zim (Row Stored Mirrored catalogue Redirect Holdable Led)
variable {D K : Type} {X : Codecs D} {C : Compressors K} {S : Setup D K} {ML : List Bytes} {c : Creator D}

theorem Wrote.holdable_new {G' : List (List Sourced)} {mts : MimeTypeList} {z' : ZimLog} (hw : Wrote X C G' ⟨mts, [], []⟩ z') (hne : ∀ g ∈ G', g ≠ [])
    (hl : G'.flatten.length ≤ 1) : Holdable (fun _ => none) [] 0 z' := by
  obtain ⟨csB, esB, -, w2, -, w4⟩ := hw
  have hG := length_le_flatten hne
  have hes : z'.entries = esB := w2
  have hlen : z'.entries.length ≤ 1 := by
    rw [hes, ← w4.length_eq, ← List.length_map (f := Prod.fst), slots_fst, List.length_map]
    exact hl
  refine ⟨?_, fun _ _ => rfl, fun e he => ?_, by simp, .inl rfl⟩
  · generalize z'.entries = l at hlen
    match l, hlen with
    | [], _ => simp
    | [x], _ => simp
    | _ :: _ :: _, h => simp at h
  · rw [hes] at he
    obtain ⟨s, hs, hse⟩ := forall₂_mem_right w4 he
    have h1 := slots_lt hs
    have h2 : (⟨mts, [], []⟩ : ZimLog).clusters.length = 0 := rfl
    rw [h2] at h1
    refine ⟨s.2.1, s.2.2, hse.location, ?_, ?_⟩ <;> omega

/-- creating an archive succeeds -/
theorem Creator.new_total {md5 : Bytes → Bytes} {r : Nat} (hr : 2 ≤ r) (hS : S.Good md5 (some r)) (hd : 2 ≤ S.depth)
    {uuid : Bytes} (hu : uuid.length = 16) (main : Strategy D) {plain : Strategy D} (n2 : plain.IsNew .none) :
    ∃ c, Creator.new S uuid main plain = .ok c := by
  have hone : NotHuge [(Creator.placeholder, [])] := by unfold NotHuge; decide
  obtain ⟨d, hdd⟩ : ∃ d, S.depth = d + 2 := ⟨S.depth - 2, by omega⟩
  obtain ⟨a, ha, -, hl⟩ := Archive.Laid.new hr hu
  have hart : a.zim.articles = { pointers := [], dirty := true } ∧ a.zim.mimetypes = { mimetypes := [], dirty := true } := by
    unfold Archive.new at ha
    simp only at ha
    split at ha
    · cases ha
    · injection ha with ha
      rw [← ha]
      exact ⟨rfl, rfl⟩
  obtain ⟨ha1, ha2⟩ := hart
  have hp : Storable (Creator.placeholder, []) := ⟨placeholder_delivers, by decide⟩
  have hi : Creator.placeholder.Addable [encode Creator.placeholder.mimetype] :=
    ⟨⟨by decide, by decide, by decide, by decide⟩, by simp, by decide⟩
  have hML : [encode Creator.placeholder.mimetype].length < 65535 := by decide
  have hm0 : Mirrored S.X S.C [encode Creator.placeholder.mimetype] a.zim [] 0 (restOf (some r) a (fun _ => False)) (fun _ => none) (fun _ => False)
      ⟨a.zim.mimetypes, [], []⟩ a.zim := by
    refine ⟨[], [], .refl, hl.content, ?_, ?_, rfl, rfl, ?_, rfl, rfl, Or.inl rfl, fun _ _ _ h => h, Nat.le_refl _, List.prefix_rfl,
      fun rows0 h0 => by rw [Zim.Rep.unique h0.rep hl.content.rep]; exact Zim.Stays.refl _ _, Nat.le_refl _, fun _ h => h⟩
    · intro u v
      simp [catalogue]
    · rw [ha1]
      exact ⟨rfl, by simp, by simp, by simp, by simp, by simp, fun u hu => hu.elim⟩
    · rw [ha2]
      exact ⟨rfl, by simp, by simp⟩
  have hled : Led a.zim (restOf (some r) a (fun _ => False)) (fun _ => none) [] 0 :=
    ⟨(fun _ _ h => by cases h), by simp, (fun x hx => by omega), by omega⟩
  obtain ⟨mx, v⟩ := n2.waits (X := S.X) a.zim.mimetypes
  obtain ⟨s1, z1, P1, G1, g1, g2, -, g4, g5, g6, g7⟩ := Strategy.Waits.addItem (z := ⟨a.zim.mimetypes, [], []⟩) hS.plain v (by unfold NotHuge; decide)
    (by rw [ha2]) (Creator.placeholder, []) hp
  have hl1 : G1.flatten.length ≤ 1 := by
    have := g6.length_eq
    rw [List.length_append] at this
    simp only [List.nil_append, List.length_cons, List.length_nil] at this
    omega
  obtain ⟨Z1, e1⟩ := Backend.Tot.add (Mirrored.sim (d + 2)) (Mirrored.tot hled d) hm0 n2.fit ⟨hML, hi⟩ g1 (g4.holdable_new g7 hl1)
  obtain ⟨z1', k1, k2, k3⟩ := Mirrored.add hm0 n2.fit hML hi e1
  have hz : z1' = z1 := by
    have k := congrArg (fun x => x.2.2) (g1.symm.trans k1)
    simp only at k
    exact k.symm
  subst hz
  have hP1 : NotHuge P1 := by
    have g6' : (P1 ++ G1.flatten).Perm [(Creator.placeholder, [])] := g6
    exact NotHuge.sublist (NotHuge.perm hone g6') (List.sublist_append_left P1 G1.flatten)
  obtain ⟨s2, z2, G2, f1, -, -, -, -, -⟩ := Strategy.Waits.flush hS.plain g5 hP1
  obtain ⟨-, -, b4⟩ := n2.start hS.passthrough hS.plain hp hone (by rw [ha2]) g1 f1
  obtain ⟨Z2, e2⟩ := Backend.Tot.flush (Mirrored.sim (d + 2)) (Mirrored.tot hled d) k2 k3 f1 (b4.holdable_new (by simp) (by simp))
  rw [← hdd] at e1 e2
  unfold Creator.new
  rw [hS.policy, ha]
  simp only
  have hrun : (Creator.addItem S Creator.placeholder true >>= fun _ =>
        Creator.onPlain (Strategy.flushOn (Zim.backend S.X S.C S.depth))) { arch := a, main := main, plain := plain } =
      (.ok (), { arch := { a with zim := Z2, dirty := true }, main := main, plain := s2 }) := by
    have e3 : Creator.addItem S Creator.placeholder true { arch := a, main := main, plain := plain } =
        (.ok (), { arch := { a with zim := Z1, dirty := true }, main := main, plain := s1 }) := by
      unfold Creator.addItem
      rw [PyM.get_bind, PyM.bind_ok (show PyM.require (!a.zim.closed) .zimFileClosed (⟨a, main, plain⟩ : Creator D) = (.ok (), ⟨a, main, plain⟩) by
        rw [hl.content.rep.isOpen]; rfl), PyM.bind_ok (show PyM.require a.zim.mutable .nonMutable (⟨a, main, plain⟩ : Creator D) = (.ok (), ⟨a, main, plain⟩) by
        rw [hl.content.rep.isMutable]; rfl)]
      have e4 : Creator.onPlain (Strategy.addItemOn S.X (Zim.backend S.X S.C S.depth) Creator.placeholder) (⟨a, main, plain⟩ : Creator D) =
          (.ok (), ⟨{ a with zim := Z1 }, main, s1⟩) := by
        simp only [Creator.onPlain, PyM.of_apply, e1]
      rw [if_pos rfl, PyM.bind_ok e4, PyM.modify_apply]
    rw [PyM.bind_ok e3]
    simp only [Creator.onPlain, PyM.of_apply, e2]
  rw [hrun]
  exact ⟨_, rfl⟩

/-- opening an archive without unsaved changes succeeds -/
theorem Has.reopen_total {md5 : Bytes → Bytes} {reserve : Option Nat} {G0 : List (List Sourced)} {items : List Sourced} {rs : List Redirect}
    (hS : S.Good md5 reserve) (h : Has false none S ML reserve G0 items rs c) (hd : c.arch.isDirty = false) (titles : Zim → PyRes PointerList)
    (main plain : Strategy D) : ∃ c', Creator.reopen S titles main plain c.arch.zim.file = .ok c' := by
  obtain ⟨G, P1, P2, ⟨rows, cs, extra, es, L, m0, R, B, hc, hB⟩, -⟩ := h
  unfold Creator.reopen
  rw [hc.opens hS.passthrough hd titles true]
  exact ⟨_, rfl⟩

end Pyzim
