import Verif.Props.Strategy
import Verif.Model.Creator
import Mathlib.Data.List.Perm.Basic

/-!
# Both strategies, with adding and flushing in any order
-/

namespace Pyzim

theorem NotHuge.perm {l l' : List Sourced} (h : NotHuge l) (hp : l'.Perm l) : NotHuge l' := by
  unfold NotHuge at h ⊢
  rw [hp.length_eq, (hp.map _).sum_nat]
  exact h

theorem dictSet_keys {V : Type} (k : String) (v : V) (d : List (String × V)) :
    (dictSet k v d).map Prod.fst = if k ∈ d.map Prod.fst then d.map Prod.fst else d.map Prod.fst ++ [k] := by
  induction d with
  | nil => rfl
  | cons p d ih =>
    obtain ⟨a, w⟩ := p
    simp only [dictSet]
    by_cases h : a = k
    · rw [if_pos h]; simp [h]
    · rw [if_neg h]
      simp only [List.map_cons, ih, List.mem_cons]
      by_cases hk : k ∈ d.map Prod.fst
      · rw [if_pos hk, if_pos (.inr hk)]
      · rw [if_neg hk, if_neg (by rintro (e | e); exacts [h e.symm, hk e])]; rfl

theorem mem_dictSet {V : Type} {k : String} {v : V} {d : List (String × V)} {q : String × V}
    (hd : DistinctKeys d) (h : q ∈ dictSet k v d) : q = (k, v) ∨ (q ∈ d ∧ q.1 ≠ k) := by
  have h1 := ByMimetype.dictGet_of_mem (dictSet_nodup k v d hd) h
  by_cases e : q.1 = k
  · left
    rw [e, dictGet_set_self] at h1
    cases h1
    rw [← e]
  · right
    refine ⟨?_, e⟩
    clear h1
    induction d with
    | nil => simp only [dictSet, List.mem_singleton] at h; rw [h] at e; exact absurd rfl e
    | cons p d ih =>
      obtain ⟨a, w⟩ := p
      simp only [dictSet] at h
      split at h
      · rename_i ha
        rcases List.mem_cons.1 h with h | h
        · rw [h] at e; exact absurd ha e
        · exact List.mem_cons_of_mem _ h
      · rcases List.mem_cons.1 h with h | h
        · rw [h]; exact List.mem_cons_self
        · exact List.mem_cons_of_mem _ (ih (List.nodup_cons.1 hd).2 h)

theorem mem_of_dictGet {V : Type} {k : String} {v : V} {d : List (String × V)} (hg : dictGet k d = some v) :
    (k, v) ∈ d := by
  induction d with
  | nil => cases hg
  | cons a l ih =>
    obtain ⟨a, w⟩ := a
    unfold dictGet at hg
    split at hg
    · rename_i e; cases hg; rw [e]; exact List.mem_cons_self
    · exact List.mem_cons_of_mem _ (ih hg)

theorem perm_swap_right {α : Type} (a b c : List α) : (a ++ b ++ c).Perm (a ++ c ++ b) := by
  rw [List.append_assoc, List.append_assoc]
  exact List.Perm.append_left _ List.perm_append_comm

/-- replacing what belongs to one key -/
theorem flatMap_update {α : Type} {ks : List String} (hn : ks.Nodup) (k : String) (cur : String → List α) (new : List α)
    (hc : k ∉ ks → cur k = []) :
    (if k ∈ ks then ks else ks ++ [k]).flatMap (fun x => if x = k then new else cur x) ++ cur k
      |>.Perm (ks.flatMap cur ++ new) := by
  have hmap : ∀ l : List String, k ∉ l → l.flatMap (fun x => if x = k then new else cur x) = l.flatMap cur := by
    intro l
    induction l with
    | nil => intro _; rfl
    | cons x l ih =>
      intro hx
      rw [List.flatMap_cons, List.flatMap_cons, ih (fun h => hx (List.mem_cons_of_mem _ h)),
        if_neg (fun e => hx (by rw [e]; exact List.mem_cons_self))]
  by_cases hk : k ∈ ks
  · rw [if_pos hk]
    have hp := List.perm_cons_erase hk
    have hnk : k ∉ ks.erase k := fun h => by
      have := hp.nodup_iff.1 hn
      exact (List.nodup_cons.1 this).1 h
    refine ((hp.flatMap_right _).append_right _).trans ?_
    refine List.Perm.trans ?_ (((hp.flatMap_right cur).append_right new).symm)
    rw [List.flatMap_cons, if_pos rfl, hmap _ hnk, List.flatMap_cons]
    have h1 : (new ++ (ks.erase k).flatMap cur ++ cur k).Perm (cur k ++ (new ++ (ks.erase k).flatMap cur)) :=
      List.perm_append_comm
    refine h1.trans ?_
    rw [List.append_assoc]
    exact List.Perm.append_left _ List.perm_append_comm
  · rw [if_neg hk, List.flatMap_append, hmap _ hk, hc hk]
    simp

namespace Strategy
variable {D K : Type} {X : Codecs D} {C : Compressors K}

/-- The items `P` wait in the strategy. -/
def Waits (X : Codecs D) (t : CompressionType) (mx : Int) (mts : MimeTypeList) (P : List Sourced) : Strategy D → Prop
  | .simple s => Simple.Pending X t mx mts P s
  | .byMimetype s => s.compressionType = t ∧ s.maxSize = mx ∧ DistinctKeys s.strategies ∧
      ∃ cur : String → List Sourced, (∀ q ∈ s.strategies, Simple.Pending X t mx mts (cur q.1) q.2) ∧
        (∀ k, k ∉ s.strategies.map Prod.fst → cur k = []) ∧ ((s.strategies.map Prod.fst).flatMap cur).Perm P

theorem Waits.mono {m m' : MimeTypeList} (h : m.mimetypes <+: m'.mimetypes) {t : CompressionType} {mx : Int}
    {P : List Sourced} {s : Strategy D} (hp : Waits X t mx m P s) : Waits X t mx m' P s := by
  cases s with
  | simple s => exact Simple.Pending.mono h hp
  | byMimetype s =>
    obtain ⟨h1, h2, h3, cur, h4, h5, h6⟩ := hp
    exact ⟨h1, h2, h3, cur, fun q hq => (h4 q hq).mono h, h5, h6⟩

theorem Waits.addItem {t : CompressionType} {mx : Int} {P : List Sourced} {s : Strategy D} {z : ZimLog}
    (W : Working X C t) (h : Waits X t mx z.mts P s) (hh : NotHuge P) (hm : z.mts.mutable = true) (p : Sourced)
    (hp : Storable p) :
    ∃ s' z' P' G, addItemOn X (ZimLog.backend X C) p.1 (s, z) = (.ok (), (s', z')) ∧ z'.mts.mutable = true ∧
      z.mts.mimetypes <+: z'.mts.mimetypes ∧ Wrote X C G z z' ∧ Waits X t mx z'.mts P' s' ∧
      (P' ++ G.flatten).Perm (P ++ [p]) ∧ ∀ g ∈ G, g ≠ [] := by
  have conv : ∀ {g : List Sourced} {cs : Simple D}, Simple.Pending X t mx z.mts g cs → NotHuge g →
      ∃ cs' z' g' G, Simple.addItemOn X (ZimLog.backend X C) p.1 (cs, z) = (.ok (), (cs', z')) ∧ z'.mts.mutable = true ∧
      z.mts.mimetypes <+: z'.mts.mimetypes ∧ Wrote X C G z z' ∧ Simple.Pending X t mx z'.mts g' cs' ∧
      (g' ++ G.flatten).Perm (g ++ [p]) ∧ ∀ x ∈ G, x ≠ [] := by
    intro g cs hg hn
    obtain ⟨s', z', h1, h2, h3, h4⟩ := Simple.addItem_spec W hg hn hm p hp
    rcases h4 with ⟨_, h4, h5⟩ | ⟨hg, h4, h5⟩
    · exact ⟨s', z', _, _, h1, h2, h3, h4, h5, by simp, by simp⟩
    · exact ⟨s', z', _, _, h1, h2, h3, h4, h5, by simpa using List.perm_append_comm (l₁ := [p]) (l₂ := g), by simpa using hg.1⟩
  cases s with
  | simple s =>
    obtain ⟨s', z', P', G, h1, h2, h3, h4, h5, h6, h7⟩ := conv (show Simple.Pending X t mx z.mts P s from h) hh
    refine ⟨.simple s', z', P', G, ?_, h2, h3, h4, h5, h6, h7⟩
    unfold addItemOn
    simp only [PyM.of_apply, h1]
  | byMimetype s =>
    obtain ⟨k1, k2, k3, cur, k4, k5, k6⟩ := h
    have hn : NotHuge (cur p.1.mimetype) := by
      refine (hh.perm k6).sublist ?_
      by_cases hk : p.1.mimetype ∈ s.strategies.map Prod.fst
      · exact List.sublist_flatten_of_mem (by rw [List.mem_map]; exact ⟨_, hk, rfl⟩)
      · rw [k5 _ hk]; exact List.nil_sublist _
    have hcs : ∃ cs S1, ByMimetype.getCs p.1.mimetype s = (cs, S1) ∧ S1.compressionType = t ∧ S1.maxSize = mx ∧
        Simple.Pending X t mx z.mts (cur p.1.mimetype) cs ∧ DistinctKeys S1.strategies ∧
        (∀ q ∈ S1.strategies, Simple.Pending X t mx z.mts (cur q.1) q.2) ∧
        p.1.mimetype ∈ S1.strategies.map Prod.fst ∧
        (∀ k, k ∉ S1.strategies.map Prod.fst → cur k = []) ∧ ((S1.strategies.map Prod.fst).flatMap cur).Perm P := by
      unfold ByMimetype.getCs
      cases hg : dictGet p.1.mimetype s.strategies with
      | some cs =>
        have hmem : (p.1.mimetype, cs) ∈ s.strategies := mem_of_dictGet hg
        exact ⟨cs, s, rfl, k1, k2, k4 _ hmem, k3, k4, List.mem_map_of_mem hmem, k5, k6⟩
      | none =>
        have hk : p.1.mimetype ∉ s.strategies.map Prod.fst := by
          intro hmem
          obtain ⟨q, hq, e⟩ := List.mem_map.1 hmem
          have := ByMimetype.dictGet_of_mem k3 hq
          rw [e, hg] at this
          cases this
        refine ⟨_, _, rfl, k1, k2, ?_, dictSet_nodup _ _ _ k3, ?_, ?_, ?_, ?_⟩
        · rw [k5 _ hk, k1, k2]; exact Simple.new_pending t mx z.mts
        · intro q hq
          rcases mem_dictSet k3 hq with rfl | ⟨hq, _⟩
          · simp only; rw [k5 _ hk, k1, k2]; exact Simple.new_pending t mx z.mts
          · exact k4 q hq
        · simp only; rw [dictSet_keys, if_neg hk]; simp
        · simp only; rw [dictSet_keys, if_neg hk]
          intro k hk'
          exact k5 k fun e => hk' (List.mem_append_left _ e)
        · simp only; rw [dictSet_keys, if_neg hk, List.flatMap_append]
          simpa [k5 _ hk] using k6
    obtain ⟨cs, S1, c1, c2, c3, c4, c5, c6, c7, c8, c9⟩ := hcs
    obtain ⟨cs', z', g', G, h1, h2, h3, h4, h5, h6, hne⟩ := conv c4 hn
    refine ⟨.byMimetype { S1 with strategies := dictSet p.1.mimetype cs' S1.strategies }, z',
      (S1.strategies.map Prod.fst).flatMap (fun x => if x = p.1.mimetype then g' else cur x), G, ?_, h2, h3, h4, ?_, ?_, hne⟩
    · unfold addItemOn
      simp only [PyM.of_apply, ByMimetype.addItemOn, c1, h1]
    · refine ⟨c2, c3, dictSet_nodup _ _ _ c5, fun x => if x = p.1.mimetype then g' else cur x, ?_, ?_, ?_⟩
      · intro q hq
        rcases mem_dictSet c5 hq with rfl | ⟨hq, hne⟩
        · simp only [if_true]; exact h5
        · simp only [hne, if_false]; exact (c6 q hq).mono h3
      · simp only
        rw [dictSet_keys, if_pos c7]
        intro k hk
        rw [if_neg (fun e => hk (by rw [e]; exact c7))]
        exact c8 k hk
      · simp only; rw [dictSet_keys, if_pos c7]
    · have hu := flatMap_update (ks := S1.strategies.map Prod.fst) c5 p.1.mimetype cur g' (c8 _)
      rw [if_pos c7] at hu
      -- cancel what was in the cluster being filled
      have h7 : ((S1.strategies.map Prod.fst).flatMap (fun x => if x = p.1.mimetype then g' else cur x) ++ G.flatten ++
          cur p.1.mimetype).Perm (P ++ [p] ++ cur p.1.mimetype) := by
        refine (perm_swap_right _ _ _).trans ?_
        refine (hu.append_right _).trans ?_
        rw [List.append_assoc]
        refine (List.Perm.append c9 h6).trans ?_
        rw [List.append_assoc]
        exact List.Perm.append_left _ List.perm_append_comm
      exact (List.perm_append_right_iff _).1 h7

theorem Waits.flush {t : CompressionType} {mx : Int} {P : List Sourced} {s : Strategy D} {z : ZimLog}
    (W : Working X C t) (h : Waits X t mx z.mts P s) (hh : NotHuge P) :
    ∃ s' z' G, flushOn (ZimLog.backend X C) (s, z) = (.ok (), (s', z')) ∧ z'.mts = z.mts ∧ Wrote X C G z z' ∧
      Waits X t mx z'.mts [] s' ∧ G.flatten.Perm P ∧ ∀ g ∈ G, g ≠ [] := by
  cases s with
  | simple s =>
    obtain ⟨s', z', h1, h2, h3, h4⟩ := Simple.flush_spec W (show Simple.Pending X t mx z.mts P s from h) hh
    refine ⟨.simple s', z', _, ?_, h3, h4, h2, ?_, ?_⟩
    · unfold flushOn
      unfold Simple.flush at h1
      simp only [PyM.of_apply, h1]
    · split
      · rename_i e; rw [e]; simp
      · simp
    · split
      · simp
      · rename_i e; simpa using e
  | byMimetype s =>
    obtain ⟨k1, k2, k3, cur, k4, k5, k6⟩ := h
    have key : ∀ (L : List (String × Simple D)) (z : ZimLog),
        (∀ q ∈ L, Simple.Pending X t mx z.mts (cur q.1) q.2 ∧ NotHuge (cur q.1)) →
        ∃ L' z' G, ByMimetype.flushAllOn (ZimLog.backend X C) L z = (.ok (), L', z') ∧ z'.mts = z.mts ∧ Wrote X C G z z' ∧
          L'.map Prod.fst = L.map Prod.fst ∧ (∀ q ∈ L', Simple.Pending X t mx z'.mts [] q.2) ∧
          G.flatten = (L.map Prod.fst).flatMap cur ∧ ∀ g ∈ G, g ≠ [] := by
      intro L
      induction L with
      | nil => intro z _; exact ⟨[], z, [], rfl, rfl, .refl z, rfl, by simp, rfl, by simp⟩
      | cons q L ih =>
        intro z hp
        obtain ⟨mt0, cs⟩ := q
        obtain ⟨hpq, hhq⟩ := hp (mt0, cs) (by simp)
        obtain ⟨cs', z1, h1, h2, h3, h4⟩ := Simple.flush_spec W hpq hhq
        obtain ⟨L', z', H, g1, g2, g3, g4, g5, g6, g7⟩ := ih z1 (fun q hq => by rw [h3]; exact hp q (by simp [hq]))
        refine ⟨(mt0, cs') :: L', z', (if cur mt0 = [] then [] else [cur mt0]) ++ H, ?_, g2.trans h3, ?_, ?_, ?_, ?_, ?_⟩
        · unfold ByMimetype.flushAllOn
          unfold Simple.flush at h1
          rw [h1]
          simp only [g1]
        · exact h4.trans g3 (by rw [g2]; exact List.prefix_rfl)
        · simp [g4]
        · intro q hq
          rcases List.mem_cons.1 hq with rfl | hq
          · rw [g2]; exact h2
          · exact g5 q hq
        · rw [List.flatten_append, g6, List.map_cons, List.flatMap_cons]
          congr 1
          split
          · rename_i e; simp [e]
          · simp
        · intro g hg
          rcases List.mem_append.1 hg with hg | hg
          · split at hg
            · cases hg
            · rename_i e; rw [List.mem_singleton] at hg; rw [hg]; exact e
          · exact g7 g hg
    obtain ⟨L', z', G, g1, g2, g3, g4, g5, g6, g7⟩ := key s.strategies z (fun q hq => ⟨k4 q hq, by
      refine (hh.perm k6).sublist (List.sublist_flatten_of_mem ?_)
      rw [List.mem_map]
      exact ⟨_, List.mem_map_of_mem hq, rfl⟩⟩)
    refine ⟨.byMimetype { s with strategies := L' }, z', G, ?_, g2, g3,
      ⟨k1, k2, ?_, fun _ => [], fun q hq => g5 q hq, fun _ _ => rfl, by simp⟩, by rw [g6]; exact k6, g7⟩
    · unfold flushOn
      simp only [PyM.of_apply, ByMimetype.flushOn, g1]
    · unfold DistinctKeys
      rw [g4]; exact k3

end Strategy
end Pyzim
