import Verif.Lemmas.Interrupted
import Verif.Spec.Torn

/-!
# A file of which not all bytes were written
-/

namespace Pyzim

namespace Fmt

theorem pack_snoc {f : Fmt} {v : FVal} : ∀ {fs : List Fmt} {vs : List FVal} {b : Bytes}, fs.length = vs.length →
    pack (fs ++ [f]) (vs ++ [v]) = .ok b → ∃ P x, pack fs vs = .ok P ∧ packOne f v = .ok x ∧ b = P ++ x
  | [], [], b, _, h => by
    simp only [List.nil_append, pack] at h
    cases hx : packOne f v with
    | error e => rw [hx] at h; cases h
    | ok x =>
      rw [hx] at h
      injection h with h
      exact ⟨[], x, rfl, rfl, by rw [← h]; simp⟩
  | g :: fs, w :: vs, b, hl, h => by
    simp only [List.cons_append, pack] at h ⊢
    cases hg : packOne g w with
    | error e => rw [hg] at h; cases h
    | ok y =>
      rw [hg] at h
      simp only at h ⊢
      cases hr : pack (fs ++ [f]) (vs ++ [v]) with
      | error e => rw [hr] at h; cases h
      | ok z =>
        rw [hr] at h
        injection h with h
        obtain ⟨P, x, h1, h2, h3⟩ := pack_snoc (by simpa using hl) hr
        rw [h1]
        exact ⟨y ++ P, x, rfl, h2, by rw [← h, h3, List.append_assoc]⟩
  | [], _ :: _, _, hl, _ => by cases hl
  | _ :: _, [], _, hl, _ => by cases hl

theorem pack_snoc_ok {f : Fmt} {v : FVal} {x : Bytes} (hx : packOne f v = .ok x) : ∀ {fs : List Fmt} {vs : List FVal} {P : Bytes},
    pack fs vs = .ok P → pack (fs ++ [f]) (vs ++ [v]) = .ok (P ++ x)
  | [], [], P, h => by
    injection h with h
    simp only [List.nil_append, pack, hx, ← h, List.append_nil]
  | g :: fs, w :: vs, P, h => by
    simp only [List.cons_append, pack] at h ⊢
    cases hg : packOne g w with
    | error e => rw [hg] at h; cases h
    | ok y =>
      rw [hg] at h
      simp only at h ⊢
      cases hr : pack fs vs with
      | error e => rw [hr] at h; cases h
      | ok z =>
        rw [hr] at h
        injection h with h
        rw [pack_snoc_ok hx hr, ← h, List.append_assoc]
  | [], _ :: _, _, h => by cases h
  | _ :: _, [], _, h => by cases h

end Fmt

theorem packOne_index {j : Nat} (h : j < 256 ^ 4) : Fmt.packOne (.uint 4) (.int j) = .ok (leBytes 4 j) := packUInt_nat h

theorem packOne_index_inv {j : Nat} {x : Bytes} (h : Fmt.packOne (.uint 4) (.int j) = .ok x) : x = leBytes 4 j := by
  have := (packUInt_eq_ok (w := 4) (v := j) h).2.2
  rwa [Int.toNat_natCast] at this

theorem lt_256_4 {j : Nat} (h : j < 2 ^ 32) : j < 256 ^ 4 := by
  omega

theorem Entry.withIndex_head {e : Entry} {P : Bytes} {j : Nat}
    (h1 : Fmt.pack [.uint 2, .uint 1, .raw 1, .uint 4] [.int e.mimetypeId, .int 0, .raw (encode e.ns), .int 0] = .ok P)
    (hj : j < 256 ^ 4) : (e.withIndex j).packHead = .ok (P ++ leBytes 4 j) := by
  have := Fmt.pack_snoc_ok (packOne_index hj) h1
  exact this

theorem Entry.toBytes_of_head {e : Entry} {H : Bytes} {t : String} (h : e.packHead = .ok H) (ht : e.titleRaw = some t) :
    e.toBytes = .ok (H ++ (encode e.url ++ [0]) ++ (encode t ++ [0])) := by
  unfold Entry.toBytes
  rw [h, ht]

/-- where the index is in the bytes of a redirect -/
theorem Entry.redirect_bytes {e : Entry} {i : Nat} (hk : e.kind = .redirect i) {b : Bytes} (hb : e.toBytes = .ok b) :
    ∃ P Q, P.length = 8 ∧ b = P ++ (leBytes 4 i ++ Q) ∧ ∀ j, j < 2 ^ 32 → (e.withIndex j).toBytes = .ok (P ++ (leBytes 4 j ++ Q)) := by
  unfold Entry.toBytes at hb
  cases hp : e.packHead with
  | error x => rw [hp] at hb; cases hb
  | ok d =>
    rw [hp] at hb
    simp only at hb
    cases ht : e.titleRaw with
    | none => rw [ht] at hb; cases hb
    | some t =>
      rw [ht] at hb
      injection hb with hb
      unfold Entry.packHead at hp
      rw [hk] at hp
      simp only at hp
      obtain ⟨P, x, h1, h2, h3⟩ := Fmt.pack_snoc (f := .uint 4) (v := .int i)
        (fs := [.uint 2, .uint 1, .raw 1, .uint 4]) (vs := [.int e.mimetypeId, .int 0, .raw (encode e.ns), .int 0]) rfl hp
      obtain ⟨b', h4, h5, -⟩ := Fmt.pack_ok (Fmt.pack_fits h1)
      rw [h1] at h4
      injection h4 with h4
      have hx : x = leBytes 4 i := packOne_index_inv h2
      refine ⟨P, encode e.url ++ [0] ++ (encode t ++ [0]), by rw [h4, h5]; rfl, ?_, fun j hj => ?_⟩
      · rw [← hb, h3, hx]; simp only [List.append_assoc]
      · rw [Entry.toBytes_of_head (Entry.withIndex_head h1 (lt_256_4 hj)) (show (e.withIndex j).titleRaw = some t from ht)]
        simp only [List.append_assoc]
        rfl

theorem Entry.Clean.withIndex {e : Entry} (h : e.Clean) {i j : Nat} (hk : e.kind = .redirect i) (hj : j < 2 ^ 32) :
    (e.withIndex j).Clean where
  storable := ⟨h.storable.ns, h.storable.url, h.storable.title, h.storable.mimetype, hj⟩
  fresh := by
    have : (e.withIndex j).fresh = e.fresh.withIndex j := rfl
    rw [this, h.fresh]
  kind := ⟨fun _ => h.kind.1 ⟨i, hk⟩, fun _ => ⟨j, rfl⟩⟩

open Zim (Row Stored Clustered Lists Art MimesIn Mirrored catalogue marked Redirect Stays KeepsBytes InRow InCluster Works)
open SpaceAllocator (InBlock)

variable {D K : Type} {X : Codecs D} {C : Compressors K} {ML : List Bytes} {reserve : Option Nat} {a a0 a' : Archive}
  {G G' : List (List Sourced)} {rows rows0 : List Row} {cs cs0 : List Stored} {extra extra0 : Nat → Prop} {es es0 : List Entry}
  {L L0 : Bytes} {m0 m1 : Catalogue} {R B R' B' : List Redirect} {d : Nat}

/-- the bytes of an entry without the index of a redirect -/
def InSolidRow (r : Row) (x : Nat) : Prop := InRow r x ∧ ((∃ i, r.2.kind = .redirect i) → x < r.1 + 8 ∨ r.1 + 12 ≤ x)

/-- the bytes in use without the indices of redirects -/
def Solid (rows : List Row) (cs : List Stored) (rest : Nat → Prop) (x : Nat) : Prop :=
  rest x ∨ (∃ c ∈ cs, InCluster c x) ∨ ∃ r ∈ rows, InSolidRow r x

theorem holds_append {f P Q : Bytes} {o : Nat} : Holds f o (P ++ Q) ↔ Holds f o P ∧ Holds f (o + P.length) Q := by
  constructor
  · intro h
    refine ⟨fun i hi => ?_, fun i hi => ?_⟩
    · rw [h i (by rw [List.length_append]; omega), List.getElem?_append_left hi]
    · rw [Nat.add_assoc, h (P.length + i) (by rw [List.length_append]; omega), List.getElem?_append_right (by omega)]
      congr 1; omega
  · rintro ⟨h1, h2⟩ i hi
    rw [List.length_append] at hi
    by_cases hp : i < P.length
    · rw [h1 i hp, List.getElem?_append_left hp]
    · rw [List.getElem?_append_right (by omega), ← h2 (i - P.length) (by omega)]
      congr 1; omega

theorem Entry.blank_eq_or {e e' : Entry} (h : e'.blank = e.blank) :
    (e' = e ∧ ∀ i, e.kind ≠ .redirect i) ∨ ∃ i j, e.kind = .redirect i ∧ e' = e.withIndex j := by
  unfold Entry.blank at h
  cases hk : e.kind with
  | content c b =>
    rw [hk] at h
    cases hk' : e'.kind with
    | content c' b' =>
      rw [hk'] at h
      exact .inl ⟨h, by simp⟩
    | redirect j =>
      rw [hk'] at h
      simp only at h
      rw [← h] at hk
      cases hk
  | redirect i =>
    rw [hk] at h
    cases hk' : e'.kind with
    | content c' b' =>
      rw [hk'] at h
      simp only at h
      rw [h] at hk'
      cases hk'
    | redirect j =>
      rw [hk'] at h
      simp only at h
      refine .inr ⟨i, j, rfl, ?_⟩
      have : e' = (e'.withIndex 0).withIndex j := by
        cases e'
        simp only at hk'
        subst hk'
        rfl
      rw [this, h]
      rfl

/-- an entry at its place, with another index of a redirect, leaves the other bytes -/
theorem keeps_row {r r' : Row} {old f b b' : Bytes} (hs : SameRow r r') (hb : r.2.toBytes = .ok b) (hb' : r'.2.toBytes = .ok b')
    (h : Holds old r.1 b) (h' : Holds f r'.1 b') : KeepsBytes (InSolidRow r) old f := by
  intro x v hx hv
  rw [hs.1] at h'
  have hin := (Zim.inRow_bytes hb x).1 hx.1
  rcases Entry.blank_eq_or hs.2 with ⟨e, -⟩ | ⟨i, j, hk, e⟩
  · rw [e, hb] at hb'
    injection hb' with hb'
    subst hb'
    have h1 := h (x - r.1) (by omega)
    have h2 := h' (x - r.1) (by omega)
    rw [show r.1 + (x - r.1) = x by omega] at h1 h2
    rw [h2, ← h1, hv]
  · obtain ⟨P, Q, h1, h2, h3⟩ := Entry.redirect_bytes hk hb
    obtain ⟨P', Q', h1', h2', h3'⟩ := Entry.redirect_bytes (show r'.2.kind = .redirect j by rw [e]; rfl) hb'
    have hi : i < 2 ^ 32 := by
      unfold Entry.toBytes at hb
      cases hp : r.2.packHead with
      | error x => rw [hp] at hb; cases hb
      | ok d =>
        have := (Entry.packHead_fits r.2 d hp).2.2
        rw [hk] at this
        exact this
    have hQ : P' ++ (leBytes 4 i ++ Q') = P ++ (leBytes 4 i ++ Q) := by
      have k1 := h3' i hi
      rw [e] at k1
      have k2 := h3 i hi
      rw [show (r.2.withIndex j).withIndex i = r.2.withIndex i from rfl, k2] at k1
      exact (Except.ok.inj k1).symm
    obtain ⟨rfl, hQ'⟩ := List.append_inj hQ (by omega)
    obtain rfl : Q' = Q := List.append_cancel_left hQ'
    rw [h2] at h
    rw [h2'] at h'
    obtain ⟨g1, g2⟩ := holds_append.1 h
    obtain ⟨g3, g4⟩ := holds_append.1 g2
    obtain ⟨g1', g2'⟩ := holds_append.1 h'
    obtain ⟨g3', g4'⟩ := holds_append.1 g2'
    have hl : ∀ k, (leBytes 4 k).length = 4 := fun k => by simp
    rw [h1, hl] at g4
    rw [h1', hl] at g4'
    rw [h2, List.length_append, List.length_append, hl, h1] at hin
    rcases hx.2 ⟨i, hk⟩ with hlt | hge
    · have k1 := g1 (x - r.1) (by omega)
      have k2 := g1' (x - r.1) (by omega)
      rw [show r.1 + (x - r.1) = x by omega] at k1 k2
      rw [k2, ← k1, hv]
    · have k1 := g4 (x - (r.1 + 12)) (by omega)
      have k2 := g4' (x - (r.1 + 12)) (by omega)
      rw [show r.1 + 8 + 4 + (x - (r.1 + 12)) = x by omega] at k1 k2
      rw [k2, ← k1, hv]

/-- an entry of which everything but the index is left is an entry -/
theorem torn_row {r : Row} {old f b : Bytes} (hcl : r.2.Clean) (hb : r.2.toBytes = .ok b) (hh : Holds old r.1 b)
    (hk : KeepsBytes (InSolidRow r) old f) (hl : r.1 + b.length ≤ f.length) :
    ∃ r', SameRow r r' ∧ r'.2.Clean ∧ ∃ b', r'.2.toBytes = .ok b' ∧ Holds f r'.1 b' := by
  by_cases hred : ∃ i, r.2.kind = .redirect i
  · obtain ⟨i, hi⟩ := hred
    obtain ⟨P, Q, h1, h2, h3⟩ := Entry.redirect_bytes hi hb
    have hlb : b.length = 8 + (4 + Q.length) := by rw [h2]; simp [h1]
    obtain ⟨x, hx⟩ : ∃ x, x = (f.drop (r.1 + 8)).take 4 := ⟨_, rfl⟩
    have hx4 : x.length = 4 := by rw [hx, List.length_take, List.length_drop]; omega
    have hxv : leBytes 4 (leNat x) = x := by
      have := leBytes_leNat x
      rwa [hx4] at this
    have hlt : leNat x < 2 ^ 32 := by
      have := leNat_lt x
      rw [hx4] at this
      omega
    rw [h2] at hh
    obtain ⟨g1, g2⟩ := holds_append.1 hh
    obtain ⟨g3, g4⟩ := holds_append.1 g2
    have hll : ∀ k, (leBytes 4 k).length = 4 := fun k => by simp
    refine ⟨(r.1, r.2.withIndex (leNat x)), ⟨rfl, Entry.blank_withIndex _ hi⟩, hcl.withIndex hi hlt, _, h3 _ hlt,
      holds_append.2 ⟨?_, holds_append.2 ⟨?_, ?_⟩⟩⟩
    · refine hk.holds g1 fun y k1 k2 => ⟨(Zim.inRow_bytes hb y).2 ⟨k1, by omega⟩, fun _ => .inl (by omega)⟩
    · rw [hxv]
      intro k hk
      show f[r.1 + P.length + k]? = _
      rw [hx, List.getElem?_take, if_pos (by omega), List.getElem?_drop, h1]
    · rw [hll] at g4 ⊢
      refine hk.holds g4 fun y k1 k2 => ⟨(Zim.inRow_bytes hb y).2 ⟨by omega, by omega⟩, fun _ => .inr (by omega)⟩
  · refine ⟨r, ⟨rfl, rfl⟩, hcl, b, hb, hk.holds hh fun y k1 k2 => ⟨(Zim.inRow_bytes hb y).2 ⟨k1, k2⟩, fun h => absurd h hred⟩⟩

theorem forall₂_of_exists {α β : Type} {Q : α → β → Prop} : ∀ {l : List α}, (∀ a ∈ l, ∃ b, Q a b) → ∃ m, List.Forall₂ Q l m
  | [], _ => ⟨[], .nil⟩
  | a :: l, h => by
    obtain ⟨b, hb⟩ := h a List.mem_cons_self
    obtain ⟨m, hm⟩ := forall₂_of_exists (l := l) fun x hx => h x (List.mem_cons_of_mem _ hx)
    exact ⟨b :: m, .cons hb hm⟩

/-- a file with all the bytes in use, but for the indices of redirects, is readable -/
theorem Core.torn {f : Bytes} (h0 : Core gh mp X C ML reserve a0 G rows0 cs0 extra0 es0 L0 m0 R B)
    (hd : a0.isDirty = false) (hk : KeepsBytes (Solid rows0 cs0 (restOf reserve a0 extra0)) a0.zim.file f)
    (hlen : a0.zim.file.length ≤ f.length) :
    ∃ rows1 extra1, Readable gh X reserve (Pyzim.crashed a0 f) G rows1 cs0 extra1 es0 L0 m0 R := by
  have hst := h0.laid.content.rep.store
  obtain ⟨rows, hrows⟩ := forall₂_of_exists (l := rows0)
    (Q := fun r r' => SameRow r r' ∧ r'.2.Clean ∧ ∃ b', r'.2.toBytes = .ok b' ∧ Holds f r'.1 b') (fun r hr => by
      obtain ⟨b, hb, hh⟩ := hst.stored r hr
      refine torn_row (hst.clean r hr) hb hh (hk.mono fun x hx => .inr (.inr ⟨r, hr, hx⟩)) ?_
      have hb0 := Entry.toBytes_ne_nil hb
      have hpos : 0 < b.length := List.length_pos_iff.2 hb0
      have := hh (b.length - 1) (by omega)
      rw [List.getElem?_eq_getElem (show b.length - 1 < b.length by omega)] at this
      have := (List.getElem?_eq_some_iff.1 this).1
      omega)
  refine h0.crashed (U := fun _ => False) hd (rows := rows) (fun r hr _ => ?_) (fun _ _ h => h) (fun r' hr' => ?_) (fun r' hr' => ?_)
    (fun c hc => ?_) (hk.mono fun x hx => .inl hx) hlen
  · obtain ⟨r', h1, h2, -⟩ := forall₂_mem_left hrows hr
    exact ⟨r', h1, h2.1, h2.2⟩
  · obtain ⟨r, -, -, h2, -⟩ := forall₂_mem_right hrows hr'
    exact h2
  · obtain ⟨r, -, -, -, h2⟩ := forall₂_mem_right hrows hr'
    exact h2
  · exact hk.holds (h0.laid.content.held c hc) fun y h1 h2 => .inr (.inl ⟨c, hc, h1, h2⟩)

/-- what was added later leaves these bytes -/
theorem Core.solid {U : String → Prop} {rows' : List Row} {cs' : List Stored} {es' : List Entry} {m0' : Catalogue} {gh' : Bool}
    {extra' : Nat → Prop} {L' : Bytes}
    (hc : Core gh mp X C ML reserve a0 G rows cs extra es L m0 R B)
    (k2 : Core gh' mp X C ML reserve a G' rows' cs' extra' es' L' m0' R' B')
    (k4 : Onward reserve U a0 rows cs extra es a rows' cs' es')
    (hU : ∀ x ∈ rows, ¬ (U x.2.fullUrl ∨ x.2.fullUrl ∈ (es'.drop es.length).map Entry.fullUrl)) :
    KeepsBytes (Solid rows cs (restOf reserve a0 extra)) a0.zim.file a.zim.file := by
  rintro x v (hx | ⟨c, hc1, hx⟩ | ⟨r, hr, hx⟩) hv
  · exact k4.bytes x v hx hv
  · have h1 := hc.laid.content.held c hc1 (x - c.1) (by unfold InCluster at hx; omega)
    have h2 := k2.laid.content.held c (k4.before.subset hc1) (x - c.1) (by unfold InCluster at hx; omega)
    rw [show c.1 + (x - c.1) = x by unfold InCluster at hx; omega] at h1 h2
    rw [h2, ← h1, hv]
  · obtain ⟨r', h1, h2, h3⟩ := k4.stays r hr (hU r hr)
    obtain ⟨b, hb, hh⟩ := hc.laid.content.rep.store.stored r hr
    obtain ⟨b', hb', hh'⟩ := k2.laid.content.rep.store.stored r' h1
    exact keeps_row ⟨h2, h3⟩ hb hb' hh hh' x v hx hv

end Pyzim
