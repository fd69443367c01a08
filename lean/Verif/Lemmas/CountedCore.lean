import Verif.Lemmas.Counted

/-!
# The counter of an archive and the items of the archive
-/

namespace Pyzim
open Zim (Row Stored Clustered Lists Mirrored Mirrors catalogue catalogue_snoc Rep Redirect)

variable {D K : Type} {X : Codecs D} {C : Compressors K} {ML : List Bytes} {reserve : Option Nat} {a a' : Archive}
  {G G' : List (List Sourced)} {rows : List Row} {cs : List Stored} {extra : Nat → Prop} {es : List Entry} {L : Bytes}
  {S : Setup D K} {G0 : List (List Sourced)} {items : List Sourced} {rs : List Redirect}
  {c c' : Counting D} {m0 : Catalogue} {R B : List Redirect} {M : String → Prop} {n n' : Counter}

/-- the number of items which are counted for a mimetype -/
def counted (mt : String) (p : Sourced) : Bool := p.1.ns == "C" && p.1.mimetype == mt

/-- The counter counts the items. -/
structure TallyG (M : String → Prop) (G : List (List Sourced)) (n : Counter) : Prop where
  counts : ∀ mt, n.getCount mt = (((lastOnes urlOf G.flatten).filter (counted mt)).length : Int)
  distinct : DistinctKeys n.counts
  keys : ∀ p ∈ n.counts, M p.1

/-- what is known of the rows of an archive with items -/
theorem Core.tally (h : Core false none X C ML reserve a G rows cs extra es L m0 R B) :
    (∀ mt, numberOf a.zim.mimetypes (rows.map Prod.snd) mt = ((lastOnes urlOf G.flatten).filter (counted mt)).length) ∧
    ∀ e ∈ rows.map Prod.snd, Counter.shouldCount e = true → ∃ mt, Counter.mimetypeOf a.zim.mimetypes e = .ok mt := by
  obtain ⟨le, es', hle, hlE, hF, hT⟩ := last_of h.entries h.other
  replace hT : _ = lastOnes urlOf G.flatten := hT
  have hclean := h.laid.content.rep.store.clean
  have hm0 : ∀ u v, v.mimetype ≠ 0xffff → catalogue m0 es u = some v → ∃ e ∈ lastOnes Entry.fullUrl es, e.fullUrl = u ∧ e.view = v := by
    intro u v hv hc
    rcases (catalogue_iff m0 es u v).1 hc with h1 | ⟨-, h2⟩
    · exact h1
    · exfalso
      obtain ⟨q, hq, rfl⟩ := h.only u v h2
      obtain ⟨w, k1, k2⟩ := h.shown q hq
      rw [h2] at k1
      injection k1 with k1
      obtain ⟨r, hr, hru, hrv⟩ := (h.lists _ _).1 hc
      have hb := k2.body
      rw [← k1, ← hrv] at hb
      have : r.2.isRedirect = true := by
        refine (hclean r hr).isRedirect.2 ?_
        unfold Entry.view at hb
        cases hk : r.2.kind with
        | content c b => rw [hk] at hb; cases hb
        | redirect i => exact ⟨i, rfl⟩
      rw [isRedirect_view, hrv] at this
      exact hv (of_decide_eq_true this)
  have hred : ∀ e ∈ lastOnes Entry.fullUrl es, (∃ c b, e.kind = .content c b) → e.isRedirect = false := by
    intro e he ⟨c, b, hk⟩
    obtain ⟨r, hr, hru, hrv⟩ := (h.lists _ _).1 ((catalogue_iff m0 es _ _).2 (.inl ⟨e, he, rfl, rfl⟩))
    rw [isRedirect_view, ← hrv, ← isRedirect_view]
    cases hi : r.2.isRedirect with
    | false => rfl
    | true =>
      obtain ⟨i, hi⟩ := (hclean r hr).isRedirect.1 hi
      have : r.2.view.body = e.view.body := by rw [hrv]
      unfold Entry.view at this
      rw [hi, hk] at this
      cases this
  have hnum : ∀ mt, numberOf a.zim.mimetypes (rows.map Prod.snd) mt = numberOf a.zim.mimetypes (lastOnes Entry.fullUrl es) mt := by
    refine fun mt => numberOf_congr (rep_urls h.laid.content.rep) (lastOnes_nodup _ _) (fun v hv => ?_) mt
    rw [lists_views h.lists]
    constructor
    · intro hc
      obtain ⟨e, he, -, hev⟩ := hm0 _ _ hv hc
      exact List.mem_map.2 ⟨e, he, hev⟩
    · intro hc
      obtain ⟨e, he, rfl⟩ := List.mem_map.1 hc
      exact (catalogue_iff m0 es _ _).2 (.inl ⟨e, he, rfl, rfl⟩)
  constructor
  · intro mt
    rw [hnum, hle, Counter.numberOf_cons, numberOf_other (by unfold Counter.shouldCount; rw [hlE.ns]; simp [Creator.placeholder]),
      Nat.zero_add, ← hT]
    have hred' : ∀ e ∈ es', (∃ c b, e.kind = .content c b) → e.isRedirect = false :=
      fun e he => hred e (by rw [hle]; exact List.mem_cons_of_mem _ he)
    clear hT hle hnum hred hm0
    revert hF hred'
    generalize lastOnes (fun t => urlOf t.1) (locatedOf false 1 G) = l
    intro hF hred'
    induction hF with
    | nil => rfl
    | @cons t e l es' k1 _ ih =>
      rw [Counter.numberOf_cons, ih fun e he => hred' e (List.mem_cons_of_mem _ he), List.map_cons]
      have hi := hred' e (by simp) ⟨_, _, k1.location⟩
      have hmt : Counter.mimetypeOf a.zim.mimetypes e = .ok t.1.1.mimetype := by
        rw [mimetypeOf_content hi]
        unfold mimetypeAt
        rw [show a.zim.mimetypes.get (e.mimetypeId : Int) = _ from k1.mimetype]
        exact decode_encode _
      rw [Counter.numberOf_single _ _ _ hmt]
      unfold Counter.shouldCount
      rw [hi, k1.ns]
      by_cases hcn : counted mt t.1 = true
      · rw [List.filter_cons_of_pos hcn]
        unfold counted at hcn
        simp only [Bool.and_eq_true, beq_iff_eq] at hcn
        rw [if_pos (by simp [hcn.1, hcn.2])]
        simp; omega
      · rw [List.filter_cons_of_neg hcn]
        unfold counted at hcn
        simp only [Bool.and_eq_true, beq_iff_eq] at hcn
        rw [if_neg (by simp only [Bool.not_false, Bool.true_and, beq_iff_eq]; exact fun k => hcn ⟨k.1, k.2.symm⟩)]
        simp
  · intro e he hs
    have hi : e.isRedirect = false := by
      unfold Counter.shouldCount at hs
      cases hi : e.isRedirect with
      | false => rfl
      | true => rw [hi] at hs; simp at hs
    obtain ⟨r, hr, rfl⟩ := List.mem_map.1 he
    have hv : r.2.view.mimetype ≠ 0xffff := by
      rw [isRedirect_view] at hi
      simpa using hi
    obtain ⟨e', he', -, hev⟩ := hm0 _ _ hv ((h.lists _ _).2 ⟨r, hr, rfl, rfl⟩)
    obtain ⟨s, -, hs⟩ := forall₂_mem_right h.entries (lastOnes_sub he')
    refine ⟨s.1.mimetype, ?_⟩
    rw [mimetypeOf_content hi]
    unfold mimetypeAt
    rw [show r.2.mimetypeId = e'.mimetypeId from (congrArg View.mimetype hev).symm,
      show a.zim.mimetypes.get (e'.mimetypeId : Int) = _ from hs.mimetype]
    exact decode_encode _

theorem Core.tallied_iff (h : Core false none X C ML reserve a G rows cs extra es L m0 R B) : Tallied M a.zim n ↔ TallyG M G n := by
  obtain ⟨h1, h2⟩ := h.tally
  constructor
  · intro hT
    have T := hT.byRows h.laid.content.rep
    exact ⟨fun mt => by rw [T.counts, h1], T.distinct, T.keys⟩
  · intro T
    exact ⟨_, h.laid.content.rep.iterEntries, fun mt => by rw [T.counts, h1], h2, T.distinct, T.keys⟩

/-- items which only differ in their contents -/
def SameKind (p q : Sourced) : Prop := p.1.ns = q.1.ns ∧ p.1.url = q.1.url ∧ p.1.mimetype = q.1.mimetype

theorem TallyG.same (h : TallyG M G n) (hs : List.Forall₂ SameKind G.flatten G'.flatten) : TallyG M G' n := by
  refine ⟨fun mt => ?_, h.distinct, h.keys⟩
  rw [h.counts]
  have := lastOnes_forall₂ (key := urlOf) (key' := urlOf) (fun p q (hpq : SameKind p q) => by
    unfold urlOf Item.fullUrl; rw [hpq.1, hpq.2.1]) hs
  rw [(forall₂_filter (f := counted mt) (g := counted mt) this fun p q hpq => by unfold counted; rw [hpq.1, hpq.2.2]).length_eq]

theorem sameKind_replaceLast (u : String) (src : BlobSource) (content : Bytes) (l : List Sourced) :
    List.Forall₂ SameKind l (replaceLast (urlIs u) (sourced src content) l) := by
  have hr : ∀ l : List Sourced, List.Forall₂ SameKind l l := fun l => List.forall₂_same.2 fun p _ => ⟨rfl, rfl, rfl⟩
  induction l with
  | nil => exact .nil
  | cons p l ih =>
    unfold replaceLast
    split
    · exact .cons ⟨rfl, rfl, rfl⟩ ih
    · split
      · exact .cons ⟨rfl, rfl, rfl⟩ (hr l)
      · exact hr _

theorem TallyG.set (h : TallyG M G n) (u : String) (src : BlobSource) (content : Bytes) : TallyG M (setGroups u src content G) n := by
  refine h.same ?_
  unfold setGroups
  rw [replaceLast_flatten]
  exact sameKind_replaceLast u src content _

/-! ### Adding items -/

theorem Counting.runAdd (hM : ¬ M "<redirect>") (hL : ∀ b ∈ ML, ∀ s, decode b = .ok s → M s) (hML : ML.length < 65535)
    (h : Core false none S.X S.C ML reserve a G rows cs extra es L m0 R B) (hT : Tallied M a.zim n) {s s' : Strategy D} (hf : s.Fit) {it : Item}
    (hi : it.Addable ML) {Z' : Zim}
    (hok : Strategy.addItemOn S.X (Counting.backend S) it (s, a.zim, n) = (.ok (), (s', Z', n'))) :
    Strategy.addItemOn S.X (Zim.backend S.X S.C S.depth) it (s, a.zim) = (.ok (), (s', Z')) ∧ Tallied M Z' n' ∧
      (n' = n ∨ n'.dirty = true) := by
  obtain ⟨z', h1, ⟨rfl, h2, h3, h4⟩, -⟩ := (CountsOn.sim S hM hL n).add (Z := (a.zim, n))
    (z := a.zim) ⟨rfl, ⟨_, h.mirrored⟩, hT, .inl rfl⟩ hf ⟨hML, hi⟩ hok
  exact ⟨h1, h3, h4⟩

theorem Counting.runFlush (hM : ¬ M "<redirect>") (hL : ∀ b ∈ ML, ∀ s, decode b = .ok s → M s)
    (h : Core false none S.X S.C ML reserve a G rows cs extra es L m0 R B) (hT : Tallied M a.zim n) {s s' : Strategy D} (hf : s.Fit) {Z' : Zim}
    (hok : Strategy.flushOn (Counting.backend S) (s, a.zim, n) = (.ok (), (s', Z', n'))) :
    Strategy.flushOn (Zim.backend S.X S.C S.depth) (s, a.zim) = (.ok (), (s', Z')) ∧ Tallied M Z' n' ∧
      (n' = n ∨ n'.dirty = true) := by
  obtain ⟨z', h1, ⟨rfl, h2, h3, h4⟩, -⟩ := (CountsOn.sim S hM hL n).flush (Z := (a.zim, n))
    (z := a.zim) ⟨rfl, ⟨_, h.mirrored⟩, hT, .inl rfl⟩ hf hok
  exact ⟨h1, h3, h4⟩

theorem Counting.addItem_ok (hM : ¬ M "<redirect>") (hL : ∀ b ∈ ML, ∀ s, decode b = .ok s → M s) (hML : ML.length < 65535)
    (h : Core false none S.X S.C ML reserve c.creator.arch G rows cs extra es L m0 R B) (hT : Tallied M c.creator.arch.zim c.counter)
    (hf1 : c.creator.main.Fit) (hf2 : c.creator.plain.Fit) {it : Item} (hi : it.Addable ML) {force : Bool}
    (hok : Counting.addItem S it force c = (.ok (), c')) :
    Creator.addItem S it force c.creator = (.ok (), c'.creator) ∧ Tallied M c'.creator.arch.zim c'.counter ∧
      (c'.counter = c.counter ∨ c'.counter.dirty = true) := by
  unfold Counting.addItem at hok
  unfold Creator.addItem
  rw [PyM.get_bind, PyM.bind_ok (show PyM.require (!c.creator.arch.zim.closed) .zimFileClosed c = (.ok (), c) by
    rw [h.laid.content.rep.isOpen]; rfl), PyM.bind_ok (show PyM.require c.creator.arch.zim.mutable .nonMutable c = (.ok (), c) by
    rw [h.laid.content.rep.isMutable]; rfl)] at hok
  rw [PyM.get_bind, PyM.bind_ok (show PyM.require (!c.creator.arch.zim.closed) .zimFileClosed c.creator = (.ok (), c.creator) by
    rw [h.laid.content.rep.isOpen]; rfl), PyM.bind_ok (show PyM.require c.creator.arch.zim.mutable .nonMutable c.creator = (.ok (), c.creator) by
    rw [h.laid.content.rep.isMutable]; rfl)]
  obtain ⟨⟨⟩, c1, h1, hokA⟩ := PyM.bind_ok_iff.1 hok
  clear hok
  rw [PyM.modify_apply] at hokA
  injection hokA with _ hokA
  cases force with
  | true =>
    simp only [if_true, Counting.onPlain, PyM.of_apply] at h1
    cases hr : Strategy.addItemOn S.X (Counting.backend S) it (c.creator.plain, c.creator.arch.zim, c.counter) with
    | mk r q =>
      obtain ⟨s', Z', n'⟩ := q
      rw [hr] at h1
      injection h1 with h1 h1'
      simp only at h1
      subst h1
      obtain ⟨k1, k2, k3⟩ := Counting.runAdd hM hL hML h hT hf2 hi hr
      subst hokA
      subst h1'
      refine ⟨?_, k2, k3⟩
      simp only [if_true]
      rw [PyM.bind_ok (show Creator.onPlain (Strategy.addItemOn S.X (Zim.backend S.X S.C S.depth) it) c.creator = (.ok (), _) by
        unfold Creator.onPlain; rw [PyM.of_apply, k1])]
      rfl
  | false =>
    simp only [Bool.false_eq_true, if_false, Counting.onMain, PyM.of_apply] at h1
    cases hr : Strategy.addItemOn S.X (Counting.backend S) it (c.creator.main, c.creator.arch.zim, c.counter) with
    | mk r q =>
      obtain ⟨s', Z', n'⟩ := q
      rw [hr] at h1
      injection h1 with h1 h1'
      simp only at h1
      subst h1
      obtain ⟨k1, k2, k3⟩ := Counting.runAdd hM hL hML h hT hf1 hi hr
      subst hokA
      subst h1'
      refine ⟨?_, k2, k3⟩
      simp only [Bool.false_eq_true, if_false]
      rw [PyM.bind_ok (show Creator.onMain (Strategy.addItemOn S.X (Zim.backend S.X S.C S.depth) it) c.creator = (.ok (), _) by
        unfold Creator.onMain; rw [PyM.of_apply, k1])]
      rfl

/-! ### Flushing -/

/-- what the counter writes -/
def counterText (n : Counter) : Bytes := encode n.toString

def counterSource (n : Counter) : BlobSource := (BlobSourceObj.inMemory (counterText n)).toSource

theorem counterSource_delivers (n : Counter) : Delivers (counterSource n) (counterText n) :=
  Blob.C52_pieces_complete (.inMemory _) trivial

/-- the groups after the counter was written -/
def storedIn (n : Counter) (G : List (List Sourced)) : List (List Sourced) :=
  if n.dirty then setGroups URL_COUNTER (counterSource n) (counterText n) G else G

theorem Core.store (hR : Replaceable S.X S.C) (h : Core false none S.X S.C ML reserve a G rows cs extra es L m0 R B) {Z' : Zim}
    (hok : Counting.store S n a.zim = (.ok (), Z')) :
    ∃ cs', Core false none S.X S.C ML reserve { a with zim := Z' } (storedIn n G) rows cs' extra es L m0 R B ∧
      Z'.mimetypes = a.zim.mimetypes := by
  unfold Counting.store at hok
  unfold storedIn
  cases hd : n.dirty with
  | false =>
    rw [hd, if_neg (by simp), PyM.pure_apply] at hok
    injection hok with _ hok
    subst hok
    rw [if_neg (by simp)]
    exact ⟨cs, h, rfl⟩
  | true =>
    rw [hd, if_pos rfl] at hok
    rw [if_pos rfl]
    obtain ⟨-, -, cs', k1, k2, -⟩ := h.setContent hR (counterSource_delivers n) (u := URL_COUNTER) (by decide) hok
    exact ⟨cs', k1, k2⟩

theorem Core.flushCounted {md5 : Bytes → Bytes} (hS : S.Good md5 reserve) (hR : Replaceable S.X S.C)
    (h : Core false none S.X S.C ML reserve a G rows cs extra es L m0 R B) (hn : NewSources es m0 B)
    (hok : Archive.flushDirty S.H S.short S.chunksize S.policy (Zim.finalizeOperations S.blob S.depth S.passes >>= fun _ =>
      Counting.store S n) (Creator.setListing S) a = (.ok (), a')) :
    ∃ rows' cs' L' m0' R', Core false none S.X S.C ML reserve a' (storedIn n G) rows' cs' extra es L' m0' (R ++ R') [] ∧ a'.isDirty = false ∧
      a'.zim.mimetypes.mimetypes = a.zim.mimetypes.mimetypes ∧ R'.Perm B := by
  rw [Archive.flushDirty_eq] at hok
  obtain ⟨⟨⟩, a1, h1, hok⟩ := PyM.bind_ok_iff.1 hok
  unfold Archive.onZim at h1
  cases hfin : (Zim.finalizeOperations S.blob S.depth S.passes >>= fun _ => Counting.store S n) a.zim with
  | mk res Z1 =>
  rw [hfin] at h1
  injection h1 with h1 h1'
  simp only at h1
  subst h1
  obtain ⟨⟨⟩, Z0, hf, hst⟩ := PyM.bind_ok_iff.1 hfin
  obtain ⟨rows1, m1, R1, hc, hmt, hperm⟩ := h.finalize hn hf
  obtain ⟨cs1, hc, hmt1⟩ := hc.store hR hst
  simp only at hc
  rw [show ({ a with zim := Z1 } : Archive) = a1 from h1'] at hc
  have hmt' : a1.zim.mimetypes.mimetypes = a.zim.mimetypes.mimetypes := by
    rw [← h1']
    show Z1.mimetypes.mimetypes = _
    rw [hmt1, hmt]
  obtain ⟨cs', L', k1, k2, k3, -⟩ := hc.flushLists hS hok
  exact ⟨rows1, cs', L', m1, R1, k1, k2, k3.trans hmt', hperm⟩

end Pyzim
