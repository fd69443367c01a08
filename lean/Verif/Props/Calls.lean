import Verif.Spec.Calls
import Verif.Props.ModCluster
import Verif.Props.Entry

/-!
# C48: immutable objects; C49: dirty flags of the objects of an archive
-/

namespace Pyzim

theorem tracks_unchanged {α : Type} (isDirty : α → Bool) (x : α) (r : PyRes Unit) :
    (isDirty ((r, x) : PyRes Unit × α).2 = true ↔ isDirty x = true ∨ ((r, x) : PyRes Unit × α).2 ≠ x) ∧
    (∀ err, ((r, x) : PyRes Unit × α).1 = .error err → ((r, x) : PyRes Unit × α).2 = x) := by simp

theorem tracks_update {α : Type} (isDirty : α → Bool) (x y : α) (hd : isDirty y = true) (hne : y ≠ x) :
    (isDirty ((Except.ok (), y) : PyRes Unit × α).2 = true
      ↔ isDirty x = true ∨ ((Except.ok (), y) : PyRes Unit × α).2 ≠ x) ∧
    (∀ err, ((Except.ok (), y) : PyRes Unit × α).1 = .error err
      → ((Except.ok (), y) : PyRes Unit × α).2 = x) := by simp [hd, hne]

namespace Header

theorem setNat_frozen (get : Header → Nat) (put : Header → Nat → Header) (v : Int) :
    RespectsImmutability Header.mutable (fun h => { h with mutable := true }) (fun h => setNat get put h v) := by
  intro h hm
  unfold setNat
  by_cases hv : v < 0
  · simp [hv]
  · simp [hv, hm]

/-- C48. Every setter of an immutable header raises, and raises `NonMutable` unless the value is
refused anyway; the header stays as it is. -/
theorem C48_header (c : Call) :
    RespectsImmutability Header.mutable (fun h => { h with mutable := true }) (fun h => c.exec h) := by
  cases c with
  | magicNumber v => intro h hm; simp [Call.exec, setMagicNumber, hm]
  | uuid v =>
    intro h hm
    by_cases hv : v.length = 16 <;> simp [Call.exec, setUuid, hm, hv]
  | mainPage v =>
    intro h hm
    cases v with
    | none => simp [Call.exec, setMainPage, hm]
    | some v => by_cases hv : v < 0 <;> simp [Call.exec, setMainPage, hm, hv]
  | layoutPage v =>
    intro h hm
    cases v with
    | none => simp [Call.exec, setLayoutPage, hm]
    | some v => by_cases hv : v < 0 <;> simp [Call.exec, setLayoutPage, hm, hv]
  | _ v => exact setNat_frozen _ _ v

theorem setNat_tracks (get : Header → Nat) (put : Header → Nat → Header) (v : Int)
    (hp : ∀ h n, get (put h n) = n) (hd : ∀ (h : Header) (b : Bool), get { h with dirty := b } = get h) :
    TracksChanges Header.dirty (fun h => setNat get put h v) := by
  intro h
  have hcase : (∃ r, setNat get put h v = (r, h)) ∨ (v.toNat ≠ get h ∧
      ∃ h' : Header, h'.dirty = true ∧ get h' = v.toNat ∧ setNat get put h v = (.ok (), h')) := by
    unfold setNat
    split
    · exact .inl ⟨_, rfl⟩
    · split
      · exact .inl ⟨_, rfl⟩
      · split
        · rename_i hne
          exact .inr ⟨hne, _, rfl, (hd (put h v.toNat) true).trans (hp h v.toNat), rfl⟩
        · exact .inl ⟨_, rfl⟩
  show (Header.dirty (setNat get put h v).2 = true ↔ h.dirty = true ∨ (setNat get put h v).2 ≠ h) ∧
    ∀ err, (setNat get put h v).1 = .error err → (setNat get put h v).2 = h
  rcases hcase with ⟨r, hr⟩ | ⟨hne, h', h1, h2, hr⟩
  · rw [hr]; exact tracks_unchanged ..
  · rw [hr]
    refine tracks_update _ _ _ h1 fun he => hne ?_
    rw [← he, h2]

/-- C49. Every setter of a header makes it dirty iff it changes something. -/
theorem C49_header (c : Call) : TracksChanges Header.dirty (fun h => c.exec h) := by
  cases c with
  | magicNumber v =>
    intro h
    simp only [Call.exec, setMagicNumber]
    (repeat' split) <;> first | exact tracks_unchanged .. | skip
    rename_i hne
    exact tracks_update _ _ _ rfl fun he => hne (congrArg Header.magicNumber he)
  | uuid v =>
    intro h
    simp only [Call.exec, setUuid]
    (repeat' split) <;> first | exact tracks_unchanged .. | skip
    rename_i hne
    exact tracks_update _ _ _ rfl fun he => hne (congrArg Header.uuid he)
  | mainPage v =>
    intro h
    cases v <;> simp only [Call.exec, setMainPage]
    all_goals
      (repeat' split) <;> first | exact tracks_unchanged .. | skip
      rename_i hne
      exact tracks_update _ _ _ rfl fun he => hne (congrArg Header.mainPageRaw he)
  | layoutPage v =>
    intro h
    cases v <;> simp only [Call.exec, setLayoutPage]
    all_goals
      (repeat' split) <;> first | exact tracks_unchanged .. | skip
      rename_i hne
      exact tracks_update _ _ _ rfl fun he => hne (congrArg Header.layoutPageRaw he)
  | _ v => exact setNat_tracks _ _ v (fun _ _ => rfl) (fun _ _ => rfl)

example : (Call.exec { placeholder [] with mutable := false } (.entryCount 3)).1 = .error .nonMutable := by
  decide +kernel

end Header

namespace MimeTypeList

/-- C48. Registering with an immutable mimetype list raises `NonMutable`. -/
theorem C48_mimetypelist (mt : Bytes) :
    RespectsImmutability MimeTypeList.mutable (fun m => { m with mutable := true })
      (fun m => m.register mt) := by
  intro m hm; simp [register, hm]

/-- C49. Registering makes the list dirty iff the mimetype is new. -/
theorem C49_mimetypelist (mt : Bytes) : TracksChanges MimeTypeList.dirty (fun m => m.register mt) := by
  intro m
  simp only [register]
  (repeat' split) <;> first | exact tracks_unchanged .. | skip
  refine tracks_update _ _ _ rfl fun he => ?_
  have := congrArg (fun m => m.mimetypes.length) he
  simp at this

example : (register { mimetypes := [[65]], mutable := false } [66]) =
    (.error .nonMutable, { mimetypes := [[65]], mutable := false }) := by decide

end MimeTypeList

namespace PointerList

/-- C48. Every modifying call of an immutable pointer list except `mass_update` raises. -/
theorem C48_pointerlist (c : Call) :
    RespectsImmutability PointerList.mutable (fun l => { l with mutable := true }) (fun l => c.exec l) := by
  intro l hm
  cases c with
  | append p => by_cases hp : p < 0 <;> simp [Call.exec, append, hm, hp]
  | set i p a =>
    by_cases hp : p < 0
    · simp [Call.exec, set, hp]
    · by_cases hi : i > l.pointers.length ∧ (!a) = true
      · simp only [Call.exec, set, if_neg hp, if_pos hi]
        exact ⟨trivial, .indexError, rfl, fun _ => rfl⟩
      · simp only [Call.exec, set, if_neg hp, if_neg hi, hm, Bool.not_false, if_true]
        exact ⟨trivial, .nonMutable, rfl, fun h => absurd rfl h⟩
  | removeByIndex i => by_cases hp : i < 0 <;> simp [Call.exec, removeByIndex, hm, hp]
  | add keyf key p =>
    by_cases hp : p < 0 <;> simp [Call.exec, add, hm, hp, Except.map]
  | remove keyf key => simp [Call.exec, remove, hm]

/-- C48. The exception: `mass_update` changes immutable lists. -/
theorem C48_mass_update_ignores_immutability :
    ¬ RespectsImmutability PointerList.mutable (fun l => { l with mutable := true })
      (fun l => l.massUpdate 1 none none) := by
  intro h
  have := (h { pointers := [5], mutable := false } rfl).1
  exact absurd this (by decide)

theorem unchanged_or_dirty (c : Call) (l : PointerList) :
    (c.exec l).2 = l ∨ ((c.exec l).1 = .ok () ∧ (c.exec l).2.dirty = true) := by
  cases c with
  | append p =>
    simp only [Call.exec, append]
    (repeat' split) <;> first | exact .inl rfl | exact .inr ⟨rfl, rfl⟩
  | set i p a =>
    simp only [Call.exec, set]
    generalize (if i < 0 then i + (l.pointers.length : Int) else i) = j
    (repeat' split) <;> first | exact .inl rfl | exact .inr ⟨rfl, rfl⟩
  | removeByIndex i =>
    simp only [Call.exec, removeByIndex]
    (repeat' split) <;> first | exact .inl rfl | exact .inr ⟨rfl, rfl⟩
  | add keyf key p =>
    simp only [Call.exec, add]
    (repeat' split) <;> first | exact .inl rfl | exact .inr ⟨rfl, rfl⟩
  | remove keyf key =>
    simp only [Call.exec, remove]
    (repeat' split) <;> first | exact .inl rfl | exact .inr ⟨rfl, rfl⟩

/-- C49. No modifying call leaves a changed pointer list clean, and one that raises changes nothing. -/
theorem C49_pointerlist (c : Call) :
    NeverClean PointerList.dirty (fun l => c.exec l) ∧
    ∀ l err, (c.exec l).1 = .error err → (c.exec l).2 = l := by
  constructor
  · intro l hne
    rcases unchanged_or_dirty c l with h | h
    · exact absurd h hne
    · exact h.2
  · intro l err he
    rcases unchanged_or_dirty c l with h | h
    · exact h
    · rw [h.1] at he; cases he

/-- C49. The same for `mass_update`. -/
theorem C49_mass_update (diff : Int) (start stop : Option Int) :
    NeverClean PointerList.dirty (fun l => l.massUpdate diff start stop) := by
  intro l hne
  change (l.massUpdate diff start stop).2 ≠ l at hne
  show (l.massUpdate diff start stop).2.dirty = true
  have hcase : (l.massUpdate diff start stop).2 = l ∨ (l.massUpdate diff start stop).2 =
      { l with pointers := l.pointers.map (fun p => if massSelected start stop p = true then p + diff else p)
               dirty := l.dirty || l.pointers.any (massSelected start stop) } := by
    unfold massUpdate
    cases start with
    | none => exact .inr rfl
    | some a =>
      cases stop with
      | none => exact .inr rfl
      | some b =>
        by_cases hb : b < a
        · left; simp [hb]
        · right; simp [hb]
  rcases hcase with h | h
  · exact absurd h hne
  · rw [h] at hne ⊢
    simp only [Bool.or_eq_true, List.any_eq_true]
    by_cases hd : l.dirty = true
    · exact .inl hd
    · right
      apply Classical.byContradiction
      intro hno
      apply hne
      have hnone : ∀ p ∈ l.pointers, massSelected start stop p = false := by
        intro p hp
        cases hs : massSelected start stop p with
        | false => rfl
        | true => exact absurd ⟨p, hp, hs⟩ hno
      have h1 : l.pointers.map (fun p => if massSelected start stop p = true then p + diff else p)
          = l.pointers := by
        rw [List.map_congr_left (g := id), List.map_id]
        intro p hp
        rw [hnone p hp]; rfl
      have h2 : l.pointers.any (massSelected start stop) = false := by
        rw [List.any_eq_false]; intro p hp; rw [hnone p hp]; simp
      simp only [h1, h2, Bool.or_false]

example : (Call.exec { pointers := [3, 4], mutable := false } (.append 9)).1 = .error .nonMutable := by
  decide

end PointerList

namespace Entry

theorem setNamespace_frozen (v : StrArg) (e : Entry) (hm : e.mutable = false) :
    (e.setNamespace v).2 = e ∧ ∃ err, (e.setNamespace v).1 = .error err ∧
      (err ≠ .nonMutable → ({ e with mutable := true }.setNamespace v).1 = .error err) := by
  unfold setNamespace
  cases v.both with
  | error x => simp
  | ok r =>
    obtain ⟨b, u⟩ := r
    by_cases hb : b.length = 1 <;> simp [hb, hm]

/-- C48. Every setter of an immutable entry raises and changes nothing. -/
theorem C48_entry (c : Call) :
    RespectsImmutability Entry.mutable (fun e => { e with mutable := true }) (fun e => c.exec e) := by
  intro e hm
  cases c with
  | mimetypeId v => by_cases hv : v < 0 <;> simp [Call.exec, setMimetypeId, hv, hm]
  | «namespace» v => exact setNamespace_frozen v e hm
  | url v =>
    simp only [Call.exec, setUrl]
    cases v.both with
    | error x => simp
    | ok r =>
      obtain ⟨b, u⟩ := r
      by_cases hb : (0 : UInt8) ∈ b <;> simp [hb, hm]
  | title v =>
    simp only [Call.exec, setTitle]
    cases (v.getD (.str "")).both with
    | error x => simp
    | ok r =>
      obtain ⟨b, u⟩ := r
      by_cases hb : (0 : UInt8) ∈ b <;> simp [hb, hm]
  | fullUrl v =>
    have key : ∀ (d : PyRes String), (match d with
          | .error x => ((.error x, e) : PyRes Unit × Entry)
          | .ok u => match u.toList with
            | [] => (.error .valueError, e)
            | c :: rest => match e.setNamespace (.str (String.singleton c)) with
              | (.error x, e') => (.error x, e')
              | (.ok (), e') => e'.setUrl (.str (String.ofList rest))).2 = e ∧
        ∃ err : PyErr, (match d with
          | .error x => ((.error x, e) : PyRes Unit × Entry)
          | .ok u => match u.toList with
            | [] => (.error .valueError, e)
            | c :: rest => match e.setNamespace (.str (String.singleton c)) with
              | (.error x, e') => (.error x, e')
              | (.ok (), e') => e'.setUrl (.str (String.ofList rest))).1 = .error err ∧
          (err ≠ .nonMutable → (match d with
          | .error x => ((.error x, { e with mutable := true }) : PyRes Unit × Entry)
          | .ok u => match u.toList with
            | [] => (.error .valueError, { e with mutable := true })
            | c :: rest => match { e with mutable := true }.setNamespace (.str (String.singleton c)) with
              | (.error x, e') => (.error x, e')
              | (.ok (), e') => e'.setUrl (.str (String.ofList rest))).1 = .error err) := by
      intro d
      cases d with
      | error x => exact ⟨rfl, x, rfl, fun _ => rfl⟩
      | ok u =>
        simp only
        generalize u.toList = l
        cases l with
        | nil => exact ⟨rfl, .valueError, rfl, fun _ => rfl⟩
        | cons c rest =>
          obtain ⟨h1, err, h2, h3⟩ := setNamespace_frozen (.str (String.singleton c)) e hm
          have h : e.setNamespace (.str (String.singleton c)) = (.error err, e) := Prod.ext h2 h1
          simp only [h]
          refine ⟨trivial, err, rfl, fun hne => ?_⟩
          have h4 := h3 hne
          generalize { e with mutable := true }.setNamespace (.str (String.singleton c)) = r at h4
          obtain ⟨r1, r2⟩ := r
          simp only at h4
          subst h4
          rfl
    cases v with
    | str s => exact key (.ok s)
    | bytes b => exact key (decode b)
  | isArticle v => simp [Call.exec, setIsArticle, hm]
  | clusterNumber v =>
    simp only [Call.exec, setClusterNumber]
    cases e.kind with
    | content c b => by_cases hv : v < 0 <;> simp [hv, hm]
    | redirect i => simp
  | blobNumber v =>
    simp only [Call.exec, setBlobNumber]
    cases e.kind with
    | content c b => by_cases hv : v < 0 <;> simp [hv, hm]
    | redirect i => simp
  | redirectIndex v =>
    simp only [Call.exec, setRedirectIndex]
    cases e.kind with
    | content c b => simp
    | redirect i => by_cases hv : v < 0 <;> simp [hv, hm]

/-- C48. Any number of calls leaves an immutable entry as it is. -/
theorem C48_entry_history (calls : List Call) (e : Entry) (hm : e.mutable = false) :
    calls.foldl (fun e c => (c.exec e).2) e = e := by
  induction calls with
  | nil => rfl
  | cons c calls ih => rw [List.foldl_cons, (C48_entry c e hm).1, ih]

/-- The dirty flag is set by the call iff it changes the entry. -/
def Tracks (e : Entry) (r : PyRes Unit × Entry) : Prop :=
  r.2.dirty = true ↔ e.dirty = true ∨ r.2 ≠ e

theorem tracks_same (e : Entry) (r : PyRes Unit) : Tracks e (r, e) := by simp [Tracks]

theorem tracks_changed (e e' : Entry) (r : PyRes Unit) (hd : e'.dirty = true) (hne : e' ≠ e) :
    Tracks e (r, e') := by simp [Tracks, hd, hne]

theorem setNamespace_tracks (v : StrArg) (e : Entry) : Tracks e (e.setNamespace v) := by
  unfold setNamespace
  split
  · exact tracks_same ..
  · rename_i b u _
    split
    · exact tracks_same ..
    · split
      · exact tracks_same ..
      · split
        · rename_i hne
          refine tracks_changed _ _ _ rfl ?_
          intro h
          apply hne
          have := congrArg Entry.ns h
          by_cases hc : u ≠ "C"
          · rw [if_pos hc] at this; exact this
          · rw [if_neg hc] at this; exact this
        · exact tracks_same ..

theorem setUrl_tracks (v : StrArg) (e : Entry) : Tracks e (e.setUrl v) := by
  unfold setUrl
  split
  · exact tracks_same ..
  · split
    · exact tracks_same ..
    · split
      · exact tracks_same ..
      · split
        · rename_i hne
          exact tracks_changed _ _ _ rfl fun h => hne (congrArg Entry.url h)
        · exact tracks_same ..

/-- C49. Every setter of an entry makes it dirty iff it changes something. -/
theorem C49_entry (c : Call) (e : Entry) :
    (c.exec e).2.dirty = true ↔ e.dirty = true ∨ (c.exec e).2 ≠ e := by
  show Tracks e (c.exec e)
  cases c with
  | mimetypeId v =>
    simp only [Call.exec, setMimetypeId]
    (repeat' split) <;> first | exact tracks_same .. | skip
    rename_i hne
    exact tracks_changed _ _ _ rfl fun h => hne (congrArg Entry.mimetypeId h)
  | «namespace» v => exact setNamespace_tracks v e
  | url v => exact setUrl_tracks v e
  | title v =>
    simp only [Call.exec, setTitle]
    (repeat' split) <;> first | exact tracks_same .. | skip
    rename_i hne
    exact tracks_changed _ _ _ rfl fun h => hne (congrArg Entry.titleRaw h)
  | fullUrl v =>
    simp only [Call.exec, setFullUrl]
    split
    · exact tracks_same ..
    · split
      · exact tracks_same ..
      · rename_i c rest _
        have h1 := setNamespace_tracks (.str (String.singleton c)) e
        generalize hr : e.setNamespace (.str (String.singleton c)) = r at h1
        obtain ⟨x, e'⟩ := r
        cases x with
        | error err => exact h1
        | ok u =>
          have h2 := setUrl_tracks (.str (String.ofList rest)) e'
          have hns : (e'.setUrl (.str (String.ofList rest))).2.ns = e'.ns := by
            unfold setUrl
            (repeat' split) <;> rfl
          have hart : (e'.setUrl (.str (String.ofList rest))).2.forceIsArticle = e'.forceIsArticle := by
            unfold setUrl
            (repeat' split) <;> rfl
          have hor : e' = e ∨ e'.ns ≠ e.ns := by
            have : e' = (e.setNamespace (.str (String.singleton c))).2 := by rw [hr]
            rw [this]
            unfold setNamespace
            (repeat' split) <;> first | exact .inl rfl | skip
            · rename_i hne _; exact .inr hne
            · rename_i hne _; exact .inr hne
          show Tracks e (e'.setUrl (.str (String.ofList rest)))
          unfold Tracks at h1 h2 ⊢
          rcases hor with rfl | hor
          · exact h2
          · rw [h2]
            constructor
            · intro _
              right
              intro h
              apply hor
              rw [← hns, h]
            · intro _
              exact .inl (h1.2 (.inr fun h => hor (by rw [show e' = e from h])))
  | isArticle v =>
    simp only [Call.exec, setIsArticle]
    (repeat' split) <;> first | exact tracks_same .. | skip
    rename_i hne
    exact tracks_changed _ _ _ rfl fun h => hne (congrArg Entry.forceIsArticle h)
  | clusterNumber v =>
    simp only [Call.exec, setClusterNumber]
    cases hk : e.kind with
    | redirect i => exact tracks_same ..
    | content c b =>
      simp only
      (repeat' split) <;> first | exact tracks_same .. | skip
      rename_i hne
      refine tracks_changed _ _ _ rfl fun h => hne ?_
      have := congrArg Entry.kind h
      rw [hk] at this
      injection this
  | blobNumber v =>
    simp only [Call.exec, setBlobNumber]
    cases hk : e.kind with
    | redirect i => exact tracks_same ..
    | content c b =>
      simp only
      (repeat' split) <;> first | exact tracks_same .. | skip
      rename_i hne
      refine tracks_changed _ _ _ rfl fun h => hne ?_
      have := congrArg Entry.kind h
      rw [hk] at this
      injection this
  | redirectIndex v =>
    simp only [Call.exec, setRedirectIndex]
    cases hk : e.kind with
    | content c b => exact tracks_same ..
    | redirect i =>
      simp only
      (repeat' split) <;> first | exact tracks_same .. | skip
      rename_i hne
      refine tracks_changed _ _ _ rfl fun h => hne ?_
      have := congrArg Entry.kind h
      rw [hk] at this
      injection this

/-- C49. An entry that is clean after any number of setter calls (accepted or refused) is what it was
before: what was read or written last is what a write would produce now. -/
theorem C49_entry_clean (calls : List Call) (e : Entry)
    (hc : (calls.foldl (fun e c => (c.exec e).2) e).dirty = false) :
    calls.foldl (fun e c => (c.exec e).2) e = e := by
  have stays : ∀ (calls : List Call) (e : Entry), e.dirty = true →
      (calls.foldl (fun e c => (c.exec e).2) e).dirty = true := by
    intro calls
    induction calls with
    | nil => intro e h; exact h
    | cons c calls ih => intro e h; exact ih _ ((C49_entry c e).2 (.inl h))
  induction calls generalizing e with
  | nil => rfl
  | cons c calls ih =>
    rw [List.foldl_cons] at hc ⊢
    by_cases hs : (c.exec e).2 = e
    · rw [hs] at hc ⊢; exact ih e hc
    · rw [stays calls _ ((C49_entry c e).2 (.inr hs))] at hc
      cases hc

/-- an entry of a read-only archive -/
def frozenPage : Entry :=
  { mimetypeId := 0, ns := "C", url := "a", titleRaw := some "A", kind := .content 0 0, mutable := false }

example : ([Call.url (.str "b"), .clusterNumber 3, .fullUrl (.str "Xq"), .isArticle true].map
    fun c => (Call.exec frozenPage c).1) = List.replicate 4 (.error .nonMutable) := by decide +kernel

example : ([Call.clusterNumber 3, .url (.str "b")].foldl (fun e c => (Call.exec e c).2)
      { frozenPage with mutable := true }).dirty = true ∧
    ([Call.clusterNumber 0, .url (.str "a")].foldl (fun e c => (Call.exec e c).2)
      { frozenPage with mutable := true }).dirty = false := by decide +kernel

end Entry

namespace MCluster
variable {D : Type} {X : Codecs D} {orig view : List Bytes} {ext : Bool} {comp : CompressionType}

/-- C48. Changing, appending, emptying or removing a blob of an immutable cluster raises (`NonMutable`,
or the assertion about the blob number), and the cluster shows the same blobs afterwards. -/
theorem C48_cluster {m : MCluster D} (h : History X orig ext comp view { m with isMutable := true })
    (hm : m.isMutable = false) :
    (∀ i src, ((setBlob X i src m).1 = .error (if i ≤ view.length then .nonMutable else .assertionError)) ∧
      Shows X view (setBlob X i src m).2 ∧ (setBlob X i src m).2.dirty = m.dirty) ∧
    (∀ i, emptyBlob X i m = (.error .nonMutable, m)) ∧
    (∀ src, appendBlob X src m = (.error .nonMutable, m)) ∧
    (∀ i, removeBlob i m = (.error .nonMutable, m)) ∧
    Shows X view m := by
  have hr0 : Repr X orig ext comp view { m with isMutable := true } := h.plain.1
  have hr : Repr X orig ext comp view m :=
    { hr0 with }
  refine ⟨fun i src => ?_, fun i => ?_, fun src => ?_, fun i => ?_, hr.shows⟩
  · obtain ⟨j, he, hj, -⟩ := getNumberOfBlobs_spec hr
    unfold setBlob
    rw [PyM.bind_ok he]
    by_cases hi : i ≤ view.length
    · have : (decide ((i : Int) ≤ (view.length : Int))) = true := by simpa using hi
      rw [this, PyM.require_true_bind, PyM.get_bind]
      have hmm : (m.setInner j).isMutable = false := hm
      rw [hmm, PyM.require_false_bind]
      exact ⟨by rw [if_pos hi], (hr.setInner hj).shows, rfl⟩
    · have : (decide ((i : Int) ≤ (view.length : Int))) = false := by simpa using hi
      rw [this, PyM.require_false_bind]
      exact ⟨by rw [if_neg hi], (hr.setInner hj).shows, rfl⟩
  · unfold emptyBlob; rw [PyM.get_bind, hm, PyM.require_false_bind]
  · unfold appendBlob; rw [PyM.get_bind, hm, PyM.require_false_bind]
  · unfold removeBlob; rw [PyM.get_bind, hm, PyM.require_false_bind]

/-- The hypotheses can be met. -/
example : appendBlob Cluster.rawCodecs (mem [1]) { inner := demoInner, isMutable := false } =
    (.error .nonMutable, { inner := demoInner, isMutable := false }) :=
  (C48_cluster (m := { inner := demoInner, isMutable := false }) (.fresh demoWraps) rfl).2.2.1 _

/-- **C48, finding.** Setting the compression or the pointer width of an immutable cluster is not refused;
the first even makes it dirty. -/
theorem C48_cluster_settings_ignore_immutability :
    let m : MCluster Bytes := { inner := demoInner, isMutable := false }
    (m.setCompression (some .zstd)).compression = some .zstd ∧ m.compression ≠ some .zstd ∧
    (m.setCompression (some .zstd)).dirty = true ∧
    (isExtended Cluster.rawCodecs (m.setExtended (some true))).1 = .ok (some true) := by
  decide +kernel

/-- **C49, finding.** Setting the pointer width does not make a cluster dirty, although it changes what
would be written. -/
theorem C49_extended_not_tracked :
    let m : MCluster Bytes := { inner := demoInner }
    (m.setExtended (some true)).dirty = false ∧
    (iterWrite Cluster.rawCodecs rawCompressors (m.setExtended (some true))).1 ≠
      (iterWrite Cluster.rawCodecs rawCompressors m).1 := by
  decide +kernel

/-- C49. Every accepted modification of the blobs makes the cluster dirty. -/
theorem C49_cluster {m : MCluster D} (h : History X orig ext comp view m) (op : ModOp) (hop : op.Sound)
    (ha : (op.apply view).isSome) : (op.exec X m).1 = .ok () ∧ (op.exec X m).2.dirty = true := by
  have hp := h.plain
  cases op with
  | set i src c =>
    have hi : i ≤ view.length := by
      apply Classical.byContradiction
      intro hi
      simp only [ModOp.apply] at ha
      rw [if_neg (by omega), if_neg (by omega)] at ha
      cases ha
    obtain ⟨m', g1, -, -, -, -, g2⟩ := (setBlob_spec hp i (src := src) (c := c) hop).1 hi
    simp only [ModOp.exec]
    rw [g1]
    exact ⟨rfl, g2⟩
  | empty i =>
    have hi : i ≤ view.length := by
      apply Classical.byContradiction
      intro hi
      simp only [ModOp.apply] at ha
      rw [if_neg (by omega), if_neg (by omega)] at ha
      cases ha
    obtain ⟨m', g1, -, -, -, -, g2⟩ :=
      (setBlob_spec hp i (Blob.C52_pieces_complete .empty trivial)).1 hi
    unfold ModOp.exec emptyBlob
    simp only [PyM.get_bind, hp.mutable, PyM.require_true_bind]
    rw [g1]
    exact ⟨rfl, g2⟩
  | append src c =>
    obtain ⟨i1, a1, a2, _⟩ := getNumberOfBlobs_spec hp.toRepr
    obtain ⟨h1, _⟩ := setBlob_spec (hp.setInner a2) view.length (src := src) (c := c) hop
    obtain ⟨m', g1, -, -, -, -, g2⟩ := h1 (Nat.le_refl _)
    have : (ModOp.append src c).exec X m = (.ok (), m') := by
      unfold ModOp.exec appendBlob
      simp only
      rw [PyM.bind_assoc']
      simp only [PyM.get_bind, hp.mutable]
      rw [PyM.bind_assoc']
      simp only [PyM.require_true_bind]
      rw [PyM.bind_assoc', PyM.bind_ok a1, PyM.bind_assoc', Int.toNat_natCast, PyM.bind_ok g1]
      rfl
    rw [this]
    exact ⟨rfl, g2⟩

end MCluster
end Pyzim
