import Verif.Model.Embedded
import Verif.Lemmas.Ioutil
import Verif.Lemmas.PyM

/-! Reading a file in front of which bytes are inserted. -/

namespace Pyzim

/-- The file with bytes in front of it, at the same place. -/
def PyFile.shift (pre : Bytes) (f : PyFile) : PyFile := ⟨pre ++ f.data, pre.length + f.pos⟩

/-- What is left to be read. -/
def PyFile.left (f : PyFile) : Nat := f.data.length - f.pos

theorem PyFile.shift_seek (pre : Bytes) (f : PyFile) (p : Nat) :
    (f.shift pre).seek (pre.length + p) = (f.seek p).shift pre := rfl

theorem PyFile.shift_drop (pre : Bytes) (f : PyFile) : (f.shift pre).data.drop (f.shift pre).pos = f.data.drop f.pos := by
  simp [PyFile.shift, List.drop_append]

theorem PyFile.shift_left (pre : Bytes) (f : PyFile) : (f.shift pre).left = f.left := by
  simp only [PyFile.left, PyFile.shift, List.length_append]; omega

theorem PyFile.shift_read (pre : Bytes) (f : PyFile) (n : Nat) :
    (f.shift pre).read n = ((f.read n).1, (f.read n).2.shift pre) := by
  have h := PyFile.shift_drop pre f
  simp only [PyFile.read, h]
  simp [PyFile.shift, Nat.add_assoc]

theorem PyFile.read_left (f : PyFile) (n : Nat) : (f.read n).2.left = f.left - (f.read n).1.length := by
  simp only [PyFile.read, PyFile.left]; omega

theorem PyFile.left_lt_of_read {f : PyFile} {n : Nat} (h : (f.read n).1 ≠ []) : (f.read n).2.left < f.left := by
  have h1 := PyFile.read_left f n
  have h2 : (f.read n).1.length ≤ f.left := by simp [PyFile.read, PyFile.left]; omega
  have h3 := List.length_pos_iff.mpr h
  omega

/-! ## Strings -/

/-- An optional result with the file it leaves, shifted. -/
def shiftOpt {α : Type} (pre : Bytes) (x : Option (α × PyFile)) : Option (α × PyFile) :=
  x.map (fun p => (p.1, p.2.shift pre))

theorem readUntilZero_shift (pre : Bytes) (f : PyFile) : readUntilZero (f.shift pre) = shiftOpt pre (readUntilZero f) := by
  by_cases h : (0 : UInt8) ∈ f.data.drop f.pos
  · obtain ⟨s, tail, h2, h1⟩ := split_at_zero _ h
    rw [readUntilZero_ok s tail h2 f h1, readUntilZero_ok s tail h2 _ ((PyFile.shift_drop pre f).trans h1)]
    simp [shiftOpt, PyFile.shift, Nat.add_assoc]
  · rw [readUntilZero, readUntilZero, readUntilZeroLoop_diverges f h,
      readUntilZeroLoop_diverges _ (by rw [PyFile.shift_drop]; exact h)]
    rfl

theorem readUntilZero_left {f f' : PyFile} {s : Bytes} (h : readUntilZero f = some (s, f')) : f'.left < f.left := by
  by_cases hz : (0 : UInt8) ∈ f.data.drop f.pos
  · obtain ⟨s2, tail, h2, h1⟩ := split_at_zero _ hz
    rw [readUntilZero_ok s2 tail h2 f h1] at h
    cases h
    have := congrArg List.length h1
    simp only [PyFile.left, List.length_drop, List.length_append, List.length_cons] at this ⊢
    omega
  · rw [readUntilZero, readUntilZeroLoop_diverges f hz] at h; cases h

theorem MimeTypeList.fromFileLoop_shift (pre : Bytes) : ∀ (n m : Nat) (acc : List Bytes) (f : PyFile), f.left < n →
    f.left < m → fromFileLoop n acc (f.shift pre) = shiftOpt pre (fromFileLoop m acc f) := by
  intro n
  induction n with
  | zero => intro m acc f h; omega
  | succ n ih =>
    intro m acc f hn hm
    obtain ⟨m, rfl⟩ : ∃ k, m = k + 1 := ⟨m - 1, by omega⟩
    simp only [fromFileLoop, readUntilZero_shift]
    rcases hz : readUntilZero f with _ | ⟨s, f'⟩
    · rfl
    · simp only [shiftOpt, Option.map_some]
      have := readUntilZero_left hz
      split
      · rfl
      · exact ih m _ f' (by omega) (by omega)

theorem MimeTypeList.fromFile_shift (pre : Bytes) (f : PyFile) (p : Nat) :
    MimeTypeList.fromFile (f.shift pre) (some (pre.length + p)) = shiftOpt pre (MimeTypeList.fromFile f (some p)) := by
  simp only [MimeTypeList.fromFile, PyFile.shift_seek]
  rw [MimeTypeList.fromFileLoop_shift pre (((f.seek p).shift pre).data.length + 1) ((f.seek p).data.length + 1) [] (f.seek p)
    (by simp only [PyFile.left, PyFile.shift, PyFile.seek, List.length_append]; omega)
    (by simp only [PyFile.left, PyFile.seek]; omega)]
  rcases fromFileLoop ((f.seek p).data.length + 1) [] (f.seek p) with _ | ⟨l, f'⟩ <;> rfl

namespace Entry

theorem readStr_shift (pre : Bytes) (f : PyFile) : readStr (f.shift pre) = shiftOpt pre (readStr f) := by
  simp only [readStr, readUntilZero_shift]
  rcases readUntilZero f with _ | ⟨s, f'⟩ <;> rfl

theorem readStrs_shift (pre : Bytes) (n : Nat) (f : PyFile) : readStrs n (f.shift pre) = shiftOpt pre (readStrs n f) := by
  induction n generalizing f with
  | zero => rfl
  | succ n ih =>
    simp only [readStrs, readStr_shift]
    rcases readStr f with _ | ⟨_ | s, f'⟩
    · rfl
    · rfl
    · simp only [shiftOpt, Option.map_some] at ih ⊢
      rw [ih]
      rcases readStrs n f' with _ | ⟨_ | s, f''⟩ <;> rfl

theorem readTail_shift (pre : Bytes) (n : Nat) (f : PyFile) : readTail n (f.shift pre) = shiftOpt pre (readTail n f) := by
  simp only [readTail, readStr_shift]
  rcases readStr f with _ | ⟨_ | s, f'⟩
  · rfl
  · rfl
  · simp only [shiftOpt, Option.map_some, readStr_shift]
    rcases readStr f' with _ | ⟨_ | t, f''⟩
    · rfl
    · rfl
    · simp only [shiftOpt, Option.map_some, readStrs_shift]
      rcases readStrs n f'' with _ | ⟨_ | ps, f'''⟩ <;> rfl

theorem contentFromFile_shift (pre : Bytes) (f : PyFile) (m : Nat) :
    contentFromFile (f.shift pre) m = shiftOpt pre (contentFromFile f m) := by
  unfold contentFromFile
  rw [PyFile.shift_read]
  rcases f.read (Fmt.calcsize formatContent) with ⟨d, f'⟩
  dsimp only
  split
  · rfl
  · split
    · rfl
    · rw [readTail_shift]
      rcases readTail _ f' with _ | ⟨_ | ⟨u, t, ps⟩, f''⟩ <;> rfl
  · rfl

theorem redirectFromFile_shift (pre : Bytes) (f : PyFile) (m : Nat) :
    redirectFromFile (f.shift pre) m = shiftOpt pre (redirectFromFile f m) := by
  unfold redirectFromFile
  rw [PyFile.shift_read]
  split
  · rfl
  rcases f.read (Fmt.calcsize formatRedirect) with ⟨d, f'⟩
  dsimp only
  split
  · rfl
  · split
    · rfl
    · rw [readTail_shift]
      rcases readTail _ f' with _ | ⟨_ | ⟨u, t, ps⟩, f''⟩ <;> rfl
  · rfl

theorem fromFile_shift (pre : Bytes) (f : PyFile) (p : Nat) :
    Entry.fromFile (f.shift pre) (some (pre.length + p)) = shiftOpt pre (Entry.fromFile f (some p)) := by
  unfold Entry.fromFile
  dsimp only
  rw [PyFile.shift_seek, PyFile.shift_read]
  rcases (f.seek p).read (Fmt.calcsize formatMT) with ⟨d, f'⟩
  dsimp only
  split
  · rfl
  · split
    · exact redirectFromFile_shift pre f' _
    · exact contentFromFile_shift pre f' _
  · rfl

end Entry

theorem Header.fromFile_shift (pre : Bytes) (f : PyFile) (p : Nat) :
    Header.fromFile (f.shift pre) (pre.length + p) = Header.fromFile f p := by
  simp only [Header.fromFile, PyFile.shift_seek, PyFile.shift_read]

theorem PointerList.fromFile_shift (pre : Bytes) (w : Nat) (f : PyFile) (n p : Nat) :
    PointerList.fromFile w (f.shift pre) n (pre.length + p) = PointerList.fromFile w f n p := by
  simp only [PointerList.fromFile, PyFile.shift_seek, PyFile.shift_read]

/-! ## Decompressing readers -/

namespace DReader
variable {D : Type} (C : Decomp D)

/-- A result with a reader and a file, shifted. -/
def shiftRes {α : Type} (pre : Bytes) (x : PyRes α × DReader D × PyFile) : PyRes α × DReader D × PyFile :=
  (x.1, x.2.1, x.2.2.shift pre)

/-- How many turns the loop of `read` takes at most. -/
def turns (r : DReader D) (f : PyFile) : Nat := f.left + (if C.needsInput r.dec then 1 else 2)

theorem readLoop_shift (pre : Bytes) (n extra : Nat) : ∀ (k m : Nat) (r : DReader D) (f : PyFile), turns C r f ≤ k →
    turns C r f ≤ m → readLoop C n extra k r (f.shift pre) = shiftRes pre (readLoop C n extra m r f) := by
  intro k
  induction k with
  | zero => intro m r f h; simp only [turns] at h; split at h <;> omega
  | succ k ih =>
    intro m r f hk hm
    obtain ⟨m, rfl⟩ : ∃ j, m = j + 1 := ⟨m - 1, by simp only [turns] at hm; split at hm <;> omega⟩
    unfold readLoop
    by_cases hneed : C.needsInput r.dec = true
    · simp only [hneed, if_true, PyFile.shift_read, Bool.true_and]
      by_cases hempty : (f.read n).1.isEmpty = true
      · rw [if_pos hempty, if_pos hempty]; rfl
      · rw [if_neg hempty, if_neg hempty]
        have hlt := PyFile.left_lt_of_read (f := f) (n := n) (by intro h; rw [h] at hempty; exact hempty rfl)
        rcases C.decompress r.dec (f.read n).1 ((n + extra : Nat) : Int) with ⟨_ | y, d⟩
        · rfl
        · dsimp only
          split
          · rename_i hc
            have hnd : C.needsInput d = true := by
              rw [Bool.and_eq_true] at hc; exact hc.2
            apply ih
            · simp only [turns, hneed, hnd, if_true] at hk ⊢; omega
            · simp only [turns, hneed, hnd, if_true] at hm ⊢; omega
          · split <;> rfl
    · simp only [Bool.not_eq_true] at hneed
      simp only [hneed, Bool.false_and, Bool.false_eq_true, if_false]
      rcases C.decompress r.dec [] ((n + extra : Nat) : Int) with ⟨_ | y, d⟩
      · rfl
      · dsimp only
        split
        · rename_i hc
          have hnd : C.needsInput d = true := by
            rw [Bool.and_eq_true] at hc; exact hc.2
          apply ih
          · simp only [turns, hneed, hnd, if_true, Bool.false_eq_true, if_false] at hk ⊢; omega
          · simp only [turns, hneed, hnd, if_true, Bool.false_eq_true, if_false] at hm ⊢; omega
        · split <;> rfl

/-- More turns than `read` allows do not change its result. -/
theorem readLoop_fuel (n extra : Nat) (r : DReader D) (f : PyFile) (k : Nat) (hk : f.data.length + 2 ≤ k) :
    readLoop C n extra k r f = readLoop C n extra (f.data.length + 2) r f := by
  have ht : turns C r f ≤ f.data.length + 2 := by simp only [turns, PyFile.left]; split <;> omega
  have h := readLoop_shift C [] n extra k (f.data.length + 2) r f (by omega) ht
  have hs : ∀ g : PyFile, g.shift [] = g := fun g => by simp [PyFile.shift]
  rw [hs] at h
  rw [h, shiftRes, hs]

theorem read_shift (pre : Bytes) (n extra : Nat) (r : DReader D) (f : PyFile) :
    read C n extra r (f.shift pre) = shiftRes pre (read C n extra r f) := by
  unfold read
  split
  · rfl
  · split
    · rfl
    · apply readLoop_shift
      · simp only [turns, PyFile.left, PyFile.shift, List.length_append]; split <;> omega
      · simp only [turns, PyFile.left]; split <;> omega

theorem readNLoop_shift (pre : Bytes) (n : Int) (k : Nat) : ∀ (data : Bytes) (r : DReader D) (f : PyFile),
    readNLoop C n k data r (f.shift pre) = shiftRes pre (readNLoop C n k data r f) := by
  induction k with
  | zero => intro data r f; rfl
  | succ k ih =>
    intro data r f
    simp only [readNLoop, read_shift]
    split
    · rcases read C (n - data.length).toNat 0 r f with ⟨_ | y, r', f'⟩
      · rfl
      · simp only [shiftRes]
        split
        · rfl
        · exact ih _ r' f'
    · rfl

theorem readN_shift (pre : Bytes) (n : Int) (r : DReader D) (f : PyFile) :
    readN C n r (f.shift pre) = shiftRes pre (readN C n r f) := readNLoop_shift C pre n _ _ r f

theorem skipLoop_shift (pre : Bytes) (n : Nat) (k : Nat) : ∀ (j : Nat) (r : DReader D) (f : PyFile),
    skipLoop C n k j r (f.shift pre) = shiftRes pre (skipLoop C n k j r f) := by
  induction k with
  | zero => intro j r f; rfl
  | succ k ih =>
    intro j r f
    simp only [skipLoop, read_shift]
    split
    · rcases read C (n - j) 0 r f with ⟨_ | y, r', f'⟩
      · rfl
      · simp only [shiftRes]
        split
        · rfl
        · exact ih _ r' f'
    · rfl

theorem skipTo_shift (pre : Bytes) (o : Nat) (r : DReader D) (f : PyFile) :
    skipTo C o r (f.shift pre) = shiftRes pre (skipTo C o r f) := by
  unfold skipTo
  split
  · rfl
  · exact skipLoop_shift C pre _ _ _ r f

theorem iterRead_shift (pre : Bytes) (n : Int) (bs : Nat) (k : Nat) : ∀ (j : Nat) (r : DReader D) (f : PyFile),
    iterRead C n bs k j r (f.shift pre) = shiftRes pre (iterRead C n bs k j r f) := by
  induction k with
  | zero => intro j r f; rfl
  | succ k ih =>
    intro j r f
    simp only [iterRead, read_shift]
    split
    · rfl
    · generalize (if 0 ≤ n then min bs (n - j).toNat else bs) = q
      rcases read C q 0 r f with ⟨_ | y, r', f'⟩
      · rfl
      · simp only [shiftRes]
        split
        · rfl
        · have := ih (j + y.length) r' f'
          rw [this]
          rcases iterRead C n bs k (j + y.length) r' f' with ⟨_ | ⟨a, b⟩, r'', f''⟩ <;> rfl

end DReader

/-! ## Clusters -/

namespace Cluster
variable {D : Type} (X : Codecs D) (pre : Bytes)

/-- The cluster in the file with bytes in front. -/
def shiftC (s : CSt D) : CSt D := ⟨{ s.c with offset := pre.length + s.c.offset }, s.f.shift pre⟩

/-- A method that does the same in the shifted file. -/
def Eqv {α : Type} (m : PyM (CSt D) α) : Prop := ∀ s, m (shiftC pre s) = ((m s).1, shiftC pre (m s).2)

variable {pre}

theorem Eqv.pure {α : Type} (a : α) : Eqv (D := D) pre (Pure.pure a : PyM (CSt D) α) := fun _ => rfl
theorem Eqv.raise {α : Type} (e : PyErr) : Eqv (D := D) pre (PyM.raise e : PyM (CSt D) α) := fun _ => rfl
theorem Eqv.lift {α : Type} (x : PyRes α) : Eqv (D := D) pre (PyM.lift x : PyM (CSt D) α) := fun _ => rfl
theorem Eqv.require (c : Bool) (e : PyErr) : Eqv (D := D) pre (PyM.require c e) := fun _ => rfl
theorem Eqv.modify {g : CSt D → CSt D} (h : ∀ s, g (shiftC pre s) = shiftC pre (g s)) : Eqv pre (PyM.modify g) := fun s => by
  simp only [PyM.modify_apply, h]

theorem Eqv.bind {α β : Type} {m : PyM (CSt D) α} {k : α → PyM (CSt D) β} (hm : Eqv pre m) (hk : ∀ a, Eqv pre (k a)) :
    Eqv pre (m >>= k) := fun s => by
  have h := hm s
  rcases hms : m s with ⟨_ | a, s'⟩
  · rw [hms] at h
    rw [PyM.bind_err hms, PyM.bind_err h]
  · rw [hms] at h
    rw [PyM.bind_ok hms, PyM.bind_ok h]
    exact hk a s'

theorem Eqv.get {β : Type} {k : CSt D → PyM (CSt D) β} (h : ∀ s, k (shiftC pre s) = k s) (hk : ∀ s, Eqv pre (k s)) :
    Eqv pre (PyM.get >>= k) := fun s => by
  rw [PyM.get_bind, PyM.get_bind, h]
  exact hk s s

theorem readInfobyte_eqv : Eqv (D := D) pre readInfobyte := fun s => by
  unfold readInfobyte
  simp only [shiftC, PyFile.shift_seek, PyFile.shift_read]
  split
  · rfl
  · rcases (s.f.seek s.c.offset).read 1 with ⟨_ | ⟨b, l⟩, f'⟩ <;> rfl

theorem readInfobyteIfNeeded_eqv : Eqv (D := D) pre readInfobyteIfNeeded := by
  unfold readInfobyteIfNeeded
  refine Eqv.get (fun _ => rfl) fun s => ?_
  split
  · exact Eqv.pure _
  · refine Eqv.bind readInfobyte_eqv fun b => fun s => ?_
    simp only [PyM.of_apply, shiftC, parseInfobyte]
    rcases CompressionType.ofValue ((b.toNat &&& 0b1111 : Nat) : Int) with _ | t <;> rfl

theorem withReader_eqv {α : Type} {g : DReader D → PyFile → PyRes α × DReader D × PyFile}
    (h : ∀ r f, g r (f.shift pre) = DReader.shiftRes pre (g r f)) : Eqv pre (withReader g) := fun s => by
  rcases s with ⟨⟨a1, a2, a3, a4, a5, _ | r, a7, a8⟩, f⟩
  · rfl
  · simp only [withReader, shiftC, h]; rfl

theorem openReader_eqv (o : Nat) : Eqv pre (openReader X o) := by
  unfold openReader
  refine Eqv.get (fun _ => rfl) fun s => ?_
  refine Eqv.bind (Eqv.require _ _) fun _ => Eqv.bind readInfobyteIfNeeded_eqv fun _ => ?_
  intro s
  rw [PyM.get_bind, PyM.get_bind]
  have e1 : (shiftC pre s).c.reader = s.c.reader := rfl
  have e2 : (shiftC pre s).c.compression = s.c.compression := rfl
  have e3 : (shiftC pre s).c.offset = pre.length + s.c.offset := rfl
  rw [e1, e2, e3]
  have hm : ∀ (k : Unit → PyM (CSt D) Unit), (∀ u, Eqv pre (k u)) →
      (PyM.modify (fun s => { s with f := s.f.seek (s.c.offset + 1) }) >>= k) (shiftC pre s) =
      (((PyM.modify (fun s => { s with f := s.f.seek (s.c.offset + 1) }) >>= k) s).1,
        shiftC pre ((PyM.modify (fun s => { s with f := s.f.seek (s.c.offset + 1) }) >>= k) s).2) := by
    intro k hk
    exact Eqv.bind (Eqv.modify (fun s => by
      simp only [shiftC, Nat.add_assoc, PyFile.shift_seek])) hk s
  have hnew : ∀ (c : PyRes CompressionType), Eqv pre (PyM.lift c >>= fun comp => PyM.lift (X.new comp) >>= fun d =>
      PyM.modify (fun s => { s with c := { s.c with reader := some { dec := d } } }) >>= fun _ =>
      withReader (DReader.skipTo X.ops o)) := by
    intro c
    refine Eqv.bind (Eqv.lift _) fun _ => Eqv.bind (Eqv.lift _) fun d => Eqv.bind (Eqv.modify fun s => ?_)
      fun _ => withReader_eqv fun r f => DReader.skipTo_shift X.ops pre o r f
    rfl
  rcases hr : s.c.reader with _ | r
  · exact hm _ fun _ => hnew _
  · by_cases hle : r.readDecompressed ≤ o
    · simp only [hle, decide_true, if_true]
      have h1 : ∀ (k : Unit → PyM (CSt D) Unit) (g : DReader D → PyFile → PyRes Unit × DReader D × PyFile) (t : CSt D)
          (f : PyFile), t.c.reader = some r → g r t.f = (.ok (), r, f) →
          (withReader g >>= k) t = k () ⟨t.c, f⟩ := by
        intro k g t f ht hg
        apply PyM.bind_ok
        rcases t with ⟨⟨a1, a2, a3, a4, a5, a6, a7, a8⟩, f⟩
        simp only at ht hg
        subst ht
        simp only [withReader, hg]
      rw [h1 _ _ s _ hr rfl, h1 _ _ _ _ (e1.trans hr) rfl]
      have e4 : (⟨(shiftC pre s).c, r.reseek (pre.length + s.c.offset + 1) (shiftC pre s).f⟩ : CSt D) =
          shiftC pre ⟨s.c, r.reseek (s.c.offset + 1) s.f⟩ := by
        simp only [shiftC, DReader.reseek, Nat.add_assoc, PyFile.shift_seek]
      rw [e4]
      exact withReader_eqv (fun r f => DReader.skipTo_shift X.ops pre o r f) _
    · simp only [hle, decide_false, Bool.false_eq_true, if_false]
      exact hm _ fun _ => hnew _

theorem readPointer_eqv (w : Nat) : Eqv pre (readPointer X w) := by
  unfold readPointer
  refine Eqv.bind (withReader_eqv fun r f => DReader.readN_shift X.ops pre _ r f) fun raw => ?_
  split
  · exact Eqv.pure _
  · exact Eqv.raise _

theorem offsetsLoop_eqv (numbers : Option (List Nat)) (w first k : Nat) : ∀ (j : Nat) (acc : List Nat),
    Eqv pre (offsetsLoop X numbers w first k j acc) := by
  induction k with
  | zero => intro j acc; exact Eqv.pure _
  | succ k ih =>
    intro j acc
    unfold offsetsLoop
    split
    · exact Eqv.bind (readPointer_eqv X w) fun o => ih _ _
    · exact Eqv.pure _

theorem iterBlobOffsetsDisk_eqv (numbers : Option (List Nat)) : Eqv pre (iterBlobOffsetsDisk X numbers) := by
  unfold iterBlobOffsetsDisk
  refine Eqv.get (fun _ => rfl) fun s => ?_
  refine Eqv.bind (Eqv.require _ _) fun _ => Eqv.bind readInfobyteIfNeeded_eqv fun _ => Eqv.get (fun _ => rfl) fun s => ?_
  refine Eqv.bind (Eqv.lift _) fun w => ?_
  split
  · exact Eqv.pure _
  · exact Eqv.bind (openReader_eqv X 0) fun _ => Eqv.bind (readPointer_eqv X w) fun first => offsetsLoop_eqv X _ _ _ _ _ _

theorem readOffsetsIfNeeded_eqv : Eqv pre (readOffsetsIfNeeded X) := by
  unfold readOffsetsIfNeeded
  refine Eqv.get (fun _ => rfl) fun s => ?_
  split
  · exact Eqv.pure _
  · exact Eqv.bind (iterBlobOffsetsDisk_eqv X none) fun l => Eqv.bind (Eqv.modify fun _ => rfl) fun _ => Eqv.pure _

theorem iterBlobOffsets_eqv (numbers : Option (List Nat)) : Eqv pre (iterBlobOffsets X numbers) := by
  unfold iterBlobOffsets
  refine Eqv.get (fun _ => rfl) fun s => ?_
  split
  · exact iterBlobOffsetsDisk_eqv X numbers
  · exact Eqv.bind (readOffsetsIfNeeded_eqv X) fun l => Eqv.pure _

theorem getOffset_eqv (i : Int) : Eqv pre (getOffset X i) := by
  unfold getOffset
  refine Eqv.get (fun _ => rfl) fun s => Eqv.bind (Eqv.require _ _) fun _ => ?_
  split
  · exact Eqv.raise _
  · refine Eqv.bind (iterBlobOffsets_eqv X _) fun l => ?_
    rcases l with _ | ⟨o, l⟩
    · exact Eqv.raise _
    · exact Eqv.pure _

theorem getNumberOfOffsets_eqv : Eqv pre (getNumberOfOffsets X) := by
  unfold getNumberOfOffsets
  exact Eqv.get (fun _ => rfl) fun s => Eqv.bind (Eqv.require _ _) fun _ => Eqv.bind (getOffset_eqv X 0) fun o =>
    Eqv.get (fun _ => rfl) fun s => Eqv.bind (Eqv.lift _) fun w => Eqv.pure _

theorem getContentSize_eqv : Eqv pre (getContentSize X) := by
  unfold getContentSize
  exact Eqv.get (fun _ => rfl) fun s => Eqv.bind (Eqv.require _ _) fun _ => Eqv.bind (getOffset_eqv X 0) fun o =>
    Eqv.bind (getNumberOfOffsets_eqv X) fun n => Eqv.bind (getOffset_eqv X _) fun _ => Eqv.pure _

theorem getTotalDecompressedSize_eqv : Eqv pre (getTotalDecompressedSize X) := by
  unfold getTotalDecompressedSize
  exact Eqv.get (fun _ => rfl) fun s => Eqv.bind (Eqv.require _ _) fun _ => Eqv.bind (getNumberOfOffsets_eqv X) fun n =>
    getOffset_eqv X _

theorem getTotalOffsetSize_eqv : Eqv pre (getTotalOffsetSize X) := by
  unfold getTotalOffsetSize
  exact Eqv.bind (getNumberOfOffsets_eqv X) fun n => Eqv.get (fun _ => rfl) fun s => Eqv.bind (Eqv.lift _) fun w => Eqv.pure _

theorem getTotalCompressedSize_eqv (calls : Nat) : Eqv pre (getTotalCompressedSize X calls) := by
  unfold getTotalCompressedSize
  refine Eqv.get (fun _ => rfl) fun s => Eqv.bind (Eqv.require _ _) fun _ => Eqv.bind readInfobyteIfNeeded_eqv fun _ =>
    Eqv.get (fun _ => rfl) fun s => ?_
  split
  · exact Eqv.bind (getTotalDecompressedSize_eqv X) fun n => Eqv.pure _
  · exact Eqv.bind (openReader_eqv X 0) fun _ =>
      Eqv.bind (withReader_eqv fun r f => DReader.iterRead_shift X.ops pre _ _ _ _ r f) fun p =>
      Eqv.bind (Eqv.require _ _) fun _ => Eqv.bind (withReader_eqv fun r f => rfl) fun n => Eqv.pure _

theorem getBlobSize_eqv (i : Nat) : Eqv pre (getBlobSize X i) := by
  unfold getBlobSize
  refine Eqv.get (fun _ => rfl) fun s => Eqv.bind (Eqv.require _ _) fun _ => Eqv.bind (iterBlobOffsets_eqv X _) fun l => ?_
  rcases l with _ | ⟨a, _ | ⟨b, l⟩⟩
  · exact Eqv.raise _
  · exact Eqv.raise _
  · exact Eqv.pure _

theorem readIfNeeded_eqv : Eqv pre (readIfNeeded X) := by
  unfold readIfNeeded
  refine Eqv.get (fun _ => rfl) fun s => Eqv.bind (Eqv.require _ _) fun _ => ?_
  split
  · exact Eqv.pure _
  · exact Eqv.bind readInfobyteIfNeeded_eqv fun _ => Eqv.bind (readOffsetsIfNeeded_eqv X) fun _ =>
      Eqv.bind (getContentSize_eqv X) fun n => Eqv.bind (getOffset_eqv X 0) fun o => Eqv.bind (openReader_eqv X o) fun _ =>
      Eqv.bind (withReader_eqv fun r f => DReader.readN_shift X.ops pre _ r f) fun d => Eqv.modify fun _ => rfl

theorem readBlobMem_eqv (i : Nat) (start stop : Option Nat) : Eqv pre (readBlobMem X i start stop) := by
  unfold readBlobMem
  refine Eqv.get (fun _ => rfl) fun s => Eqv.bind (Eqv.require _ _) fun _ => Eqv.bind (readIfNeeded_eqv X) fun _ =>
    Eqv.bind (iterBlobOffsets_eqv X _) fun l => ?_
  rcases l with _ | ⟨a, _ | ⟨b, l⟩⟩
  · exact Eqv.raise _
  · exact Eqv.raise _
  · dsimp only
    rcases blobRange a b start stop with _ | ⟨rs, size⟩
    · exact Eqv.pure _
    · exact Eqv.bind (getTotalOffsetSize_eqv X) fun corr => Eqv.get (fun _ => rfl) fun s => Eqv.pure _

theorem readBlobDisk_eqv (i : Nat) (start stop : Option Nat) : Eqv pre (readBlobDisk X i start stop) := by
  unfold readBlobDisk
  refine Eqv.bind (Eqv.require _ _) fun _ => Eqv.get (fun _ => rfl) fun s => Eqv.bind (Eqv.require _ _) fun _ =>
    Eqv.bind (iterBlobOffsets_eqv X _) fun l => ?_
  rcases l with _ | ⟨a, _ | ⟨b, l⟩⟩
  · exact Eqv.raise _
  · exact Eqv.raise _
  · dsimp only
    rcases blobRange a b start stop with _ | ⟨rs, size⟩
    · exact Eqv.pure _
    · exact Eqv.bind (openReader_eqv X rs) fun _ => withReader_eqv fun r f => DReader.readN_shift X.ops pre _ r f

theorem readBlob_eqv (i : Nat) (start stop : Option Nat) : Eqv pre (readBlob X i start stop) := by
  unfold readBlob
  refine Eqv.get (fun _ => rfl) fun s => ?_
  split
  · exact readBlobMem_eqv X i start stop
  · exact readBlobDisk_eqv X i start stop

theorem iterReadBlobMem_eqv (i bs : Nat) (start stop : Option Nat) (n : Nat) :
    Eqv pre (iterReadBlobMem X i bs start stop n) := by
  unfold iterReadBlobMem
  refine Eqv.bind (Eqv.require _ _) fun _ => Eqv.get (fun _ => rfl) fun s => Eqv.bind (Eqv.require _ _) fun _ =>
    Eqv.bind (readIfNeeded_eqv X) fun _ => Eqv.bind (iterBlobOffsets_eqv X _) fun l => ?_
  rcases l with _ | ⟨a, _ | ⟨b, l⟩⟩
  · exact Eqv.raise _
  · exact Eqv.raise _
  · dsimp only
    rcases blobRange a b start stop with _ | ⟨rs, size⟩
    · exact Eqv.pure _
    · exact Eqv.bind (getTotalOffsetSize_eqv X) fun corr => Eqv.get (fun _ => rfl) fun s => Eqv.pure _

theorem iterReadBlobDisk_eqv (i bs : Nat) (start stop : Option Nat) (n : Nat) :
    Eqv pre (iterReadBlobDisk X i bs start stop n) := by
  unfold iterReadBlobDisk
  refine Eqv.bind (Eqv.require _ _) fun _ => Eqv.bind (Eqv.require _ _) fun _ => Eqv.get (fun _ => rfl) fun s =>
    Eqv.bind (Eqv.require _ _) fun _ => Eqv.bind (iterBlobOffsets_eqv X _) fun l => ?_
  rcases l with _ | ⟨a, _ | ⟨b, l⟩⟩
  · exact Eqv.raise _
  · exact Eqv.raise _
  · dsimp only
    rcases blobRange a b start stop with _ | ⟨rs, size⟩
    · exact Eqv.pure _
    · exact Eqv.bind (openReader_eqv X rs) fun _ => withReader_eqv fun r f => DReader.iterRead_shift X.ops pre _ _ _ _ r f

theorem iterReadBlob_eqv (i bs : Nat) (start stop : Option Nat) (n : Nat) : Eqv pre (iterReadBlob X i bs start stop n) := by
  unfold iterReadBlob
  refine Eqv.get (fun _ => rfl) fun s => ?_
  split
  · exact Eqv.pure _
  · split
    · exact iterReadBlobMem_eqv X i bs start stop n
    · exact iterReadBlobDisk_eqv X i bs start stop n

/-! ### The position of the file before the first call -/

/-- Nothing has been read yet. -/
def Unread (c : Cluster D) : Prop := c.compression = none ∧ c.offsets = none ∧ c.data = none

/-- A first call that does not depend on the position of the file: it seeks before it reads. -/
def Seeks {α : Type} (m : PyM (CSt D) α) : Prop := ∀ (c : Cluster D) (f : PyFile) (p : Nat), Unread c → c.bound = true →
  m ⟨c, f⟩ = m ⟨c, f.seek p⟩

theorem Seeks.bind {α β : Type} {m : PyM (CSt D) α} (hm : Seeks m) (k : α → PyM (CSt D) β) : Seeks (m >>= k) := by
  intro c f p h1 h2
  show PyM.bind m k _ = PyM.bind m k _
  unfold PyM.bind
  rw [hm c f p h1 h2]

theorem Seeks.get {β : Type} {k : CSt D → PyM (CSt D) β} (h : ∀ c f p, k ⟨c, f⟩ = k ⟨c, PyFile.seek f p⟩)
    (hk : ∀ c f, Unread c → c.bound = true → Seeks (k ⟨c, f⟩)) : Seeks (PyM.get >>= k) := by
  intro c f p h1 h2
  rw [PyM.get_bind, PyM.get_bind, ← h c f p]
  exact hk c f h1 h2 c f p h1 h2

theorem Seeks.requireTrue {β : Type} {b : Bool} (hb : b = true) (e : PyErr) {k : Unit → PyM (CSt D) β} (hk : Seeks (k ())) :
    Seeks (PyM.require b e >>= k) := by
  subst hb
  exact hk

theorem readInfobyteIfNeeded_seeks : Seeks (D := D) readInfobyteIfNeeded := by
  unfold readInfobyteIfNeeded
  refine Seeks.get (fun _ _ _ => rfl) fun c f h1 h2 => ?_
  have : c.didReadInfobyte = false := by simp only [didReadInfobyte, h1.1, Option.isSome_none, Bool.false_and]
  simp only [this, Bool.false_eq_true, if_false]
  refine Seeks.bind (fun c f p _ hb => ?_) _
  simp only [readInfobyte, hb, PyFile.seek]
  rfl

theorem iterBlobOffsetsDisk_seeks (numbers : Option (List Nat)) : Seeks (iterBlobOffsetsDisk X numbers) := by
  unfold iterBlobOffsetsDisk
  exact Seeks.get (fun _ _ _ => rfl) fun c f h1 h2 => Seeks.requireTrue h2 _ (Seeks.bind readInfobyteIfNeeded_seeks _)

theorem iterBlobOffsets_seeks (numbers : Option (List Nat)) : Seeks (iterBlobOffsets X numbers) := by
  unfold iterBlobOffsets
  refine Seeks.get (fun _ _ _ => rfl) fun c f h1 h2 => ?_
  dsimp only
  split
  · exact iterBlobOffsetsDisk_seeks X numbers
  · refine Seeks.bind ?_ _
    unfold readOffsetsIfNeeded
    refine Seeks.get (fun _ _ _ => rfl) fun c f h1 h2 => ?_
    simp only [h1.2.1]
    exact Seeks.bind (iterBlobOffsetsDisk_seeks X none) _

theorem readIfNeeded_seeks : Seeks (readIfNeeded X) := by
  unfold readIfNeeded
  refine Seeks.get (fun _ _ _ => rfl) fun c f h1 h2 => Seeks.requireTrue h2 _ ?_
  simp only [h1.2.2]
  exact Seeks.bind readInfobyteIfNeeded_seeks _

theorem getBlobSize_seeks (i : Nat) : Seeks (getBlobSize X i) := by
  unfold getBlobSize
  exact Seeks.get (fun _ _ _ => rfl) fun c f h1 h2 => Seeks.requireTrue h2 _ (Seeks.bind (iterBlobOffsets_seeks X _) _)

theorem Seeks.require {β : Type} (b : Bool) (e : PyErr) {k : Unit → PyM (CSt D) β} (hk : Seeks (k ())) (c : Cluster D)
    (f : PyFile) (p : Nat) (h1 : Unread c) (h2 : c.bound = true) :
    ((PyM.require b e >>= k) ⟨c, f⟩).1 = ((PyM.require b e >>= k) ⟨c, f.seek p⟩).1 := by
  cases b
  · rfl
  · exact congrArg Prod.fst (hk c f p h1 h2)

theorem readBlob_seeks (i : Nat) (start stop : Option Nat) (c : Cluster D) (f : PyFile) (p : Nat) (h1 : Unread c)
    (h2 : c.bound = true) : (readBlob X i start stop ⟨c, f⟩).1 = (readBlob X i start stop ⟨c, f.seek p⟩).1 := by
  have hm : (readBlobMem X i start stop ⟨c, f⟩).1 = (readBlobMem X i start stop ⟨c, f.seek p⟩).1 := by
    refine congrArg Prod.fst ((?_ : Seeks (readBlobMem X i start stop)) c f p h1 h2)
    unfold readBlobMem
    exact Seeks.get (fun _ _ _ => rfl) fun c f h1 h2 => Seeks.requireTrue h2 _ (Seeks.bind (readIfNeeded_seeks X) _)
  have hd : (readBlobDisk X i start stop ⟨c, f⟩).1 = (readBlobDisk X i start stop ⟨c, f.seek p⟩).1 := by
    unfold readBlobDisk
    refine Seeks.require _ _ ?_ c f p h1 h2
    exact Seeks.get (fun _ _ _ => rfl) fun c f h1 h2 => Seeks.requireTrue h2 _ (Seeks.bind (iterBlobOffsets_seeks X _) _)
  unfold readBlob
  simp only [PyM.get_bind]
  cases c.kind
  · exact hd
  · exact hd
  · exact hm

theorem iterReadBlob_seeks (i bs : Nat) (start stop : Option Nat) (n : Nat) (c : Cluster D) (f : PyFile) (p : Nat)
    (h1 : Unread c) (h2 : c.bound = true) :
    (iterReadBlob X i bs start stop n ⟨c, f⟩).1 = (iterReadBlob X i bs start stop n ⟨c, f.seek p⟩).1 := by
  have hm : (iterReadBlobMem X i bs start stop n ⟨c, f⟩).1 = (iterReadBlobMem X i bs start stop n ⟨c, f.seek p⟩).1 := by
    unfold iterReadBlobMem
    refine Seeks.require _ _ ?_ c f p h1 h2
    exact Seeks.get (fun _ _ _ => rfl) fun c f h1 h2 => Seeks.requireTrue h2 _ (Seeks.bind (readIfNeeded_seeks X) _)
  have hd : (iterReadBlobDisk X i bs start stop n ⟨c, f⟩).1 = (iterReadBlobDisk X i bs start stop n ⟨c, f.seek p⟩).1 := by
    unfold iterReadBlobDisk
    by_cases hb : 0 < bs
    · simp only [hb, decide_true, PyM.require_true_bind]
      refine Seeks.require _ _ ?_ c f p h1 h2
      exact Seeks.get (fun _ _ _ => rfl) fun c f h1 h2 => Seeks.requireTrue h2 _ (Seeks.bind (iterBlobOffsets_seeks X _) _)
    · simp only [hb, decide_false, PyM.require_false_bind]
  unfold iterReadBlob
  simp only [PyM.get_bind]
  split
  · rfl
  cases c.kind
  · exact hd
  · exact hd
  · exact hm

end Cluster
end Pyzim
