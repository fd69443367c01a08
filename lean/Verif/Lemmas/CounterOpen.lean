import Verif.Lemmas.CountInv
import Verif.Model.CounterOpen

/-!
# Opening an archive with each of the policies for the counter
-/

namespace Pyzim
open Zim (Row Stored Redirect)

variable {D K : Type} {X : Codecs D} {C : Compressors K} {ML : List Bytes} {reserve : Option Nat} {a : Archive}
  {G : List (List Sourced)} {rows : List Row} {cs : List Stored} {extra : Nat → Prop} {es : List Entry} {L : Bytes}
  {S : Setup D K} {m0 : Catalogue} {R B : List Redirect} {n : Counter} {z : Zim}

theorem countAll_total {mts : MimeTypeList} : ∀ (l : List Entry) (n : Counter),
    (∀ e ∈ l, Counter.shouldCount e = true → ∃ mt, Counter.mimetypeOf mts e = .ok mt) → ∃ k, Counter.countAll mts n l = .ok k := by
  intro l
  induction l with
  | nil => exact fun n _ => ⟨n, rfl⟩
  | cons e l ih =>
    intro n h
    unfold Counter.countAll
    cases hs : Counter.shouldCount e with
    | false =>
      rw [if_pos (by simp)]
      exact ih n fun d hd => h d (List.mem_cons_of_mem _ hd)
    | true =>
      rw [if_neg (by simp)]
      obtain ⟨mt, hmt⟩ := h e List.mem_cons_self hs
      rw [hmt]
      exact ih _ fun d hd => h d (List.mem_cons_of_mem _ hd)

theorem countAll_congr {mts mts' : MimeTypeList} (h : ∀ e, Counter.mimetypeOf mts' e = Counter.mimetypeOf mts e) : ∀ (l : List Entry) (n : Counter),
    Counter.countAll mts' n l = Counter.countAll mts n l := by
  intro l
  induction l with
  | nil => exact fun n => rfl
  | cons e l ih =>
    intro n
    unfold Counter.countAll
    rw [h]
    simp only [ih]

/-- counting the entries of an archive again -/
theorem Core.recount (h : Core false none X C ML reserve a G rows cs extra es L m0 R B) (w : Bool) (as : PointerList) :
    ∃ ls k, (Archive.loaded w as a).zim.iterEntries = .ok ls ∧ Counter.countAll (Archive.loaded w as a).zim.mimetypes {} ls = .ok k ∧
      ∀ mt, k.getCount mt = (((lastOnes urlOf G.flatten).filter (counted mt)).length : Int) := by
  have hi := h.laid.content.rep.iterEntries
  obtain ⟨k, hk⟩ := countAll_total (mts := a.zim.mimetypes) (rows.map Prod.snd) {} h.tally.2
  refine ⟨_, k, hi, ?_, (countAll_tally (M := fun _ => True) h (fun _ _ _ _ => trivial) hi hk).counts⟩
  exact (countAll_congr (mts := a.zim.mimetypes) (mts' := (Archive.loaded w as a).zim.mimetypes) (fun e => rfl) _ _).trans hk

theorem Counting.loadBy_reinit {ls : List Entry} {k : Counter} (h1 : z.iterEntries = .ok ls) (h2 : Counter.countAll z.mimetypes {} ls = .ok k) :
    Counting.loadBy S .reinit z = .ok (some { k with dirty := true }) := by
  unfold Counting.loadBy
  simp only [h1]
  unfold Counter.loadFromArchive
  simp only [h2]
  rfl

theorem Counting.loadBy_stored {s : String} {ls : List Entry} (h : Counting.stored S z = .ok s) (hn : Counter.fromString (.str s) = .ok n)
    (hi : z.iterEntries = .ok ls) : Counting.loadBy S .load z = .ok (some n) ∧ Counting.loadBy S .loadOrReinit z = .ok (some n) := by
  constructor
  · unfold Counting.loadBy Counter.loadFromArchive
    simp only [h, hn]
  · unfold Counting.loadBy Counting.loadCounter Counter.loadFromArchive
    simp only [h, hn, hi]
    rfl

theorem Counting.loadBy_missing {ls : List Entry} {k : Counter} (h : z.entryByFullUrl URL_COUNTER = .error .entryNotFound)
    (h1 : z.iterEntries = .ok ls) (h2 : Counter.countAll z.mimetypes {} ls = .ok k) :
    Counting.loadBy S .load z = .error .noCounter ∧ Counting.loadBy S .loadOrReinit z = .ok (some { k with dirty := true }) := by
  have hs : Counting.stored S z = .error .entryNotFound := by
    unfold Counting.stored
    rw [h]; rfl
  constructor
  · unfold Counting.loadBy Counter.loadFromArchive
    simp only [hs]
    rfl
  · unfold Counting.loadBy Counting.loadCounter Counter.loadFromArchive
    simp only [Bool.false_eq_true, if_false, h1, hs, true_or, if_true, h2]

theorem Zim.hasEntry_found {u : String} {e : Entry} (h : z.entryByFullUrl u = .ok e) : z.hasEntry u = .ok true := by
  unfold Zim.entryByFullUrl at h
  unfold Zim.hasEntry PointerList.has
  cases hg : z.urls.get z.urlKey (encode u) with
  | ok l => rfl
  | error x =>
    rw [hg] at h
    cases x <;> cases h

end Pyzim
