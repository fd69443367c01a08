import Verif.Model.Close
import Verif.Model.Processors

/-!
# Model of processors when flushing and closing, `pyzim/processor.py` and `pyzim/archive.py`

An archive opened for writing (as in `Verif/Model/Creator.lean`), with processors installed. What the processors remember is one
state `σ` that all of them share. Their methods may look at the archive and may raise. Simplification: they do not change the
archive. (The processor that counts the mimetypes does; it is modelled in `Verif/Model/Counting.lean`.)
-/

namespace Pyzim

/-- the methods of processors that are called by `flush` and `close`; `pyzim/processor.py:41-57`, `235-262` -/
inductive Moment where
  | beforeClose | afterClose | beforeFlush | afterContentFlush | afterFlush
  deriving DecidableEq, Repr

/-- What a processor does when one of these methods is called, given the archive at that time. -/
def Listener (σ D : Type) : Type := Moment → Creator D → PyM σ Unit

namespace Creator
variable {σ D K : Type} (S : Setup D K)

/-- `for processor in self._processors: processor.<method>()`; `pyzim/archive.py:495-496`, `503-504`, `530-531`, `563-564`,
`687-688`. -/
def tell (hs : List (Listener σ D)) (m : Moment) : PyM (σ × Creator D) Unit := PyM.of fun w =>
  match tellAll (hs.map fun h => h m w.2) w.1 with
  | (r, s) => (r, (s, w.2))

/-- a method of the archive that calls no processors -/
def quietly (g : PyM (Creator D) Unit) : PyM (σ × Creator D) Unit := PyM.of fun w =>
  match g w.2 with
  | (r, c) => (r, (w.1, c))

/-- The contents and what depends on all entries; `pyzim/archive.py:551-560`. -/
def flushContent : PyM (Creator D) Unit := do
  onMain (Strategy.flushOn (Zim.backend S.X S.C S.depth))
  onPlain (Strategy.flushOn (Zim.backend S.X S.C S.depth))
  onArch (Archive.onZim (Zim.finalizeOperations S.blob S.depth S.passes))

/-- The lists, the header and the checksum; `pyzim/archive.py:566-685`. -/
def flushLists : PyM (Creator D) Unit :=
  onArch (Archive.flushDirty S.H S.short S.chunksize S.policy (pure ()) (setListing S))

/-- `flush`; `pyzim/archive.py:517-689`. If there are no unsaved changes, it returns after calling `before_flush`. -/
def flushTold (hs : List (Listener σ D)) : PyM (σ × Creator D) Unit := do
  let w ← PyM.get
  PyM.require (!w.2.arch.zim.closed) .zimFileClosed
  PyM.require w.2.arch.zim.mutable .nonMutable
  tell hs .beforeFlush
  if w.2.arch.isDirty then do
    quietly (flushContent S)
    tell hs .afterContentFlush
    quietly (flushLists S)
    tell hs .afterFlush
  else pure ()

/-- `if self.dirty: self.flush()`; `pyzim/archive.py:497-499`. -/
def flushIfDirty (hs : List (Listener σ D)) : PyM (σ × Creator D) Unit := do
  let w ← PyM.get
  if w.2.arch.isDirty then flushTold S hs else pure ()

/-- `close`; `pyzim/archive.py:490-505`. -/
def closeTold (hs : List (Listener σ D)) : PyM (σ × Creator D) Unit := do
  tell hs .beforeClose
  flushIfDirty S hs
  quietly (PyM.modify (fun c => { c with arch := { c.arch with zim := { c.arch.zim with closed := true } } }))
  tell hs .afterClose

end Creator
end Pyzim
