import Verif.Model.Base

/-!
# Model of threads sharing the file of an archive through `Zim.acquire_file`

`pyzim/archive.py:708-716` hands out the wrapped file object while holding `filelock`, a
`threading.Lock` (`pyzim/archive.py:125`). The file object is shared: it has one position, moved by
every `seek`, `read` and `write` of whoever holds it.

A thread is a script of uses of `acquire_file`. Between two operations of a thread any other thread
may run: the world makes one step of one thread at a time, and a schedule is the list of the
threads which make them. What a thread does between two uses of the file touches no shared state
here and is part of the continuation.

Simplified: the archive is not closed while the threads run (`close` does not take the lock), so
`_check_closed` has the same outcome throughout; an operation of the file object is one step.
-/

namespace Pyzim

/-- What is done with the file inside the block of a `with zim.acquire_file() as f:` statement:
`f.seek`, `f.tell`, `f.read`, `f.write`, with everything that follows depending on what was
returned, `ret` for leaving the block (by a value or an exception), and `again` for a second
acquisition of the lock before the first is released; `pyzim/archive.py:708-716`. -/
inductive FileOps (β : Type) where
  | ret (r : β)
  | seek (p : Nat) (k : FileOps β)
  | tell (k : Nat → FileOps β)
  | read (n : Nat) (k : Bytes → FileOps β)
  | write (d : Bytes) (k : FileOps β)
  | again (k : FileOps β)

/-- What a thread does: it uses `acquire_file` some number of times, each time going on depending
on the outcome, and finishes with a result; `pyzim/archive.py:708-716`. -/
inductive Script (α β : Type) where
  | done (a : α)
  | use (b : FileOps β) (k : PyRes β → Script α β)

/-- Where a thread is: before its next use of `acquire_file`; past `_check_closed` and about to
acquire the lock; or inside of the block, with the lock held; `pyzim/archive.py:714-716`. -/
inductive Thread (α β : Type) where
  | outside (s : Script α β)
  | waiting (b : FileOps β) (k : PyRes β → Script α β)
  | inside (b : FileOps β) (k : PyRes β → Script α β)

/-- The shared state: the file object, the owner of the lock, whether the archive is closed, and
where every thread is; `pyzim/archive.py:117-125`. -/
structure World (α β : Type) where
  file : PyFile
  lock : Option Nat
  closed : Bool
  threads : Nat → Thread α β

namespace World

variable {α β : Type}

/-- Thread `i` is now at `t`; the state of a thread changes only by its own steps. -/
def put (w : World α β) (i : Nat) (t : Thread α β) : World α β :=
  { w with threads := fun j => if j = i then t else w.threads j }

/-- One step of thread `i`: `_check_closed`, acquiring the lock (which does nothing while somebody,
including the thread itself, holds it), one operation of the file object, or leaving the block,
which releases the lock; `pyzim/archive.py:714-716`. -/
def step (w : World α β) (i : Nat) : World α β :=
  match w.threads i with
  | .outside (.done _) => w
  | .outside (.use b k) =>
    if w.closed then w.put i (.outside (k (.error .zimFileClosed))) else w.put i (.waiting b k)
  | .waiting b k =>
    if w.lock = none then { w.put i (.inside b k) with lock := some i } else w
  | .inside (.ret r) k => { w.put i (.outside (k (.ok r))) with lock := none }
  | .inside (.seek p c) k => { w.put i (.inside c k) with file := w.file.seek p }
  | .inside (.tell c) k => w.put i (.inside (c w.file.pos) k)
  | .inside (.read n c) k =>
    { w.put i (.inside (c (w.file.read n).1) k) with file := (w.file.read n).2 }
  | .inside (.write d c) k => { w.put i (.inside c k) with file := w.file.write d }
  | .inside (.again c) k =>
    if w.lock = none then { w.put i (.inside c k) with lock := some i } else w

/-- The threads make their steps in the order of the schedule. -/
def run (w : World α β) (schedule : List Nat) : World α β := schedule.foldl step w

/-- An open archive with nobody using its file and the threads at their beginnings;
`pyzim/archive.py:117-125`. -/
def start (file : PyFile) (scripts : Nat → Script α β) : World α β where
  file := file
  lock := none
  closed := false
  threads i := .outside (scripts i)

end World

namespace FileOps

variable {β γ : Type}

/-- Doing `b` and going on with its outcome, within the same block. -/
def bind (b : FileOps γ) (k : γ → FileOps β) : FileOps β :=
  match b with
  | .ret r => k r
  | .seek p c => .seek p (c.bind k)
  | .tell c => .tell fun n => (c n).bind k
  | .read n c => .read n fun d => (c d).bind k
  | .write d c => .write d (c.bind k)
  | .again c => .again (c.bind k)

/-- `f.seek(p)` followed by `f.read(n)`, the shape of `Zim.get_entry_at`
(`pyzim/archive.py:825-826`), `OnDiskSimplePointerList.get_by_index` (`pyzim/pointerlist.py:773-782`)
and the loading of the header and lists (`pyzim/archive.py:254-367`). -/
def readAt (p n : Nat) : FileOps Bytes := .seek p (.read n .ret)

/-- `Cluster._seek_if_needed`; `pyzim/cluster.py:62-79`. -/
def seekIfNeeded (p : Nat) (k : FileOps β) : FileOps β :=
  .tell fun cur => if cur ≠ p then .seek p k else k

/-- `Cluster.read_infobyte` for a cluster at `offset`: an empty read raises `IOError`;
`pyzim/cluster.py:98-113`. -/
def readInfobyte (offset : Nat) : FileOps (PyRes Bytes) :=
  seekIfNeeded offset (.read 1 fun d => .ret (if d = [] then .error .ioError else .ok d))

/-- `read_until_zero` at `p`, at most `fuel` bytes: one byte at a time, so that a thread switch can
fall between any two; `pyzim/util/ioutil.py:19-27`. -/
def readString (fuel : Nat) (acc : Bytes) : FileOps Bytes :=
  match fuel with
  | 0 => .ret acc
  | n + 1 => .read 1 fun c => if c = [0] then .ret acc else readString n (acc ++ c)

/-- Calling a function which uses `acquire_file` for `inner` from within a block, as the body of a
loop over `Cluster.iter_read_blob` or `Cluster.iter_blob_offsets` does when it uses the archive:
those generators hold the lock at every `yield`; `pyzim/cluster.py:255-277, 517-518`. -/
def nested (inner : FileOps γ) (k : γ → FileOps β) : FileOps β := .again (inner.bind k)

end FileOps

end Pyzim
