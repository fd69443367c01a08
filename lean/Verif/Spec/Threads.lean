import Verif.Model.Threads

/-!
# What a thread gets from the file when it is alone
-/

namespace Pyzim

/-- What a use of the file returns, and the file afterwards, when nobody else touches the file. -/
def FileOps.alone {β : Type} : FileOps β → PyFile → β × PyFile
  | .ret r, f => (r, f)
  | .seek p k, f => k.alone { f with pos := p }
  | .tell k, f => (k f.pos).alone f
  | .read n k, f => (k ((f.data.drop f.pos).take n)).alone (f.read n).2
  | .write d k, f => k.alone (f.write d)
  | .again k, f => k.alone f

/-- The use never acquires the lock a second time. -/
def FileOps.Flat {β : Type} : FileOps β → Prop
  | .ret _ => True
  | .seek _ k => k.Flat
  | .tell k => ∀ n, (k n).Flat
  | .read _ k => ∀ d, (k d).Flat
  | .write _ k => k.Flat
  | .again _ => False

/-- The use does not write. -/
def FileOps.ReadsOnly {β : Type} : FileOps β → Prop
  | .ret _ => True
  | .seek _ k => k.ReadsOnly
  | .tell k => ∀ n, (k n).ReadsOnly
  | .read _ k => ∀ d, (k d).ReadsOnly
  | .write _ _ => False
  | .again k => k.ReadsOnly

/-- What the use returns does not depend on where the file was positioned before: it seeks before
it reads. -/
def FileOps.Positioned {β : Type} (b : FileOps β) : Prop :=
  ∀ data p q, (b.alone ⟨data, p⟩).1 = (b.alone ⟨data, q⟩).1

/-- All uses of the script are free of nesting. -/
def Script.Flat {α β : Type} : Script α β → Prop
  | .done _ => True
  | .use b k => b.Flat ∧ ∀ r, (k r).Flat

/-- All uses of the script only read, and seek before they do. -/
def Script.Reader {α β : Type} : Script α β → Prop
  | .done _ => True
  | .use b k => (b.ReadsOnly ∧ b.Positioned) ∧ ∀ r, (k r).Reader

/-- What the script gives when it is the only one to use a file with the content `data`. -/
def Script.alone {α β : Type} (data : Bytes) : Script α β → α
  | .done a => a
  | .use b k => (k (.ok (b.alone ⟨data, 0⟩).1)).alone data

/-- Threads which take turns: a turn is a whole use of the file. -/
def takeTurn {α β : Type} (w : PyFile × (Nat → Script α β)) (i : Nat) :
    PyFile × (Nat → Script α β) :=
  match w.2 i with
  | .done _ => w
  | .use b k =>
    ((b.alone w.1).2, fun j => if j = i then k (.ok (b.alone w.1).1) else w.2 j)

/-- The thread has finished with the result `a`. -/
def Finished {α β : Type} (w : World α β) (i : Nat) (a : α) : Prop :=
  w.threads i = .outside (.done a)

end Pyzim
