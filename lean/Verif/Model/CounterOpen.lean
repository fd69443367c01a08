import Verif.Model.Counting

/-!
# Model of opening an archive with each of the policies for the counter, `pyzim/archive.py` with `pyzim/counter.py`
-/

namespace Pyzim
namespace Counting
variable {D K : Type} (S : Setup D K)

/-- `load_from_archive` of an archive that is not new; `pyzim/counter.py:67-124`. An exception that is raised while iterating
over the entries is raised before those for entries whose mimetype is not known, which only matters for which one it is. -/
def loadBy (how : Counter.How) (z : Zim) : PyRes (Option Counter) :=
  match how with
  | .ignore => .ok none
  | .load => Counter.loadFromArchive z.mimetypes (stored S z) false [] .load
  | .reinit =>
    (match z.iterEntries with
    | .error x => .error x
    | .ok es => Counter.loadFromArchive z.mimetypes (stored S z) false es .reinit)
  | .loadOrReinit =>
    (match loadCounter S false z with
    | .error x => .error x
    | .ok n => .ok (some n))

/-- `Zim(..., mode="r")` and `Zim(..., mode="u")` of an existing archive, with the value of `policy.counter`;
`pyzim/archive.py:113-182`, `2068-2081`, `pyzim/counter.py:200-211`. A read-only archive has no
compression strategies (`pyzim/archive.py:132-150`); `add_item` does not use them then, as it raises `NonMutable` before
(`pyzim/archive.py:1960-1963`). -/
def openAs (how : Counter.How) (titles : Zim → PyRes PointerList) (writable : Bool) (main plain : Strategy D) (file : Bytes) :
    PyRes (Creator D × Option Counter) :=
  match Creator.openArchive S titles writable file with
  | .error x => .error x
  | .ok a =>
    match loadBy S how a.zim with
    | .error x => .error x
    | .ok none => .ok ({ arch := { a with dirty := false }, main := main, plain := plain }, none)
    | .ok (some n) =>
      match a.zim.hasEntry URL_COUNTER with
      | .error x => .error x
      | .ok true => .ok ({ arch := { a with dirty := false }, main := main, plain := plain }, some n)
      | .ok false =>
        match Creator.addItem S counterItem false { arch := a, main := main, plain := plain } with
        | (.error x, _) => .error x
        | (.ok (), c) => .ok ({ c with arch := { c.arch with dirty := false } }, some n)

end Counting
end Pyzim
