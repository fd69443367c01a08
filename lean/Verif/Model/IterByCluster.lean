import Verif.Model.Entry

/-!
# Model of `pyzim/util/iter.py`
-/

namespace Pyzim
namespace IterByCluster

/-- The dictionary `cluster_num2urls`; insertion order, one pair per key. -/
abbrev Groups := List (Int × List (Int × String))

/-- `d[k].append(x)`, after `d[k] = []` if `k` is new; `pyzim/util/iter.py:42-44`. -/
def append (k : Int) (x : Int × String) : Groups → Groups
  | [] => [(k, [x])]
  | (j, l) :: rest => if j = k then (j, l ++ [x]) :: rest else (j, l) :: append k x rest

/-- One round of the loop; `pyzim/util/iter.py:34-44`. A content entry without `cluster_number` does
not exist: the kind of an entry and its mimetype id agree for entries read from a file. -/
def addEntry (d : Groups) (e : Entry) : PyRes Groups :=
  if e.isRedirect then .ok (append (-1) (-1, e.fullUrl) d)
  else match e.kind with
    | .content c b => .ok (append c (b, e.fullUrl) d)
    | .redirect _ => .error .attributeError

/-- The loop; `pyzim/util/iter.py:33-44`. -/
def collect : Groups → List Entry → PyRes Groups
  | d, [] => .ok d
  | d, e :: es =>
    match addEntry d e with
    | .error x => .error x
    | .ok d => collect d es

/-- Comparison of Python tuples `(int, str)`; strings are compared by code points. -/
def tupleLE (a b : Int × String) : Bool := decide (a.1 < b.1) || (decide (a.1 = b.1) && decide (a.2 ≤ b.2))

/-- The values yielded and how the generator ends; `pyzim/util/iter.py:8-55`. `entries` are the entries
of the archive by url. `sorted` is a stable sort; its result is determined by the order. -/
def run (entries : List Entry) : List (List String) × PyRes Unit :=
  match collect [] entries with
  | .error x => ([], .error x)
  | .ok d =>
    let nums := ((d.map Prod.fst).mergeSort (fun a b => decide (a ≤ b))).filter (fun c => c ≠ -1)
    let groups := nums.map fun c =>
      (((d.lookup c).getD []).mergeSort tupleLE).map Prod.snd
    match d.lookup (-1) with
    | none => (groups, .error .keyError)
    | some l => (groups ++ [l.map Prod.snd], .ok ())

end IterByCluster
end Pyzim
