import Verif.Model.Embedded

/-!
# Model of how a search finds its index, `pyzim/search.py` and `pyzim/archive.py`

Of `XapianSearch` only the constructor is modelled, and of it only where the library is told to read the index: what the
library does with it is a parameter. The archive is opened for reading.
-/

namespace Pyzim

/-- The library `xapian`: whether it (and `rigour`) can be imported, and what `xapian.Database(fd)` does when the file is
positioned at an offset; `pyzim/search.py:11-18`, `296-307`. -/
structure SearchLibrary where
  installed : Bool
  openAt : (file : Bytes) → (offset : Nat) → PyRes Unit

/-- `constants.URL_XAPIAN_FULLTEXT_INDEX`; `pyzim/constants.py:58` -/
def URL_FULLTEXT : String := "Xfulltext/xapian"

/-- `constants.URL_XAPIAN_TITLE_INDEX`; `pyzim/constants.py:57` -/
def URL_TITLE_INDEX : String := "Xtitle/xapian"

/-- What a call to a constructor of `XapianSearch` comes to: a search with the index at an offset, `MissingDependency`, or
another exception. -/
inductive IndexOpened
  | opened (offset : Nat)
  | missingDependency
  | raised (x : PyErr)
deriving DecidableEq

/-- The searches that `get_search` returns. -/
inductive SearchKind
  | fulltext (offset : Nat)
  | title (offset : Nat)
  | titleStart
deriving DecidableEq

namespace Embedded
variable {D : Type} (X : Codecs D) (kind : ClusterKind)

/-- `XapianSearch._offset`; `pyzim/search.py:359-376`. The offset of a cluster counts from the start of the file. A redirect
has no `cluster_number`. -/
def indexOffset (z : Embedded) (fullUrl : String) : PyRes Nat :=
  match z.entryByFullUrl fullUrl with
  | .error .entryNotFound => .error .zimFeatureMissing
  | .error x => .error x
  | .ok e =>
    match e.kind with
    | .redirect _ => .error .attributeError
    | .content c b => do
      let s ← z.clusterByIndex kind c
      let o ← (Cluster.getOffset X b s).1
      pure (s.c.offset + 1 + o)

/-- The constructor of `XapianSearch`; `pyzim/search.py:284-307`. What follows (the choice of a stemmer) is left out. -/
def openIndex (L : SearchLibrary) (z : Embedded) (fullUrl : String) : IndexOpened :=
  if !L.installed then .missingDependency
  else match z.indexOffset X kind fullUrl with
    | .error x => .raised x
    | .ok o =>
      match L.openAt z.zim.file o with
      | .error x => .raised x
      | .ok () => .opened o

/-- `get_search`; `pyzim/archive.py:2034-2064`, with `open_fulltext` and `open_title`, `pyzim/search.py:327-357`. The
constructor of `TitleStartSearch` does not raise (`pyzim/search.py:220-236`). -/
def getSearch (L : SearchLibrary) (z : Embedded) : PyRes SearchKind :=
  match z.openIndex X kind L URL_FULLTEXT with
  | .opened o => .ok (.fulltext o)
  | .raised .zimFeatureMissing | .missingDependency =>
    match z.openIndex X kind L URL_TITLE_INDEX with
    | .opened o => .ok (.title o)
    | .raised .zimFeatureMissing | .missingDependency => .ok .titleStart
    | .raised x => .error x
  | .raised x => .error x

end Embedded
end Pyzim
