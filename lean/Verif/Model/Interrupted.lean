import Verif.Model.Creator

/-!
# A flush that is not finished

`Zim.flush` (`pyzim/archive.py:517-689`) cut into its parts, so that the file can be looked at after each of them: the
program may end in the middle of the flush.

Simplification: the parts follow one another as in the code, but the writes inside of a part (the clusters and entries a
strategy or a redirect writes) are not separated. The system writes what it is told in the same order.
-/

namespace Pyzim
namespace Creator

variable {D K : Type} (S : Setup D K)

/-- The parts of a flush, in the order of `pyzim/archive.py:551-689`: the strategies (551-555), the buffered operations
(560), the article title list (581-586), the mimetype list (610-634), the cluster pointer list (637-648), the url pointer
list (651-662), the header (665-675), the checksum (678) and the end of the file (680-685). -/
def flushParts : List (PyM (Creator D) Unit) :=
  [ onMain (Strategy.flushOn (Zim.backend S.X S.C S.depth)),
    onPlain (Strategy.flushOn (Zim.backend S.X S.C S.depth)),
    onArch (Archive.onZim (Zim.finalizeOperations S.blob S.depth S.passes)),
    onArch (Archive.onZim (Archive.flushArticles (setListing S))),
    onArch (Archive.flushMimetypes S.policy.reserveMimetypeSpace),
    onArch Archive.flushClusters,
    onArch Archive.flushUrls,
    onArch Archive.flushHeader,
    onArch (Archive.onZim (Zim.updateChecksum S.H S.short S.chunksize)),
    onArch (PyM.get >>= fun a => if S.policy.truncate then
      Archive.onZim (Zim.truncateAt (a.zim.header.checksumPosition + 16)) else pure ()) ]

/-- One part after the other; `pyzim/archive.py:551-689`. -/
def runParts : List (PyM (Creator D) Unit) → PyM (Creator D) Unit
  | [] => pure ()
  | g :: gs => do
    g
    runParts gs

/-- The first `n` parts of a flush of an archive with unsaved changes; `pyzim/archive.py:517-689`. -/
def interrupted (n : Nat) : PyM (Creator D) Unit := runParts ((flushParts S).take n)

end Creator
end Pyzim
