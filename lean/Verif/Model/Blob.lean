import Verif.Model.Ioutil

/-!
# Model of `pyzim/blob.py`

Blobs are objects with a position; `read(n)` returns the next piece. Files are constant while they
are read and deliver as much as was asked for unless they end (buffered regular files).
-/

namespace Pyzim

/-- A blob object; `pyzim/blob.py:54-98`. -/
inductive Blob
  /-- `InMemoryBlob` and `FileBlob` with their file object; `pyzim/blob.py:135-162`, `190-220`. -/
  | bytes (f : PyFile)
  /-- `EmptyBlob`; `pyzim/blob.py:242-259`. -/
  | empty
  /-- `EntryBlob`: what is left of the iterator `entry.iter_read()`, and `_closed`;
  `pyzim/blob.py:288-328`. The iterator is created by the first call; here it is part of the blob
  from the start (the archive does not change in between). -/
  | entry (rest : List Bytes) (closed : Bool)

namespace Blob

/-- `read(n)`; `pyzim/blob.py:158-159`, `216-217`, `255-256`, `311-321`. `EntryBlob` ignores `n`. -/
def read (n : Nat) : Blob → Bytes × Blob
  | bytes f => let (d, f) := f.read n; (d, bytes f)
  | empty => ([], empty)
  | entry rest closed =>
    if closed then ([], entry rest closed)
    else match rest with
      | [] => ([], entry [] true)
      | c :: cs => (c, entry cs false)

/-- `while True: data = blob.read(n); if not data: break; ...`: the pieces read, for at most `fuel`
calls; `pyzim/cluster.py:1010-1015`, `1271-1276`, `1296-1299`. -/
def pieces (n : Nat) : (fuel : Nat) → Blob → List Bytes
  | 0, _ => []
  | fuel + 1, b =>
    match b.read n with
    | (d, b) => if d.isEmpty then [] else d :: pieces n fuel b

end Blob

/-- A blob source as the code that uses it sees it: the announced size, and the non-empty pieces
that repeated `read(n)` on a fresh blob returns before the first empty one;
`pyzim/blob.py:19-51`. Sources whose blobs never end are left out. -/
structure BlobSource where
  size : Nat
  pieces : Nat → List Bytes

/-- The source classes of the package. -/
inductive BlobSourceObj
  /-- `InMemoryBlobSource(s)`; `pyzim/blob.py:101-132`. -/
  | inMemory (s : Bytes)
  /-- `FileBlobSource(path)` for a file with this content; `pyzim/blob.py:165-187`. -/
  | file (content : Bytes)
  /-- `EmptyBlobSource`; `pyzim/blob.py:223-239`. -/
  | empty
  /-- `EntryBlobSource(entry)` for an entry with this `get_size()` and these chunks of
  `iter_read()`; `pyzim/blob.py:262-285`. -/
  | entry (size : Nat) (chunks : List Bytes)

namespace BlobSourceObj

/-- `get_size()`; `pyzim/blob.py:129-132`, `185-187`, `238-239`, `281-282`. -/
def getSize : BlobSourceObj → Nat
  | inMemory s => s.length
  | file c => c.length
  | empty => 0
  | entry size _ => size

/-- `get_blob()`; `pyzim/blob.py:126-127`, `182-183`, `235-236`, `284-285`. -/
def getBlob : BlobSourceObj → Blob
  | inMemory s => .bytes { data := s, pos := 0 }
  | file c => .bytes { data := c, pos := 0 }
  | empty => .empty
  | entry _ chunks => .entry chunks false

/-- The source as seen by its users. As many calls as there are bytes or chunks, and one more,
reach the end (`C52_pieces_complete`). -/
def toSource (o : BlobSourceObj) : BlobSource where
  size := o.getSize
  pieces n := o.getBlob.pieces n ((match o with | entry _ cs => cs.length | o => o.getSize) + 1)

end BlobSourceObj
end Pyzim
