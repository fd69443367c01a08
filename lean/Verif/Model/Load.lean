import Verif.Model.Flush

/-!
# Model of opening and creating archives, `pyzim/archive.py`

The simplifications are those of `Verif/Model/Archive.lean`. The pointer lists are the ones kept in memory (the default
policy). How the title lists are read from the content of their entries is a parameter. The caches, the compression
strategies, the counter and adding an entry for the article title list if there is none are not part of the model.
-/

namespace Pyzim
namespace Archive

/-- What `Zim.__init__` does for an existing archive: `_load_header`, `_load_mimetypelist`, the space allocator and
`_load_pointerlists`; `pyzim/archive.py:150-163`, `254-367`. The sizes are set by the constructors of the lists
(`pyzim/mimetypelist.py:38`, `pyzim/pointerlist.py:83`). -/
def load (titles articles : Zim → PyRes PointerList) (writable : Bool) (file : Bytes) : PyRes Archive := do
  let header ← Header.fromFile ⟨file, 0⟩ 0
  let mimetypes ← match MimeTypeList.fromFile ⟨file, 0⟩ (some header.mimeListPosition) with
    | none => .error .hang
    | some (m, _) => .ok m
  let urls ← PointerList.fromFile 8 ⟨file, 0⟩ header.entryCount header.urlPointerPosition
  let clusters ← PointerList.fromFile 8 ⟨file, 0⟩ header.clusterCount header.clusterPointerPosition
  let z : Zim :=
    { file := file
      header := { header with mutable := writable }
      mimetypes := { mimetypes with mutable := writable }
      urls := { urls with mutable := writable }
      clusters := { clusters with mutable := writable }
      articles := { pointers := [], mutable := writable }
      space := SpaceAllocator.new header.checksumPosition
      clusterNum := clusters.len
      mutable := writable }
  let ts ← if 6 < header.majorVersion ∨ (header.majorVersion = 6 ∧ 3 ≤ header.minorVersion) then .ok none
    else match titles z with
      | .error x => .error x
      | .ok l => .ok (some { l with mutable := writable })
  let has ← z.hasEntry "Xlisting/titleOrdered/v1"
  let as ← if has then articles { z with titles := ts } else .ok { pointers := [] }
  .ok
    { zim := { z with titles := ts, articles := { as with mutable := writable } }
      mimeSize := mimetypes.getDiskSize
      urlSize := urls.diskSize 8
      clusterSize := clusters.diskSize 8 }

/-- `_init_new`, up to adding the entry for the article title list; `pyzim/archive.py:369-409`. `uuid` is the random
uuid of the header. -/
def new (reserve : Option Nat) (uuid : Bytes) : PyRes Archive :=
  let header := Header.placeholder uuid
  match header.toBytes with
  | .error x => .error x
  | .ok b => .ok
    { zim :=
        { file := ((PyFile.mk [] 0).write b).data
          header := header
          mimetypes := { mimetypes := [], dirty := true }
          urls := { pointers := [], dirty := true }
          clusters := { pointers := [], dirty := true }
          articles := { pointers := [], dirty := true }
          space := SpaceAllocator.new (Header.LENGTH + reserve.getD 0) }
      mimeSize := MimeTypeList.getDiskSize { mimetypes := [] }
      urlSize := 0
      clusterSize := 0 }

end Archive
end Pyzim
