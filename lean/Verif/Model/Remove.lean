import Verif.Model.Creator

/-!
# Removing entries
-/

namespace Pyzim

/-- The values of the parameter `blob` of `remove_entry_by_full_url`; `pyzim/archive.py:1042-1044`, `1066-1067` (other strings
are refused). -/
inductive BlobMode where
  | keep
  | empty
  | remove
  deriving DecidableEq

namespace Zim
section
variable {D K : Type} (X : Codecs D) (C : Compressors K)

/-- What happens to the blob of a content entry that is removed; `pyzim/archive.py:1096-1105`, `pyzim/cluster.py:1037-1046`.
Redirects have no blob; `removeEntry` does not ask for it. -/
def treatBlob (kind : ClusterKind) (calls : Nat) (mode : BlobMode) (e : Entry) : PyM Zim Unit :=
  match e.kind with
  | .redirect _ => pure ()
  | .content c b =>
    if mode = .keep then pure ()
    else do
      let z ← PyM.get
      let o ← PyM.lift (openCluster X kind calls z c)
      match (if mode = .empty then MCluster.emptyBlob X b else MCluster.removeBlob b) o.m with
      | (.error x, _) => PyM.raise x
      | (.ok (), m) =>
        if m.dirty then do
          let _ ← writeClusterObj X C { o with m := m }
          pure ()
        else pure ()

end
end Zim

namespace Creator
variable {D K : Type} (S : Setup D K)

/-- `remove_entry_by_full_url`; `pyzim/archive.py:1035-1154`. The redirects leading to the entry are removed with the default
`blob="empty"`. No processors are installed. -/
def remove (mode : BlobMode) (u : String) : PyM (Creator D) Unit :=
  onArch (Archive.onZim (Zim.removeEntry (Zim.treatBlob S.X S.C S.kind S.calls .empty) S.depth
    (Zim.treatBlob S.X S.C S.kind S.calls mode) u))

end Creator
end Pyzim
