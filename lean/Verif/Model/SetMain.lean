import Verif.Model.Creator

/-!
# Model of setting the main page of an archive that is being filled
-/

namespace Pyzim
namespace Creator
variable {D K : Type}

/-- `set_mainpage_url`; `pyzim/archive.py:988-1033`. -/
def setMainpage (S : Setup D K) (url : Option String) : PyM (Creator D) Unit :=
  onArch (Archive.onZim (Zim.setMainpageUrl S.blob S.depth url))

end Creator
end Pyzim
