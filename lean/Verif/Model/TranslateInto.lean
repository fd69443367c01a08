import Verif.Model.Translator
import Verif.Model.SetMain
import Verif.Model.Close

/-!
# Model of a translation together with the archive it writes, `pyzim/util/translator.py`

The output is an archive as in `Verif/Model/Creator.lean` (so its policy does not count mimetypes); the input is as in
`Verif/Model/Translator.lean`.
-/

namespace Pyzim
variable {D K : Type} (S : Setup D K)

/-- A call of `ZimTranslator` on one of the archives; `pyzim/util/translator.py:94`, `114`, `126-130`, `222-224`. Closing the
input, which is only read, does nothing to the output. -/
def TransCall.onOutput : TransCall → PyM (Creator D) Unit
  | .setMainpage url => Creator.setMainpage S (some url)
  | .addItem it => Creator.addItem S it false
  | .addRedirect source target title => Creator.addFullUrlRedirect S source target title
  | .flushOut => Creator.flush S
  | .closeIn => pure ()
  | .closeOut => Creator.close S

/-- The calls, one after the other, up to the first one that raises an exception. -/
def TransCall.runAll : List TransCall → PyM (Creator D) Unit
  | [] => pure ()
  | c :: cs => do
    c.onOutput S
    runAll cs

/-- `translate`; `pyzim/util/translator.py:70-97`. What is called does not depend on what earlier calls did, so the calls are
determined first; then either one of them raises an exception or the translation ends as it does without them. -/
def TransInput.translateInto (inp : TransInput) (handle : Item → List Item) : PyM (Creator D) Unit := PyM.of fun c =>
  match TransCall.runAll S (inp.translate handle []).2 c with
  | (.error x, c') => (.error x, c')
  | (.ok (), c') => ((inp.translate handle []).1, c')

end Pyzim
