import Verif.Spec.Secrets
import Verif.Model.Journal
/-! Vocabulary for the properties of the program journal. -/

namespace Verif.Spec.Journal
open Verif Verif.Go Verif.Model.SecretStore

/-- The temporary file is a new one. -/
def Fresh (e : Model.Journal.Env) (fs : Fs) : Prop := ∀ n, e.temp = some n → fs n = none

/-- What the editor finds in the file when it is to be given `data`: all of it, unless writing the
file failed. -/
def Given (e : Model.Journal.Env) (data seen : Bytes) : Prop :=
  (e.write = .done ∧ seen = data) ∨ (e.write = .openFails ∧ seen = []) ∨ ∃ k, e.write = .failsAfter k ∧ seen = data.take k

/-- The editor, given `data`, is left with `text` in the file. -/
def Edited (e : Model.Journal.Env) (data text : Bytes) : Prop :=
  ∃ seen, Given e data seen ∧ e.edit (some seen) = (some text, true)

/-- "y" or "yes", in any case. -/
def Yes (a : Bytes) : Prop := lower a = [121] ∨ lower a = [121, 101, 115]

end Verif.Spec.Journal
