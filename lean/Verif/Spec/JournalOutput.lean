import Verif.Spec.Journal
import Verif.Spec.SecretsOutput
/-! Vocabulary for what cmd/journal prints. -/

namespace Verif.Spec.JournalOutput
open Verif Verif.Go Verif.Spec.SecretsOutput

/-- The same temporary file, and editors whose success does not depend on the text they are given. -/
def SameManner (e e' : Model.Journal.Env) : Prop :=
  e.temp = e'.temp ∧ e.removes = e'.removes ∧ e.date = e'.date ∧
  ∀ b b', (e.edit b).1.isSome = (e'.edit b').1.isSome ∧ (e.edit b).2 = (e'.edit b').2

/-- A text that says of a file that it could not be removed. -/
def SaysLeft (text name : Bytes) : Prop :=
  ∃ before after, text = before ++ line (ascii "FAILED TO REMOVE TEMPORARY FILE " ++ name) ++ after

/-- The line of the list of entries for a title with a date. -/
def entryLine (date title : Bytes) : Bytes := line (ascii "\t" ++ date ++ ascii "\t\t" ++ title)

end Verif.Spec.JournalOutput
