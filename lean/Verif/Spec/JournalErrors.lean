import Verif.Spec.SecretsErrors
import Verif.Model.JournalErrors
/-! Vocabulary for what cmd/journal writes to standard error. -/

namespace Verif.Spec.JournalErrors
open Verif Verif.Go Verif.Spec.SecretsErrors Verif.Model.JournalErrors

/-- The reasons for which journal can fail. -/
def reasons (T : Texts) (path : Bytes) : List Bytes :=
  [T.prompt, T.write path, ascii "failed to marshal store", ascii "failed to unmarshal store", ascii "entry not found",
   ascii "user aborted entry", T.temp, T.editor, T.reread]

/-- All the lines that journal can write to standard error, given the path of the journal. -/
def vocabulary (T : Texts) (path : Bytes) : List Bytes :=
  (reasons T path).map (fun r => report (ascii "Failed: " ++ r)) ++
  [report (ascii "Not enough arguments: want 1, have 0."), report (ascii "Want: title"),
   report (ascii "Failed to read passphrase: " ++ T.prompt), report (ascii "could not find " ++ path),
   report (ascii "Failed to open password store"), report (ascii "Write failed: " ++ T.write path), report (ascii "Failed to write store!")]

end Verif.Spec.JournalErrors
