import Verif.Spec.SecretsErrors
import Verif.Spec.Secretscli
import Verif.Model.SecretscliErrors
/-! Vocabulary for what cmd/secretscli writes to standard error. -/

namespace Verif.Spec.SecretscliErrors
open Verif Verif.Go Verif.Model.SecretscliErrors
open Verif.Spec.SecretsErrors (report)

/-- What is said when the store could not be written at the end of a session. -/
def lost : Bytes := ascii "*** WARNING: store was NOT written to disk***\n"

/-- Of a write that failed, nothing is said. -/
def NoFailedWrite (out : List Bytes) : Prop := ∀ x ∈ out, x ≠ lost ∧ ¬ ascii "[!] failed to write store" <+: x

/-- The line says that the command failed and why. -/
def CommandFailed (x : Bytes) : Prop := ∃ m, x = report (ascii "command failed: " ++ m)

/-- The reasons for which a command can fail. -/
def reasons (T : Texts) : List Bytes :=
  [T.prompt, T.line, ascii "command not found", ascii "passwords don't match", ascii "no labels specified.",
   ascii "No labels specified.", ascii "no labels provided", ascii "no password entered", ascii "no label specified",
   ascii "only one label may be specified", ascii "no such record", ascii "write takes no arguments", ascii "failed to write store"]

/-- What does not end a command. -/
def notes (T : Texts) : List Bytes := [report (ascii "Metadata should be in the form 'key=value'"), report T.size]

/-- What is said of a write that failed. -/
def writeNotes (T : Texts) (path : Bytes) : List Bytes :=
  [report (ascii "failed to write store to " ++ T.write path ++ ascii ":"), ascii "\t" ++ T.write path ++ ascii "\n"]

/-- All that a session can write to standard error but complaints about words that are no commands. -/
def vocabulary (T : Texts) (path : Bytes) : List Bytes :=
  notes T ++ writeNotes T path ++ (reasons T).map (fun r => report (ascii "command failed: " ++ r)) ++
  [lost, ascii "inputLoop error: " ++ T.crash ++ ascii "\n", ascii "[!] " ++ T.line]

/-- A complaint about the first word of a line that was typed. -/
def Unknown (lines : List Bytes) (x : Bytes) : Prop :=
  ∃ line ∈ lines, ∃ cmd args, fields line = cmd :: args ∧ x = report (cmd ++ ascii " is not a valid command.")

end Verif.Spec.SecretscliErrors
