import Verif.Spec.SecretsOutput
import Verif.Model.SecretsErrors
/-! Vocabulary for what cmd/secrets and the programs like it write to standard error. -/

namespace Verif.Spec.SecretsErrors
open Verif Verif.Go Verif.Model.SecretsErrors

/-- A line on standard error. -/
def report (m : Bytes) : Bytes := ascii "[!] " ++ m ++ ascii "\n"

/-- The warning about a secret that is going to be replaced. -/
def warning : Bytes := report (ascii "*** WARNING: overwriting password")

/-- The line says that the program failed, or what it lacks. -/
def Failure (x : Bytes) : Prop :=
  ∃ m, x = report m ∧ (ascii "Failed: " <+: m ∨ ascii "Want: " <+: m ∨ m = ascii "Failed to open password store" ∨
    m = ascii "Failed to write store!")

/-- The reasons for which a command can fail. -/
def reasons (T : Texts) (args : List Bytes) (path : Bytes) : List Bytes :=
  [T.prompt, T.read path, T.write path, T.read (args.headD []), T.write (args.headD []), ascii "No passphrase provided.", ascii "failed to marshal store",
   ascii "failed to unmarshal store", ascii "entry not found", ascii "entry exists, not forcing overwrite",
   ascii "no password entered", ascii "failed to open other password store", ascii "invalid PEM data", ascii "invalid PEM type"]

/-- What does not end a run. -/
def notes (T : Texts) : List Bytes :=
  [warning, report (ascii "Metadata should be in the form 'key=value'"), report (ascii "Failed to read key: " ++ T.prompt),
   report (ascii "Entry exists, not forcing overwrite."), report (ascii "No password entered.")]

/-- All the lines that secrets can write to standard error, given the words on its command line. -/
def vocabulary (T : Texts) (args : List Bytes) (path : Bytes) : List Bytes :=
  notes T ++ (reasons T args path).map (fun r => report (ascii "Failed: " ++ r)) ++
  [report (ascii "No output file specified."), report (ascii "No input file specified."),
   report (ascii "Not enough arguments: want 1, have 0."), report (ascii "Want: label"), report (ascii "Want: other store"),
   report (ascii "Failed to read passphrase: " ++ T.prompt), report (ascii "could not find " ++ path),
   report (ascii "Failed to open password store"), report (ascii "Write failed: " ++ T.write path), report (ascii "Failed to write store!")]

end Verif.Spec.SecretsErrors
