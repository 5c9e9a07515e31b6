import Verif.Spec.SecretsErrors
import Verif.Model.OtpcErrors
/-! Vocabulary for what cmd/otpc writes to standard error. -/

namespace Verif.Spec.OtpcErrors
open Verif Verif.Go Verif.Spec.SecretsErrors Verif.Model.OtpcErrors

/-- The line says that the program failed, or what it lacks. -/
def Failure (x : Bytes) : Prop :=
  ∃ m, x = report m ∧ (ascii "Failed: " <+: m ∨ ascii "Want: " <+: m ∨ m = ascii "Failed to open two-factor store." ∨
    m = ascii "Failed to write store!")

/-- The reasons for which otpc can fail that are known from the command line. -/
def reasons (E : Texts) (args : List Bytes) (path : Bytes) : List Bytes :=
  [E.prompt, E.write path, E.write (args.tail.headD []), ascii "failed to marshal store", ascii "failed to unmarshal store",
   ascii "token already exists under label", ascii "no token found under label", ascii "unrecognised OTP type", ascii "unknown OTP type", E.qr]

/-- The other reasons: what a library makes of a number, a time step, a key, or a stored URL. -/
def Library (E : Texts) (r : Bytes) : Prop := ∃ t, r = E.number t ∨ r = E.duration t ∨ r = E.base32 t ∨ r = E.google t ∨ r = E.url t

/-- All the other lines that otpc can write to standard error. -/
def lines (E : Texts) (path : Bytes) : List Bytes :=
  [report (ascii "Not enough arguments: want 1, have 0."), report (ascii "Not enough arguments: want 2, have 0."),
   report (ascii "Not enough arguments: want 2, have 1."), report (ascii "Want: label"), report (ascii "Want: label, filename"),
   report (ascii "Failed to read passphrase: " ++ E.prompt), report (ascii "could not find " ++ path),
   report (ascii "Failed to open two-factor store."), report (ascii "Write failed: " ++ E.write path), report (ascii "Failed to write store!")]

end Verif.Spec.OtpcErrors
