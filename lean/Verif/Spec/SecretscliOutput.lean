import Verif.Model.SecretscliOutput
import Verif.Spec.SecretsOutput
import Verif.Spec.Journal
/-! Vocabulary for what cmd/secretscli prints. -/

namespace Verif.Spec.SecretscliOutput
open Verif Verif.Go Verif.Model.SecretStore Verif.Model.Secretscli

/-- Which labels there are, and which of them have no record. -/
def labels (s : SecretStore) : Option (Bytes → Option Bool) := s.store.map (fun m k => (m k).map Option.isSome)

/-- What there is but the secrets and the passphrase. -/
def openPart (s : SecretStore) : Option (Bytes → Option (Option (BitVec 64 × Option (Map Bytes)))) :=
  s.store.map (fun m k => (m k).map (Option.map (fun r => (r.timestamp, r.metadata))))

/-- An answer that agrees. -/
def yes : Option Bytes → Prop
  | none => False
  | some a => Spec.Journal.Yes a

/-- Two answers that differ, if at all, in what a secret is. -/
def Likewise (a b : Option Bytes) : Prop := (a = none ↔ b = none) ∧ (a = some [] ↔ b = some []) ∧ (yes a ↔ yes b)

/-- What is typed in two sessions: as many answers, alike one by one; and the first is repeated in both or
in neither. -/
def TypedAlike : List (Option Bytes) → List (Option Bytes) → Prop
  | a :: as, b :: bs => Likewise a b ∧ TypedAlike as bs
  | [], [] => True
  | _, _ => False

def Repeated (as : List (Option Bytes)) : Prop := ∃ p rest, as = some p :: some p :: rest

/-- A note about a value that is replaced. -/
def note (v : Bytes) : Bytes := ascii "Note: replacing previous value of '" ++ v ++ ascii "'\n"

end Verif.Spec.SecretscliOutput
