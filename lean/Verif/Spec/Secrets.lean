import Verif.Spec.SecretStore
import Verif.Model.Secrets
/-! Vocabulary for the properties of the programs working on secret stores. -/

namespace Verif.Spec.Secrets
open Verif Verif.Go Verif.Model.SecretStore

/-- The file opens with the passphrase, and holds `s`. -/
def Opens (C : Crypto) (J : Json) (fs : Fs) (path pass : Bytes) (mode : Int) (s : SecretStore) : Prop :=
  ∃ b, fs path = some b ∧ unmarshalSecretStore C J b pass mode = .ok (some s)

/-- Nothing typed turns into the label `k` when its ill-formed bytes are replaced, unless it is
that label. -/
def NoAlias (typed : List Bytes) (k : Bytes) : Prop := ∀ b ∈ typed, sanitise b = k → b = k

/-- The lines typed. -/
def typed (w : Model.Secrets.World) : List Bytes := w.term.answers.filterMap id

/-- The line has the form key=value; white space around either does not count. -/
def Pair (line k v : Bytes) : Prop :=
  ∃ a b, line = a ++ 61 :: b ∧ (61 : UInt8) ∉ a ∧ k = trimSpace a ∧ v = trimSpace b

/-- What is known of `k` after the lines were entered: the last value given, or else the one
before. -/
def Entered (before : Option Bytes) (lines : List Bytes) (k v : Bytes) : Prop :=
  (∃ pre line post, lines = pre ++ line :: post ∧ Pair line k v ∧ ∀ l ∈ post, ∀ v', ¬ Pair l k v') ∨
  (before = some v ∧ ∀ l ∈ lines, ∀ v', ¬ Pair l k v')

end Verif.Spec.Secrets
