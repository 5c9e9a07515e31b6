import Verif.Spec.Secrets
import Verif.Model.Otpc
/-! Vocabulary for the properties of otpc. -/

namespace Verif.Spec.Otpc
open Verif Verif.Go Verif.Model.SecretStore Verif.Model.Otpc Verif.Spec.SecretStore Verif.Spec.Secrets

/-- What a person types for a key: its base 32 form in either case, with spaces, with or without
the padding. -/
def Typed (key text : Bytes) : Prop :=
  (text.filter (· ≠ 0x20)).map upperByte = b32Encode key ∨
  (text.filter (· ≠ 0x20)).map upperByte = (b32Encode key).filter (· ≠ 61)

/-- What a person types for a number: its decimal form, or nothing for the default. -/
def Number (default n : Nat) (text : Bytes) : Prop := (text = decimal n ∧ n < 2 ^ 63) ∨ (text = [] ∧ n = default)

/-- Letters and digits. -/
def Plain (label : Bytes) : Prop := label ≠ [] ∧ ∀ b ∈ label, plainByte b = true

/-- The file opens, and holds this token with this type under the label. -/
def Holds (C : Crypto) (J : Json) (T : TwoFactor) (fs : Fs) (path pass : Bytes) (mode : Int) (label type : Bytes) (o : Otp) : Prop :=
  ∃ s r md, Opens C J fs path pass mode s ∧ s.version = 1 ∧ lookup s label = some r ∧ r.label = label ∧ r.metadata = some md ∧
    md kType = some type ∧ r.secret = T.url o label

/-- `otpc label` run again and again with the same passphrase: how each run ended and which codes
it printed, from the files before to the files after. -/
inductive Displays (C : Crypto) (J : Json) (T : TwoFactor) (U : Case) (f : Flags) (path pass label : Bytes) :
    Fs → List Outcome → Fs → Prop
  | nil (fs) : Displays C J T U f path pass label fs [] fs
  | cons {w w' : Model.Secrets.World} {o : Outcome} {l : List Outcome} {fs : Fs} :
      w.term.answers.head? = some (some pass) → main C J T U f [label] path w = .ok (o, w') →
      Displays C J T U f path pass label w'.fs l fs → Displays C J T U f path pass label w.fs (o :: l) fs

end Verif.Spec.Otpc
