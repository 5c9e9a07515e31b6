import Verif.Model.Secretscli
import Verif.Model.Otpc
/-! Vocabulary for what one program makes of the files of another. -/

namespace Verif.Spec.Together
open Verif Verif.Go Verif.Model.SecretStore Verif.Model.Secretscli

/-- The store with another secret in the record under the label, if there is one. -/
def withSecret (s : SecretStore) (l x : Bytes) : SecretStore :=
  { s with store := s.store.map (fun m k => if k = l then (m k).map (Option.map (fun r => { r with secret := x })) else m k) }

/-- The session with that store. -/
def session (st : St) (l x : Bytes) : St := { st with sess := { st.sess with store := withSecret st.sess.store l x } }

/-- There is white space in it (an empty label counts too): it is not one word of a command line. -/
def Spaced (l : Bytes) : Prop := l = [] ∨ ∃ t, t <:+ l ∧ spaceLen t ≠ 0

/-- The key of a token. -/
def keyOf : Model.Otpc.Otp → Bytes
  | .hotp key .. => key
  | .totp key .. => key

/-- What is kept with a token: its key in base 32, its type, the step if the code depends on the time, and the code that was
printed when it was stored. -/
def tokenItems (key type : Bytes) (step : Option Bytes) (code : Bytes) : List (Bytes × Bytes) :=
  [(ascii "key", b32Encode key), (ascii "type", type), (ascii "confirmation", code)] ++ (step.map (fun x => (ascii "step", x))).toList

end Verif.Spec.Together
