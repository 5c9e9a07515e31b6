import Verif.Spec.Otpc
/-! Vocabulary for the properties of otpc on two copies of a store. -/

namespace Verif.Spec.TogetherTokens
open Verif Verif.Go Verif.Model.SecretStore Verif.Model.Otpc Verif.Spec.SecretStore Verif.Spec.Secrets

/-- The file opens, has no null records, and holds this HOTP token, stored at this time. -/
def TokenAt (C : Crypto) (J : Json) (T : TwoFactor) (fs : Fs) (path pass : Bytes) (mode : Int) (label key : Bytes) (c : BitVec 64) (d : Int)
    (t : BitVec 64) : Prop :=
  ∃ s r md, Opens C J fs path pass mode s ∧ NoNil s ∧ lookup s label = some r ∧ r.label = label ∧ r.metadata = some md ∧
    md (ascii "type") = some (ascii "HOTP") ∧ r.secret = T.url (.hotp key c d) label ∧ r.timestamp = t

/-- `otpc label` was run once or more, always with the same passphrase and with status 0: the codes that were printed, from the
files before to the files after, and the time of the last run. -/
inductive Shows (C : Crypto) (J : Json) (T : TwoFactor) (U : Case) (f : Flags) (path pass label : Bytes) :
    Fs → List Bytes → Fs → BitVec 64 → Prop
  | one {w w' : Model.Secrets.World} {codes : List Bytes} :
      w.term.answers.head? = some (some pass) → main C J T U f [label] path w = .ok (.exit 0 codes, w') →
      Shows C J T U f path pass label w.fs codes w'.fs (w.term.clock 0)
  | more {w w' : Model.Secrets.World} {codes l : List Bytes} {fs : Fs} {t : BitVec 64} :
      w.term.answers.head? = some (some pass) → main C J T U f [label] path w = .ok (.exit 0 codes, w') →
      Shows C J T U f path pass label w'.fs l fs t → Shows C J T U f path pass label w.fs (codes ++ l) fs t

end Verif.Spec.TogetherTokens
