import Verif.Spec.Secrets
/-! Vocabulary for what cmd/secrets prints. -/

namespace Verif.Spec.SecretsOutput
open Verif Verif.Go Verif.Model.SecretStore

/-- A line. -/
def line (s : Bytes) : Bytes := s ++ ascii "\n"

/-- Lines after tabs. -/
def indented (l : List Bytes) : Bytes := (l.map (fun s => line (ascii "\t" ++ s))).flatten

/-- What may be seen of a record without seeing its secrets: its label, its time and the names of its
metadata. -/
def recordFace (r : SecretRecord) : Bytes × BitVec 64 × (Bytes → Bool) :=
  (r.label, r.timestamp, fun j => ((r.metadata.getD Map.empty) j).isSome)

/-- What may be seen of a store. -/
def face (s : SecretStore) : Option (Bytes → Option (Option (Bytes × BitVec 64 × (Bytes → Bool)))) :=
  s.store.map (fun m k => (m k).map (Option.map recordFace))

/-- The same for what comes of opening a file. -/
def seen : Res (Option SecretStore) →
    Option (Option (BitVec 64 × Option (Bytes → Option (Option (Bytes × BitVec 64 × (Bytes → Bool))))))
  | .panic => none
  | .ok o => some (o.map (fun s => (s.timestamp, face s)))

/-- The same is typed in both, and at the same times; the same files are there, and what is typed opens the
same files. What they hold differs at most in secrets and values of metadata. -/
def Alike (C : Crypto) (J : Json) (mode : Int) (w w' : Model.Secrets.World) : Prop :=
  w.term = w'.term ∧ (∀ q, (w.fs q).isSome = (w'.fs q).isSome) ∧
  ∀ q p, some p ∈ w.term.answers → (w.readFile q).map (fun b => seen (unmarshalSecretStore C J b p mode)) =
    (w'.readFile q).map (fun b => seen (unmarshalSecretStore C J b p mode))

/-- The same with different passphrases for the store at `path`: each opens its store. -/
def Twins (C : Crypto) (J : Json) (mode : Int) (path : Bytes) (w w' : Model.Secrets.World) : Prop :=
  ∃ p p' rest, w.term.answers = some p :: rest ∧ w'.term.answers = some p' :: rest ∧ (p = [] ↔ p' = []) ∧
    w.term.clock = w'.term.clock ∧ (∀ q, (w.fs q).isSome = (w'.fs q).isSome) ∧
    (w.readFile path).map (fun b => seen (unmarshalSecretStore C J b p mode)) = (w'.readFile path).map (fun b => seen (unmarshalSecretStore C J b p' mode)) ∧
    ∀ q r, some r ∈ rest → (w.readFile q).map (fun b => seen (unmarshalSecretStore C J b r mode)) =
      (w'.readFile q).map (fun b => seen (unmarshalSecretStore C J b r mode))

/-- The runtime iterates over maps with the same keys in the same order. -/
def ByKeys {V : Type} (ord : Map V → List Bytes) : Prop :=
  ∀ m m' : Map V, (∀ k, (m k).isSome = (m' k).isSome) → ord m = ord m'

end Verif.Spec.SecretsOutput
