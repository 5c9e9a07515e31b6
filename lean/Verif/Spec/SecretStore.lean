import Verif.Model.SecretStore
/-! Vocabulary for the properties of the secret store. -/

namespace Verif.Spec.SecretStore
open Verif Verif.Go Verif.Model.Util Verif.Model.SecretStore

/-- The record a user sees under a label. -/
def lookup (s : SecretStore) (k : Bytes) : Option SecretRecord :=
  match s.store with
  | none => none
  | some m => match m k with
    | some (some r) => some r
    | _ => none

/-- The secret a user sees under a label. -/
def secretOf (s : SecretStore) (k : Bytes) : Option Bytes := (lookup s k).map (·.secret)

/-- No label maps to a nil record: true of every store built with the package's functions, and
of every file written from such a store. -/
def NoNil (s : SecretStore) : Prop := ∀ m k, s.store = some m → m k ≠ some none

/-- Every record carries its own label. -/
def Labelled (s : SecretStore) : Prop := ∀ k r, lookup s k = some r → r.label = k

/-- All strings in the store are UTF-8. -/
def Clean (f : Fields) : Prop :=
  ∀ m, f.store = some m → ∀ k v, m k = some v → ValidUtf8 k ∧
    ∀ r, v = some r → ValidUtf8 r.label ∧ ∀ md j x, r.metadata = some md → md j = some x → ValidUtf8 j

/-- Nothing but zero bytes. -/
def AllZero (b : Bytes) : Prop := ∀ x ∈ b, x = 0

/-- The newer of two records, the first on ties. -/
def newest (a b : Option SecretRecord) : Option SecretRecord :=
  match a, b with
  | none, b => b
  | a, none => a
  | some a, some b => if b.timestamp.toInt ≤ a.timestamp.toInt then some a else some b

/-- Records of one label with equal timestamps are equal. -/
def NoTies (s t : SecretStore) : Prop :=
  ∀ k a b, lookup s k = some a → lookup t k = some b → a.timestamp = b.timestamp → a = b

/-- `out` is a store file: salt, nonce, and the box of `data` under the key of passphrase, salt
and mode. -/
def IsFile (C : Crypto) (out passphrase : Bytes) (mode : Int) (data : Bytes) : Prop :=
  ∃ salt nonce key, salt.length = 32 ∧ nonce.length = 24 ∧
    Model.Secret.deriveKeyStrength C passphrase salt mode = some key ∧
    out = salt ++ (nonce ++ C.sealBox key nonce data)

/-- What a user can do to the records of a store. -/
inductive Op where
  | add (name secret : Bytes) (md : Option (Map Bytes)) (now : BitVec 64)
  | update (name secret : Bytes) (now : BitVec 64)
  | delete (name : Bytes)

/-- The operation on the model, with the answer the caller gets. -/
def Op.run (s : SecretStore) : Op → Res (SecretStore × Bool)
  | .add name secret md now => .ok (s.addRecord name secret md now)
  | .update name secret now => s.updateSecret name secret now
  | .delete name => .ok (s.delete name, true)

def runAll : SecretStore → List Op → Res (SecretStore × List Bool)
  | s, [] => .ok (s, [])
  | s, op :: ops => do
    let (s, b) ← op.run s
    let (s, bs) ← runAll s ops
    pure (s, b :: bs)

/-- The operation on a plain finite map from labels to secrets. -/
def Op.spec (m : Map Bytes) : Op → Map Bytes × Bool
  | .add name secret _ _ => if m name = none then (m.set name secret, true) else (m, false)
  | .update name secret _ => if m name = none then (m, false) else (m.set name secret, true)
  | .delete name => (m.erase name, true)

def specAll : Map Bytes → List Op → Map Bytes × List Bool
  | m, [] => (m, [])
  | m, op :: ops =>
    let (m, b) := op.spec m
    let (m, bs) := specAll m ops
    (m, b :: bs)

/-- A usable store: valid, without nil records. -/
def Good (s : SecretStore) : Prop := s.valid = true ∧ NoNil s

/-- `s` merges the stores in turn, each iterated in some order, at some times. -/
inductive Merges : SecretStore → List SecretStore → SecretStore → Prop
  | nil (s) : Merges s [] s
  | cons {s o os s' s'' order now list m} : o.store = some m → m.Enumerates order →
      s.merge o order now = .ok (s', list) → Merges s' os s'' → Merges s (o :: os) s''

end Verif.Spec.SecretStore
