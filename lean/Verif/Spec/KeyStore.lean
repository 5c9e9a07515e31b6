import Verif.Model.KeyStore
import Verif.Spec.Public
/-! Vocabulary for the properties of the key store. -/

namespace Verif.Spec.KeyStore
open Verif Verif.Go Verif.Model.Util Verif.Model.Public Verif.Model.KeyStore Verif.Spec.Public

/-- `sig` is an Ed25519 signature by `signer` (a 64-byte public key, the second half of which is
the verification key) on the statement "key `pk`, vouched for by `signer`, at time `t`". -/
def Signed (C : Crypto) (signer pk sig : Bytes) (t : BitVec 64) : Prop :=
  signer.length = 64 ∧ sig.length = 64 ∧
    C.verify (signer.drop 32) (pk ++ signer ++ be 8 t.toNat) sig = true

/-- The signature in the record is by `signer`. -/
def SignedRec (C : Crypto) (signer : Bytes) (r : PublicKeyRecord) : Prop :=
  Signed C signer r.keyBytes r.keySignature r.signatureTime

abbrev Keys := Map (Option PublicKeyRecord)

/-- A finite chain of verified signatures from the record stored under a label to the owner. -/
inductive Chain (C : Crypto) (owner : Bytes) (m : Keys) : Bytes → Prop
  | owner {l : Bytes} {r : PublicKeyRecord} : m l = some (some r) → SignedRec C owner r → Chain C owner m l
  | link {l l' : Bytes} {r r' : PublicKeyRecord} : m l = some (some r) → m l' = some (some r') →
      SignedRec C r'.keyBytes r → Chain C owner m l' → Chain C owner m l

/-- A finite chain from the record stored under a label to the owner, in which each record names
its signer, and the signature verifies under the key named. -/
inductive Trust (C : Crypto) (owner : Bytes) (m : Keys) : Bytes → Prop
  | owner {l : Bytes} {r : PublicKeyRecord} : m l = some (some r) → r.keySigner = owner →
      SignedRec C r.keySigner r → Trust C owner m l
  | link {l l' : Bytes} {r r' : PublicKeyRecord} : m l = some (some r) → m l' = some (some r') →
      r.keySigner = r'.keyBytes → SignedRec C r.keySigner r → Trust C owner m l' → Trust C owner m l

/-- No label maps to nil. -/
def NoNil (m : Keys) : Prop := ∀ k, m k ≠ some none

/-- Every record carries the label it is stored under. -/
def Labelled (m : Keys) : Prop := ∀ k r, m k = some (some r) → r.label = k

/-- Calls that change a key store. -/
inductive Op where
  | addKey (label peer : Bytes) (md : Option (Map Bytes)) (t1 t2 : BitVec 64)
  | importVerified (label blob : Bytes) (o1 o2 : List Bytes) (now : BitVec 64)
  | lock
  | lockWith (p : Bytes) (rng : Rng)
  | unlock (p : Bytes) (now : BitVec 64)

def Op.run (C : Crypto) (A : Asn1) (P : Pem) (s : KeyStore) : Op → Res (KeyStore × Bool)
  | .addKey label peer md t1 t2 => s.addKey C label peer md t1 t2
  | .importVerified label blob o1 o2 now => s.importVerified C A label blob o1 o2 now
  | .lock => s.lock
  | .lockWith p rng => do
    let (s', b, _) ← s.lockWith C p rng
    pure (s', b)
  | .unlock p now => s.unlock C A P p now

/-- Iteration orders are orders of the map iterated. -/
def Op.Orders (s : KeyStore) : Op → Prop
  | .importVerified _ _ o1 o2 _ => ∀ m, s.keys = some m → m.Enumerates o1 ∧ m.Enumerates o2
  | _ => True

/-- If a passphrase opens the locked key at all, the key inside has the store's public key. -/
def Op.Honest (C : Crypto) (s : KeyStore) : Op → Prop
  | .unlock p _ => ∀ k pub, unlockKey C (s.lockedKey.getD []) p = .ok (some k) →
      marshalPublic k.pub = .ok (some pub) → s.publicKey = some pub
  | _ => True

/-- A history of calls, each with what it returned. -/
inductive History (C : Crypto) (A : Asn1) (P : Pem) : KeyStore → List (Op × Bool) → KeyStore → Prop
  | nil (s) : History C A P s [] s
  | cons {s s' s'' : KeyStore} {op : Op} {b : Bool} {ops} : op.Orders s → op.Honest C s →
      op.run C A P s = .ok (s', b) → History C A P s' ops s'' → History C A P s ((op, b) :: ops) s''

/-- The passphrase the private key is locked with after a call, given the one it was locked with before. -/
def Op.passphrase (s : KeyStore) (b : Bool) (cur : Option Bytes) : Op → Option Bytes
  | .lockWith p _ => if s.locked then cur else if b then some p else none
  | _ => cur

/-- A history of calls in which whoever unlocks the store does so with the passphrase it was locked with last. Other
passphrases may be tried, but the history ends if one of them opens the box. -/
inductive OwnHistory (C : Crypto) (A : Asn1) (P : Pem) : Option Bytes → KeyStore → List (Op × Bool) → KeyStore → Prop
  | nil (cur s) : OwnHistory C A P cur s [] s
  | cons {cur : Option Bytes} {s s' s'' : KeyStore} {op : Op} {b : Bool} {ops} : op.Orders s →
      (∀ p now, op = .unlock p now → s.locked = true → b = true → cur = some p) →
      op.run C A P s = .ok (s', b) → OwnHistory C A P (op.passphrase s b cur) s' ops s'' →
      OwnHistory C A P cur s ((op, b) :: ops) s''

/-- No key is stored under two labels. -/
def Distinct (m : Keys) : Prop :=
  ∀ l l' r r', m l = some (some r) → m l' = some (some r') → r.keyBytes = r'.keyBytes → l = l'

/-- The serialised public key of a pair. -/
def ownerOf (C : Crypto) (d seed : Bytes) : Bytes := C.base d ++ C.edPub seed

/-- The pair of `d` and `seed` vouches for `pk` at time `t`. -/
def statement (C : Crypto) (d seed pk : Bytes) (t : BitVec 64) : VerifiedKey :=
  { pub := pk, signer := ownerOf C d seed, timestamp := t
    signature := C.sign (seed ++ C.edPub seed) (pk ++ ownerOf C d seed ++ be 8 t.toNat) }

/-- The record under which a verified key `v` is filed. -/
def recordFor (label : Bytes) (v : VerifiedKey) : PublicKeyRecord :=
  { label := label, version := 1, timestamp := 7, keys := some v.pub, keySignature := v.signature
    keySigner := v.signer, signatureTime := v.timestamp, metadata := none }

/-- The store is unlocked with the key pair of `d` and `seed`, whose public key it carries. -/
def Owned (C : Crypto) (d seed : Bytes) (s : KeyStore) : Prop :=
  s.locked = false ∧ s.privateKey = some (pairOf C d seed) ∧
    s.publicKey = some (ownerOf C d seed) ∧ s.validQuick = true

/-- A store as the package builds it: map present, no nil records, labels in place, no record
called "self", every key trusted. -/
structure Sound (C : Crypto) (s : KeyStore) (owner : Bytes) (m : Keys) : Prop where
  quick : s.validQuick = true
  pub : s.publicKey = some owner
  len : owner.length = 64
  keys : s.keys = some m
  noNil : NoNil m
  labelled : Labelled m
  noSelf : m self = none
  trust : ∀ l r, m l = some (some r) → Trust C owner m l
  priv : s.locked = false → ∃ k, s.privateKey = some k ∧ validPriv (some k) = true ∧ k.WT ∧
    marshalPublic k.pub = .ok (some owner)

/-- The key a label stands for: the owner's for "self", otherwise the one on record. -/
inductive Names (owner : Bytes) (m : Keys) : Bytes → Bytes → Prop
  | owner : Names owner m self owner
  | peer {l : Bytes} {r : PublicKeyRecord} {k : Bytes} : m l = some (some r) → r.keys = some k → Names owner m l k

end Verif.Spec.KeyStore
