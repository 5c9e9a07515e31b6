import Verif.Go.Map
import Verif.Go.Utf8
import Verif.Model.Public
/-!
Model of common/store/keystore.go, at the level of values. The receiver is never a nil
pointer. `for ... range s.Keys` takes the iteration order as an argument; two calls may see
different orders. Text printed by `util.Errorf` and `fmt.Println` is left out; that of `LoadKeyStore`, `Unlock`
and `KeyAudit` is in Model/FcryptOutput.
-/

namespace Verif.Model.KeyStore
open Verif.Go Verif.Model.Util Verif.Model.Public

variable (C : Crypto)

/-- `KeyStoreVersion` (common/store/keystore.go:20). -/
abbrev keyStoreVersion : BitVec 64 := 1

/-- The label "self". -/
abbrev self : Bytes := [115, 101, 108, 102]

/-- `PublicKeyRecord` (common/store/keystore.go:25-58). The code distinguishes nil from empty
only for `Keys`. -/
structure PublicKeyRecord where
  label : Bytes
  version : BitVec 64
  timestamp : BitVec 64
  keys : Option Bytes
  keySignature : Bytes
  keySigner : Bytes
  signatureTime : BitVec 64
  metadata : Option (Map Bytes)

/-- The contents of `Keys`, nil or not. -/
def PublicKeyRecord.keyBytes (r : PublicKeyRecord) : Bytes := r.keys.getD []

/-- The exported fields of `KeyStore` (common/store/keystore.go:62-86): `lockedKey` is the field
`PrivateKey`, as opposed to the unexported `privateKey`. -/
structure KeyFields where
  version : BitVec 64
  timestamp : BitVec 64
  keys : Option (Map (Option PublicKeyRecord))
  lockedKey : Option Bytes
  publicKey : Option Bytes
  exportKey : Option Bytes

/-- `KeyStore` (common/store/keystore.go:62-89). -/
structure KeyStore extends KeyFields where
  privateKey : Option PrivateKey
  locked : Bool

/-- The contents of `PublicKey`, nil or not. -/
def KeyFields.pubBytes (s : KeyFields) : Bytes := s.publicKey.getD []

/-- `s.Keys[label]`: nil if absent, or if nil is stored. -/
def KeyFields.get (s : KeyFields) (label : Bytes) : Option PublicKeyRecord :=
  match s.keys with
  | none => none
  | some m => (m label).join

/-- `Valid(true)` (common/store/keystore.go:236-255). -/
def KeyFields.validQuick (s : KeyFields) : Bool :=
  if s.version ≠ keyStoreVersion then false
  else if s.timestamp = 0 then false
  else if s.keys.isNone then false
  else true

/-- `Valid(false)` (common/store/keystore.go:236-277). -/
def KeyStore.valid (s : KeyStore) : Res Bool :=
  if !s.validQuick then .ok false
  else do
    let keyOk ←
      if !s.locked then
        if !validPriv s.privateKey then pure false
        else do
          let k ← deref s.privateKey
          match ← marshalPublic k.pub with
          | none => pure false
          | some pub => pure (pub == s.pubBytes)
      else pure true
    if !keyOk then pure false
    else
      match s.publicKey with
      | none => pure false
      | some p => pure (unmarshalPublic p).isSome

/-- `Has` (common/store/keystore.go:280-289). -/
def KeyFields.has (s : KeyFields) (label : Bytes) : Bool :=
  if !s.validQuick then false
  else if label = self then true
  else match s.keys with
    | none => false
    | some m => m.has label

/-! ### Verified keys -/

/-- `VerifiedKey` (common/store/keystore.go:340-353). -/
structure VerifiedKey where
  pub : Bytes
  signer : Bytes
  timestamp : BitVec 64
  signature : Bytes

/-- `VerifiedKeyType` (common/store/keystore.go:418): "CRYPTUTIL VERIFIED KEY". -/
def verifiedKeyType : Bytes :=
  [67, 82, 89, 80, 84, 85, 84, 73, 76, 32, 86, 69, 82, 73, 70, 73, 69, 68, 32, 75, 69, 89]

/-- encoding/asn1 for `VerifiedKey`, as a parameter. Marshalling cannot fail for this type;
unmarshalling ignores bytes after the value. -/
structure Asn1 where
  enc : VerifiedKey → Bytes
  dec : Bytes → Option VerifiedKey
  enc_ne : ∀ v, enc v ≠ []
  dec_enc : ∀ v, dec (enc v) = some v

/-- `SignatureData` (common/store/keystore.go:392-400). -/
def VerifiedKey.signatureData (v : VerifiedKey) : Bytes :=
  v.pub ++ v.signer ++ be 8 v.timestamp.toNat

/-- `IsSelfSigned` (common/store/keystore.go:403-415). -/
def VerifiedKey.isSelfSigned (v : VerifiedKey) : Res Bool :=
  if v.pub ≠ v.signer then .ok false
  else match unmarshalPublic v.signer with
    | none => .ok false
    | some signer => verify C (some signer) v.signatureData v.signature

/-- `Serialise` (common/store/keystore.go:375-387). -/
def VerifiedKey.serialise (A : Asn1) (P : Pem) (v : VerifiedKey) : Bytes :=
  P.enc verifiedKeyType (A.enc v)

/-- `ParseVerifiedKey` (common/store/keystore.go:356-372). -/
def parseVerifiedKey (A : Asn1) (P : Pem) (b : Bytes) : Option VerifiedKey :=
  match P.dec b with
  | none => none
  | some (typ, body) => if typ ≠ verifiedKeyType then none else A.dec body

/-! ### Creation and locking -/

/-- `NewPrivateKeyStore` (common/store/keystore.go:92-128). `t1` and `t2` are the two clock
readings. -/
def newPrivateKeyStore (A : Asn1) (P : Pem) (priv : Option PrivateKey) (t1 t2 : BitVec 64) :
    Res (Option KeyStore) :=
  if !validPriv priv then .ok none
  else do
    let k ← deref priv
    match ← marshalPublic k.pub with
    | none => pure none
    | some pub =>
      let vkey : VerifiedKey := { pub := pub, signer := pub, timestamp := t1, signature := [] }
      match ← Public.sign C priv vkey.signatureData with
      | none => pure none
      | some sig =>
        pure (some {
          version := keyStoreVersion, timestamp := t2, keys := some Map.empty
          lockedKey := none, publicKey := some pub
          exportKey := some ({ vkey with signature := sig }.serialise A P)
          privateKey := priv, locked := false })

/-- `Lock` (common/store/keystore.go:149-162). -/
def KeyStore.lock (s : KeyStore) : Res (KeyStore × Bool) := do
  if !(← s.valid) then pure (s, false)
  else if s.locked then pure (s, true)
  else do
    let _ ← zeroPriv s.privateKey
    pure ({ s with privateKey := none, locked := true }, true)

/-- `LockWith` (common/store/keystore.go:166-184). `s.PrivateKey` is assigned before the
success of `LockKey` is looked at: on failure it becomes nil. -/
def KeyStore.lockWith (s : KeyStore) (passphrase : Bytes) (rng : Rng) : Res (KeyStore × Bool × Rng) := do
  if !(← s.valid) then pure (s, false, rng)
  else if s.locked then pure (s, true, rng)
  else do
    match ← lockKey C s.privateKey passphrase rng with
    | (none, rng') => pure ({ s with lockedKey := none }, false, rng')
    | (some box, rng') => do
      let _ ← zeroPriv s.privateKey
      pure ({ s with lockedKey := some box, privateKey := none, locked := true }, true, rng')

/-- `Unlock` (common/store/keystore.go:187-231). -/
def KeyStore.unlock (A : Asn1) (P : Pem) (s : KeyStore) (passphrase : Bytes) (now : BitVec 64) :
    Res (KeyStore × Bool) :=
  if !s.validQuick then .ok (s, false)
  else if !s.locked then .ok (s, true)
  else do
    match ← unlockKey C (s.lockedKey.getD []) passphrase with
    | none => pure (s, false)
    | some priv =>
      match ← marshalPublic priv.pub with
      | none => do
        let _ ← zeroPriv (some priv)
        pure (s, false)
      | some pub =>
        let s := { s with privateKey := some priv, publicKey := some pub, locked := false }
        if s.exportKey.isNone then
          let vkey : VerifiedKey := { pub := pub, signer := pub, timestamp := now, signature := [] }
          match ← Public.sign C s.privateKey vkey.signatureData with
          | none => do
            let (s, _) ← s.lock
            pure (s, false)
          | some sig =>
            pure ({ s with exportKey := some ({ vkey with signature := sig }.serialise A P) }, true)
        else pure (s, true)

/-- Whether `Unlock` prints "Building export key." (common/store/keystore.go:187-209). -/
def KeyStore.builds (s : KeyStore) (passphrase : Bytes) : Bool :=
  if !s.validQuick then false
  else if !s.locked then false
  else
    match unlockKey C (s.lockedKey.getD []) passphrase with
    | .ok (some priv) =>
      match marshalPublic priv.pub with
      | .ok (some _) => s.exportKey.isNone
      | _ => false
    | _ => false

/-! ### Keys -/

/-- `AddKey` (common/store/keystore.go:293-335). `t1`, `t2` are the two clock readings. -/
def KeyStore.addKey (s : KeyStore) (label peer : Bytes) (md : Option (Map Bytes)) (t1 t2 : BitVec 64) :
    Res (KeyStore × Bool) :=
  if !s.validQuick then .ok (s, false)
  else if s.has label then .ok (s, false)
  else if s.locked then .ok (s, false)
  else if (unmarshalPublic peer).isNone then .ok (s, false)
  else do
    let vkey : VerifiedKey := { pub := peer, signer := s.pubBytes, timestamp := t1, signature := [] }
    match ← Public.sign C s.privateKey vkey.signatureData with
    | none => pure (s, false)
    | some sig => do
      let k ← deref s.privateKey
      if !(← Public.verify C k.pub vkey.signatureData sig) then pure (s, false)
      else
        match s.keys with
        | none => .panic -- not reached: the store is valid
        | some m =>
          let r : PublicKeyRecord := {
            label := label, version := 0, timestamp := t2, keys := some peer, keySignature := sig
            keySigner := s.pubBytes, signatureTime := t1, metadata := some (md.getD Map.empty) }
          pure ({ s with keys := some (m.set label (some r)) }, true)

/-- The loop of `FindPublic` (common/store/keystore.go:540-545). The result is the `Label`
field of the record, not the key it is stored under. -/
def findLoop (m : Map (Option PublicKeyRecord)) (pub : Bytes) : List Bytes → Res (Option Bytes)
  | [] => .ok none
  | k :: ks =>
    match m k with
    | none => findLoop m pub ks -- not reached: `k` is a key of the map
    | some none => .panic
    | some (some v) => if pub = v.keyBytes then .ok (some v.label) else findLoop m pub ks

/-- `FindPublic` (common/store/keystore.go:534-548). -/
def KeyFields.findPublic (s : KeyFields) (pub : Bytes) (order : List Bytes) : Res (Option Bytes) :=
  if pub = s.pubBytes then .ok (some self)
  else findLoop (s.keys.getD Map.empty) pub order

/-- `VerifyKeySignature` (common/store/keystore.go:553-591): the label of the signer. -/
def KeyFields.verifyKeySignature (s : KeyFields) (label : Bytes) (order : List Bytes) :
    Res (Option Bytes) :=
  if !s.validQuick then .ok none
  else if label = self then .ok (some self)
  else do
    let rec_ ← deref (s.get label)
    let signer ←
      if rec_.keySigner = s.pubBytes then pure (some (self, s.pubBytes))
      else do
        match ← s.findPublic rec_.keySigner order with
        | none => pure none
        | some signerLabel => do
          let r ← deref (s.get signerLabel)
          pure (some (signerLabel, r.keyBytes))
    match signer with
    | none => pure none
    | some (signerLabel, signerKey) =>
      match unmarshalPublic signerKey with
      | none => pure none
      | some pub =>
        let vkey : VerifiedKey := {
          pub := rec_.keyBytes, signer := signerKey, timestamp := rec_.signatureTime
          signature := rec_.keySignature }
        if ← Public.verify C (some pub) vkey.signatureData vkey.signature then pure (some signerLabel)
        else pure none

/-- The loop of `VerifyChain` (common/store/keystore.go:609-618), at most `fuel` turns; the
i-th turn sees the iteration order `orders i`. `none` means the loop is still running. -/
def KeyFields.chainLoop (s : KeyFields) (orders : Nat → List Bytes) : Nat → Nat → Bytes → Option (Res Bool)
  | 0, _, _ => none
  | fuel + 1, i, label =>
    match s.verifyKeySignature C label (orders i) with
    | .panic => some .panic
    | .ok none => some (.ok false)
    | .ok (some signerLabel) =>
      if signerLabel = self then some (.ok true) else s.chainLoop orders fuel (i + 1) signerLabel

/-- `VerifyChain` (common/store/keystore.go:598-619). -/
def KeyFields.verifyChain (s : KeyFields) (orders : Nat → List Bytes) (fuel : Nat) (label : Bytes) :
    Option (Res Bool) :=
  if !s.validQuick || !s.has label then some (.ok false)
  else if label = self then some (.ok true)
  else s.chainLoop C orders fuel 0 label

/-- The loop of `KeyAudit` (common/store/keystore.go:630-635). -/
def KeyFields.auditLoop (s : KeyFields) (orders : Bytes → Nat → List Bytes) (fuel : Nat) :
    List Bytes → Option (Res Bool)
  | [] => some (.ok true)
  | l :: ls =>
    match s.verifyChain C (orders l) fuel l with
    | none => none
    | some .panic => some .panic
    | some (.ok false) => some (.ok false)
    | some (.ok true) => s.auditLoop orders fuel ls

/-- `KeyAudit` (common/store/keystore.go:625-637); `order` is the order of its own loop,
`orders l` those of the walk from label `l`. -/
def KeyFields.keyAudit (s : KeyFields) (order : List Bytes) (orders : Bytes → Nat → List Bytes) (fuel : Nat) :
    Option (Res Bool) :=
  if !s.validQuick then some (.ok false) else s.auditLoop C orders fuel order

/-- The part of `ExportVerified` after the chain is checked (common/store/keystore.go:432-459). -/
def KeyStore.exportBody (A : Asn1) (P : Pem) (s : KeyStore) (label : Bytes) (now : BitVec 64) :
    Res (Option Bytes) :=
  if label = self ∧ s.exportKey ≠ none then .ok s.exportKey
  else do
    let pub ← if label = self then pure s.pubBytes else do
      let r ← deref (s.get label)
      pure r.keyBytes
    let vkey : VerifiedKey := { pub := pub, signer := s.pubBytes, timestamp := now, signature := [] }
    match ← Public.sign C s.privateKey vkey.signatureData with
    | none => pure none
    | some sig => pure (some ({ vkey with signature := sig }.serialise A P))

/-- `ExportVerified` (common/store/keystore.go:423-460). -/
def KeyStore.exportVerified (A : Asn1) (P : Pem) (s : KeyStore) (label : Bytes)
    (orders : Nat → List Bytes) (fuel : Nat) (now : BitVec 64) : Option (Res (Option Bytes)) :=
  if !s.validQuick || !s.has label || s.locked then some (.ok none)
  else match s.verifyChain C orders fuel label with
    | none => none
    | some .panic => some .panic
    | some (.ok false) => some (.ok none)
    | some (.ok true) => some (s.exportBody C A P label now)

/-- `ImportVerified` (common/store/keystore.go:478-531); `o1`, `o2` are the iteration orders of
the two searches. -/
def KeyStore.importVerified (A : Asn1) (s : KeyStore) (label signedKey : Bytes) (o1 o2 : List Bytes)
    (now : BitVec 64) : Res (KeyStore × Bool) :=
  if !s.validQuick || s.has label then .ok (s, false)
  else match A.dec signedKey with
    | none => .ok (s, false)
    | some vkey => do
      let signer ←
        if vkey.signer = s.pubBytes then pure (some (self, s.publicKey))
        else do
          match ← s.findPublic vkey.signer o1 with
          | none => pure none
          | some signerLabel => do
            let r ← deref (s.get signerLabel)
            pure (some (signerLabel, r.keys))
      match signer with
      | none => pure (s, false)
      | some (signerLabel, pub) =>
        if signerLabel = [] ∨ pub = none then pure (s, false)
        else do
          match ← s.verifyKeySignature C signerLabel o2 with
          | none => pure (s, false)
          | some _ =>
            match unmarshalPublic (pub.getD []) with
            | none => pure (s, false)
            | some pubkey => do
              if !(← Public.verify C (some pubkey) vkey.signatureData vkey.signature) then pure (s, false)
              else
                match s.keys with
                | none => .panic -- not reached: the store is valid
                | some m =>
                  let r : PublicKeyRecord := {
                    label := label, version := keyStoreVersion, timestamp := now, keys := some vkey.pub
                    keySignature := vkey.signature, keySigner := pub.getD []
                    signatureTime := vkey.timestamp, metadata := none }
                  pure ({ s with keys := some (m.set label (some r)) }, true)

/-- `ImportVerifiedKey` (common/store/keystore.go:463-474). -/
def KeyStore.importVerifiedKey (A : Asn1) (P : Pem) (s : KeyStore) (label signedKey : Bytes)
    (o1 o2 : List Bytes) (now : BitVec 64) : Res (KeyStore × Bool) :=
  match P.dec signedKey with
  | none => .ok (s, false)
  | some (typ, body) =>
    if typ ≠ verifiedKeyType then .ok (s, false) else s.importVerified C A label body o1 o2 now

/-! ### Messages -/

/-- `getPublic` (common/store/keystore.go:639-659). -/
def KeyStore.getPublic (s : KeyStore) (label : Bytes) : Res (Option PublicKey) :=
  if !s.has label then .ok none
  else if label = self then
    if s.locked then .ok (unmarshalPublic s.pubBytes)
    else do
      let k ← deref s.privateKey
      pure k.pub
  else do
    let r ← deref (s.get label)
    pure (unmarshalPublic r.keyBytes)

/-- `EncryptTo` (common/store/keystore.go:662-680). -/
def KeyStore.encryptTo (s : KeyStore) (label msg : Bytes) (rng : Rng) : Res (Option Bytes × Rng) :=
  if !s.validQuick || !s.has label then .ok (none, rng)
  else do
    let b ← if label = self then pure s.pubBytes else do
      let r ← deref (s.get label)
      pure r.keyBytes
    match unmarshalPublic b with
    | none => pure (none, rng)
    | some pub => Public.encrypt C (some pub) msg rng

/-- `Decrypt` (common/store/keystore.go:683-689). -/
def KeyStore.decrypt (s : KeyStore) (msg : Bytes) : Res (Option Bytes) := do
  if !(← s.valid) || s.locked then pure none
  else Public.decrypt C s.privateKey msg

/-- `Sign` (common/store/keystore.go:692-698). -/
def KeyStore.sign (s : KeyStore) (msg : Bytes) : Res (Option Bytes) := do
  if !(← s.valid) || s.locked then pure none
  else Public.sign C s.privateKey msg

/-- `Verify` (common/store/keystore.go:702-715). -/
def KeyStore.verify (s : KeyStore) (label msg sig : Bytes) : Res Bool :=
  if !s.validQuick then .ok false
  else if !s.has label then .ok false
  else do
    match ← s.getPublic label with
    | none => pure false
    | some pub => Public.verify C (some pub) msg sig

/-- `EncryptAndSignTo` (common/store/keystore.go:718-731). -/
def KeyStore.encryptAndSignTo (s : KeyStore) (label msg : Bytes) (rng : Rng) :
    Res (Option Bytes × Rng) := do
  if !(← s.valid) || s.locked then pure (none, rng)
  else if !s.has label then pure (none, rng)
  else do
    match ← s.getPublic label with
    | none => pure (none, rng)
    | some pub => encryptAndSign C s.privateKey (some pub) msg rng

/-- `DecryptAndVerify` (common/store/keystore.go:735-748). -/
def KeyStore.decryptAndVerify (s : KeyStore) (label msg : Bytes) : Res (Option Bytes) := do
  if !(← s.valid) || s.locked then pure none
  else if !s.has label then pure none
  else do
    match ← s.getPublic label with
    | none => pure none
    | some pub => Public.decryptAndVerify C s.privateKey (some pub) msg

/-! ### Files -/

/-- Every iterated map is finite. -/
def KeyFields.Finite (f : KeyFields) : Prop :=
  ∀ m, f.keys = some m → m.Finite ∧ ∀ k r md, m k = some (some r) → r.metadata = some md → md.Finite

/-- All strings are UTF-8. -/
def KeyFields.Clean (f : KeyFields) : Prop :=
  ∀ m, f.keys = some m → ∀ k v, m k = some v → ValidUtf8 k ∧
    ∀ r, v = some r → ValidUtf8 r.label ∧
      ∀ md j x, r.metadata = some md → md j = some x → ValidUtf8 j ∧ ValidUtf8 x

/-- `json.Marshal` and `json.Unmarshal` for `KeyStore`, as a parameter: UTF-8 strings come back as
they were, all strings that come out of `json.Unmarshal` are UTF-8, and all maps are finite. -/
structure KeyJson where
  enc : KeyFields → Bytes
  dec : Bytes → Option KeyFields
  dec_enc : ∀ f, f.Finite → f.Clean → dec (enc f) = some f
  dec_clean : ∀ b f, dec b = some f → f.Clean
  dec_finite : ∀ b f, dec b = some f → f.Finite

/-- What `LoadKeyStore` does with the file contents (common/store/keystore.go:768-785). -/
def loadData (J : KeyJson) (data : Bytes) : Option KeyStore :=
  match J.dec data with
  | none => none
  | some f =>
    let f := { f with keys := some (f.keys.getD Map.empty) }
    let s : KeyStore := { f with privateKey := none, locked := f.lockedKey.isSome }
    if !s.validQuick then none else some s

/-- `LoadKeyStore` (common/store/keystore.go:753-786). `file` is the contents, or `none` if the
file does not exist; other read errors are left out. -/
def loadKeyStore (A : Asn1) (P : Pem) (J : KeyJson) (file : Option Bytes) (orNew : Bool) (rng : Rng)
    (t1 t2 : BitVec 64) : Res (Option KeyStore × Rng) :=
  match file with
  | some data => .ok (loadData J data, rng)
  | none =>
    if orNew then do
      match ← generateKey C rng with
      | (none, rng') => pure (none, rng')
      | (some priv, rng') => do
        let s ← newPrivateKeyStore C A P (some priv) t1 t2
        pure (s, rng')
    else .ok (none, rng)

/-- `DumpKeyStore` (common/store/keystore.go:790-797): the bytes and what the store then is.
The result of `Lock` is ignored. -/
def dumpKeyStore (J : KeyJson) (s : KeyStore) : Res (Bytes × KeyStore) := do
  let (s, _) ← s.lock
  pure (J.enc s.toKeyFields, s)

/-- `Dump` (common/store/keystore.go:130-140): only exported fields are copied. -/
def KeyStore.dump (J : KeyJson) (s : KeyStore) : Bytes := J.enc s.toKeyFields

end Verif.Model.KeyStore
