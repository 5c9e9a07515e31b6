import Verif.Model.Secret
import Verif.Model.Tlv
import Verif.Go.Pem
/-!
Model of common/public/crypto.go. Pointers that may be nil are `Option`s; a `*[n]byte`
is an `Option` of its bytes (well-typed values have n of them, see `WT`).
-/

namespace Verif.Model.Public
open Verif.Go Verif.Model.Util Verif.Model.Tlv

variable (C : Crypto)

/-- `PublicKey` (common/public/crypto.go:169-172). -/
structure PublicKey where
  E : Option Bytes
  V : Option Bytes
deriving DecidableEq, Repr

/-- `PrivateKey` (common/public/crypto.go:30-34); the embedded pointer is `pub`. -/
structure PrivateKey where
  D : Option Bytes
  S : Option Bytes
  pub : Option PublicKey
deriving DecidableEq, Repr

/-- Every non-nil array has the size its Go type says. -/
def PublicKey.WT (k : PublicKey) : Prop :=
  (∀ e, k.E = some e → e.length = 32) ∧ (∀ v, k.V = some v → v.length = 32)

@[inherit_doc PublicKey.WT]
def PrivateKey.WT (k : PrivateKey) : Prop :=
  (∀ d, k.D = some d → d.length = 32) ∧ (∀ s, k.S = some s → s.length = 64) ∧
  (∀ p, k.pub = some p → p.WT)

/-- `PublicKey.Valid` (common/public/crypto.go:175-184). -/
def validPub : Option PublicKey → Bool
  | none => false
  | some p => if p.E.isNone then false else if p.V.isNone then false else true

/-- `PrivateKey.Valid` (common/public/crypto.go:37-48). -/
def validPriv : Option PrivateKey → Bool
  | none => false
  | some k => if !validPub k.pub then false else if k.D.isNone then false
      else if k.S.isNone then false else true

/-- Dereference a pointer. -/
def deref (p : Option α) : Res α :=
  match p with
  | none => .panic
  | some a => .ok a

/-- `PrivateKey.Zero` (common/public/crypto.go:52-57): `priv.D[:]` of nil panics. -/
def zeroPriv (k : Option PrivateKey) : Res PrivateKey := do
  let k ← deref k
  let _ ← deref k.D
  let _ ← deref k.S
  pure { k with D := none, S := none }

/-- `MarshalPrivate` (common/public/crypto.go:67-78). `none` is the error. -/
def marshalPrivate (k : Option PrivateKey) : Res (Option Bytes) :=
  if !validPriv k then .ok none
  else do
    let k ← deref k
    let p ← deref k.pub
    let d ← deref k.D
    let s ← deref k.S
    let e ← deref p.E
    let v ← deref p.V
    let enc : Encoder := {}
    let enc := (enc.encode (.val (.bytes d))).1
    let enc := (enc.encode (.val (.bytes s))).1
    let enc := (enc.encode (.val (.bytes e))).1
    let enc := (enc.encode (.val (.bytes v))).1
    pure (some enc.bytes)

/-- `err := dec.Decode(&b)` for a `[]byte` variable: `none` on error, else the decoder and
the variable. Byte targets never look at the spare capacity, so it is left empty. -/
def decodeBytes (d : Decoder) (cur : Bytes) : Res (Option (Decoder × Bytes)) := do
  match ← d.decode (.ptr (.bytes cur)) with
  | ⟨d', .ptr (.bytes b), none⟩ => pure (some (d', b))
  | _ => pure none

/-- `UnmarshalPrivate` (common/public/crypto.go:121-166). -/
def unmarshalPrivate (b : Bytes) : Res (Option PrivateKey) := do
  match ← decodeBytes (newDecoder b) [] with
  | none => pure none
  | some (dec, d) =>
  match ← decodeBytes dec [] with
  | none => pure none
  | some (dec, s) =>
  match ← decodeBytes dec [] with
  | none => pure none
  | some (dec, e) =>
  match ← decodeBytes dec [] with
  | none => pure none
  | some (_, v) =>
  pure (some {
    D := some (copyInto 32 d)
    S := some (copyInto 64 s)
    pub := some { E := some (copyInto 32 e), V := some (copyInto 32 v) } })

/-- `MarshalPublic` (common/public/crypto.go:187-196). -/
def marshalPublic (k : Option PublicKey) : Res (Option Bytes) :=
  if !validPub k then .ok none
  else do
    let k ← deref k
    let e ← deref k.E
    let v ← deref k.V
    pure (some (e ++ v))

/-- `UnmarshalPublic` (common/public/crypto.go:201-215). -/
def unmarshalPublic (b : Bytes) : Option PublicKey :=
  if b.length ≠ 64 then none
  else some { E := some (copyInto 32 b), V := some (copyInto 32 (b.drop 32)) }

/-- `box.GenerateKey` (nacl/box): 32 PRNG bytes are the private key. Returns (public, private). -/
def boxGenerate (rng : Rng) : Option (Bytes × Bytes) × Rng :=
  match readFull rng 32 with
  | (none, rng') => (none, rng')
  | (some d, rng') => (some (C.base d, d), rng')

/-- `ed25519.GenerateKey` (crypto/ed25519): 32 PRNG bytes are the seed; the private key is
seed and public key. Returns (public, private). -/
def edGenerate (rng : Rng) : Option (Bytes × Bytes) × Rng :=
  match readFull rng 32 with
  | (none, rng') => (none, rng')
  | (some s, rng') => (some (C.edPub s, s ++ C.edPub s), rng')

/-- `copy(p[:], src)` for a pointer `p` to an n-byte array: slicing a nil pointer panics. -/
def copyPtr (n : Nat) (p : Option Bytes) (src : Bytes) : Res (Option Bytes) := do
  let old ← deref p
  pure (some (src.take n ++ old.drop src.length))

/-- `GenerateKey` (common/public/crypto.go:219-238). `priv.V` and `priv.S` are never
allocated before lines 234 and 235 copy into them. -/
def generateKey (rng : Rng) : Res (Option PrivateKey × Rng) :=
  let priv : PrivateKey := { D := none, S := none, pub := none }
  let pk : PublicKey := { E := none, V := none }
  match boxGenerate C rng with
  | (none, rng') => .ok (none, rng')
  | (some (e, d), rng') =>
    let priv := { priv with D := some d }
    let pk := { pk with E := some e }
    match edGenerate C rng' with
    | (none, rng'') => .ok (none, rng'')
    | (some (v, s), rng'') => do
      let v' ← copyPtr 32 pk.V v
      let s' ← copyPtr 64 priv.S s
      pure (some { priv with S := s', pub := some { pk with V := v' } }, rng'')

/-- `encrypt` (common/public/crypto.go:248-266): `nonce[:]` of a nil nonce panics. -/
def encryptRaw (pub : Option PublicKey) (msg : Bytes) (rng : Rng) : Res (Option Bytes × Rng) :=
  if !validPub pub then .ok (none, rng)
  else
    match boxGenerate C rng with
    | (none, rng') => .ok (none, rng')
    | (some (epub, epriv), rng') => do
      let (nonce, rng'') := newNonce rng'
      let n ← deref nonce
      let p ← deref pub
      let e ← deref p.E
      pure (some (epub ++ n ++ C.sealBox (C.shared e epriv) n msg), rng'')

/-- `Encrypt` (common/public/crypto.go:242-246). -/
def encrypt (pub : Option PublicKey) (msg : Bytes) (rng : Rng) : Res (Option Bytes × Rng) :=
  encryptRaw C pub ((({} : Encoder).encode (.val (.bytes msg))).1).bytes rng

/-- `decrypt` (common/public/crypto.go:294-310). -/
def decryptRaw (priv : Option PrivateKey) (enc : Bytes) : Res (Option Bytes) :=
  if !validPriv priv then .ok none
  else if enc.length < 32 + 24 + 16 then .ok none
  else do
    let pub := copyInto 32 (enc.take 32)
    let nonce := copyInto 24 (enc.drop 32)
    let k ← deref priv
    let d ← deref k.D
    pure (C.openBox (C.shared pub d) nonce (enc.drop 56))

/-- `Decrypt` (common/public/crypto.go:272-292). -/
def decrypt (priv : Option PrivateKey) (enc : Bytes) : Res (Option Bytes) := do
  match ← decryptRaw C priv enc with
  | none => pure none
  | some out =>
    match ← decodeBytes (newDecoder out) [] with
    | none => pure none
    | some (dec, m) => if dec.length ≠ 0 then pure none else pure (some m)

/-- `Sign` (common/public/crypto.go:313-319). -/
def sign (priv : Option PrivateKey) (msg : Bytes) : Res (Option Bytes) :=
  if !validPriv priv then .ok none
  else do
    let k ← deref priv
    let s ← deref k.S
    pure (some (C.sign s msg))

/-- `Verify` (common/public/crypto.go:323-335). -/
def verify (pub : Option PublicKey) (msg sig : Bytes) : Res Bool :=
  if !validPub pub then .ok false
  else if sig.length ≠ 64 then .ok false
  else do
    let signature := copyInto 64 sig
    let p ← deref pub
    let v ← deref p.V
    pure (C.verify v msg signature)

/-- `EncryptAndSign` (common/public/crypto.go:339-354). -/
def encryptAndSign (priv : Option PrivateKey) (pub : Option PublicKey) (msg : Bytes) (rng : Rng) :
    Res (Option Bytes × Rng) := do
  match ← sign C priv msg with
  | none => pure (none, rng)
  | some sig =>
    let enc : Encoder := {}
    let enc := (enc.encode (.val (.bytes msg))).1
    let enc := (enc.encode (.val (.bytes sig))).1
    encryptRaw C pub enc.bytes rng

/-- `DecryptAndVerify` (common/public/crypto.go:357-400). -/
def decryptAndVerify (priv : Option PrivateKey) (pub : Option PublicKey) (enc : Bytes) :
    Res (Option Bytes) :=
  if !validPriv priv || !validPub pub then .ok none
  else if enc.length < 72 then .ok none
  else do
    match ← decryptRaw C priv enc with
    | none => pure none
    | some out =>
    match ← decodeBytes (newDecoder out) [] with
    | none => pure none
    | some (dec, m) =>
    match ← decodeBytes dec [] with
    | none => pure none
    | some (dec, s) =>
    if dec.length ≠ 0 then pure none
    else if s.length ≠ 64 then pure none
    else
      if ← verify C pub m s then pure (some m) else pure none

/-- `LockKey` (common/public/crypto.go:404-426). The deferred `key[:]` would panic on a nil
key. -/
def lockKey (priv : Option PrivateKey) (pass : Bytes) (rng : Rng) : Res (Option Bytes × Rng) := do
  match ← marshalPrivate priv with
  | none => pure (none, rng)
  | some out =>
    match randBytes rng 32 with
    | (none, rng') => pure (none, rng')
    | (some salt, rng') =>
      let key := Secret.deriveKey C pass salt
      let _ ← deref key
      match ← Secret.encrypt C key out rng' with
      | (none, rng'') => pure (none, rng'')
      | (some out, rng'') => pure (some (salt ++ out), rng'')

/-- `UnlockKey` (common/public/crypto.go:429-450). -/
def unlockKey (locked pass : Bytes) : Res (Option PrivateKey) :=
  if locked.length ≤ 32 then .ok none
  else do
    let salt := locked.take 32
    let locked := locked.drop 32
    let key := Secret.deriveKey C pass salt
    let _ ← deref key
    match ← Secret.decrypt C key locked with
    | none => pure none
    | some out => unmarshalPrivate out

/-- `PrivateType` (common/public/crypto.go:22): "CRYPTUTIL PRIVATE KEY". -/
def privateType : Bytes :=
  [67, 82, 89, 80, 84, 85, 84, 73, 76, 32, 80, 82, 73, 86, 65, 84, 69, 32, 75, 69, 89]

/-- `ExportPrivate` (common/public/crypto.go:82-96). -/
def exportPrivate (P : Pem) (priv : Option PrivateKey) (pass : Bytes) (rng : Rng) :
    Res (Option Bytes × Rng) := do
  match ← lockKey C priv pass rng with
  | (none, rng') => pure (none, rng')
  | (some locked, rng') => pure (some (P.enc privateType locked), rng')

/-- `ImportPrivate` (common/public/crypto.go:100-116). -/
def importPrivate (P : Pem) (enc pass : Bytes) : Res (Option PrivateKey) :=
  match P.dec enc with
  | none => .ok none
  | some (typ, body) => if typ ≠ privateType then .ok none else unlockKey C body pass

/-- `KeyExchange` (common/public/crypto.go:454-459). -/
def keyExchange (priv : Option PrivateKey) (peer : Option PublicKey) : Res Bytes := do
  let p ← deref peer
  let e ← deref p.E
  let k ← deref priv
  let d ← deref k.D
  pure (C.shared e d)

end Verif.Model.Public
