import Verif.Crypto
import Verif.Go.Fs
import Verif.Model.Util
/-!
Model of common/secret/crypto.go.
-/

namespace Verif.Model.Secret
open Verif.Go Verif.Model.Util

variable (C : Crypto)

/-- common/secret/crypto.go:26-28. -/
abbrev keySize : Nat := 32
@[inherit_doc keySize] abbrev saltSize : Nat := 32
@[inherit_doc keySize] abbrev nonceSize : Nat := 24

/-- `ScryptStandard`, `ScryptInteractive` (common/secret/crypto.go:17-22). A mode is an int. -/
abbrev scryptStandard : Int := 0
@[inherit_doc scryptStandard] abbrev scryptInteractive : Int := 1

/-- `scryptParams` (common/secret/crypto.go:34-38). -/
structure ScryptParams where
  N : Nat
  r : Nat
  p : Nat
deriving DecidableEq, Repr

/-- `scryptMode[m]` (common/secret/crypto.go:41-49); a missing key gives the zero struct. -/
def scryptMode (m : Int) : ScryptParams :=
  if m = scryptStandard then ⟨1048576, 8, 2⟩
  else if m = scryptInteractive then ⟨16384, 8, 1⟩
  else ⟨0, 0, 0⟩

/-- `scrypt.Key` (golang.org/x/crypto/scrypt): refuses N ≤ 1, N not a power of two and
over-large parameters (64-bit int). -/
def scryptKey (pass salt : Bytes) (N r p keyLen : Nat) : Option Bytes :=
  if N ≤ 1 ∨ N &&& (N - 1) ≠ 0 then none
  else if r * p ≥ 2 ^ 30 ∨ r > (2 ^ 63 - 1) / 128 / p ∨ r > (2 ^ 63 - 1) / 256 ∨
      N > (2 ^ 63 - 1) / 128 / r then none
  else some (C.scrypt pass salt N r p keyLen)

/-- `GenerateKey` (common/secret/crypto.go:54-64). -/
def generateKey (rng : Rng) : Option Bytes × Rng :=
  match randBytes rng keySize with
  | (none, rng') => (none, rng')
  | (some rb, rng') => if rb.length ≠ keySize then (none, rng') else (some (copyInto keySize rb), rng')

/-- `DeriveKeyStrength` (common/secret/crypto.go:68-79). -/
def deriveKeyStrength (pass salt : Bytes) (m : Int) : Option Bytes :=
  let s := scryptMode m
  match scryptKey C pass salt s.N s.r s.p keySize with
  | none => none
  | some rawKey => some (copyInto keySize rawKey)

/-- `DeriveKey` (common/secret/crypto.go:83-85). -/
def deriveKey (pass salt : Bytes) : Option Bytes := deriveKeyStrength C pass salt scryptStandard

/-- `secretbox.Seal` with a key pointer: nil is dereferenced. -/
def sealPtr (key : Option Bytes) (nonce msg : Bytes) : Res Bytes :=
  match key with
  | none => .panic
  | some k => .ok (C.sealBox k nonce msg)

/-- `secretbox.Open` with a key pointer: boxes shorter than the overhead are refused first. -/
def openPtr (key : Option Bytes) (nonce box : Bytes) : Res (Option Bytes) :=
  if box.length < 16 then .ok none
  else match key with
    | none => .panic
    | some k => .ok (C.openBox k nonce box)

/-- `Encrypt` (common/secret/crypto.go:89-99). `key` is a pointer. `none` is `nil, false`. -/
def encrypt (key : Option Bytes) (msg : Bytes) (rng : Rng) : Res (Option Bytes × Rng) :=
  match newNonce rng with
  | (none, rng') => .ok (none, rng')
  | (some nonce, rng') => do
    let box ← sealPtr C key nonce msg
    pure (some (copyInto nonceSize nonce ++ box), rng')

/-- `Decrypt` (common/secret/crypto.go:103-110). -/
def decrypt (key : Option Bytes) (ct : Bytes) : Res (Option Bytes) :=
  if ct.length < nonceSize then .ok none
  else
    let nonce := copyInto nonceSize ct
    openPtr C key nonce (ct.drop nonceSize)

/-- Error returns of `DecryptFile`. -/
inductive FileErr where
  | read
  | decrypt
deriving DecidableEq, Repr

/-- `DecryptFile` (common/secret/crypto.go:114-129). A missing file is the only read error
modelled. `data[:32]` and `data[32:]` on a shorter slice: the second always panics. -/
def decryptFile (fs : Fs) (filename : Path) (pass : Bytes) : Res (Except FileErr Bytes) :=
  match fs filename with
  | none => .ok (.error .read)
  | some data =>
    if data.length < saltSize then .panic
    else do
      let salt := data.take saltSize
      let data := data.drop saltSize
      let key := deriveKey C pass salt
      match ← decrypt C key data with
      | none => pure (.error .decrypt)
      | some m => pure (.ok m)

/-- What `EncryptFile` leaves behind. -/
structure FileOut where
  fs : Fs
  /-- the error is nil -/
  ok : Bool
  /-- the caller's plaintext buffer -/
  encoded : Bytes
  rng : Rng

/-- `EncryptFile` (common/secret/crypto.go:132-151). `o` is what the disk does. The deferred
`Zero` runs once the salt was drawn. -/
def encryptFile (o : WriteOutcome) (fs : Fs) (filename : Path) (pass encoded : Bytes) (rng : Rng) :
    Res FileOut :=
  match randBytes rng saltSize with
  | (none, rng') => .ok ⟨fs, false, encoded, rng'⟩
  | (some salt, rng') => do
    let key := deriveKey C pass salt
    match ← encrypt C key encoded rng' with
    | (none, rng'') => pure ⟨fs, false, zero encoded, rng''⟩
    | (some data, rng'') =>
      let (fs', ok) := writeFile o fs filename (salt ++ data)
      pure ⟨fs', ok, zero encoded, rng''⟩

end Verif.Model.Secret
