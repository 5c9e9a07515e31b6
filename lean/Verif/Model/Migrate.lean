import Verif.Model.Secret
import Verif.Go.Term
/-!
Model of cmd/migrate-store: the legacy package and the program.
-/

namespace Verif.Model.Migrate
open Verif Verif.Go Verif.Model.Util

variable (C : Crypto)

namespace Legacy

/-- cmd/migrate-store/legacy/crypto.go:20-24. -/
abbrev keySize : Nat := 32
@[inherit_doc keySize] abbrev saltSize : Nat := 32
@[inherit_doc keySize] abbrev nonceSize : Nat := 24

/-- `DeriveKey` (cmd/migrate-store/legacy/crypto.go:42-60). -/
def deriveKey (pass salt : Bytes) : Option Bytes :=
  match Secret.scryptKey C pass salt 32768 8 4 keySize with
  | none => none
  | some rawKey => some (copyInto keySize rawKey)

/-- `Encrypt` (cmd/migrate-store/legacy/crypto.go:64-74). -/
def encrypt (key : Option Bytes) (msg : Bytes) (rng : Rng) : Res (Option Bytes × Rng) :=
  match newNonce rng with
  | (none, rng') => .ok (none, rng')
  | (some nonce, rng') => do
    let box ← Secret.sealPtr C key nonce msg
    pure (some (copyInto nonceSize nonce ++ box), rng')

/-- `Decrypt` (cmd/migrate-store/legacy/crypto.go:78-85). -/
def decrypt (key : Option Bytes) (ct : Bytes) : Res (Option Bytes) :=
  if ct.length < nonceSize then .ok none
  else Secret.openPtr C key (copyInto nonceSize ct) (ct.drop nonceSize)

/-- `DecryptFile` (cmd/migrate-store/legacy/crypto.go:89-104); as in Model/Secret a missing file
is the only read error, and a file shorter than the salt makes a slice expression panic. -/
def decryptFile (fs : Fs) (filename : Path) (pass : Bytes) : Res (Except Secret.FileErr Bytes) :=
  match fs filename with
  | none => .ok (.error .read)
  | some data =>
    if data.length < saltSize then .panic
    else do
      match ← decrypt C (deriveKey C pass (data.take saltSize)) (data.drop saltSize) with
      | none => pure (.error .decrypt)
      | some m => pure (.ok m)

/-- `EncryptFile` (cmd/migrate-store/legacy/crypto.go:107-126): how the files to be migrated were
made. -/
def encryptFile (o : WriteOutcome) (fs : Fs) (filename : Path) (pass encoded : Bytes) (rng : Rng) :
    Res Secret.FileOut :=
  match randBytes rng saltSize with
  | (none, rng') => .ok ⟨fs, false, encoded, rng'⟩
  | (some salt, rng') => do
    match ← encrypt C (deriveKey C pass salt) encoded rng' with
    | (none, rng'') => pure ⟨fs, false, zero encoded, rng''⟩
    | (some data, rng'') =>
      let (fs', ok) := writeFile o fs filename (salt ++ data)
      pure ⟨fs', ok, zero encoded, rng''⟩

end Legacy

/-- What the program runs in. `disk n` says how the n-th write from now will go. -/
structure World where
  term : Term
  rng : Rng
  fs : Fs
  disk : Nat → WriteOutcome

/-- `migrateStore` (cmd/migrate-store/migrate-store.go:16-37); `false` stands for `os.Exit(1)`. -/
def migrateStore (w : World) (path : Path) : Res (Bool × World) :=
  let (pass, t) := w.term.read
  let w := { w with term := t }
  match pass with
  | none => .ok (false, w)
  | some pass => do
    match ← Legacy.decryptFile C w.fs path pass with
    | .error _ => pure (false, w)
    | .ok blob =>
      let out ← Secret.encryptFile C (w.disk 0) w.fs path pass blob w.rng
      pure (out.ok, { w with fs := out.fs, rng := out.rng, disk := fun n => w.disk (n + 1) })

/-- `main` (cmd/migrate-store/migrate-store.go:39-49): whether the exit status is 0. -/
def main (w : World) : List Path → Res (Bool × World)
  | [] => .ok (true, w)
  | path :: paths => do
    match ← migrateStore C w path with
    | (false, w) => pure (false, w)
    | (true, w) => main w paths

end Verif.Model.Migrate
