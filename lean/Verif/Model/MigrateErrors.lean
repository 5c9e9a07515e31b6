import Verif.Model.Migrate
import Verif.Model.SecretsErrors
/-!
What cmd/migrate-store writes to standard error, beside the model of what it does in Model/Migrate: a list with the
text of every call of `util.Errorf`, in order. Where the code crashes, what the runtime then writes is left out.
-/

namespace Verif.Model.MigrateErrors
open Verif Verif.Go Verif.Model.Util Verif.Model.Migrate
open Verif.Model.SecretsErrors (errorf Texts)

variable (T : Texts) (C : Crypto)

/-- `legacy.DecryptFile` (cmd/migrate-store/legacy/crypto.go:89-104): the text of its error. -/
def decryptErr (path : Path) : Secret.FileErr → Bytes
  | .read => T.read path
  | .decrypt => ascii "password: failed to decrypt password store"

/-- `secret.EncryptFile` (common/secret/crypto.go:132-151): the text of its error, if there is one. -/
def encryptErr (path : Path) (pass encoded : Bytes) (rng : Rng) : Bytes :=
  match randBytes rng Secret.saltSize with
  | (none, _) => ascii "password: failed to generate new salt"
  | (some salt, rng) =>
    match Secret.encrypt C (Secret.deriveKey C pass salt) encoded rng with
    | .ok (none, _) => ascii "password: failed to encrypt data"
    | _ => T.write path

/-- `migrateStore` (cmd/migrate-store/migrate-store.go:16-37). -/
def migrateErr (w : World) (path : Path) : List Bytes :=
  match w.term.read.1 with
  | none => [errorf T.prompt]
  | some pass =>
    match Legacy.decryptFile C w.fs path pass with
    | .panic => []
    | .ok (.error e) => [errorf (decryptErr T path e)]
    | .ok (.ok blob) =>
      match Secret.encryptFile C (w.disk 0) w.fs path pass blob w.rng with
      | .panic => []
      | .ok out => if out.ok then [] else [errorf (encryptErr T C path pass blob w.rng)]

/-- `main` (cmd/migrate-store/migrate-store.go:39-49). -/
def mainErr (w : World) : List Path → List Bytes
  | [] => []
  | path :: paths =>
    migrateErr T C w path ++
    match migrateStore C w path with
    | .ok (true, w) => mainErr w paths
    | _ => []

end Verif.Model.MigrateErrors
