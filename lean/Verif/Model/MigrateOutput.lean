import Verif.Model.Migrate
import Verif.Go.Strings
/-!
What cmd/migrate-store prints on standard output, beside the model of what it does in Model/Migrate. Standard error and what
package readpass prints at its prompt is left out.
-/

namespace Verif.Model.MigrateOutput
open Verif Verif.Go Verif.Model.Util Verif.Model.Migrate

variable (C : Crypto)

/-- `migrateStore` (cmd/migrate-store/migrate-store.go:16-37). -/
def migrateText (w : World) (path : Path) : Bytes :=
  match w.term.read.1 with
  | none => []
  | some pass =>
    match Legacy.decryptFile C w.fs path pass with
    | .ok (.ok blob) =>
      ascii "[+] Decrypted " ++ path ++ ascii ".\n" ++
      match Secret.encryptFile C (w.disk 0) w.fs path pass blob w.rng with
      | .ok out => if out.ok then ascii "[+] Migrated " ++ path ++ ascii ".\n" else []
      | .panic => []
    | _ => []

/-- `main` (cmd/migrate-store/migrate-store.go:39-49). -/
def mainText (w : World) : List Path → Bytes
  | [] => []
  | path :: paths =>
    migrateText C w path ++
    match migrateStore C w path with
    | .ok (true, w) => mainText w paths
    | _ => []

end Verif.Model.MigrateOutput
