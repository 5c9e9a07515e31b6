import Verif.Go.Fs
import Verif.Model.Fcrypt
import Verif.Model.Login
import Verif.Model.Otpc
import Verif.Model.Journal
import Verif.Model.Secret
/-!
The permission bits of the files that the programs write. `os.OpenFile` with `O_CREATE` gives a file
that did not exist the mode asked for, less the bits of the umask, and leaves the mode of a file that
did exist alone; no program calls `os.Chmod`. passcrypt, which restores modes, has its own model of the
disk (Go/Disk and Model/Passcrypt).
-/

namespace Verif.Model.Perms
open Verif Verif.Go

/-- Files, and the permission bits of those that exist. -/
structure Files where
  fs : Fs
  mode : Path → BitVec 9

/-- `ioutil.WriteFile(p, data, perm)` under a umask. -/
def Files.write (umask perm : BitVec 9) (o : WriteOutcome) (s : Files) (p : Path) (data : Bytes) : Files × Bool :=
  let (fs, ok) := Go.writeFile o s.fs p data
  (⟨fs, fun q => if q = p ∧ s.fs p = none ∧ fs p ≠ none then perm &&& ~~~umask else s.mode q⟩, ok)

/-- The modes after a program that creates files with `perm` only, and removes none, has turned the files
into `fs`. `write_after` and `after_after` in Props/Perms say that this is what its writes amount to. -/
def Files.after (umask perm : BitVec 9) (s : Files) (fs : Fs) : Files :=
  ⟨fs, fun q => if s.fs q = none ∧ fs q ≠ none then perm &&& ~~~umask else s.mode q⟩

/-- The mode that `util.WriteFile` asks for (common/util/util.go:133). -/
def utilPerm : BitVec 9 := 0o644

/-- The mode of the output of fcrypt, and of its key store (exp/fcrypt/fcrypt.go:116, 143, 193, 219, 279,
315, 351, 360). -/
def fcryptPerm : BitVec 9 := 0o644

/-- The mode of qr.png and of the login example's store (common/auth/examples/login/login.go:93, 228). -/
def loginPerm : BitVec 9 := 0o644

/-- The mode of the QR code that otpc writes (cmd/otpc/otpc.go:363). -/
def qrPerm : BitVec 9 := 0o600

/-- The mode that `EncryptFile` asks for (common/secret/crypto.go:149). -/
def encryptPerm : BitVec 9 := 0o600

/-- The mode of a temporary file: `ioutil.TempFile` asks for 0600, with `O_EXCL`, and so does the journal when it
writes to it (cmd/journal/journal.go:203-212, 250-257). -/
def tempPerm : BitVec 9 := 0o600

/-- The journal's temporary file when the editor is started (cmd/journal/journal.go:203-212, 250-257). -/
def journalTemp (umask : BitVec 9) (o : WriteOutcome) (s : Files) (n : Path) (data : Bytes) : Files :=
  ((s.write umask tempPerm .done n []).1.write umask tempPerm o n data).1

/-- `showQR` (cmd/otpc/otpc.go:332-364) with the modes of the files. -/
def showQR (umask : BitVec 9) (T : Model.Otpc.TwoFactor) (mode : Path → BitVec 9) (w : Model.Secrets.World) (ps : Model.SecretStore.SecretStore)
    (label filename : Bytes) : Res (Bool × Files) := do
  let (ok, w') ← Model.Otpc.showQR T w ps label filename
  pure (ok, Files.after umask qrPerm ⟨w.fs, mode⟩ w'.fs)

/-- `EncryptFile` (common/secret/crypto.go:132-151) with the modes of the files. -/
def encryptFile (umask : BitVec 9) (C : Crypto) (o : WriteOutcome) (s : Files) (filename pass encoded : Bytes) (rng : Model.Util.Rng) :
    Res (Bool × Files) := do
  let r ← Model.Secret.encryptFile C o s.fs filename pass encoded rng
  pure (r.ok, Files.after umask encryptPerm s r.fs)

/-- The modes after a run of fcrypt. -/
def fcryptModes (umask : BitVec 9) (mode : Path → BitVec 9) (w w' : Model.Fcrypt.World) : Path → BitVec 9 :=
  (Files.after umask fcryptPerm ⟨w.fs, mode⟩ w'.fs).mode

/-- The modes after a run of the login example. -/
def loginModes (umask : BitVec 9) (mode : Path → BitVec 9) (w w' : Model.Login.World) : Path → BitVec 9 :=
  (Files.after umask loginPerm ⟨w.fs, mode⟩ w'.fs).mode

/-- The modes after a run of secrets. -/
def secretsModes (umask : BitVec 9) (mode : Path → BitVec 9) (w w' : Model.Secrets.World) : Path → BitVec 9 :=
  (Files.after umask utilPerm ⟨w.fs, mode⟩ w'.fs).mode

end Verif.Model.Perms
