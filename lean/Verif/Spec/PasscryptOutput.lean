import Verif.Spec.SecretsOutput
import Verif.Model.Passcrypt
/-! Vocabulary for what cmd/passcrypt prints. -/

namespace Verif.Spec.PasscryptOutput
open Verif Verif.Go Verif.Model.Passcrypt Verif.Spec.SecretsOutput

/-- The entry is a directory: bit 31 of the mode is set. -/
def directory (g : File) : Bool := g.mode.getLsbD 31

/-- How a name is listed: directories have a slash at the end. -/
def shown (path : Bytes) (dir : Bool) : Bytes := if dir then path ++ ascii "/" else path

/-- A list of the names of an archive. -/
def listing (arg : Bytes) (names : List (Bytes × Bool)) : Bytes :=
  line (ascii "Manifest for " ++ arg) ++ line [] ++ indented (names.map (fun x => shown x.1 x.2))

/-- Names and kinds announced while packing. -/
def announced (names : List (Bytes × Bool)) : Bytes :=
  (names.map (fun x => line (ascii (if x.2 then "Pack directory " else "Pack file ") ++ x.1))).flatten

/-- What is printed for one name while unpacking: the name if that is wanted, and directories anyway. -/
def unpacking (verbose : Bool) (x : Bytes × Bool) : Bytes :=
  (if verbose then line (ascii "Unpack " ++ x.1) else []) ++ if x.2 then line (ascii "Directory: " ++ x.1) else []

/-- The entry's name and whether it is a directory. -/
def nameOf (g : File) : Bytes × Bool := (g.path, directory g)

/-- A node without the contents of the file. -/
def shape : Node → Bool × BitVec 32
  | .dir m => (true, m)
  | .file m _ => (false, m)

/-- The disks differ at most in what the files hold. -/
def SameShape (d d' : Disk) : Prop := ∀ q, (d q).map shape = (d' q).map shape

/-- The archives differ at most in what the files hold: the same names and modes, and the data are gzip streams of
the same soundness. -/
def AlikeFiles (Z : Gzip) : List File → List File → Prop
  | [], [] => True
  | g :: l, g' :: l' => g.path = g'.path ∧ g.mode = g'.mode ∧
      (Z.unzip g.data).map Prod.snd = (Z.unzip g'.data).map Prod.snd ∧ AlikeFiles Z l l'
  | _, _ => False

end Verif.Spec.PasscryptOutput
