import Verif.Model.Passcrypt
/-!
The calls that `filepath.Walk` makes for the arguments of cmd/passcrypt/passcrypt.go (137), and the
program with them. The disk does not change meanwhile.
-/

namespace Verif.Model.Passcrypt
open Verif Verif.Go

/-- What the process is allowed to do. `list` gives the names in a directory in lexical order, as
`readDirNames` of path/filepath returns them, or `none` if it cannot be read; `look` says whether
`os.Lstat` is allowed, and `read` whether a file can be opened and read to the end. -/
structure Access where
  list : List Bytes → Option (List Bytes)
  look : List Bytes → Bool
  read : List Bytes → Bool

variable (acc : Access) (d : Disk) (cwd : List Bytes)

/-- `os.Lstat`: the mode, if there is no error. -/
def lstat (path : Bytes) : Option (BitVec 32) :=
  if path = [] ∨ acc.look (resolvePath cwd path) = false then none
  else (d.get (resolvePath cwd path)).map (fun n => match n with
    | .file m _ => m
    | .dir m => modeDir ||| m)

/-- A call of the walk function. -/
def visit (path : Bytes) (info : Option (BitVec 32)) (err : Bool) : Visit :=
  { path := path, info := info, err := err, readable := acc.read (resolvePath cwd path) }

/-- The loop of `walk` of path/filepath over the names in a directory. -/
def walkNames (walk : Bytes → BitVec 32 → Option (List Visit)) (path : Bytes) : List Bytes → Option (List Visit)
  | [] => some []
  | n :: ns =>
    let filename := joinPath path n
    let first := match lstat acc d cwd filename with
      | none => some [visit acc cwd filename none true]
      | some mode => walk filename mode
    match first, walkNames walk path ns with
    | some a, some b => some (a ++ b)
    | _, _ => none

/-- `walk` of path/filepath for a function that never returns `SkipDir`; that the walk ends when the
function returns an error is left to `packVisits`. `none` means that the tree is deeper than `fuel`. -/
def walk : (fuel : Nat) → Bytes → BitVec 32 → Option (List Visit)
  | 0, _, _ => none
  | fuel + 1, path, mode =>
    if !isDir mode then some [visit acc cwd path (some mode) false]
    else match acc.list (resolvePath cwd path) with
      | none => some [visit acc cwd path (some mode) true]
      | some names => (walkNames acc d cwd (walk fuel) path names).map (visit acc cwd path (some mode) false :: ·)

/-- `filepath.Walk`. -/
def walkRoot (fuel : Nat) (root : Bytes) : Option (List Visit) :=
  match lstat acc d cwd root with
  | none => some [visit acc cwd root none true]
  | some mode => walk acc d cwd fuel root mode

/-- The loop of `packFiles` (cmd/passcrypt/passcrypt.go:107-141): all calls. -/
def walkArgs (fuel : Nat) : List Bytes → Option (List Visit)
  | [] => some []
  | a :: as =>
    match walkRoot acc d cwd fuel a, walkArgs fuel as with
    | some v, some vs => some (v ++ vs)
    | _, _ => none

variable (C : Crypto) (P : Pem) (A : FilesAsn1) (Z : Gzip)

/-- `main` (cmd/passcrypt/passcrypt.go:201-339) with these calls; `none` as for `walk`. -/
def run (acc : Access) (fuel : Nat) (f : Flags) (args : List Bytes) (w : World) : Option (Res (Bool × World)) :=
  if f.unpack || f.list then some (main C P A Z f args [] w)
  else (walkArgs acc w.st.disk w.cwd fuel args).map (fun visits => main C P A Z f args visits w)

end Verif.Model.Passcrypt
