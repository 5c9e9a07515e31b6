import Verif.Go.Fs
import Verif.Go.FilePath
/-!
A file system with directories, for the programs that create them. Names are places: component
lists from the root. There are no links, and permissions are recorded but not enforced; whether
an operation is refused is up to the `WriteOutcome` it is given. Modes are given to the operations
as the umask leaves them.
-/

namespace Verif.Go

inductive Node where
  | file (mode : BitVec 32) (content : Bytes)
  | dir (mode : BitVec 32)
deriving DecidableEq, Repr

abbrev Disk := List Bytes → Option Node

def Disk.set (d : Disk) (p : List Bytes) (n : Node) : Disk := fun q => if q = p then some n else d q

/-- The root is a directory. -/
def Disk.get (d : Disk) (p : List Bytes) : Option Node := if p = [] then some (.dir 0o755) else d p

def Node.isDir : Node → Bool
  | .dir _ => true
  | .file .. => false

inductive Stat where
  | found (n : Node)
  | notExist
  | notDir
deriving DecidableEq

/-- Is some directory above `p` in fact a file? -/
def Disk.behindFile (d : Disk) (p : List Bytes) : Bool :=
  (List.range p.length).any (fun n => match d.get (p.take n) with
    | some (.file ..) => true
    | _ => false)

/-- `os.Stat` with working directory `cwd`. -/
def Disk.stat (d : Disk) (cwd : List Bytes) (path : Bytes) : Stat :=
  if path = [] then .notExist
  else match d.get (resolvePath cwd path) with
    | some n => .found n
    | none => if d.behindFile (resolvePath cwd path) then .notDir else .notExist

/-- `ioutil.ReadFile`. Paths do not end in a slash. -/
def Disk.readFile (d : Disk) (cwd : List Bytes) (path : Bytes) : Option Bytes :=
  if path = [] then none
  else match d.get (resolvePath cwd path) with
    | some (.file _ b) => some b
    | _ => none

/-- The levels `os.MkdirAll` creates below the directory at `pre`, at most `limit` of them. Only
the permission bits reach the file system. -/
def Disk.mkdirs (perm : BitVec 32) : (limit : Option Nat) → Disk → (pre rest : List Bytes) → Disk × Bool
  | _, d, _, [] => (d, true)
  | limit, d, pre, c :: cs =>
    match d (pre ++ [c]) with
    | some (.dir _) => mkdirs perm limit d (pre ++ [c]) cs
    | some (.file ..) => (d, false)
    | none =>
      if limit = some 0 then (d, false)
      else mkdirs perm (limit.map (· - 1)) (d.set (pre ++ [c]) (.dir (perm &&& 0o777))) (pre ++ [c]) cs

/-- `os.MkdirAll` -/
def Disk.mkdirAll (o : WriteOutcome) (d : Disk) (cwd : List Bytes) (path : Bytes) (perm : BitVec 32) : Disk × Bool :=
  if path = [] then (d, false)
  else match o with
    | .done => Disk.mkdirs perm none d [] (resolvePath cwd path)
    | .openFails => Disk.mkdirs perm (some 0) d [] (resolvePath cwd path)
    | .failsAfter k => Disk.mkdirs perm (some k) d [] (resolvePath cwd path)

/-- The file that opening `p` for writing, creating it if necessary, gives access to: its mode
and contents. -/
def Disk.openCreate (d : Disk) (p : List Bytes) (mode : BitVec 32) : Option (BitVec 32 × Bytes) :=
  match d.get p with
  | some (.dir _) => none
  | some (.file m b) => some (m, b)
  | none => match d.get p.dropLast with
    | some (.dir _) => some (mode, [])
    | _ => none

/-- `os.OpenFile(path, O_CREATE|O_WRONLY, mode)` and a copy of `data` into it, starting at the
front. `trunc` adds `O_TRUNC`. -/
def Disk.writeAt (o : WriteOutcome) (trunc : Bool) (d : Disk) (cwd : List Bytes) (path : Bytes) (mode : BitVec 32)
    (data : Bytes) : Disk × Bool :=
  if path = [] then (d, false)
  else
    let p := resolvePath cwd path
    match d.openCreate p mode with
    | none => (d, false)
    | some (m, b) =>
      let old := if trunc then [] else b
      match o with
      | .openFails => (d, false)
      | .done => (d.set p (.file m (data ++ old.drop data.length)), true)
      | .failsAfter k => (d.set p (.file m (data.take k ++ old.drop (data.take k).length)), false)

end Verif.Go
