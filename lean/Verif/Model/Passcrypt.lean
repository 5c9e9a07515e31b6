import Verif.Go.Disk
import Verif.Go.Term
import Verif.Go.Pem
import Verif.Model.Secret
/-!
Model of cmd/passcrypt/passcrypt.go. What it prints is in Model/PasscryptOutput.
-/

namespace Verif.Model.Passcrypt
open Verif Verif.Go Verif.Model.Util

/-- `dirPerm` (cmd/passcrypt/passcrypt.go:27-41). A mode is an int64; `os.FileMode` has 32 bits. -/
def dirPerm (mode : BitVec 64) : BitVec 32 :=
  let mode := if mode &&& 7 ≠ 0 then mode + 1 else mode
  let mode := if mode &&& 0x38 ≠ 0 then mode + 8 else mode
  let mode := if mode &&& 0x1c0 ≠ 0 then mode + 64 else mode
  mode.setWidth 32

/-- `File` (cmd/passcrypt/passcrypt.go:43-47). -/
structure File where
  path : Bytes
  mode : BitVec 64
  data : Bytes
deriving DecidableEq

/-- compress/gzip as a parameter. `unzip` is what reading a gzip stream gives: `none` if the
header is bad, else the bytes read and whether the stream ended well. -/
structure Gzip where
  zip : Bytes → Bytes
  unzip : Bytes → Option (Bytes × Bool)
  unzip_zip : ∀ b, unzip (zip b) = some (b, true)

/-- encoding/asn1 for `[]File` as a parameter. Strings must be UTF-8, else marshalling fails.
Unmarshalling ignores what follows the value. -/
structure FilesAsn1 where
  enc : List File → Option Bytes
  dec : Bytes → Option (List File)
  enc_utf8 : ∀ fs b, enc fs = some b → ∀ f ∈ fs, ValidUtf8 f.path
  dec_enc : ∀ fs, (∀ f ∈ fs, ValidUtf8 f.path) → ∃ b, enc fs = some b ∧ dec b = some fs

/-- `ModeDir` of package os. -/
abbrev modeDir : BitVec 32 := 0x80000000
/-- `ModeType` of package os: directory, link, device, pipe, socket, character device, irregular. -/
abbrev modeType : BitVec 32 := 0x8f280000

/-- `FileMode.IsDir`. -/
def isDir (m : BitVec 32) : Bool := m &&& modeDir != 0
/-- `FileMode.IsRegular`. -/
def isRegular (m : BitVec 32) : Bool := m &&& modeType == 0

/-- One call that `filepath.Walk` makes: the path, the mode if the file could be examined, and
whether it reports an error (a directory that cannot be read). `readable` says whether a regular
file can be opened and read to the end. -/
structure Visit where
  path : Bytes
  info : Option (BitVec 32)
  err : Bool := false
  readable : Bool := true
deriving DecidableEq

variable (C : Crypto) (P : Pem) (A : FilesAsn1) (Z : Gzip)

/-- `packFile` (cmd/passcrypt/passcrypt.go:49-80). -/
def packFile (d : Disk) (cwd : List Bytes) (path : Bytes) : Option File :=
  match d.get (resolvePath cwd path) with
  | some (.file m b) => some { path := cleanPath path, mode := m.setWidth 64, data := Z.zip b }
  | _ => none

/-- The function `walker` of `packFiles` (cmd/passcrypt/passcrypt.go:108-136): `none` is an error.
Its argument `err` is not looked at. -/
def packVisit (d : Disk) (cwd : List Bytes) (files : List File) (v : Visit) : Option (List File) :=
  match v.info with
  | none => none
  | some mode =>
    if isDir mode then some (files ++ [{ path := cleanPath v.path, mode := mode.setWidth 64, data := [] }])
    else if !isRegular mode then some files
    else if !v.readable then none
    else match packFile Z d cwd v.path with
      | none => none
      | some file => some (files ++ [file])

/-- The walks of `packFiles` (cmd/passcrypt/passcrypt.go:107-141), one after the other. -/
def packVisits (d : Disk) (cwd : List Bytes) : List File → List Visit → Option (List File)
  | files, [] => some files
  | files, v :: vs =>
    match packVisit Z d cwd files v with
    | none => none
    | some files => packVisits d cwd files vs

/-- `packFiles` (cmd/passcrypt/passcrypt.go:104-149); `visits` are the calls made by all walks. -/
def packFiles (d : Disk) (cwd : List Bytes) (visits : List Visit) : Option Bytes :=
  match packVisits Z d cwd [] visits with
  | none => none
  | some files => A.enc files

/-- The disk, how the next operations on it will go, and the process's umask. -/
structure DiskState where
  disk : Disk
  ops : Nat → WriteOutcome
  umask : BitVec 9

def DiskState.next (s : DiskState) : Nat → WriteOutcome := fun n => s.ops (n + 1)

/-- The mode that a file or directory made with mode `m` gets: the kernel takes away the bits of the umask. -/
def DiskState.allow (s : DiskState) (m : BitVec 32) : BitVec 32 := m &&& ~~~(s.umask.setWidth 32)

/-- `unpackFile` (cmd/passcrypt/passcrypt.go:82-102). The file is opened without `O_TRUNC`. -/
def unpackFile (s : DiskState) (cwd : List Bytes) (file : File) (top : Bytes) : DiskState × Bool :=
  match Z.unzip file.data with
  | none => (s, false)
  | some (data, clean) =>
    let (d, ok) := s.disk.writeAt (s.ops 0) false cwd (joinPath top file.path)
      (s.allow (file.mode.setWidth 32)) data
    (⟨d, s.next, s.umask⟩, ok && clean)

/-- Making the directory for a file (cmd/passcrypt/passcrypt.go:182-191). -/
def unpackDir (s : DiskState) (cwd : List Bytes) (file : File) (top : Bytes) : DiskState × Bool :=
  let dir := cleanPath (joinPath top (dirPath file.path))
  if s.disk.stat cwd dir = .notExist then
    let (d, ok) := s.disk.mkdirAll (s.ops 0) cwd dir (s.allow (dirPerm file.mode))
    (⟨d, s.next, s.umask⟩, ok)
  else (s, true)

/-- One turn of the loop of `unpackFiles` (cmd/passcrypt/passcrypt.go:168-197). -/
def unpackEntry (s : DiskState) (cwd : List Bytes) (file : File) (top : Bytes) : DiskState × Bool :=
  if isDir (file.mode.setWidth 32) then
    let (d, ok) := s.disk.mkdirAll (s.ops 0) cwd (joinPath top file.path) (s.allow (file.mode.setWidth 32))
    (⟨d, s.next, s.umask⟩, ok)
  else
    let (s, ok) := unpackDir s cwd file top
    if !ok then (s, false) else unpackFile Z s cwd file top

/-- The loop of `unpackFiles` (cmd/passcrypt/passcrypt.go:168-197). -/
def unpackLoop (cwd : List Bytes) (top : Bytes) : DiskState → List File → DiskState × Bool
  | s, [] => (s, true)
  | s, f :: fs =>
    match unpackEntry Z s cwd f top with
    | (s, false) => (s, false)
    | (s, true) => unpackLoop cwd top s fs

/-- Making the output directory (cmd/passcrypt/passcrypt.go:159-166). -/
def makeTop (s : DiskState) (cwd : List Bytes) (top : Bytes) : DiskState × Bool :=
  if s.disk.stat cwd top = .notExist then
    let (d, ok) := s.disk.mkdirAll (s.ops 0) cwd top (s.allow 0o755)
    (⟨d, s.next, s.umask⟩, ok)
  else (s, true)

/-- `unpackFiles` (cmd/passcrypt/passcrypt.go:151-199): whether the error is nil. -/
def unpackFiles (s : DiskState) (cwd : List Bytes) (b top : Bytes) : DiskState × Bool :=
  match A.dec b with
  | none => (s, false)
  | some files =>
    match makeTop s cwd top with
    | (s, false) => (s, false)
    | (s, true) => unpackLoop Z cwd top s files

/-- `header` (cmd/passcrypt/passcrypt.go:23). -/
def header : Bytes := ascii "PASSCRYPT ARCHIVE"

/-- `saltLength` (cmd/passcrypt/passcrypt.go:22). -/
abbrev saltLength : Nat := 32

/-- What the program runs in. -/
structure World where
  term : Term
  rng : Rng
  cwd : List Bytes
  st : DiskState

/-- The flags (cmd/passcrypt/passcrypt.go:202-208), with their defaults. -/
structure Flags where
  armour : Bool := false
  outDir : Bytes := dot
  outFile : Bytes := ascii "passcrypt.enc"
  list : Bool := false
  unpack : Bool := false

/-- Taking off the armour, if there is any, in `main` (cmd/passcrypt/passcrypt.go:228-234). -/
def unarmour (b : Bytes) : Option Bytes :=
  match P.dec b with
  | none => some b
  | some (typ, body) => if typ ≠ header then none else some body

/-- Opening an archive in `main` (cmd/passcrypt/passcrypt.go:216-258): the plaintext, or `none` for
`os.Exit(1)`. -/
def openArchive (w : World) (args : List Bytes) : Res (Option Bytes × World) :=
  match args with
  | [path] =>
    match w.st.disk.readFile w.cwd path with
    | none => .ok (none, w)
    | some b =>
      match unarmour P b with
      | none => .ok (none, w)
      | some b =>
        if b.length ≤ saltLength then .ok (none, w)
        else
          let (pass, t) := w.term.read
          let w := { w with term := t }
          match pass with
          | none => .ok (none, w)
          | some pass =>
            match Secret.deriveKey C pass (b.take saltLength) with
            | none => .ok (none, w)
            | some key => do
              let m ← Secret.decrypt C (some key) (b.drop saltLength)
              pure (m, w)
  | _ => .ok (none, w)

/-- Packing in `main` (cmd/passcrypt/passcrypt.go:293-338): whether the exit status is 0. -/
def pack (f : Flags) (visits : List Visit) (w : World) : Res (Bool × World) :=
  let (pass, t) := w.term.read
  let w := { w with term := t }
  match pass with
  | none => .ok (false, w)
  | some pass =>
    match randBytes w.rng saltLength with
    | (none, rng) => .ok (false, { w with rng := rng })
    | (some salt, rng) =>
      let w := { w with rng := rng }
      match Secret.deriveKey C pass salt with
      | none => .ok (false, w)
      | some key =>
        match packFiles A Z w.st.disk w.cwd visits with
        | none => .ok (false, w)
        | some out => do
          let (ct, rng) ← Secret.encrypt C (some key) out w.rng
          let w := { w with rng := rng }
          match ct with
          | none => pure (false, w)
          | some ct =>
            let out := salt ++ ct
            let out := if f.armour then P.enc header out else out
            let (d, ok) := w.st.disk.writeAt (w.st.ops 0) true w.cwd f.outFile (w.st.allow 0o644) out
            pure (ok, { w with st := ⟨d, w.st.next, w.st.umask⟩ })

/-- `main` (cmd/passcrypt/passcrypt.go:201-339) without -V: whether the exit status is 0. `visits`
are the calls `filepath.Walk` makes for the arguments. -/
def main (f : Flags) (args : List Bytes) (visits : List Visit) (w : World) : Res (Bool × World) :=
  if f.unpack || f.list then do
    match ← openArchive C P w args with
    | (none, w) => pure (false, w)
    | (some b, w) =>
      if f.unpack then
        let (st, ok) := unpackFiles A Z w.st w.cwd b f.outDir
        pure (ok, { w with st := st })
      else pure ((A.dec b).isSome, w)
  else if args = [] then .ok (true, w)
  else pack C P A Z f visits w

end Verif.Model.Passcrypt
