import Verif.Model.Passcrypt
import Verif.Model.SecretsErrors
/-!
What cmd/passcrypt writes to standard error, function by function, beside the model of what it does in Model/Passcrypt:
a list with the text of every call of `util.Errorf`, in order. The formats of this program end in a newline, so that
`util.Errorf` adds none (common/util/util.go:109-115); the texts are the same as if it did.
-/

namespace Verif.Model.PasscryptErrors
open Verif Verif.Go Verif.Model.Util Verif.Model.Passcrypt
open Verif.Model.SecretsErrors (errorf)

/-- The texts of errors that come from elsewhere: why nothing could be read from the terminal; why the file at a path
could not be read or written, or the directory made; what encoding/asn1 says of bytes that are no list of files, and of
a list it cannot encode; what compress/gzip says of a stream. -/
structure Texts where
  prompt : Bytes
  read : Bytes → Bytes
  write : Bytes → Bytes
  mkdir : Bytes → Bytes
  asn1 : Bytes → Bytes
  encode : Bytes
  gzip : Bytes → Bytes

variable (T : Texts) (C : Crypto) (P : Pem) (A : FilesAsn1) (Z : Gzip)

/-- The function `walker` of `packFiles` (cmd/passcrypt/passcrypt.go:108-136): the error, if there is one. What
`packFile` returns (lines 54-70) is the error of opening or reading the file. -/
def packVisitErr (v : Visit) : Bytes :=
  match v.info with
  | none => ascii "passcrypt: " ++ v.path ++ ascii " could not be read"
  | some _ => T.read v.path

/-- The walks of `packFiles` (cmd/passcrypt/passcrypt.go:107-141): the error of the first call that has one. -/
def packVisitsErr (d : Disk) (cwd : List Bytes) : List Visit → Option Bytes
  | [] => none
  | v :: vs => if (packVisit Z d cwd [] v).isSome then packVisitsErr d cwd vs else some (packVisitErr T v)

/-- `packFiles` (cmd/passcrypt/passcrypt.go:104-149): the error, if there is one. -/
def packErr (d : Disk) (cwd : List Bytes) (visits : List Visit) : Bytes :=
  match packVisitsErr T Z d cwd visits with
  | some e => e
  | none => T.encode

/-- `unpackFile` (cmd/passcrypt/passcrypt.go:82-102): the error, if there is one. Of a damaged stream and a disk that
fails, the disk is taken to fail first. -/
def unpackFileErr (s : DiskState) (cwd : List Bytes) (file : File) (top : Bytes) : Bytes :=
  match Z.unzip file.data with
  | none => T.gzip file.data
  | some (data, _) =>
    if (s.disk.writeAt (s.ops 0) false cwd (joinPath top file.path) (s.allow (file.mode.setWidth 32)) data).2 then T.gzip file.data
    else T.write (joinPath top file.path)

/-- One turn of the loop of `unpackFiles` (cmd/passcrypt/passcrypt.go:168-197): the error, if there is one. -/
def unpackEntryErr (s : DiskState) (cwd : List Bytes) (file : File) (top : Bytes) : Bytes :=
  if isDir (file.mode.setWidth 32) then T.mkdir (joinPath top file.path)
  else
    match unpackDir s cwd file top with
    | (_, false) => T.mkdir (cleanPath (joinPath top (dirPath file.path)))
    | (s, true) => unpackFileErr T Z s cwd file top

/-- The loop of `unpackFiles` (cmd/passcrypt/passcrypt.go:168-197): the error, if there is one. -/
def unpackLoopErr (cwd : List Bytes) (top : Bytes) : DiskState → List File → Option Bytes
  | _, [] => none
  | s, f :: fs =>
    match unpackEntry Z s cwd f top with
    | (_, false) => some (unpackEntryErr T Z s cwd f top)
    | (s, true) => unpackLoopErr cwd top s fs

/-- `unpackFiles` (cmd/passcrypt/passcrypt.go:151-199): the error, if there is one. -/
def unpackErr (s : DiskState) (cwd : List Bytes) (b top : Bytes) : Option Bytes :=
  match A.dec b with
  | none => some (T.asn1 b)
  | some files =>
    match makeTop s cwd top with
    | (_, false) => some (T.mkdir top)
    | (s, true) => unpackLoopErr T Z cwd top s files

/-- Opening an archive in `main` (cmd/passcrypt/passcrypt.go:216-258). -/
def openErr (w : World) (args : List Bytes) : List Bytes :=
  match args with
  | [path] =>
    match w.st.disk.readFile w.cwd path with
    | none => [errorf (T.read path)]
    | some b =>
      match unarmour P b with
      | none => [errorf (ascii "Wrong header for archive.")]
      | some b =>
        if b.length ≤ saltLength then [errorf (ascii "Invalid archive.")]
        else
          match w.term.read.1 with
          | none => [errorf T.prompt]
          | some pass =>
            match Secret.deriveKey C pass (b.take saltLength) with
            | none => [errorf (ascii "Failed to derive key.n")]
            | some key =>
              match Secret.decrypt C (some key) (b.drop saltLength) with
              | .ok none => [errorf (ascii "Decryption failed.")]
              | _ => []
  | _ => [errorf (ascii "Only one file may be unpacked at a time.")]

/-- Packing in `main` (cmd/passcrypt/passcrypt.go:293-338). -/
def packMainErr (f : Flags) (visits : List Visit) (w : World) : List Bytes :=
  match w.term.read.1 with
  | none => [errorf T.prompt]
  | some pass =>
    match randBytes w.rng saltLength with
    | (none, _) => [errorf (ascii "Failed to generate a random salt.")]
    | (some salt, rng) =>
      match Secret.deriveKey C pass salt with
      | none => [errorf (ascii "Failed to derive key.n")]
      | some key =>
        match packFiles A Z w.st.disk w.cwd visits with
        | none => [errorf (packErr T Z w.st.disk w.cwd visits)]
        | some out =>
          match Secret.encrypt C (some key) out rng with
          | .panic => []
          | .ok (none, _) => [errorf (ascii "Encryption failed.")]
          | .ok (some ct, _) =>
            let out := salt ++ ct
            let out := if f.armour then P.enc header out else out
            if (w.st.disk.writeAt (w.st.ops 0) true w.cwd f.outFile (w.st.allow 0o644) out).2 then []
            else [errorf (T.write f.outFile)]

/-- `main` (cmd/passcrypt/passcrypt.go:201-339) without -V. -/
def mainErr (f : Flags) (args : List Bytes) (visits : List Visit) (w : World) : List Bytes :=
  if f.unpack || f.list then
    openErr T C P w args ++
    match openArchive C P w args with
    | .ok (some b, w) =>
      if f.unpack then
        match unpackErr T A Z w.st w.cwd b f.outDir with
        | some e => [errorf e]
        | none => []
      else
        match A.dec b with
        | none => [errorf (T.asn1 b)]
        | some _ => []
    | _ => []
  else if args = [] then []
  else packMainErr T C P A Z f visits w

end Verif.Model.PasscryptErrors
