import Verif.Model.Passcrypt
/-!
What cmd/passcrypt/passcrypt.go prints on standard output, beside the model of what it does in
Model/Passcrypt. The prompt of package readpass and standard error are left out.
-/

namespace Verif.Model.PasscryptOutput
open Verif Verif.Go Verif.Model.Util Verif.Model.Passcrypt

variable (C : Crypto) (P : Pem) (A : FilesAsn1) (Z : Gzip)

/-- The function `walker` of `packFiles` (cmd/passcrypt/passcrypt.go:108-136). -/
def packVisitText (verbose : Bool) (v : Visit) : Bytes :=
  match v.info with
  | none => []
  | some mode =>
    if isDir mode then (if verbose then ascii "Pack directory " ++ v.path ++ [10] else [])
    else if !isRegular mode then []
    else if verbose then ascii "Pack file " ++ v.path ++ [10] else []

/-- The walks of `packFiles` (cmd/passcrypt/passcrypt.go:107-141), as far as they get. -/
def packText (verbose : Bool) (d : Disk) (cwd : List Bytes) : List Visit → Bytes
  | [] => []
  | v :: vs => packVisitText verbose v ++ if (packVisit Z d cwd [] v).isSome then packText verbose d cwd vs else []

/-- The beginning of a turn of the loop of `unpackFiles` (cmd/passcrypt/passcrypt.go:169-173). -/
def entryText (verbose : Bool) (f : File) : Bytes :=
  (if verbose then ascii "Unpack " ++ f.path ++ [10] else []) ++
  (if isDir (f.mode.setWidth 32) then ascii "Directory: " ++ f.path ++ [10] else [])

/-- The loop of `unpackFiles` (cmd/passcrypt/passcrypt.go:168-197). -/
def unpackText (verbose : Bool) (cwd : List Bytes) (top : Bytes) : DiskState → List File → Bytes
  | _, [] => []
  | s, f :: fs => entryText verbose f ++
    match unpackEntry Z s cwd f top with
    | (_, false) => []
    | (s, true) => unpackText verbose cwd top s fs

/-- The list of `main` (cmd/passcrypt/passcrypt.go:275-283). -/
def manifestText (arg : Bytes) (files : List File) : Bytes :=
  ascii "Manifest for " ++ arg ++ [10] ++ [10] ++
    files.flatMap (fun f => 9 :: f.path ++ (if isDir (f.mode.setWidth 32) then ascii "/" else []) ++ [10])

/-- `main` (cmd/passcrypt/passcrypt.go:201-339) without -V. The passphrase, the salt and the key come before
the walks. -/
def mainText (verbose : Bool) (f : Flags) (args : List Bytes) (visits : List Visit) (w : World) : Bytes :=
  if f.unpack || f.list then
    match openArchive C P w args with
    | .ok (some b, w) =>
      match A.dec b with
      | none => []
      | some files =>
        if f.unpack then
          match makeTop w.st w.cwd f.outDir with
          | (_, false) => []
          | (s, true) => unpackText Z verbose w.cwd f.outDir s files
        else manifestText (args.headD []) files
    | _ => []
  else if args = [] then []
  else
    match w.term.read.1 with
    | none => []
    | some pass =>
      match (randBytes w.rng saltLength).1 with
      | none => []
      | some salt =>
        match Secret.deriveKey C pass salt with
        | none => []
        | some _ => packText Z verbose w.st.disk w.cwd visits

end Verif.Model.PasscryptOutput
