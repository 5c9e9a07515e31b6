import Verif.Go.Flag
import Verif.Model.Secrets
import Verif.Model.SecretscliTime
import Verif.Model.Journal
import Verif.Model.PasscryptWalk
import Verif.Model.Fcrypt
import Verif.Model.Login
import Verif.Model.Migrate
import Verif.Model.Keysrv
/-!
The programs as functions of the command line: the flags that each of them defines, and the first lines of
each `main`, up to the point at which the models of the programs start. `home` is the environment
variable HOME. What -V and the messages of `flag.Parse` print is left out.
-/

namespace Verif.Model.CommandLine
open Verif Verif.Go Verif.Go.Flag Verif.Model.SecretStore

/-- How a `main` begins: `flag.Parse` does not return, the version is asked for, or the program
goes on. -/
inductive Line (F : Type) where
  | usage
  | version
  | run (flags : F) (args : List Bytes)

/-- No flag of the program is a duration. -/
def noDur : Bytes → Option Int := fun _ => none

/-- cmd/secrets/secrets.go:397-411 -/
def secretsDecl : Bytes → Option Kind :=
  table [ascii "init", ascii "merge", ascii "export", ascii "import", ascii "multi", ascii "c", ascii "l", ascii "m", ascii "r", ascii "s",
    ascii "x", ascii "w", ascii "V", ascii "i"] [ascii "f"]

/-- cmd/secrets/secrets.go:396-430: the flags and the path. -/
def secretsLine (home : Bytes) (argv : List Bytes) : Line (Secrets.Flags × Bytes) :=
  match parse noDur secretsDecl argv with
  | none => .usage
  | some (s, args) =>
    if boolOf s (ascii "V") then .version
    else .run ({ init := boolOf s (ascii "init"), merge := boolOf s (ascii "merge"), «export» := boolOf s (ascii "export"),
                 «import» := boolOf s (ascii "import"), multi := boolOf s (ascii "multi"), passwd := boolOf s (ascii "c"),
                 list := boolOf s (ascii "l"), withMeta := boolOf s (ascii "m"), remove := boolOf s (ascii "r"),
                 store := boolOf s (ascii "s"), clip := boolOf s (ascii "x"), overwrite := boolOf s (ascii "w"),
                 interactive := boolOf s (ascii "i") },
               strOf s (ascii "f") (joinPath home (ascii ".secrets.db"))) args

/-- `main` (cmd/secrets/secrets.go:395-504). -/
def secrets (C : Crypto) (J : Json) (P : Pem) (ord : Map (Option SecretRecord) → List Bytes) (fuel : Nat) (home : Bytes) (argv : List Bytes)
    (w : Secrets.World) : Option (Res (Nat × Secrets.World)) :=
  match secretsLine home argv with
  | .usage => some (.ok (2, w))
  | .version => some (.ok (0, w))
  | .run (f, path) args => Secrets.main C J P ord fuel f args path w

/-- cmd/secretscli/secretscli.go:152-154 -/
def secretscliDecl (name : Bytes) : Option Kind :=
  if name = ascii "t" then some .dur else table [ascii "i"] [ascii "f"] name

/-- cmd/secretscli/secretscli.go:151-164: path, limit and mode. The arguments are not used. `dur` is
`time.ParseDuration`. -/
def secretscliLine (dur : Bytes → Option Int) (home : Bytes) (argv : List Bytes) : Option (Bytes × Int × Int) :=
  match parse dur secretscliDecl argv with
  | none => none
  | some (s, _) =>
    some (strOf s (ascii "f") (joinPath home (ascii ".secrets.db")), durOf s (ascii "t") Secretscli.defaultTimeout,
      if boolOf s (ascii "i") then 1 else 0)

/-- `main` up to the loop (cmd/secretscli/secretscli.go:150-188); `none` is an exit with a status other
than 0. -/
def secretscli (C : Crypto) (J : Json) (dur : Bytes → Option Int) (home : Bytes) (argv : List Bytes) (w : Secrets.World)
    (writes : Nat → WriteOutcome) : Res (Option Secretscli.St) :=
  match secretscliLine dur home argv with
  | none => .ok none
  | some (path, limit, mode) => Secretscli.startFor C J limit w writes path mode

/-- cmd/journal/journal.go:298-306 -/
def journalDecl : Bytes → Option Kind :=
  table [ascii "init", ascii "e", ascii "l", ascii "w", ascii "V", ascii "i"] [ascii "editor", ascii "f"]

/-- cmd/journal/journal.go:297-322: the flags, the path and the editor. `editor` is the environment
variable EDITOR. -/
def journalLine (home editor : Bytes) (argv : List Bytes) : Line (Journal.Flags × Bytes × Bytes) :=
  match parse noDur journalDecl argv with
  | none => .usage
  | some (s, args) =>
    if boolOf s (ascii "V") then .version
    else .run ({ init := boolOf s (ascii "init"), edit := boolOf s (ascii "e"), list := boolOf s (ascii "l"), write := boolOf s (ascii "w"),
                 interactive := boolOf s (ascii "i") },
               strOf s (ascii "f") (joinPath home (ascii ".cu_journal")), strOf s (ascii "editor") editor) args

/-- `strings.Split(s, " ")`. -/
def splitSpace : Bytes → List Bytes
  | [] => [[]]
  | b :: s => if b = 32 then [] :: splitSpace s else
    match splitSpace s with
    | [] => [[b]]
    | w :: ws => (b :: w) :: ws

/-- The editor and its arguments but the last, which is the temporary file, in `newEntry` and `editEntry`
(cmd/journal/journal.go:21, 224-230, 269-276). -/
def editorCommand (editor : Bytes) : List Bytes :=
  splitSpace (if editor = [] then ascii "vim -f -n -i NONE +star" else editor)

/-- `main` (cmd/journal/journal.go:296-371). `e` says what comes of running a program with these
arguments and the name of a file. -/
def journal (C : Crypto) (J : Json) (ord : Map (Option SecretRecord) → List Bytes) (e : List Bytes → Journal.Env) (home editor : Bytes)
    (argv : List Bytes) (w : Secrets.World) : Res (Nat × Journal.Output × Secrets.World) :=
  match journalLine home editor argv with
  | .usage => .ok (2, .nothing, w)
  | .version => .ok (0, .nothing, w)
  | .run (f, path, ed) args => Journal.main C J ord (e (editorCommand ed)) f args path w

/-- cmd/otpc/otpc.go:404-410 -/
def otpcDecl : Bytes → Option Kind :=
  table [ascii "init", ascii "s", ascii "qr", ascii "V", ascii "i"] [ascii "f", ascii "t"]

/-- cmd/otpc/otpc.go:403-426: the flags and the path. -/
def otpcLine (home : Bytes) (argv : List Bytes) : Line (Otpc.Flags × Bytes) :=
  match parse noDur otpcDecl argv with
  | none => .usage
  | some (s, args) =>
    if boolOf s (ascii "V") then .version
    else .run ({ init := boolOf s (ascii "init"), store := boolOf s (ascii "s"), qr := boolOf s (ascii "qr"),
                 kind := strOf s (ascii "t") [], interactive := boolOf s (ascii "i") },
               strOf s (ascii "f") (joinPath home (ascii ".otpc.db"))) args

/-- `main` (cmd/otpc/otpc.go:402-473). -/
def otpc (C : Crypto) (J : Json) (T : Otpc.TwoFactor) (U : Otpc.Case) (home : Bytes) (argv : List Bytes) (w : Secrets.World) :
    Res (Otpc.Outcome × Secrets.World) :=
  match otpcLine home argv with
  | .usage => .ok (.exit 2 [], w)
  | .version => .ok (.exit 0 [], w)
  | .run (f, path) args => Otpc.main C J T U f args path w

/-- cmd/passcrypt/passcrypt.go:202-208; -v makes the program print more, which is left out. -/
def passcryptDecl : Bytes → Option Kind :=
  table [ascii "a", ascii "l", ascii "u", ascii "v", ascii "V"] [ascii "o", ascii "f"]

/-- cmd/passcrypt/passcrypt.go:202-214 -/
def passcryptLine (argv : List Bytes) : Line Passcrypt.Flags :=
  match parse noDur passcryptDecl argv with
  | none => .usage
  | some (s, args) =>
    if boolOf s (ascii "V") then .version
    else .run { armour := boolOf s (ascii "a"), outDir := strOf s (ascii "o") dot, outFile := strOf s (ascii "f") (ascii "passcrypt.enc"),
                list := boolOf s (ascii "l"), unpack := boolOf s (ascii "u") } args

/-- `main` (cmd/passcrypt/passcrypt.go:201-339): whether the exit status is 0. -/
def passcrypt (C : Crypto) (P : Pem) (A : Passcrypt.FilesAsn1) (Z : Passcrypt.Gzip) (acc : Passcrypt.Access) (fuel : Nat) (argv : List Bytes)
    (w : Passcrypt.World) : Option (Res (Bool × Passcrypt.World)) :=
  match passcryptLine argv with
  | .usage => some (.ok (false, w))
  | .version => some (.ok (true, w))
  | .run f args => Passcrypt.run C P A Z acc fuel f args w

/-- exp/fcrypt/fcrypt.go:495-507 -/
def fcryptDecl : Bytes → Option Kind :=
  table [ascii "check", ascii "export", ascii "import", ascii "a", ascii "d", ascii "e", ascii "k", ascii "r", ascii "s", ascii "u", ascii "v"]
    [ascii "f", ascii "l"]

/-- exp/fcrypt/fcrypt.go:494-514 -/
def fcryptLine (home : Bytes) (argv : List Bytes) : Line Fcrypt.Flags :=
  match parse noDur fcryptDecl argv with
  | none => .usage
  | some (s, args) =>
    .run { check := boolOf s (ascii "check"), export_ := boolOf s (ascii "export"), import_ := boolOf s (ascii "import"), armour := boolOf s (ascii "a"),
           decrypt := boolOf s (ascii "d"), encrypt := boolOf s (ascii "e"), path := strOf s (ascii "f") (joinPath home (ascii ".cukeystore.db")),
           list := boolOf s (ascii "k"), label := strOf s (ascii "l") (ascii "self"), remove := boolOf s (ascii "r"), sign := boolOf s (ascii "s"),
           untrusted := boolOf s (ascii "u"), verify := boolOf s (ascii "v") } args

/-- `main` (exp/fcrypt/fcrypt.go:493-593). -/
def fcrypt (C : Crypto) (A : KeyStore.Asn1) (P : Fcrypt.Armour) (J : KeyStore.KeyJson) (e : Fcrypt.Env) (home : Bytes) (argv : List Bytes)
    (w : Fcrypt.World) : Fcrypt.Ret × Fcrypt.World :=
  match fcryptLine home argv with
  | .usage => (.err, w)
  | .version => (.ok, w) -- not reached
  | .run f args => Fcrypt.main C A P J e f args w

/-- `main` (cmd/migrate-store/migrate-store.go:39-49): no flags are defined. -/
def migrate (C : Crypto) (argv : List Bytes) (w : Migrate.World) : Res (Bool × Migrate.World) :=
  match parse noDur (table [] []) argv with
  | none => .ok (false, w)
  | some (_, args) => Migrate.main C w args

/-- `main` (common/auth/examples/login/login.go:159-183). -/
def login (C : Crypto) (J : Login.UserJson) (e : Login.Env) (fuel : Nat) (argv : List Bytes) (w : Login.World) : Option (Login.Ret × Login.World) :=
  match parse noDur (table [] [ascii "f"]) argv with
  | none => some (.fatal, w)
  | some (s, args) => Login.main C J e (strOf s (ascii "f") (ascii "store.json")) args fuel w

/-- exp/keysrv/keysrv.go:296-300: the address, the key store, the TLS key and the certificate. The
arguments are not used. -/
def keysrvLine (argv : List Bytes) : Option (Bytes × Bytes × Bytes × Bytes) :=
  match parse noDur (table [] [ascii "a", ascii "f", ascii "k", ascii "c"]) argv with
  | none => none
  | some (s, _) => some (strOf s (ascii "a") (ascii "127.0.0.1:8443"), strOf s (ascii "f") (ascii "keystore.db"),
      strOf s (ascii "k") (ascii "server.key"), strOf s (ascii "c") (ascii "server.pem"))

/-- `main` up to the audit (exp/keysrv/keysrv.go:295-308), as in Model/Keysrv. -/
def keysrv (C : Crypto) (A : KeyStore.Asn1) (P : Pem) (J : KeyStore.KeyJson) (argv : List Bytes) (fs : Fs) (write : WriteOutcome)
    (pass : Option Bytes) (rng : Util.Rng) (t1 t2 t3 : BitVec 64) (o : Keysrv.Orders) : Option (Res (Option KeyStore.KeyStore × Fs)) :=
  match keysrvLine argv with
  | none => some (.ok (none, fs))
  | some (_, path, _, _) => Keysrv.boot C A P J fs path write pass rng t1 t2 t3 o

end Verif.Model.CommandLine
