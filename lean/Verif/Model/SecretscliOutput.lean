import Verif.Model.SecretsOutput
import Verif.Model.Secretscli
/-!
What cmd/secretscli prints on standard output, command by command, beside the model of what it does in
Model/Secretscli. What package readpass prints at its prompts, and standard error (see Model/SecretscliErrors), is left out; so is what
`util.WriteFile` writes with path "-", which is in `World.stdout`.
-/

namespace Verif.Model.SecretscliOutput
open Verif Verif.Go Verif.Model.Util Verif.Model.SecretStore Verif.Model.Secretscli

/-- `fmt.Printf(s)` without arguments, of the Go library: text without percent signs is printed as it
is; two percent signs print one; a flag and a verb, without an argument for it, print an error. Of other
directives nothing is assumed. -/
structure Printf where
  run : Bytes → Bytes
  plain : ∀ s, (37 : UInt8) ∉ s → run s = s
  percent : ∀ p s, (37 : UInt8) ∉ p → run (p ++ 37 :: 37 :: s) = p ++ 37 :: run s
  missing : ∀ p c s, (37 : UInt8) ∉ p → 97 ≤ c → c ≤ 122 →
    run (p ++ 37 :: 32 :: c :: s) = p ++ ascii "%!" ++ c :: ascii "(MISSING)" ++ run s

variable (F : Printf) (C : Crypto) (J : Json)

/-- The prompt of `readCommands` (cmd/secretscli/secretscli.go:32-34). -/
def promptText (storeName : Bytes) : Bytes := F.run (storeName ++ ascii " command> ")

/-- `writeStore` (cmd/secretscli/secretscli.go:120-141). -/
def writeText (st : St) : Bytes := if st.sess.dirty then ascii "[+] storing secret store...\n" else []

/-- `passwd` (cmd/secretscli/commands.go:50-70). -/
def passwdText (st : St) : Bytes :=
  match passwd st with
  | (.ok, _) => ascii "[+] Password updated.\n"
  | _ => []

/-- The loop of `writeMeta` (cmd/secretscli/commands.go:224-246). -/
def metaLoopText : Map Bytes → List (Option Bytes) → Bytes
  | md, some line :: as =>
    ascii "key = value: " ++
    if line = [] then []
    else match splitEq line with
      | none => metaLoopText md as
      | some (k, v) =>
        (match md (trimSpace k) with
         | some prev => ascii "Note: replacing previous value of '" ++ prev ++ ascii "'\n"
         | none => []) ++ metaLoopText (md.set (trimSpace k) (trimSpace v)) as
  | _, _ => ascii "key = value: "

/-- `writeMeta` (cmd/secretscli/commands.go:206-252). -/
def writeMetaText (args : List Bytes) (st : St) : Bytes :=
  match args with
  | [label] =>
    match st.entry label with
    | some (some r) =>
      ascii "Enter metadata; use an empty line to indicate that you are done.\n" ++
        metaLoopText (r.metadata.getD Map.empty) st.w.term.answers
    | _ => []
  | _ => []

/-- `storeSingleSecret` (cmd/secretscli/commands.go:266-296). -/
def storeSingleText (label : Bytes) (st : St) : Bytes :=
  match st.entry label with
  | none => []
  | some _ =>
    F.run (label ++ ascii " exists. Overwrite secret (y/n)? ") ++
    match st.read.1 with
    | none => []
    | some answer =>
      let answer := lower answer
      if answer ≠ ascii "y" ∧ answer ≠ ascii "yes" then ascii "Not overwriting.\n" else []

/-- The loop of `storeSecret` (cmd/secretscli/commands.go:303-312). -/
def storeLoopText : Nat → List Bytes → St → Bytes
  | _, [], _ => []
  | i, label :: ls, st =>
    ascii "[+] Storing secret for " ++ label ++ ascii "\n" ++ storeSingleText F label st ++
    match storeSingleSecret label st with
    | (.ok, st) => storeLoopText (i + 1) ls st
    | (.err, st) => if i > 0 then writeText st else []
    | _ => []

/-- What `f` prints; for the commands whose output is in `World.stdout`. -/
def printed (f : St → Ret × St) (st : St) : Bytes :=
  (f { st with w := { st.w with stdout := [] } }).2.w.stdout

/-- `dispatch` (cmd/secretscli/commands.go:19-31) and `processCommands`
(cmd/secretscli/secretscli.go:56-77). -/
def commandText (e : Env) (line : Bytes) (st : St) : Bytes :=
  match fields line with
  | [] => []
  | cmd :: args =>
    if cmd = ascii "clear" then printed clearTerm st
    else if cmd = ascii "help" then printed (help args) st
    else if cmd = ascii "list" then printed (listSecrets e args) st
    else if cmd = ascii "quit" then writeText st
    else if cmd = ascii "passwd" then passwdText st
    else if cmd = ascii "rmeta" then printed (readMeta e args) st
    else if cmd = ascii "show" then printed (showSecret id args) st
    else if cmd = ascii "showhex" then printed (showSecret hexEncode args) st
    else if cmd = ascii "store" then storeLoopText F 0 args st
    else if cmd = ascii "wmeta" then writeMetaText args st
    else if cmd = ascii "write" then if args.length ≠ 0 then [] else writeText st
    else []

end Verif.Model.SecretscliOutput
