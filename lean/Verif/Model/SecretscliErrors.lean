import Verif.Model.SecretsErrors
import Verif.Model.Secretscli
/-!
What cmd/secretscli writes to standard error, function by function, beside the model of what it does in
Model/Secretscli: a list with the text of every call that writes there, in order.
-/

namespace Verif.Model.SecretscliErrors
open Verif Verif.Go Verif.Model.Util Verif.Model.SecretStore Verif.Model.Secretscli
open Verif.Model.Secrets (World)
open Verif.Model.SecretsErrors (Told errorf)

/-- The texts of errors that come from elsewhere: why no password and why no line could be read from the terminal,
why a file could not be read or written, why the size of the terminal is not known, and what a panic says. The
text of an error depends on the path alone, and there is only one for panics. -/
structure Texts where
  prompt : Bytes
  line : Bytes
  read : Bytes → Bytes
  write : Bytes → Bytes
  size : Bytes
  crash : Bytes

variable (T : Texts) (C : Crypto) (J : Json)

/-- `fmt.Fprintf(os.Stderr, "[!] command failed: %v\n", err)` (cmd/secretscli/secretscli.go:72). -/
def failed (error : Bytes) : Bytes := ascii "[!] command failed: " ++ error ++ [10]

/-- `writeStore` (cmd/secretscli/secretscli.go:120-141). The first format has a place for the path, but is given the
error. -/
def writeErr (st : St) : List Bytes :=
  if !st.sess.dirty then []
  else match marshalSecretStore C J st.sess.store st.sess.mode st.w.rng with
    | .ok (some fileData, _, rng) =>
      if (World.writeFile { st.w with rng := rng, write := st.writes 0 } st.sess.path fileData).2 then []
      else [ascii "[!] failed to write store to " ++ T.write st.sess.path ++ ascii ":" ++ [10], 9 :: T.write st.sess.path ++ [10]]
    | _ => []

/-- `shutdown` (cmd/secretscli/secretscli.go:143-148). -/
def shutdownErr (st : St) : List Bytes :=
  writeErr T C J st ++
  (if (writeStore C J st).1 then [] else [ascii "*** WARNING: store was NOT written to disk***" ++ [10]])

/-- `passwd` (cmd/secretscli/commands.go:50-70): its error, if it has one. -/
def passwdErr (st : St) : Bytes :=
  match st.read with
  | (none, _) => T.prompt
  | (some _, st) =>
    match st.read with
    | (none, _) => T.prompt
    | (some _, _) => ascii "passwords don't match"

/-- The loop of `writeMeta` (cmd/secretscli/commands.go:224-246). -/
def metaLoopErr : List (Option Bytes) → Told
  | [] => { error := T.line }
  | none :: _ => { error := T.line }
  | some line :: as =>
    if line = [] then {}
    else match splitEq line with
      | none =>
        let t := metaLoopErr as
        { t with msgs := errorf (ascii "Metadata should be in the form 'key=value'") :: t.msgs }
      | some _ => metaLoopErr as

/-- `writeMeta` (cmd/secretscli/commands.go:206-252). -/
def writeMetaErr (args : List Bytes) (st : St) : Told :=
  match args with
  | [] => { error := ascii "no label specified" }
  | [label] =>
    match st.entry label with
    | none => { error := ascii "no such record" }
    | some none => {}
    | some (some _) => metaLoopErr T st.w.term.answers
  | _ => { error := ascii "only one label may be specified" }

/-- `cmdWriteStore` (cmd/secretscli/commands.go:254-264). -/
def cmdWriteErr (args : List Bytes) (st : St) : Told :=
  if args.length ≠ 0 then { error := ascii "write takes no arguments" }
  else { msgs := writeErr T C J st, error := ascii "failed to write store" }

/-- The second part of `storeSingleSecret` (cmd/secretscli/commands.go:282-295). -/
def putErr (st : St) : Bytes :=
  match st.read.1 with
  | none => T.prompt
  | some _ => ascii "no password entered"

/-- `storeSingleSecret` (cmd/secretscli/commands.go:266-296): its error, if it has one. -/
def storeSingleErr (label : Bytes) (st : St) : Bytes :=
  match st.entry label with
  | none => putErr T st
  | some _ =>
    match st.read with
    | (none, _) => T.line
    | (some _, st) => putErr T st

/-- The loop of `storeSecret` (cmd/secretscli/commands.go:303-312). That a store cannot be marshalled is not said. -/
def storeLoopErr : Nat → List Bytes → St → Told
  | _, [], _ => {}
  | i, label :: ls, st =>
    match storeSingleSecret label st with
    | (.ok, st) => storeLoopErr (i + 1) ls st
    | (.err, st1) => { msgs := if i > 0 then writeErr T C J st1 else [], error := storeSingleErr T label st }
    | _ => {}

/-- `storeSecret` (cmd/secretscli/commands.go:298-315). -/
def storeErr (args : List Bytes) (st : St) : Told :=
  if args.length = 0 then { error := ascii "no labels provided" } else storeLoopErr T C J 0 args st

/-- The functions of `dispatch` (cmd/secretscli/commands.go:19-31): clearTerm, help (help.go:149-164), listSecrets
(commands.go:89-128), quitProgram (33-37), showSecret (130-152), showSecretHex (154-176), readMeta (180-204), and the
ones above. `none` is for a word that is no command. -/
def commandErr (e : Env) (cmd : Bytes) (args : List Bytes) (st : St) : Option Told :=
  if cmd = ascii "clear" then some {}
  else if cmd = ascii "help" then some { error := ascii "command not found" }
  else if cmd = ascii "list" then some { msgs := if e.width = none then [ascii "[!] " ++ T.size ++ [10]] else [] }
  else if cmd = ascii "quit" then some { msgs := shutdownErr T C J st }
  else if cmd = ascii "passwd" then some { error := passwdErr T st }
  else if cmd = ascii "rmeta" then some { error := ascii "no labels specified." }
  else if cmd = ascii "show" then some { error := ascii "No labels specified." }
  else if cmd = ascii "showhex" then some { error := ascii "no labels specified." }
  else if cmd = ascii "store" then some (storeErr T C J args st)
  else if cmd = ascii "wmeta" then some (writeMetaErr T args st)
  else if cmd = ascii "write" then some (cmdWriteErr T C J args st)
  else none

/-- `processCommands` (cmd/secretscli/secretscli.go:56-77), and what `inputLoop` logs when it panics (80-84), without the date
that package log puts in front of it. -/
def processErr (e : Env) (line : Bytes) (st : St) : List Bytes :=
  match fields line with
  | [] => []
  | cmd :: args =>
    match commandErr T C J e cmd args st with
    | none => [ascii "[!] " ++ cmd ++ ascii " is not a valid command." ++ [10]]
    | some t =>
      t.msgs ++
      match (processCommands C J e line st).1 with
      | .err => [failed t.error]
      | .panic => [ascii "inputLoop error: " ++ T.crash ++ [10]]
      | _ => []

/-- What is written in one step. A step without a name, taken when an error is next to be read and the reader is
reading, is the one in which `readCommands` meets that error (cmd/secretscli/secretscli.go:36-42); the text has no
newline. -/
def stepErr (e : Env) (s : Sys) : Event → List Bytes
  | .command line _ => processErr T C J e line s.st
  | .shutdown => shutdownErr T C J s.st
  | .silent =>
    if s.reader = .reading ∧ s.st.w.term.answers.head? = some none ∧ s.inputClosed = false then [ascii "[!] " ++ T.line] else []
  | _ => []

/-- A run, with what happened and what was written. -/
inductive RunErr (e : Env) : Sys → List Event → List Bytes → Sys → Prop
  | nil (s : Sys) : RunErr e s [] [] s
  | cons {s s1 s2 : Sys} {ev : Event} {evs : List Event} {out : List Bytes} : Step C J e s ev s1 → RunErr e s1 evs out s2 →
      RunErr e s (ev :: evs) (stepErr T C J e s ev ++ out) s2

/-- The first part of `main` (cmd/secretscli/secretscli.go:166-188), when it fails. -/
def startErr (w : World) (path : Bytes) : Bytes :=
  match w.term.read.1 with
  | none => ascii "[!] " ++ T.prompt ++ [10]
  | some _ =>
    match w.fs path with
    | none => ascii "[!] " ++ T.read path ++ [10]
    | some _ => ascii "[!] failed to unlocked store." ++ [10]

end Verif.Model.SecretscliErrors
