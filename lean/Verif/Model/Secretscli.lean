import Verif.Model.Secrets
import Verif.Go.Text
import Verif.Model.SecretscliHelp
/-!
Model of cmd/secretscli: the commands, as functions on the session, the terminal, the clock, the
PRNG and the files, and the two goroutines that read and process the command lines, as a transition
system. Of what is printed only the output of clear, help, show, showhex, rmeta and list is kept: it is
appended to `World.stdout`. Prompts, notes and error messages are left out. The flags -f, -t and -i are
parameters; the refusal of a timeout that is too long is in Model/SecretscliTime.
-/

namespace Verif.Model.Secretscli
open Verif Verif.Go Verif.Model.Util Verif.Model.SecretStore
open Verif.Model.Secrets (World assign metaLoop)

/-- `session` (cmd/secretscli/secretscli.go:112-118); `Locked` is never used. -/
structure Session where
  store : SecretStore
  path : Bytes
  mode : Int
  dirty : Bool

/-- The session, what the program runs in, and how the successive writes of files will go. -/
structure St where
  sess : Session
  w : World
  writes : Nat → WriteOutcome

/-- What else the program depends on: the order in which the runtime iterates over maps, the width
of the terminal if it is known, and the format of dates. -/
structure Env where
  order : Map (Option SecretRecord) → List Bytes
  metaOrder : Map Bytes → List Bytes
  width : Option Nat
  date : BitVec 64 → Bytes

/-- How a command ends: without error, with an error, with a panic, or with the process. -/
inductive Ret where
  | ok | err | panic | exit
deriving DecidableEq

/-- A prompt is answered: `util.ReadLine`, `util.PassPrompt`, `readpass.PasswordPromptBytes`. -/
def St.read (st : St) : Option Bytes × St :=
  let (a, t) := st.w.term.read
  (a, { st with w := { st.w with term := t } })

/-- `fmt.Print`, more or less. -/
def St.print (st : St) (b : Bytes) : St := { st with w := { st.w with stdout := st.w.stdout ++ b } }

/-- `session.Store.Store[label]`; `some none` is a nil record. -/
def St.entry (st : St) (label : Bytes) : Option (Option SecretRecord) := st.sess.store.store.bind (fun m => m label)

variable (C : Crypto) (J : Json)

/-- `writeStore` (cmd/secretscli/secretscli.go:120-141). MarshalSecretStore wipes the store when it
succeeds, whatever happens next. -/
def writeStore (st : St) : Bool × St :=
  if !st.sess.dirty then (true, st)
  else match marshalSecretStore C J st.sess.store st.sess.mode st.w.rng with
    | .panic => (false, st) -- not reached
    | .ok (none, s, rng) => (false, { st with sess := { st.sess with store := s }, w := { st.w with rng := rng } })
    | .ok (some fileData, s, rng) =>
      let (w, ok) := World.writeFile { st.w with rng := rng, write := st.writes 0 } st.sess.path fileData
      (ok, { sess := { st.sess with store := s, dirty := !ok }, w := w, writes := fun n => st.writes (n + 1) })

/-- `shutdown` (cmd/secretscli/secretscli.go:143-148). -/
def shutdown (st : St) : St :=
  let st := (writeStore C J st).2
  { st with sess := { st.sess with store := st.sess.store.zero } }

/-- `quitProgram` (cmd/secretscli/commands.go:33-37). -/
def quitProgram (st : St) : Ret × St := (.exit, shutdown C J st)

/-- `clearTerm` (cmd/secretscli/commands.go:39-42). -/
def clearTerm (st : St) : Ret × St := (.ok, st.print (27 :: ascii "[H" ++ 27 :: ascii "[2J" ++ [10]))

/-- `help` (cmd/secretscli/help.go:149-164). -/
def help (args : List Bytes) (st : St) : Ret × St :=
  match helpText args with
  | none => (.err, st)
  | some text => (.ok, st.print text)

/-- `passwd` (cmd/secretscli/commands.go:50-70). -/
def passwd (st : St) : Ret × St :=
  match st.read with
  | (none, st) => (.err, st)
  | (some newPass, st) =>
    match st.read with
    | (none, st) => (.err, st)
    | (some confirmPass, st) =>
      if confirmPass ≠ newPass then (.err, st)
      else (.ok, { st with sess := { st.sess with store := st.sess.store.changePassword newPass } })

/-- `dumpKeys` (cmd/secretscli/commands.go:44-48). -/
def dumpKeys (keys : List Bytes) : Bytes := keys.flatMap (fun k => k ++ [10])

/-- `utf8.RuneCountInString`, given enough fuel. -/
def runeCountF : Nat → Bytes → Nat
  | 0, _ => 0
  | _ + 1, [] => 0
  | n + 1, b :: s => 1 + runeCountF n ((b :: s).drop ((runeLen (b :: s)).getD 1))

def runeCount (s : Bytes) : Nat := runeCountF s.length s

/-- `fmt.Sprintf("%-<width>s", s)` -/
def padRight (width : Nat) (s : Bytes) : Bytes := s ++ List.replicate (width - runeCount s) 32

/-- The loop of `dumpFmtKeys` (cmd/secretscli/commands.go:77-86), two keys at a time. -/
def dumpPairs (width : Nat) : List Bytes → Bytes
  | [] => []
  | [k] => 9 :: padRight width k ++ [10]
  | k :: l :: keys => 9 :: padRight width k ++ l ++ [10] ++ dumpPairs width keys

/-- `dumpFmtKeys` (cmd/secretscli/commands.go:72-87). A second minus sign, in front of a negative
width, is a flag. -/
def dumpFmtKeys (keys : List Bytes) (w : Nat) : Bytes :=
  dumpPairs ((w : Int) / 2 - 8).natAbs keys

/-- `strings.Contains(s, pat)` -/
def contains : Bytes → Bytes → Bool
  | [], pat => pat = []
  | b :: s, pat => pat.isPrefixOf (b :: s) || contains s pat

/-- The condition of the loop of `listSecrets` (cmd/secretscli/commands.go:100-112). -/
def matches' (args : List Bytes) (label : Bytes) : Bool :=
  if args.length > 0 then args.any (contains label) else true

/-- `listSecrets` (cmd/secretscli/commands.go:89-128). -/
def listSecrets (e : Env) (args : List Bytes) (st : St) : Ret × St :=
  let keys := (e.order (st.sess.store.store.getD Map.empty)).filter (matches' args)
  let w := e.width.getD 80
  let max := keys.foldl (fun m k => if k.length > m then k.length else m) 0
  let st := st.print (ascii "Key store: " ++ decimal keys.length ++ ascii " keys" ++ [10])
  let keys := keys.mergeSort (fun a b => decide (a ≤ b))
  (.ok, st.print (if max > w then dumpKeys keys else dumpFmtKeys keys w))

/-- The lines of `showSecret` and `showSecretHex` (cmd/secretscli/commands.go:130-152 and 154-176);
`format` is string(r.Secret) or its hexadecimal form. -/
def showLine (format : Bytes → Bytes) (named : Bool) (label : Bytes) (st : St) : Ret × St :=
  match st.entry label with
  | none => (.ok, st.print (ascii "[!] " ++ label ++ ascii " not found." ++ [10]))
  | some none => (.panic, st)
  | some (some r) => (.ok, st.print ((if named then label ++ ascii ": " else []) ++ format r.secret ++ [10]))

/-- The loop of `showSecret` and `showSecretHex` (cmd/secretscli/commands.go:142-149 and 166-173). -/
def showLoop (format : Bytes → Bytes) : List Bytes → St → Ret × St
  | [], st => (.ok, st)
  | label :: ls, st =>
    match showLine format true label st with
    | (.ok, st) => showLoop format ls st
    | r => r

/-- `showSecret` (cmd/secretscli/commands.go:130-152) and `showSecretHex` (154-176). -/
def showSecret (format : Bytes → Bytes) (args : List Bytes) (st : St) : Ret × St :=
  match args with
  | [] => (.err, st)
  | [label] => showLine format false label st
  | labels => showLoop format labels st

/-- `fmt.Sprintf("%d", n)` for an int64. -/
def signed (n : BitVec 64) : Bytes := if n.toInt < 0 then 45 :: decimal n.toInt.natAbs else decimal n.toInt.natAbs

/-- What `readMeta` prints about a record (cmd/secretscli/commands.go:192-201). -/
def metaText (e : Env) (label : Bytes) (r : SecretRecord) : Bytes :=
  let md := r.metadata.getD Map.empty
  let keys := e.metaOrder md
  ascii "Record: " ++ label ++ [10] ++
    9 :: ascii "Last modification: " ++ e.date r.timestamp ++ ascii " (timestamp " ++ signed r.timestamp ++ ascii ")" ++ [10] ++
    (if keys.length > 0 then 9 :: ascii "Metadata:" ++ [10] ++
      keys.flatMap (fun k => 9 :: 9 :: k ++ ascii ": " ++ (md k).getD [] ++ [10]) else [])

/-- The loop of `readMeta` (cmd/secretscli/commands.go:185-202). -/
def metaLines (e : Env) : List Bytes → St → Ret × St
  | [], st => (.ok, st)
  | label :: ls, st =>
    match st.entry label with
    | none => metaLines e ls (st.print (ascii "[!] " ++ label ++ ascii " not found." ++ [10]))
    | some none => (.panic, st.print (ascii "Record: " ++ label ++ [10]))
    | some (some r) => metaLines e ls (st.print (metaText e label r))

/-- `readMeta` (cmd/secretscli/commands.go:180-204). -/
def readMeta (e : Env) (args : List Bytes) (st : St) : Ret × St :=
  match args with
  | [] => (.err, st)
  | labels => metaLines e labels st

/-- `session.Store.Store[label] = r` with the record's time, as at the end of `writeMeta` and
`storeSingleSecret` (cmd/secretscli/commands.go:247-251 and 290-294). A nil map cannot be assigned
to. -/
def touch (st : St) (label : Bytes) (r : SecretRecord) : Ret × St :=
  let (now, t) := st.w.term.now
  let w := { st.w with term := t }
  let s := { st.sess.store with timestamp := now }
  match assign s label { r with timestamp := now } with
  | .panic => (.panic, { st with sess := { st.sess with store := s }, w := w })
  | .ok s => (.ok, { st with sess := { st.sess with store := s, dirty := true }, w := w })

/-- `writeMeta` (cmd/secretscli/commands.go:206-252). The metadata map is changed in place, so that
a failing call leaves its traces in the session. -/
def writeMeta (args : List Bytes) (st : St) : Ret × St :=
  match args with
  | [] => (.err, st)
  | [label] =>
    match st.entry label with
    | none => (.err, st)
    | some none => (.panic, st)
    | some (some r) =>
      let (md, ok, as) := metaLoop (r.metadata.getD Map.empty) st.w.term.answers
      let st := { st with w := { st.w with term := { st.w.term with answers := as } } }
      if !ok then
        match assign st.sess.store label { r with metadata := some md } with
        | .panic => (.panic, st) -- not reached
        | .ok s => (.err, { st with sess := { st.sess with store := s } })
      else touch st label { r with metadata := some md }
  | _ => (.err, st)

/-- `cmdWriteStore` (cmd/secretscli/commands.go:254-264). -/
def cmdWriteStore (args : List Bytes) (st : St) : Ret × St :=
  if args.length ≠ 0 then (.err, st)
  else match writeStore C J st with
    | (false, st) => (.err, st)
    | (true, st) => (.ok, st)

/-- The second part of `storeSingleSecret` (cmd/secretscli/commands.go:282-295); a nil record is
dereferenced. -/
def putSecret (label : Bytes) (r : Option SecretRecord) (st : St) : Ret × St :=
  match st.read with
  | (none, st) => (.err, st)
  | (some password, st) =>
    if password.length = 0 then (.err, st)
    else match r with
      | none => (.panic, st)
      | some r => touch st label { r with secret := password }

/-- `storeSingleSecret` (cmd/secretscli/commands.go:266-296). A new record has no label. -/
def storeSingleSecret (label : Bytes) (st : St) : Ret × St :=
  match st.entry label with
  | none => putSecret label (some { label := [], timestamp := 0, secret := [], metadata := none }) st
  | some r =>
    match st.read with
    | (none, st) => (.err, st)
    | (some answer, st) =>
      let answer := lower answer
      if answer ≠ ascii "y" ∧ answer ≠ ascii "yes" then (.ok, st)
      else putSecret label r st

/-- The loop of `storeSecret` (cmd/secretscli/commands.go:303-312). -/
def storeLoop : Nat → List Bytes → St → Ret × St
  | _, [], st => (.ok, st)
  | i, label :: ls, st =>
    match storeSingleSecret label st with
    | (.ok, st) => storeLoop (i + 1) ls st
    | (.err, st) => (.err, if i > 0 then (writeStore C J st).2 else st)
    | r => r

/-- `storeSecret` (cmd/secretscli/commands.go:298-315). -/
def storeSecret (args : List Bytes) (st : St) : Ret × St :=
  if args.length = 0 then (.err, st) else storeLoop C J 0 args st

/-- `dispatch` (cmd/secretscli/commands.go:19-31) and `processCommands`
(cmd/secretscli/secretscli.go:56-77), up to the `proceed <- true` at the end. -/
def processCommands (e : Env) (line : Bytes) (st : St) : Ret × St :=
  match fields line with
  | [] => (.ok, st)
  | cmd :: args =>
    if cmd = ascii "clear" then clearTerm st
    else if cmd = ascii "help" then help args st
    else if cmd = ascii "list" then listSecrets e args st
    else if cmd = ascii "quit" then quitProgram C J st
    else if cmd = ascii "passwd" then passwd st
    else if cmd = ascii "rmeta" then readMeta e args st
    else if cmd = ascii "show" then showSecret id args st
    else if cmd = ascii "showhex" then showSecret hexEncode args st
    else if cmd = ascii "store" then storeSecret C J args st
    else if cmd = ascii "wmeta" then writeMeta args st
    else if cmd = ascii "write" then cmdWriteStore C J args st
    else (.err, st)

/-! ### The goroutines -/

/-- Where `readCommands` (cmd/secretscli/secretscli.go:24-54) is: in `util.ReadLine`, in
`input <- line`, in `<-proceed`, or at its end. -/
inductive Reader where
  | reading
  | sending (line : Bytes)
  | waiting
  | done
deriving DecidableEq

/-- Where the main goroutine is: in the select statement of `inputLoop`
(cmd/secretscli/secretscli.go:92-104), about to run a command, in the `proceed <- true` of
`processCommands`, past `inputLoop`, or at the end of the process. -/
inductive Main where
  | select
  | running (line : Bytes)
  | acking
  | stopped
  | exited
deriving DecidableEq

/-- Where a command leaves the main goroutine; a panic is caught at the end of `inputLoop`. -/
def Ret.next : Ret → Main
  | .ok | .err => .acking
  | .panic => .stopped
  | .exit => .exited

/-- The state of the process; channels are unbuffered, so that all there is to know about them is
whether they are closed. -/
structure Sys where
  st : St
  reader : Reader
  main : Main
  inputClosed : Bool
  proceedClosed : Bool

/-- Set the answers still to be given. -/
def St.rest (st : St) (as : List (Option Bytes)) : St :=
  { st with w := { st.w with term := { st.w.term with answers := as } } }

/-- What happens, seen from outside: a line is read, a line is accepted for processing, a command
ends, the timer fires, the store is shut down. Steps without a name are `silent`. -/
inductive Event where
  | read (line : Bytes)
  | accept (line : Bytes)
  | command (line : Bytes) (r : Ret)
  | timeout
  | shutdown
  | silent
deriving DecidableEq

/-- One step of either goroutine (cmd/secretscli/secretscli.go:24-110, 190). A send and the receive
that takes it are one step. The timer can fire whenever the main goroutine is in the select
statement. A command is one step: `running_alone` in Proofs/SecretscliRun shows that no other step is
possible until it ends. Nothing happens after the end of the process. A read error other than the
end of the input comes without a line. -/
inductive Step (e : Env) : Sys → Event → Sys → Prop
  /-- readCommands:34,44,48: a line is read. -/
  | readLine (s : Sys) (line : Bytes) (as : List (Option Bytes)) :
      s.main ≠ .exited → s.reader = .reading → s.st.w.term.answers = some line :: as → line ≠ [] →
      Step e s (.read line) { s with st := s.st.rest as, reader := .sending line }
  /-- readCommands:44-46: an empty line is skipped. -/
  | readBlank (s : Sys) (as : List (Option Bytes)) :
      s.main ≠ .exited → s.reader = .reading → s.st.w.term.answers = some [] :: as →
      Step e s .silent { s with st := s.st.rest as }
  /-- readCommands:40-46: so is an error. -/
  | readError (s : Sys) (as : List (Option Bytes)) :
      s.main ≠ .exited → s.reader = .reading → s.st.w.term.answers = none :: as →
      Step e s .silent { s with st := s.st.rest as }
  /-- readCommands:36-39: the end of the input. -/
  | readEof (s : Sys) :
      s.main ≠ .exited → s.reader = .reading → s.st.w.term.answers = [] →
      Step e s .silent { s with reader := .done, inputClosed := true }
  /-- readCommands:48 and inputLoop:93,98: a line is handed over. -/
  | handOver (s : Sys) (line : Bytes) :
      s.main = .select → s.reader = .sending line → line ≠ ascii "quit" →
      Step e s (.accept line) { s with reader := .waiting, main := .running line }
  /-- inputLoop:94-97. -/
  | handOverQuit (s : Sys) (line : Bytes) :
      s.main = .select → s.reader = .sending line → line = ascii "quit" →
      Step e s (.accept line) { s with reader := .waiting, main := .stopped }
  /-- inputLoop:94-97. -/
  | closed (s : Sys) :
      s.main = .select → s.inputClosed = true →
      Step e s .silent { s with main := .stopped }
  /-- inputLoop:99-103. -/
  | timeout (s : Sys) :
      s.main = .select →
      Step e s .timeout { s with main := .stopped, proceedClosed := true }
  /-- processCommands:57-76: the command ends. A panic ends inputLoop (80-84). -/
  | command (s : Sys) (line : Bytes) (r : Ret) (st : St) :
      s.main = .running line → processCommands C J e line s.st = (r, st) →
      Step e s (.command line r) { s with st := st, main := r.next }
  /-- processCommands:76 and readCommands:49. -/
  | proceed (s : Sys) :
      s.main = .acking → s.reader = .waiting → s.proceedClosed = false →
      Step e s .silent { s with main := .select, reader := .reading }
  /-- readCommands:49-53. -/
  | readerDone (s : Sys) :
      s.main ≠ .exited → s.reader = .waiting → s.proceedClosed = true →
      Step e s .silent { s with reader := .done }
  /-- main:188, the deferred call. -/
  | shutdown (s : Sys) :
      s.main = .stopped →
      Step e s .shutdown { s with st := Secretscli.shutdown C J s.st, main := .exited }

/-- A run, with what happened. -/
inductive Run (e : Env) : Sys → List Event → Sys → Prop
  | nil (s : Sys) : Run e s [] s
  | cons {s s1 s2 : Sys} {ev : Event} {evs : List Event} : Step C J e s ev s1 → Run e s1 evs s2 → Run e s (ev :: evs) s2

/-- The first part of `main` (cmd/secretscli/secretscli.go:166-188): the passphrase is asked for and
the store is opened. `none` is an exit with status 1. The file is read with ioutil.ReadFile, for
which "-" is a file name like any other. -/
def start (w : World) (writes : Nat → WriteOutcome) (path : Bytes) (mode : Int) : Res (Option St) :=
  let (pass, t) := w.term.read
  let w := { w with term := t }
  match pass with
  | none => .ok none
  | some pass =>
    match w.fs path with
    | none => .ok none
    | some data => do
      match ← unmarshalSecretStore C J data pass mode with
      | none => pure none
      | some s => pure (some { sess := { store := s, path := path, mode := mode, dirty := false }, w := w, writes := writes })

/-- The beginning of `inputLoop` (cmd/secretscli/secretscli.go:85-89). -/
def Sys.init (st : St) : Sys := { st := st, reader := .reading, main := .select, inputClosed := false, proceedClosed := false }

end Verif.Model.Secretscli
