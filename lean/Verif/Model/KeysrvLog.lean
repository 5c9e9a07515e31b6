import Verif.Model.Keysrv
/-!
What exp/keysrv/keysrv.go logs while it serves. The log of package log goes to the standard error, each entry with
the date and time in front. Left out: what is logged before the server listens, what net/http logs of connections
that fail, and the trace of a panic.
-/

namespace Verif.Model.Keysrv
open Verif Verif.Go Verif.Model.Util Verif.Model.Public Verif.Model.KeyStore

/-- The reading of a clock. -/
structure Stamp where
  year : Nat
  month : Nat
  day : Nat
  hour : Nat
  minute : Nat
  second : Nat
deriving DecidableEq, Repr

/-- The header of an entry: the program leaves the flags of package log at `LstdFlags`. -/
def Stamp.text (t : Stamp) : Bytes :=
  decimalPad 4 t.year ++ [47] ++ decimalPad 2 t.month ++ [47] ++ decimalPad 2 t.day ++ [32] ++
    decimalPad 2 t.hour ++ [58] ++ decimalPad 2 t.minute ++ [58] ++ decimalPad 2 t.second ++ [32]

/-- What package log writes for a message: a newline is added unless the message ends with one. -/
def logEntry (t : Stamp) (msg : Bytes) : Bytes :=
  t.text ++ msg ++ (if msg.getLast? = some 10 then [] else [10])

/-- The whole log. -/
def logText (log : List (Stamp × Bytes)) : Bytes := log.flatMap fun x => logEntry x.1 x.2

/-- `cmd.op` (exp/keysrv/keysrv.go:37, 55, 78, 96, 199). No goroutine sends another operation. -/
def Op.text : Op → Bytes
  | .pubkey => ascii "public"
  | .fingerprint => ascii "fingerprint"
  | .upload => ascii "upload"
  | .audit => ascii "audit"
  | .other => []

/-- What `process` logs (exp/keysrv/keysrv.go:124-142, 153-174, 182, 185). -/
def processLog (ks : KeyStore) (cmd : Command) : List Bytes :=
  match cmd.op with
  | .pubkey =>
    [ascii "public key lookup"] ++
    (if cmd.label = [] then [ascii "public key request with no label"] else []) ++
    (if !ks.has cmd.label then [ascii "keystore doesn't have key with label " ++ cmd.label] else []) ++
    (if cmd.label ≠ self ∧ ks.get cmd.label = none then [ascii "keystore lookup failed"] else [])
  | .fingerprint =>
    [ascii "fingerprint lookup"] ++
    (if cmd.label = [] then [ascii "fingerprint request with no label"] else []) ++
    (if !ks.has cmd.label then [ascii "keystore doesn't have key with label " ++ cmd.label] else []) ++
    (if cmd.label ≠ self ∧ ks.get cmd.label = none then [ascii "keystore lookup failed"] else [])
  | .upload => [ascii "upload request"]
  | .audit => [ascii "audit request"]
  | .other => []

/-- What `keystoreDispatch` logs of a command (exp/keysrv/keysrv.go:223-224). -/
def commandLog (ks : KeyStore) (x : Sender) : List Bytes :=
  (ascii "received command for " ++ x.command.op.text) :: processLog ks x.command

/-- What is logged in a step of the server (exp/keysrv/keysrv.go:198-210, 223-237). `why` is the text of the error
when the file cannot be written. The answer to an audit has no text of its own, so that line 207 is not reached. -/
def eventLog (why : Bytes) (s : State) : Event → List Bytes
  | .arrive _ _ => []
  | .send _ => []
  | .handle x _ => commandLog s.ks x
  | .crash x => commandLog s.ks x
  | .hang x => commandLog s.ks x
  | .dump => ascii "dumping keystore" ::
      (match s.writes 0 with
        | .done => []
        | _ => [ascii "WARNING: failed to write keystore: " ++ why])
  | .wake => [ascii "signaling audit"]
  | .told => [ascii "Audit complete: OK"]
  | .fatal => [ascii "FATAL: audit failed (" ++ (s.mailbox.bind Response.err).getD [] ++ ascii ")"]
  | .tick _ => []

variable (C : Crypto) (A : Asn1) (P : Pem) (J : KeyJson) (sha256 : Bytes → Bytes)

/-- An execution and what it logs, with the time of each message. -/
inductive Logged (path : Path) (why : Bytes) : State → List Event → State → List (Stamp × Bytes) → Prop
  | nil (s : State) : Logged path why s [] s []
  | cons {s s' s'' : State} {e : Event} {es : List Event} {l log : List (Stamp × Bytes)} :
      Step C A P J sha256 path s e s' → l.map Prod.snd = eventLog why s e → Logged path why s' es s'' log →
      Logged path why s (e :: es) s'' (l ++ log)

end Verif.Model.Keysrv
