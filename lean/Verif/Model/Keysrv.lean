import Verif.Model.KeyStore
import Verif.Go.Fs
import Verif.Go.Strings
import Verif.Go.Text
/-!
Model of exp/keysrv/keysrv.go: how the server starts, what it does with one command, and the
goroutines (HTTP handlers, dispatcher, auditor) and timers as a transition system. Left out: what is
logged and TLS. A request arrives here with the label it names; how it gets that far, and what
becomes of those that do not, is in Model/KeysrvHttp.
-/

namespace Verif.Model.Keysrv
open Verif Verif.Go Verif.Model.Util Verif.Model.Public Verif.Model.KeyStore

/-- `command.op` (exp/keysrv/keysrv.go:23-27), as the switch of `process` reads it; `other` is any
other string. -/
inductive Op where
  | pubkey
  | fingerprint
  | upload
  | audit
  | other
deriving DecidableEq, Repr

/-- `command` (exp/keysrv/keysrv.go:23-27). `label` and `pub` are `data["label"]` and
`data["public"]`, empty if absent. The channel `cb` has room for the one answer sent on it, so that
sending never blocks; it is not part of the model. -/
structure Command where
  op : Op
  label : Bytes := []
  pub : Bytes := []

/-- `response` (exp/keysrv/keysrv.go:29-32); `err` is the text of the error. -/
structure Response where
  out : Bytes := []
  err : Option Bytes := none
deriving DecidableEq

/-- The iteration orders met while a command is processed, and how many turns the walks of an audit
may take. -/
structure Orders where
  first : List Bytes
  second : List Bytes
  audit : List Bytes
  walk : Bytes → Nat → List Bytes
  fuel : Nat

variable (C : Crypto) (A : Asn1) (P : Pem) (J : KeyJson) (sha256 : Bytes → Bytes)

/-- `checkUpload` (exp/keysrv/keysrv.go:102-117). `clock` is the time `ImportVerified` records. -/
def checkUpload (ks : KeyStore) (cmd : Command) (o : Orders) (clock : BitVec 64) : Res (KeyStore × Response) :=
  if cmd.label = self ∨ cmd.label = [] then .ok (ks, { err := some (ascii "invalid label") })
  else do
    let (ks, ok) ← ks.importVerifiedKey C A P cmd.label cmd.pub o.first o.second clock
    if !ok then pure (ks, { err := some (ascii "failed to add public key") })
    else pure (ks, { out := ascii "public key added successfully" })

/-- The case "public" of `process` (exp/keysrv/keysrv.go:123-151). The error set by the checks of
the label is overwritten by that of `Serialise`, which does not fail. -/
def lookup (ks : KeyStore) (label : Bytes) : Response :=
  let err := if label = [] then some (ascii "missing label") else none
  let err := if !ks.has label then some (ascii "export failed") else err
  if label = self then { out := ks.exportKey.getD [], err := err }
  else match ks.get label with
    | none => { err := some (ascii "export failed") }
    | some r =>
      let vkey : VerifiedKey := {
        pub := r.keyBytes, signer := r.keySigner, timestamp := r.signatureTime, signature := r.keySignature }
      { out := vkey.serialise A P, err := none }

/-- The case "fingerprint" of `process` (exp/keysrv/keysrv.go:152-180). -/
def fingerprint (ks : KeyStore) (label : Bytes) : Response :=
  let err := if label = [] then some (ascii "missing label") else none
  let err := if !ks.has label then some (ascii "export failed") else err
  if label = self then { out := hexEncode (sha256 ks.pubBytes), err := err }
  else match ks.get label with
    | none => { err := some (ascii "fingerprint failed") }
    | some r => { out := hexEncode (sha256 r.keyBytes), err := err }

/-- `process` (exp/keysrv/keysrv.go:119-194); `none` means that an audit is still running. -/
def process (ks : KeyStore) (cmd : Command) (o : Orders) (clock : BitVec 64) : Option (Res (KeyStore × Response)) :=
  match cmd.op with
  | .pubkey => some (.ok (ks, lookup A P ks cmd.label))
  | .fingerprint => some (.ok (ks, fingerprint sha256 ks cmd.label))
  | .upload => some (checkUpload C A P ks cmd o clock)
  | .audit =>
    match ks.keyAudit C o.audit o.walk o.fuel with
    | none => none
    | some .panic => some .panic
    | some (.ok ok) => some (.ok (ks, { err := if ok then none else some (ascii "audit failure") }))
  | .other => some (.ok (ks, { err := some (ascii "invalid command") }))

/-- What a client may ask (the routes of `main`, exp/keysrv/keysrv.go:312-315). -/
inductive Request where
  | server
  | pubkey (label : Bytes)
  | fingerprint (label : Bytes)
  | upload (label body : Bytes)
deriving DecidableEq

/-- The command a handler sends (exp/keysrv/keysrv.go:34-37, 48-55, 74-78, 82-96). -/
def Request.command : Request → Command
  | .server => { op := .pubkey, label := self }
  | .pubkey label => { op := .pubkey, label := label }
  | .fingerprint label => { op := .fingerprint, label := if label = [] then self else label }
  | .upload label body => { op := .upload, label := label, pub := body }

/-- The status and body of an HTTP response. -/
structure Reply where
  status : Nat
  body : Bytes
deriving DecidableEq

/-- What a handler writes (exp/keysrv/keysrv.go:39-45, 61-71). The channel is never closed;
`serverPublic` does not look at the error. -/
def Request.reply (r : Request) (resp : Response) : Reply :=
  match r, resp.err with
  | .server, _ => { status := 200, body := resp.out }
  | _, some e => { status := 400, body := e }
  | _, none => { status := 200, body := resp.out }

/-! ### Starting -/

/-- `loadStore` (exp/keysrv/keysrv.go:242-293). `pass` is what is read at the prompt, `none` an error;
`t1`, `t2`, `t3` are readings of the clock. The result is the store, if any, and the files. A file
that exists can be read, so that `util.Exists` and `LoadKeyStore` agree; a failed write of a new
store is only logged. -/
def loadStore (fs : Fs) (path : Path) (write : WriteOutcome) (pass : Option Bytes) (rng : Rng)
    (t1 t2 t3 : BitVec 64) : Res (Option KeyStore × Fs) :=
  let flush := (fs path).isNone
  match pass with
  | none => .ok (none, fs)
  | some pass => do
    let (ks, rng) ← loadKeyStore C A P J (fs path) true rng t1 t2
    match ks with
    | none => pure (none, fs)
    | some ks => do
      if !(← ks.valid) then pure (none, fs)
      else if !flush then do
        let (ks, ok) ← ks.unlock C A P pass t3
        if !ok then pure (none, fs) else pure (some ks, fs)
      else do
        let (ks, ok, _) ← ks.lockWith C pass rng
        if !ok then pure (none, fs)
        else do
          let (ks, ok) ← ks.unlock C A P pass t3
          if !ok then pure (none, fs)
          else pure (some ks, (Go.writeFile write fs path (ks.dump J)).1)

/-- `main` up to the audit (exp/keysrv/keysrv.go:302-308): the store the server starts with, or
`none` if the program ends with an error. The outer `none` means that the audit is still running. -/
def boot (fs : Fs) (path : Path) (write : WriteOutcome) (pass : Option Bytes) (rng : Rng) (t1 t2 t3 : BitVec 64)
    (o : Orders) : Option (Res (Option KeyStore × Fs)) :=
  match loadStore C A P J fs path write pass rng t1 t2 t3 with
  | .panic => some .panic
  | .ok (none, fs) => some (.ok (none, fs))
  | .ok (some ks, fs) =>
    match ks.keyAudit C o.audit o.walk o.fuel with
    | none => none
    | some .panic => some .panic
    | some (.ok false) => some (.ok (none, fs))
    | some (.ok true) => some (.ok (some ks, fs))

/-! ### Running -/

/-- Who sends a command: the handler of the request with a given number, or `auditRunner`
(exp/keysrv/keysrv.go:196-213). -/
inductive Sender where
  | client (n : Nat) (r : Request)
  | auditor
deriving DecidableEq

def Sender.command : Sender → Command
  | .client _ r => r.command
  | .auditor => { op := .audit }

/-- The dispatcher goroutine is running, or in an audit that does not end; or the whole process
has ended, by a panic or by `log.Fatal`. -/
inductive Phase where
  | running
  | hung
  | crashed
  | exited
deriving DecidableEq

/-- The state of the server. `now` counts seconds. `deadline` is when the timer of the dispatcher's
current turn fires. `sending` holds the goroutines that are at `dispatch <- cmd`, `queue` the
contents of the channel. `mailbox` is the answer to the auditor; `nextAudit` is when it wakes, `none`
while it waits for its command to be processed. `replies` is what clients were told. `writes n` says
how the n-th write from now will go. -/
structure State where
  ks : KeyStore
  fs : Fs
  writes : Nat → WriteOutcome
  now : Nat
  deadline : Nat
  sending : List Sender
  queue : List Sender
  mailbox : Option Response
  nextAudit : Option Nat
  replies : List (Nat × Request × Reply)
  phase : Phase

/-- The server as `main` starts it (exp/keysrv/keysrv.go:310-311, 215-217): the first audit is sent
at once. -/
def initial (ks : KeyStore) (fs : Fs) (writes : Nat → WriteOutcome) : State where
  ks := ks
  fs := fs
  writes := writes
  now := 0
  deadline := 600
  sending := []
  queue := []
  mailbox := none
  nextAudit := some 0
  replies := []
  phase := .running

/-- The answer reaches whoever sent the command (exp/keysrv/keysrv.go:225). -/
def State.deliver (s : State) (x : Sender) (resp : Response) : State :=
  match x with
  | .client n r => { s with replies := s.replies ++ [(n, r, r.reply resp)] }
  | .auditor => { s with mailbox := some resp }

/-- The iteration orders are orders of the keys of the store. -/
def Orders.Enumerate (o : Orders) (ks : KeyStore) : Prop :=
  ∀ m, ks.keys = some m → m.Enumerates o.first ∧ m.Enumerates o.second ∧ m.Enumerates o.audit ∧
    ∀ l i, m.Enumerates (o.walk l i)

inductive Event where
  | arrive (n : Nat) (r : Request)
  | send (x : Sender)
  | handle (x : Sender) (resp : Response)
  | crash (x : Sender)
  | hang (x : Sender)
  | dump
  | wake
  | told
  | fatal
  | tick (d : Nat)
deriving DecidableEq

/-- The process has not ended. -/
def State.Alive (s : State) : Prop := s.phase = .running ∨ s.phase = .hung

/-- One step of the server: of a handler (exp/keysrv/keysrv.go:34-98), of `auditRunner` (196-213) or of
`keystoreDispatch` (215-240). The channel is never closed, so that the loops do not end. -/
inductive Step (path : Path) : State → Event → State → Prop
  /-- A request arrives; its handler is started (34, 48, 74, 82). -/
  | arrive (s : State) (n : Nat) (r : Request) : s.Alive →
      Step path s (.arrive n r) { s with sending := s.sending ++ [.client n r] }
  /-- `dispatch <- cmd` (38, 60, 200); the channel has room for 16 (100). Goroutines waiting for
  room may get it in any order. -/
  | send (s : State) (a b : List Sender) (x : Sender) : s.Alive → s.sending = a ++ x :: b → s.queue.length < 16 →
      Step path s (.send x) { s with sending := a ++ b, queue := s.queue ++ [x] }
  /-- The dispatcher receives a command, processes it, answers, and sets a new timer (217-225). -/
  | handle (s : State) (x : Sender) (rest : List Sender) (o : Orders) (clock : BitVec 64) (ks : KeyStore)
      (resp : Response) : s.phase = .running → s.queue = x :: rest → o.Enumerate s.ks →
      process C A P sha256 s.ks x.command o clock = some (.ok (ks, resp)) →
      Step path s (.handle x resp) (State.deliver { s with ks := ks, queue := rest, deadline := s.now + 600 } x resp)
  /-- Processing panics: the process ends. -/
  | crash (s : State) (x : Sender) (rest : List Sender) (o : Orders) (clock : BitVec 64) :
      s.phase = .running → s.queue = x :: rest → o.Enumerate s.ks →
      process C A P sha256 s.ks x.command o clock = some .panic →
      Step path s (.crash x) { s with queue := rest, phase := .crashed }
  /-- Processing does not end. -/
  | hang (s : State) (x : Sender) (rest : List Sender) (o : Orders) (clock : BitVec 64) :
      s.phase = .running → s.queue = x :: rest → o.Enumerate s.ks →
      (∀ fuel, process C A P sha256 s.ks x.command { o with fuel := fuel } clock = none) →
      Step path s (.hang x) { s with queue := rest, phase := .hung }
  /-- The timer fires: the store is written, and a new timer set (226-237, 217). `json.Marshal` does
  not fail. -/
  | dump (s : State) : s.phase = .running → s.deadline ≤ s.now →
      Step path s .dump { s with
        fs := (Go.writeFile (s.writes 0) s.fs path (s.ks.dump J)).1
        writes := fun n => s.writes (n + 1)
        deadline := s.now + 600 }
  /-- `auditRunner` makes a command (198-200, 211). -/
  | wake (s : State) (t : Nat) : s.Alive → s.nextAudit = some t → t ≤ s.now →
      Step path s .wake { s with sending := s.sending ++ [.auditor], nextAudit := none }
  /-- `auditRunner` is told that all is well, and sleeps for four hours (201, 209-211). -/
  | told (s : State) (resp : Response) : s.Alive → s.mailbox = some resp → resp.err = none →
      Step path s .told { s with mailbox := none, nextAudit := some (s.now + 14400) }
  /-- `auditRunner` is told that the audit failed (204-205). -/
  | fatal (s : State) (resp : Response) : s.Alive → s.mailbox = some resp → resp.err ≠ none →
      Step path s .fatal { s with phase := .exited }
  /-- Time passes. -/
  | tick (s : State) (d : Nat) : s.Alive → Step path s (.tick d) { s with now := s.now + d }

/-- An execution. -/
inductive Run (path : Path) : State → List Event → State → Prop
  | nil (s : State) : Run path s [] s
  | cons {s s' s'' : State} {e : Event} {es : List Event} : Step C A P J sha256 path s e s' →
      Run path s' es s'' → Run path s (e :: es) s''

/-- Nothing but the arrival of a request can happen before `d` seconds have passed. -/
def State.Idle (path : Path) (s : State) (d : Nat) : Prop :=
  ∀ d' < d, ∀ e s', Step C A P J sha256 path { s with now := s.now + d' } e s' →
    (∃ n r, e = .arrive n r) ∨ ∃ d'', e = .tick d''

/-- An execution on an infinitely fast machine: time passes only while the server is idle. -/
inductive Prompt (path : Path) : State → List Event → State → Prop
  | nil (s : State) : Prompt path s [] s
  | cons {s s' s'' : State} {e : Event} {es : List Event} : Step C A P J sha256 path s e s' →
      (∀ d, e = .tick d → s.Idle C A P J sha256 path d) → Prompt path s' es s'' → Prompt path s (e :: es) s''

end Verif.Model.Keysrv
