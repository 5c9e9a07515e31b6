import Verif.Model.KeyStore
import Verif.Go.Term
import Verif.Go.Strings
import Verif.Go.Text
/-!
Model of exp/fcrypt/fcrypt.go: the program as a function of its flags and arguments, the answers
given at its prompts, the clock, the PRNG and the files. What goes to standard error, and the text
of prompts, is left out.
-/

namespace Verif.Model.Fcrypt
open Verif Verif.Go Verif.Model.Util Verif.Model.Public Verif.Model.KeyStore

/-- encoding/pem, of which fcrypt also knows how armour begins. -/
structure Armour extends Pem where
  enc_begin : ∀ typ body, ∃ rest, rest ≠ [] ∧ enc typ body = ascii "-----BEGIN" ++ rest

/-- What the program runs in. `writes n` says how the n-th write of a file from now will go;
`stdin` is what is still to be read from standard input; `failed` counts the writes of files that
failed, which the program does not see. -/
structure World where
  term : Term
  rng : Rng
  fs : Fs
  writes : Nat → WriteOutcome
  stdin : Bytes
  stdout : Bytes
  failed : Nat := 0

/-- What the runtime and other packages decide: the order of the n-th iteration over the keys and of
those in the walk from a label, how many turns the walks may take, dates, and SHA-256. -/
structure Env where
  order : Nat → Map (Option PublicKeyRecord) → List Bytes
  walk : Bytes → Nat → Map (Option PublicKeyRecord) → List Bytes
  fuel : Nat
  date : BitVec 64 → Bytes
  sha256 : Bytes → Bytes

/-- How a function ends: without an error, with one, by a panic, or not at all (within the turns
allowed). -/
inductive Ret where
  | ok
  | err
  | panic
  | hang
deriving DecidableEq, Repr

/-- The path that stands for the standard streams. -/
abbrev dash : Bytes := [45]

/-- `util.ReadFile` (common/util/util.go:119-124). A file that exists can be read; standard input
is read to its end. -/
def World.readFile (w : World) (path : Bytes) : Option Bytes × World :=
  if path = dash then (some w.stdin, { w with stdin := [] }) else (w.fs path, w)

/-- `ioutil.WriteFile`: whether the error is nil. -/
def World.save (w : World) (path data : Bytes) : Bool × World :=
  let (fs, ok) := Go.writeFile (w.writes 0) w.fs path data
  (ok, { w with fs := fs, writes := fun n => w.writes (n + 1), failed := if ok then w.failed else w.failed + 1 })

/-- `util.WriteFile` (common/util/util.go:128-134). Writing to standard output succeeds. -/
def World.writeFile (w : World) (path data : Bytes) : Bool × World :=
  if path = dash then (true, { w with stdout := w.stdout ++ data }) else w.save path data

/-- `fmt.Println` and `fmt.Printf`. -/
def World.print (w : World) (text : Bytes) : World := { w with stdout := w.stdout ++ text }

/-- `time.Now().Unix()`. Where a function reads the clock only in some cases the model takes a
reading in all. -/
def World.now (w : World) : BitVec 64 × World :=
  let (t, term) := w.term.now
  (t, { w with term := term })

/-- `util.ReadLine` and `util.PassPrompt`. -/
def World.read (w : World) : Option Bytes × World :=
  let (a, term) := w.term.read
  (a, { w with term := term })

/-- `config` (exp/fcrypt/fcrypt.go:31-35). -/
structure Config where
  args : List Bytes
  label : Bytes
  armour : Bool

/-- `EncryptedType` (common/public/crypto.go:24). -/
def encryptedType : Bytes := ascii "CRYPTUTIL ENCRYPTED MESSAGE"
/-- `SignatureType` (common/public/crypto.go:25). -/
def signatureType : Bytes := ascii "CRYPTUTIL SIGNATURE"
/-- `SignedAndEncryptedType` (common/public/crypto.go:26). -/
def signedAndEncryptedType : Bytes := ascii "CRYPTUTIL SIGNED AND ENCRYPTED MESSAGE"

variable (C : Crypto) (A : Asn1) (P : Armour) (J : KeyJson)

/-- `loadStore` (exp/fcrypt/fcrypt.go:53-90); `none` is nil. A file that exists can be read, so
that `util.Exists` and `LoadKeyStore` agree. -/
def loadStore (w : World) (path : Bytes) : Res (Option KeyStore × World) := do
  let flush := (w.fs path).isNone
  let (t1, w) := w.now
  let (t2, w) := w.now
  let (ks, rng) ← loadKeyStore C A P.toPem J (w.fs path) true w.rng t1 t2
  let w := { w with rng := rng }
  match ks with
  | none => pure (none, w.print (ascii "error in LoadKeyStore"))
  | some ks => do
    if !(← ks.valid) then pure (none, w.print (ascii "keystore not valid\n"))
    else if !flush then pure (some ks, w)
    else
      let (pass, w) := w.read
      match pass with
      | none => pure (none, w)
      | some pass => do
        let (ks, ok, rng) ← ks.lockWith C pass w.rng
        let w := { w with rng := rng }
        if !ok then pure (none, w)
        else do
          let (now, w) := w.now
          let (ks, ok) ← ks.unlock C A P.toPem pass now
          if !ok then pure (none, w) else pure (some ks, w)

/-- What `Unlock` prints when the store has no export key (common/store/keystore.go:209). -/
def building : Bytes := ascii "Building export key.\n"

/-- `unlockStore` (exp/fcrypt/fcrypt.go:322-345). The store is locked when the first `if` is passed,
so that the second condition is never true. The first `Unlock` of a new store, in `loadStore`, prints
nothing, since a new store has an export key. -/
def unlockStore (ks : KeyStore) (w : World) : Res (Bool × KeyStore × World) :=
  if !ks.locked then .ok (true, ks, w)
  else
    let (pass, w) := w.read
    match pass with
    | none => .ok (false, ks, w)
    | some pass => do
      let (now, w) := w.now
      let w := if ks.builds C pass then w.print building else w
      let (ks, ok) ← ks.unlock C A P.toPem pass now
      pure (ok, ks, w)

/-- `writeStore` (exp/fcrypt/fcrypt.go:109-122). `json.Marshal` does not fail. The path "-" is a
file like any other. -/
def writeStore (ks : KeyStore) (path : Bytes) (w : World) : Res (Bool × KeyStore × World) := do
  let (data, ks) ← dumpKeyStore J ks
  let (ok, w) := w.save path data
  pure (ok, ks, w)

/-- What a command does. -/
abbrev Cmd := KeyStore → Config → World → Ret × KeyStore × World

/-- Going on after a call that may panic. -/
def after {α : Type} (r : Res α) (ks : KeyStore) (w : World) (f : α → Ret × KeyStore × World) : Ret × KeyStore × World :=
  match r with
  | .panic => (.panic, ks, w)
  | .ok a => f a

/-- Writing the output of a command, the error being returned. -/
def output (ks : KeyStore) (w : World) (path data : Bytes) : Ret × KeyStore × World :=
  match w.writeFile path data with
  | (true, w) => (.ok, ks, w)
  | (false, w) => (.err, ks, w)

/-- `len(b) > 10 && bytes.Equal(b[:10], []byte("-----BEGIN"))` (exp/fcrypt/fcrypt.go:157-158,
233-234, 293-294). -/
def armoured (b : Bytes) : Bool := b.length > 10 && b.take 10 == ascii "-----BEGIN"

/-- `checkStore` (exp/fcrypt/fcrypt.go:92-107). -/
def checkStore (e : Env) : Cmd := fun ks _ w =>
  if ks.locked then (.err, ks, w)
  else after ks.valid ks w fun valid =>
    if !valid then (.err, ks, w)
    else
      let m := ks.keys.getD Map.empty
      match ks.keyAudit C (e.order 0 m) (fun l i => e.walk l i m) e.fuel with
      | none => (.hang, ks, w)
      | some .panic => (.panic, ks, w)
      | some (.ok false) => (.err, ks, w)
      | some (.ok true) => (.ok, ks, w.print (ascii "Keystore is valid.\n"))

/-- `encryptFile` (exp/fcrypt/fcrypt.go:124-148). -/
def encryptFile : Cmd := fun ks cfg w =>
  match cfg.args with
  | src :: dst :: _ =>
    match w.readFile src with
    | (none, w) => (.err, ks, w)
    | (some message, w) =>
      after (ks.encryptTo C cfg.label message w.rng) ks w fun (out, rng) =>
        let w := { w with rng := rng }
        match out with
        | none => (.err, ks, w)
        | some out => output ks w dst (if cfg.armour then P.enc encryptedType out else out)
  | _ => (.panic, ks, w)

/-- Taking off the armour in `decryptFile` (exp/fcrypt/fcrypt.go:156-176): whether the signature is
to be verified, and the message; `none` is an error. -/
def openMessage (b : Bytes) : Option (Bool × Bytes) :=
  if armoured b then
    match P.dec b with
    | none => none
    | some (typ, body) =>
      if typ = encryptedType then some (false, body)
      else if typ = signedAndEncryptedType then some (true, body)
      else none
  else some (false, b)

/-- `decryptFile` (exp/fcrypt/fcrypt.go:150-198). -/
def decryptFile : Cmd := fun ks cfg w =>
  match cfg.args with
  | src :: dst :: _ =>
    match w.readFile src with
    | (none, w) => (.err, ks, w)
    | (some message, w) =>
      match openMessage P message with
      | none => (.err, ks, w)
      | some (needVerify, message) =>
        if !needVerify then
          after (ks.decrypt C message) ks w fun out =>
            match out with
            | none => (.err, ks, w)
            | some out => output ks w dst out
        else
          after (ks.decryptAndVerify C cfg.label message) ks w fun out =>
            match out with
            | none => (.err, ks, w)
            | some out => output ks (w.print (ascii "Valid signature.\n")) dst out
  | _ => (.panic, ks, w)

/-- `signFile` (exp/fcrypt/fcrypt.go:200-220). -/
def signFile : Cmd := fun ks cfg w =>
  match cfg.args with
  | src :: dst :: _ =>
    match w.readFile src with
    | (none, w) => (.err, ks, w)
    | (some message, w) =>
      after (ks.sign C message) ks w fun sig =>
        match sig with
        | none => (.err, ks, w)
        | some sig => output ks w dst (if cfg.armour then P.enc signatureType sig else sig)
  | _ => (.panic, ks, w)

/-- Taking off the armour in `verifyFile` (exp/fcrypt/fcrypt.go:233-249). -/
def openSignature (b : Bytes) : Option Bytes :=
  if armoured b then
    match P.dec b with
    | none => none
    | some (typ, body) => if typ = signatureType then some body else none
  else some b

/-- `verifyFile` (exp/fcrypt/fcrypt.go:222-256). -/
def verifyFile : Cmd := fun ks cfg w =>
  match cfg.args with
  | src :: sigFile :: _ =>
    match w.readFile src with
    | (none, w) => (.err, ks, w)
    | (some message, w) =>
      match w.readFile sigFile with
      | (none, w) => (.err, ks, w)
      | (some sig, w) =>
        match openSignature P sig with
        | none => (.err, ks, w)
        | some sig =>
          after (ks.verify C cfg.label message sig) ks w fun ok =>
            (.ok, ks, w.print (if ok then ascii "Signature: OK\n" else ascii "Signature: INVALID\n"))
  | _ => (.panic, ks, w)

/-- `cryptSignFile` (exp/fcrypt/fcrypt.go:258-285). An error writing the file is printed, but nil is
returned. -/
def cryptSignFile : Cmd := fun ks cfg w =>
  match cfg.args with
  | src :: dst :: _ =>
    match w.readFile src with
    | (none, w) => (.err, ks, w)
    | (some message, w) =>
      after (ks.encryptAndSignTo C cfg.label message w.rng) ks w fun (out, rng) =>
        let w := { w with rng := rng }
        match out with
        | none => (.err, ks, w)
        | some out =>
          match w.writeFile dst (if cfg.armour then P.enc signedAndEncryptedType out else out) with
          | (true, w) => (.ok, ks, w)
          | (false, w) => (.ok, ks, w)
  | _ => (.panic, ks, w)

/-- Taking off the armour in `decryptSignedFile` (exp/fcrypt/fcrypt.go:293-308). -/
def openSigned (b : Bytes) : Option Bytes :=
  if armoured b then
    match P.dec b with
    | none => none
    | some (typ, body) => if typ = encryptedType then some body else none
  else some b

/-- `decryptSignedFile` (exp/fcrypt/fcrypt.go:287-320). -/
def decryptSignedFile : Cmd := fun ks cfg w =>
  match cfg.args with
  | src :: dst :: _ =>
    match w.readFile src with
    | (none, w) => (.err, ks, w)
    | (some message, w) =>
      match openSigned P message with
      | none => (.err, ks, w)
      | some message =>
        after (ks.decryptAndVerify C cfg.label message) ks w fun out =>
          match out with
          | none => (.err, ks, w)
          | some out => output ks w dst out
  | _ => (.panic, ks, w)

/-- `exportSelf` (exp/fcrypt/fcrypt.go:347-352). -/
def exportSelf : Cmd := fun ks cfg w =>
  match ks.exportKey with
  | none => (.err, ks, w)
  | some key =>
    match cfg.args with
    | dst :: _ => output ks w dst key
    | [] => (.panic, ks, w)

/-- `exportVerified` (exp/fcrypt/fcrypt.go:354-361). -/
def exportVerified (e : Env) : Cmd := fun ks cfg w =>
  let (now, w) := w.now
  match ks.exportVerified C A P.toPem cfg.label (fun i => e.walk cfg.label i (ks.keys.getD Map.empty)) e.fuel now with
  | none => (.hang, ks, w)
  | some .panic => (.panic, ks, w)
  | some (.ok none) => (.err, ks, w)
  | some (.ok (some out)) =>
    match cfg.args with
    | dst :: _ => output ks w dst out
    | [] => (.panic, ks, w)

/-- Asking for the label (exp/fcrypt/fcrypt.go:369-374, 434-439). -/
def askLabel (label : Bytes) (w : World) : Option Bytes × World :=
  if label = self then w.read else (some label, w)

/-- `importVerified` (exp/fcrypt/fcrypt.go:363-393). -/
def importVerified (e : Env) : Cmd := fun ks cfg w =>
  match cfg.args with
  | src :: _ =>
    match w.readFile src with
    | (none, w) => (.err, ks, w)
    | (some keyData, w) =>
      match askLabel cfg.label w with
      | (none, w) => (.err, ks, w)
      | (some label, w) =>
        let (now, w) := w.now
        let m := ks.keys.getD Map.empty
        after (ks.importVerifiedKey C A P.toPem label keyData (e.order 0 m) (e.order 1 m) now) ks w fun (ks, ok) =>
          if !ok then (.err, ks, w)
          else match parseVerifiedKey A P.toPem keyData with
            | none => (.err, ks, w)
            | some vkey =>
              after (ks.findPublic vkey.signer (e.order 2 (ks.keys.getD Map.empty))) ks w fun found =>
                match found with
                | none => (.err, ks, w)
                | some signer => (.ok, ks, w.print (ascii "Imported public key signed by '" ++ signer ++ ascii "'.\n"))
  | [] => (.panic, ks, w)

/-- The answer to "Are you sure ...?" (exp/fcrypt/fcrypt.go:418-432): the error, if the function
returns here. -/
def confirm : List (Option Bytes) → Option Ret × List (Option Bytes)
  | [] => (some .ok, [])
  | none :: as => (some .ok, as)
  | some line :: as =>
    if line = ascii "yes" then (none, as)
    else if line = ascii "no" then (some .err, as)
    else confirm as

/-- `importUntrusted` (exp/fcrypt/fcrypt.go:395-446). Of what it prints only the fingerprint is
modelled. -/
def importUntrusted (e : Env) : Cmd := fun ks cfg w =>
  match cfg.args with
  | src :: _ =>
    match w.readFile src with
    | (none, w) => (.err, ks, w)
    | (some keyData, w) =>
      match parseVerifiedKey A P.toPem keyData with
      | none => (.err, ks, w)
      | some vkey =>
        after (vkey.isSelfSigned C) ks w fun _ =>
          let w := w.print (ascii "Fingerprint: " ++ hexEncode (e.sha256 vkey.pub) ++ [10])
          let (r, as) := confirm w.term.answers
          let w := { w with term := { w.term with answers := as } }
          match r with
          | some r => (r, ks, w)
          | none =>
            match askLabel cfg.label w with
            | (none, w) => (.err, ks, w)
            | (some label, w) =>
              let (t1, w) := w.now
              let (t2, w) := w.now
              after (ks.addKey C label vkey.pub none t1 t2) ks w fun (ks, ok) =>
                if !ok then (.err, ks, w) else (.ok, ks, w)
  | [] => (.panic, ks, w)

/-- `removeKey` (exp/fcrypt/fcrypt.go:448-460). `delete` on a nil map does nothing. -/
def removeKey : Cmd := fun ks cfg w =>
  match cfg.args with
  | label :: _ =>
    if label = self then (.err, ks, w)
    else if !ks.has label then (.err, ks, w)
    else
      let w := w.print (ascii "Removing key  " ++ label ++ [10])
      (.ok, { ks with keys := ks.keys.map (·.erase label) }, w)
  | [] => (.panic, ks, w)

/-- The lines for one key in `keyList` (exp/fcrypt/fcrypt.go:475-487), without its name. -/
def keyText (e : Env) (r : PublicKeyRecord) (signer : Option Bytes) : Bytes :=
  ascii "\t\tLast update: " ++ e.date r.timestamp ++ [10] ++
  ascii "\t\t  Signed at: " ++ e.date r.signatureTime ++ [10] ++
  ascii "\t\t  Signed by: " ++ signer.getD (ascii "<unknown>") ++ [10] ++
  ascii "\t\tFingerprint: " ++ hexEncode (e.sha256 r.keyBytes) ++ [10]

/-- The loop of `keyList` (exp/fcrypt/fcrypt.go:474-488); `n` numbers the searches. -/
def listLoop (e : Env) (ks : KeyStore) : Nat → List Bytes → World → Ret × KeyStore × World
  | _, [], w => (.ok, ks, w)
  | n, k :: rest, w =>
    let w := w.print ([9] ++ k ++ [10])
    match ks.get k with
    | none => (.panic, ks, w)
    | some r =>
      match ks.findPublic r.keySigner (e.order n (ks.keys.getD Map.empty)) with
      | .panic => (.panic, ks, w)
      | .ok signer => listLoop e ks (n + 1) rest (w.print (keyText e r signer))

/-- `keyList` (exp/fcrypt/fcrypt.go:464-491). -/
def keyList (e : Env) : Cmd := fun ks _ w =>
  let order := e.order 0 (ks.keys.getD Map.empty)
  let w := w.print (ascii "Key store was last updated " ++ e.date ks.timestamp ++ [10] ++ decimal order.length ++ ascii " keys stored\n" ++
    ascii "Owner public key:\n\tFingerprint: " ++ hexEncode (e.sha256 ks.pubBytes) ++ [10])
  if order.length > 0 then listLoop e ks 1 order (w.print (ascii "Key store:\n"))
  else (.ok, ks, w)

/-- `command` (exp/fcrypt/fcrypt.go:23-29), without the names of the arguments. -/
structure Command where
  needsUnlock : Bool
  shouldWrite : Bool
  argc : Nat
  run : Cmd

/-- The flags (exp/fcrypt/fcrypt.go:494-508). -/
structure Flags where
  check : Bool := false
  export_ : Bool := false
  import_ : Bool := false
  armour : Bool := false
  decrypt : Bool := false
  encrypt : Bool := false
  path : Bytes
  list : Bool := false
  label : Bytes := self
  remove : Bool := false
  sign : Bool := false
  untrusted : Bool := false
  verify : Bool := false

/-- The command chosen by the flags (exp/fcrypt/fcrypt.go:37-51, 516-548); `none` is "Nothing to
do". -/
def select (e : Env) (f : Flags) : Option Command :=
  if f.check then some ⟨true, false, 0, checkStore C e⟩
  else if f.sign && f.encrypt then some ⟨true, false, 2, cryptSignFile C P⟩
  else if f.sign then some ⟨true, false, 2, signFile C P⟩
  else if f.verify then some ⟨false, false, 2, verifyFile C P⟩
  else if f.encrypt then some ⟨false, false, 2, encryptFile C P⟩
  else if f.decrypt then some ⟨true, false, 2, decryptFile C P⟩
  else if f.remove then some ⟨false, true, 1, removeKey⟩
  else if f.list then some ⟨false, false, 0, keyList e⟩
  else if f.export_ && f.label == self then some ⟨false, false, 1, exportSelf⟩
  else if f.export_ then some ⟨true, false, 1, exportVerified C A P e⟩
  else if f.import_ then
    if f.untrusted then some ⟨true, true, 1, importUntrusted C A P e⟩
    else some ⟨true, true, 1, importVerified C A P e⟩
  else none

/-- `config` as `main` fills it in (exp/fcrypt/fcrypt.go:510-522). -/
def config (f : Flags) (args : List Bytes) : Config :=
  { args := args, label := f.label, armour := f.armour || (!f.check && f.sign && f.encrypt) }

/-- The end of `main` (exp/fcrypt/fcrypt.go:579-593): the store is written if the command says so or
if there is no file. `unlocked` says that `ks.Lock` was deferred, which runs if `main` returns. -/
def finish (f : Flags) (shouldWrite unlocked : Bool) (ks : KeyStore) (w : World) : Ret × World :=
  let leave (ks : KeyStore) (w : World) : Ret × World :=
    if unlocked then
      match ks.lock with
      | .panic => (.panic, w)
      | .ok _ => (.ok, w)
    else (.ok, w)
  if shouldWrite || (w.fs f.path).isNone then
    let (now, w) := w.now
    let w := w.print (ascii "Writing keystore.\n")
    match writeStore J { ks with timestamp := now } f.path w with
    | .panic => (.panic, w)
    | .ok (true, ks, w) => leave ks w
    | .ok (false, _, w) => (.err, w)
  else leave ks w

/-- The middle of `main` (exp/fcrypt/fcrypt.go:570-577): unlocking and running. -/
def execute (f : Flags) (cmd : Command) (cfg : Config) (ks : KeyStore) (w : World) : Ret × World :=
  let shouldWrite := cmd.shouldWrite || (f.check && ks.exportKey.isNone)
  let go (ks : KeyStore) (w : World) : Ret × World :=
    match cmd.run ks cfg w with
    | (.ok, ks, w) => finish J f shouldWrite cmd.needsUnlock ks w
    | (r, _, w) => (r, w)
  if cmd.needsUnlock then
    match unlockStore C A P ks w with
    | .panic => (.panic, w)
    | .ok (false, _, w) => (.err, w)
    | .ok (true, ks, w) => go ks w
  else go ks w

/-- `main` (exp/fcrypt/fcrypt.go:493-593): `ok` is exit status 0 and `err` exit status 1. -/
def main (e : Env) (f : Flags) (args : List Bytes) (w : World) : Ret × World :=
  match select C A P e f with
  | none => (.ok, w)
  | some cmd =>
    if args.length < cmd.argc then (.err, w)
    else match loadStore C A P J w f.path with
      | .panic => (.panic, w)
      | .ok (none, w) => (.err, w)
      | .ok (some ks, w) => execute C A P J f cmd (config f args) ks w

end Verif.Model.Fcrypt
