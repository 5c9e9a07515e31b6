import Verif.Model.Fcrypt
/-!
What exp/fcrypt/fcrypt.go prints, on standard output and on standard error, function by function, beside the model
of what it does in Model/Fcrypt, and what the functions of common/store/keystore.go that it calls print. What package
readpass prints at its prompts is left out.
-/

namespace Verif.Model.FcryptOutput
open Verif Verif.Go Verif.Model.Util Verif.Model.Public Verif.Model.KeyStore Verif.Model.Fcrypt

/-- Something written to standard output, or to standard error. -/
inductive Piece where
  | out (text : Bytes)
  | err (text : Bytes)
deriving DecidableEq

/-- `util.Errorf` (common/util/util.go:109-115), with a format that does not end in a newline and the arguments filled in. -/
def errorf (text : Bytes) : Piece := .err (ascii "[!] " ++ text ++ [10])

/-- `fmt.Println`. -/
def println (text : Bytes) : Piece := .out (text ++ [10])

/-- What a command prints, and the text of the error it returns, if it returns one. -/
structure Said where
  text : List Piece
  error : Bytes := []

/-- What a command says. -/
abbrev Says := KeyStore → Config → World → Said

variable (T : Bytes) (M : Map (Option PublicKeyRecord) → Bytes) (C : Crypto) (A : Asn1) (P : Armour) (J : KeyJson)

/-- `fmt.Sprintf("%d", n)` for an int64. -/
def signed (n : BitVec 64) : Bytes := if n.toInt < 0 then 45 :: decimal n.toInt.natAbs else decimal n.toInt.natAbs

/-- The numbers of `fmt.Sprintf("%v", b)` for bytes, with spaces between. -/
def numbers : Bytes → Bytes
  | [] => []
  | [b] => decimal b.toNat
  | b :: bs => decimal b.toNat ++ [32] ++ numbers bs

/-- `fmt.Sprintf("%v", b)` for bytes, nil or not. -/
def shownBytes (b : Option Bytes) : Bytes := [91] ++ numbers (b.getD []) ++ [93]

/-- `fmt.Sprintf("%v", store)` in `LoadKeyStore` (common/store/keystore.go:782): the fields in order (62-89), none of
them by name. `M` gives the text of the map, which shows the labels and the addresses of the records. The private key
is nil here. -/
def shownStore (s : KeyStore) : Bytes :=
  ascii "&{" ++ signed s.version ++ [32] ++ signed s.timestamp ++ [32] ++ M (s.keys.getD Map.empty) ++ [32] ++
    shownBytes s.lockedKey ++ [32] ++ shownBytes s.publicKey ++ [32] ++ shownBytes s.exportKey ++ ascii " <nil> " ++
    (if s.locked then ascii "true" else ascii "false") ++ ascii "}"

/-- What `LoadKeyStore` prints about the contents of a file (common/store/keystore.go:768-785). `T` stands for the text
of any error of the operating system, of the terminal, and of the packages of the standard library. -/
def dataText (data : Bytes) : List Piece :=
  match J.dec data with
  | none => [errorf T]
  | some f =>
    let f := { f with keys := some (f.keys.getD Map.empty) }
    let s : KeyStore := { f with privateKey := none, locked := f.lockedKey.isSome }
    if !s.validQuick then [errorf (ascii "invalid keystore " ++ shownStore M s)] else []

/-- What `LoadKeyStore` prints (common/store/keystore.go:753-786). A file that exists can be read. -/
def loadKeyText (file : Option Bytes) (rng : Rng) : List Piece :=
  match file with
  | some data => dataText T M J data
  | none =>
    match generateKey C rng with
    | .ok (none, _) => [errorf (ascii "Failed to generate key.")]
    | _ => []

/-- `loadStore` (exp/fcrypt/fcrypt.go:53-90). -/
def loadText (w : World) (path : Bytes) : List Piece :=
  let flush := (w.fs path).isNone
  let (t1, w) := w.now
  let (t2, w) := w.now
  match loadKeyStore C A P.toPem J (w.fs path) true w.rng t1 t2 with
  | .panic => []
  | .ok (none, _) => loadKeyText T M C J (w.fs path) w.rng ++ [.out (ascii "error in LoadKeyStore")]
  | .ok (some ks, rng) =>
    let w := { w with rng := rng }
    match ks.valid with
    | .panic => []
    | .ok false => [println (ascii "keystore not valid")]
    | .ok true =>
      if !flush then []
      else
        let (pass, w) := w.read
        match pass with
        | none => [errorf T]
        | some pass =>
          match ks.lockWith C pass w.rng with
          | .panic => []
          | .ok (_, false, _) => [errorf (ascii "Failed to set initial passphrase.")]
          | .ok (ks, true, rng) =>
            let (now, _) := ({ w with rng := rng } : World).now
            match ks.unlock C A P.toPem pass now with
            | .panic => []
            | .ok (_, ok) => if !ok then [errorf (ascii "Flushing keystore failed.")] else []

/-- `unlockStore` (exp/fcrypt/fcrypt.go:322-345). -/
def unlockText (ks : KeyStore) (w : World) : List Piece :=
  if !ks.locked then []
  else
    let (pass, w) := w.read
    match pass with
    | none => [errorf T]
    | some pass =>
      let (now, _) := w.now
      (if ks.builds C pass then [.out building] else []) ++
      match ks.unlock C A P.toPem pass now with
      | .panic => []
      | .ok (_, ok) => if !ok then [errorf (ascii "Unlock failed (bad passphrase?)")] else []

/-- `writeStore` (exp/fcrypt/fcrypt.go:109-122). -/
def writeText (ks : KeyStore) (path : Bytes) (w : World) : List Piece :=
  match dumpKeyStore J ks with
  | .panic => []
  | .ok (data, _) => if (w.save path data).1 then [] else [errorf T]

/-- `util.WriteFile` (common/util/util.go:128-134) as the last thing a command does. -/
def outputText (path data : Bytes) : Said :=
  { text := if path = dash then [.out data] else [], error := T }

/-- What `KeyAudit` prints (common/store/keystore.go:625-637), in the order of its loop. `checkStore` has seen that the
store is valid. -/
def auditText (s : KeyFields) (orders : Bytes → Nat → List Bytes) (fuel : Nat) : List Bytes → List Piece
  | [] => []
  | l :: ls =>
    match s.verifyChain C (orders l) fuel l with
    | some (.ok true) => auditText s orders fuel ls
    | some (.ok false) => [errorf (ascii "Key " ++ l ++ ascii " is not trusted.")]
    | _ => []

/-- `checkStore` (exp/fcrypt/fcrypt.go:92-107). -/
def checkText (e : Env) : Says := fun ks _ _ =>
  if ks.locked then { text := [], error := ascii "keystore is locked" }
  else match ks.valid with
    | .panic => { text := [] }
    | .ok false => { text := [], error := ascii "keystore is invalid" }
    | .ok true =>
      let m := ks.keys.getD Map.empty
      match ks.keyAudit C (e.order 0 m) (fun l i => e.walk l i m) e.fuel with
      | some (.ok true) => { text := [println (ascii "Keystore is valid.")] }
      | _ => { text := auditText C ks.toKeyFields (fun l i => e.walk l i m) e.fuel (e.order 0 m), error := ascii "audit failed" }

/-- `encryptFile` (exp/fcrypt/fcrypt.go:124-148). -/
def encryptText : Says := fun ks cfg w =>
  match cfg.args with
  | src :: dst :: _ =>
    match w.readFile src with
    | (none, _) => { text := [], error := T }
    | (some message, w) =>
      match ks.encryptTo C cfg.label message w.rng with
      | .ok (some out, _) => outputText T dst (if cfg.armour then P.enc encryptedType out else out)
      | _ => { text := [], error := ascii "encryption failed" }
  | _ => { text := [] }

/-- The errors in taking off armour (exp/fcrypt/fcrypt.go:160-174, 236-246, 296-306). -/
def armourError (b : Bytes) : Bytes :=
  match P.dec b with
  | none => ascii "failed to decode PEM file"
  | some _ => ascii "invalid message"

/-- `decryptFile` (exp/fcrypt/fcrypt.go:150-198). -/
def decryptText : Says := fun ks cfg w =>
  match cfg.args with
  | src :: dst :: _ =>
    match w.readFile src with
    | (none, _) => { text := [], error := T }
    | (some message, _) =>
      match openMessage P message with
      | none => { text := [], error := armourError P message }
      | some (false, message) =>
        match ks.decrypt C message with
        | .ok (some out) => outputText T dst out
        | _ => { text := [], error := ascii "decrypt failed" }
      | some (true, message) =>
        match ks.decryptAndVerify C cfg.label message with
        | .ok (some out) =>
          { text := println (ascii "Valid signature.") :: (outputText T dst out).text, error := T }
        | _ => { text := [], error := ascii "decrypt and verify failed" }
  | _ => { text := [] }

/-- `signFile` (exp/fcrypt/fcrypt.go:200-220). -/
def signText : Says := fun ks cfg w =>
  match cfg.args with
  | src :: dst :: _ =>
    match w.readFile src with
    | (none, _) => { text := [], error := T }
    | (some message, _) =>
      match ks.sign C message with
      | .ok (some sig) => outputText T dst (if cfg.armour then P.enc signatureType sig else sig)
      | _ => { text := [], error := ascii "signing failed" }
  | _ => { text := [] }

/-- `verifyFile` (exp/fcrypt/fcrypt.go:222-256). -/
def verifyText : Says := fun ks cfg w =>
  match cfg.args with
  | src :: sigFile :: _ =>
    match w.readFile src with
    | (none, _) => { text := [], error := T }
    | (some message, w) =>
      match w.readFile sigFile with
      | (none, _) => { text := [], error := T }
      | (some sig, _) =>
        match openSignature P sig with
        | none => { text := [], error := armourError P sig }
        | some sig =>
          match ks.verify C cfg.label message sig with
          | .panic => { text := [] }
          | .ok true => { text := [println (ascii "Signature: OK")] }
          | .ok false => { text := [println (ascii "Signature: INVALID")] }
  | _ => { text := [] }

/-- `cryptSignFile` (exp/fcrypt/fcrypt.go:258-285). -/
def cryptSignText : Says := fun ks cfg w =>
  match cfg.args with
  | src :: dst :: _ =>
    match w.readFile src with
    | (none, _) => { text := [errorf T], error := T }
    | (some message, w) =>
      match ks.encryptAndSignTo C cfg.label message w.rng with
      | .panic => { text := [] }
      | .ok (none, _) => { text := [errorf (ascii "Failed to encrypt message.")], error := ascii "signcryption failed" }
      | .ok (some out, rng) =>
        let data := if cfg.armour then P.enc signedAndEncryptedType out else out
        { text := (outputText T dst data).text ++
            if (({ w with rng := rng } : World).writeFile dst data).1 then [] else [errorf T] }
  | _ => { text := [] }

/-- `exportSelf` (exp/fcrypt/fcrypt.go:347-352). -/
def exportSelfText : Says := fun ks cfg _ =>
  match ks.exportKey with
  | none => { text := [], error := ascii "No export key present." }
  | some key =>
    match cfg.args with
    | dst :: _ => outputText T dst key
    | [] => { text := [] }

/-- `exportVerified` (exp/fcrypt/fcrypt.go:354-361). -/
def exportText (e : Env) : Says := fun ks cfg w =>
  let (now, _) := w.now
  match ks.exportVerified C A P.toPem cfg.label (fun i => e.walk cfg.label i (ks.keys.getD Map.empty)) e.fuel now with
  | some (.ok (some out)) =>
    match cfg.args with
    | dst :: _ => outputText T dst out
    | [] => { text := [] }
  | _ => { text := [], error := ascii "failed to export verified public key" }

/-- The prompt for the label (exp/fcrypt/fcrypt.go:369-374, 434-439). -/
def labelText (label : Bytes) : List Piece := if label = self then [.out (ascii "Label: ")] else []

/-- `importVerified` (exp/fcrypt/fcrypt.go:363-393). -/
def importText (e : Env) : Says := fun ks cfg w =>
  match cfg.args with
  | src :: _ =>
    match w.readFile src with
    | (none, _) => { text := [], error := T }
    | (some keyData, w) =>
      match askLabel cfg.label w with
      | (none, _) => { text := labelText cfg.label, error := T }
      | (some label, w) =>
        let (now, _) := w.now
        let m := ks.keys.getD Map.empty
        match ks.importVerifiedKey C A P.toPem label keyData (e.order 0 m) (e.order 1 m) now with
        | .panic => { text := labelText cfg.label }
        | .ok (_, false) => { text := labelText cfg.label, error := ascii "verified import failed" }
        | .ok (ks, true) =>
          match parseVerifiedKey A P.toPem keyData with
          | none => { text := labelText cfg.label, error := T }
          | some vkey =>
            match ks.findPublic vkey.signer (e.order 2 (ks.keys.getD Map.empty)) with
            | .ok (some signer) =>
              { text := labelText cfg.label ++ [println (ascii "Imported public key signed by '" ++ signer ++ ascii "'.")] }
            | _ => { text := labelText cfg.label, error := ascii "invalid signer on key" }
  | [] => { text := [] }

/-- The warning (exp/fcrypt/fcrypt.go:396-398). -/
def warning : List Piece :=
  [println (ascii "*****************************************"), println (ascii "*** WARNING: IMPORTING UNTRUSTED KEYS ***"),
   println (ascii "*****************************************")]

/-- The question (exp/fcrypt/fcrypt.go:420). -/
def question : Piece := .out (ascii "\nAre you sure you want to import this key? (yes or no) ")

/-- The loop that asks (exp/fcrypt/fcrypt.go:419-432). -/
def confirmText : List (Option Bytes) → List Piece
  | some line :: as =>
    question ::
    if line = ascii "yes" then [println (ascii "As you wish.")]
    else if line = ascii "no" then []
    else println (ascii "Please enter either 'yes' or 'no'.") :: confirmText as
  | _ => [question]

/-- `importUntrusted` (exp/fcrypt/fcrypt.go:395-446). -/
def uimportText (e : Env) : Says := fun _ cfg w =>
  match cfg.args with
  | src :: _ =>
    match w.readFile src with
    | (none, _) => { text := warning, error := T }
    | (some keyData, w) =>
      match parseVerifiedKey A P.toPem keyData with
      | none => { text := warning, error := T }
      | some vkey =>
        match vkey.isSelfSigned C with
        | .panic => { text := warning }
        | .ok selfSigned =>
          let text := warning ++
            [println (if selfSigned then ascii "Key is self-signed." else ascii "Unrecognised signature."),
             println (ascii "Fingerprint: " ++ hexEncode (e.sha256 vkey.pub))] ++ confirmText w.term.answers
          let (r, as) := confirm w.term.answers
          match r with
          | some _ => { text := text, error := ascii "canceled by user" }
          | none =>
            let w := { w with term := { w.term with answers := as } }
            match askLabel cfg.label w with
            | (none, _) => { text := text ++ labelText cfg.label, error := T }
            | (some _, _) => { text := text ++ labelText cfg.label, error := ascii "failed to add new key" }
  | [] => { text := warning }

/-- `removeKey` (exp/fcrypt/fcrypt.go:448-460). -/
def removeText : Says := fun ks cfg _ =>
  match cfg.args with
  | label :: _ =>
    if label = self then { text := [], error := ascii "cannot remove own key" }
    else if !ks.has label then { text := [], error := ascii "no key was found under label " ++ label }
    else { text := [println (ascii "Removing key  " ++ label)] }
  | [] => { text := [] }

/-- The loop of `keyList` (exp/fcrypt/fcrypt.go:474-488). -/
def listText (e : Env) (ks : KeyStore) : Nat → List Bytes → List Piece
  | _, [] => []
  | n, k :: rest =>
    .out ([9] ++ k ++ [10]) ::
    match ks.get k with
    | none => []
    | some r =>
      match ks.findPublic r.keySigner (e.order n (ks.keys.getD Map.empty)) with
      | .panic => []
      | .ok signer => .out (keyText e r signer) :: listText e ks (n + 1) rest

/-- `keyList` (exp/fcrypt/fcrypt.go:464-491). -/
def keysText (e : Env) : Says := fun ks _ _ =>
  let order := e.order 0 (ks.keys.getD Map.empty)
  { text := [println (ascii "Key store was last updated " ++ e.date ks.timestamp),
      .out (decimal order.length ++ ascii " keys stored\n"), println (ascii "Owner public key:"),
      .out (ascii "\tFingerprint: " ++ hexEncode (e.sha256 ks.pubBytes) ++ [10])] ++
      if order.length > 0 then println (ascii "Key store:") :: listText e ks 1 order else [] }

/-- The names of the arguments of the commands, and what they say (exp/fcrypt/fcrypt.go:37-51, 516-548). -/
def selectText (e : Env) (f : Flags) : Option (List Bytes × Says) :=
  if f.check then some ([], checkText C e)
  else if f.sign && f.encrypt then some ([ascii "message", ascii "encrypted"], cryptSignText T C P)
  else if f.sign then some ([ascii "message", ascii "signature file"], signText T C P)
  else if f.verify then some ([ascii "message", ascii "signature file"], verifyText T C P)
  else if f.encrypt then some ([ascii "message", ascii "encrypted"], encryptText T C P)
  else if f.decrypt then some ([ascii "encrypted", ascii "message"], decryptText T C P)
  else if f.remove then some ([ascii "key label"], removeText)
  else if f.list then some ([], keysText e)
  else if f.export_ && f.label == self then some ([ascii "exported"], exportSelfText T)
  else if f.export_ then some ([ascii "exported"], exportText T C A P e)
  else if f.import_ then
    if f.untrusted then some ([ascii "signed key"], uimportText T C A P e)
    else some ([ascii "signed key"], importText T C A P e)
  else none

/-- The end of `main` (exp/fcrypt/fcrypt.go:579-593). -/
def finishText (f : Flags) (shouldWrite : Bool) (ks : KeyStore) (w : World) : List Piece :=
  if shouldWrite || (w.fs f.path).isNone then
    let (now, w) := w.now
    println (ascii "Writing keystore.") :: writeText T J { ks with timestamp := now } f.path w
  else []

/-- The middle of `main` (exp/fcrypt/fcrypt.go:570-577). -/
def executeText (f : Flags) (cmd : Command) (speech : Says) (cfg : Config) (ks : KeyStore) (w : World) : List Piece :=
  let shouldWrite := cmd.shouldWrite || (f.check && ks.exportKey.isNone)
  let go (ks : KeyStore) (w : World) : List Piece :=
    let said := speech ks cfg w
    said.text ++
    match cmd.run ks cfg w with
    | (.ok, ks, w) => finishText T J f shouldWrite ks w
    | (.err, _, _) => [errorf (ascii "Failed: " ++ said.error)]
    | _ => []
  if cmd.needsUnlock then
    unlockText T C A P ks w ++
    match unlockStore C A P ks w with
    | .ok (true, ks, w) => go ks w
    | _ => []
  else go ks w

/-- `strings.Join(names, ", ")`. -/
def join : List Bytes → Bytes
  | [] => []
  | [a] => a
  | a :: as => a ++ ascii ", " ++ join as

/-- `main` (exp/fcrypt/fcrypt.go:493-593). -/
def mainText (e : Env) (f : Flags) (args : List Bytes) (w : World) : List Piece :=
  match select C A P e f, selectText T C A P e f with
  | some cmd, some (names, speech) =>
    if args.length < cmd.argc then
      [errorf (ascii "Not enough arguments: want " ++ decimal cmd.argc ++ ascii ", have " ++ decimal args.length ++ ascii "."),
       errorf (ascii "Want: " ++ join names)]
    else
      loadText T M C A P J w f.path ++
      match loadStore C A P J w f.path with
      | .panic => []
      | .ok (none, _) => [errorf (ascii "Failed to load keystore.")]
      | .ok (some ks, w) => executeText T C A P J f cmd speech (config f args) ks w
  | _, _ => [errorf (ascii "Nothing to do.")]

end Verif.Model.FcryptOutput
