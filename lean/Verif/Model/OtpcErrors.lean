import Verif.Model.SecretsErrors
import Verif.Model.Otpc
/-!
What cmd/otpc writes to standard error, function by function, beside the model of what it does in Model/Otpc: a list
with the text of every call of `util.Errorf`, in order. Where the code crashes, it is what was written before.
Loading and saving the store (otpc.go:43-81) is the same text as in cmd/secrets; the definitions of
Model/SecretsErrors are used for it.
-/

namespace Verif.Model.OtpcErrors
open Verif Verif.Go Verif.Model.Util Verif.Model.SecretStore Verif.Model.Otpc
open Verif.Model.Secrets (World loadStore writeStore fetch)
open Verif.Model.SecretsErrors (Told errorf writeErr loadErr)

/-- `initStore` (cmd/otpc/otpc.go:83-111). -/
def initErr (T : SecretsErrors.Texts) (C : Crypto) (J : Json) (w : World) (path : Bytes) (mode : Int) : Told :=
  let (pass, t) := w.term.read
  let w := { w with term := t }
  match pass with
  | none => { msgs := [errorf (ascii "Failed to read passphrase: " ++ T.prompt)], error := T.prompt }
  | some pass =>
    match marshalSecretStore C J (newSecretStore pass w.term.now.1) mode w.rng with
    | .ok (none, _, _) => { error := ascii "failed to marshal store" }
    | .ok (some fileData, _, rng) =>
      if !(World.writeFile { w with rng := rng } path fileData).2 then { error := T.write path }
      else { error := ascii "failed to unmarshal store" }
    | .panic => {}

/-- Case `*doInit` of `main` (cmd/otpc/otpc.go:432-439). -/
def initMainErr (T : SecretsErrors.Texts) (C : Crypto) (J : Json) (path : Bytes) (mode : Int) (w : World) : List Bytes :=
  let t := initErr T C J w path mode
  t.msgs ++
  match Otpc.initStore C J w path mode with
  | .ok (false, _) => [errorf (ascii "Failed: " ++ t.error)]
  | _ => []

/-- The texts of errors that come from elsewhere: those of Model/SecretsErrors, and those of `strconv.Atoi`,
`time.ParseDuration`, `base32.StdEncoding.DecodeString`, `twofactor.NewGoogleTOTP`, `twofactor.FromURL` (of their
arguments), and the methods `QR`. -/
structure Texts extends SecretsErrors.Texts where
  number : Bytes → Bytes
  duration : Bytes → Bytes
  base32 : Bytes → Bytes
  google : Bytes → Bytes
  url : Bytes → Bytes
  qr : Bytes

variable (E : Texts) (C : Crypto) (J : Json) (T : TwoFactor) (U : Case)

/-- Case `HOTP` of `addSecret` (cmd/otpc/otpc.go:168-212): the error, if there is one. -/
def addHotpErr (w : World) (secret : Bytes) : Bytes :=
  let (i1, t) := w.term.read
  let w := { w with term := t }
  match i1 with
  | none => E.prompt
  | some i1 =>
    match atoi (orDefault (ascii "0") i1) with
    | none => E.number (orDefault (ascii "0") i1)
    | some _ =>
      match w.term.read.1 with
      | none => E.prompt
      | some i2 =>
        match atoi (orDefault (ascii "6") i2) with
        | none => E.number (orDefault (ascii "6") i2)
        | some _ => E.base32 secret

/-- Case `TOTP` of `addSecret` (cmd/otpc/otpc.go:213-257): the error, if there is one. -/
def addTotpErr (w : World) (secret : Bytes) : Bytes :=
  let (i1, t) := w.term.read
  let w := { w with term := t }
  match i1 with
  | none => E.prompt
  | some i1 =>
    match T.duration (orDefault (ascii "30s") i1) with
    | none => E.duration (orDefault (ascii "30s") i1)
    | some _ =>
      match w.term.read.1 with
      | none => E.prompt
      | some i2 =>
        match atoi (orDefault (ascii "6") i2) with
        | none => E.number (orDefault (ascii "6") i2)
        | some _ => E.base32 secret

/-- The switch of `addSecret` (cmd/otpc/otpc.go:167-279): the error, if there is one. -/
def makeErr (w : World) (k : Kind) (secret : Bytes) : Bytes :=
  match k with
  | .hotp => addHotpErr E w secret
  | .totp => addTotpErr E T w secret
  | .google => E.google secret
  | .unknown => ascii "unrecognised OTP type"

/-- `addSecret` (cmd/otpc/otpc.go:149-282). -/
def addErr (w : World) (ps : SecretStore) (cfg : Config) (label : Bytes) : Told :=
  if ps.has label && !cfg.overwrite then { error := ascii "token already exists under label" }
  else
    let msgs := if ps.has label then [errorf (ascii "WARNING: a token already exists under this label!")] else []
    let (secret, t) := w.term.read
    let w := { w with term := t }
    match secret with
    | none => { msgs := msgs, error := E.prompt }
    | some secret => { msgs := msgs, error := makeErr E T w cfg.otpType (sanitiseSecret U secret) }

/-- `showSecret` (cmd/otpc/otpc.go:366-400): the error, if there is one. -/
def showErr (ps : SecretStore) (label : Bytes) : Bytes :=
  if !ps.has label then ascii "no token found under label"
  else match fetch ps label with
    | .panic => []
    | .ok r =>
      match T.fromURL r.secret with
      | none => E.url r.secret
      | some _ => ascii "unknown OTP type"

/-- `showQR` (cmd/otpc/otpc.go:332-364): the error, if there is one. There is no third type of token. -/
def qrErr (ps : SecretStore) (label filename : Bytes) : Bytes :=
  if !ps.has label then ascii "no token found under label"
  else match fetch ps label with
    | .panic => []
    | .ok r =>
      match T.fromURL r.secret with
      | none => E.url r.secret
      | some (o, label') =>
        match T.qr o label' with
        | none => E.qr
        | some _ => E.write filename

/-- The end of `main` (cmd/otpc/otpc.go:466-472). -/
def saveErr (w : World) (ps : SecretStore) (path : Bytes) (mode : Int) : List Bytes :=
  let (now, t) := w.term.now
  writeErr E.toTexts C J { w with term := t } { ps with timestamp := now } path mode ++
  match writeStore C J { w with term := t } { ps with timestamp := now } path mode with
  | .ok (_, false) => [errorf (ascii "Failed to write store!")]
  | _ => []

/-- The call of the command in `main` and what follows (cmd/otpc/otpc.go:460-472). -/
def runErr (f : Flags) (args : List Bytes) (path : Bytes) (w : World) (ps : SecretStore) : List Bytes :=
  let label := args.headD []
  if f.store then
    let t := addErr E T U w ps ⟨args, parseOTPKind f.kind, false⟩ label
    t.msgs ++
    match addSecret T U w ps ⟨args, parseOTPKind f.kind, false⟩ label with
    | .panic => []
    | .ok (none, _, _) => [errorf (ascii "Failed: " ++ t.error)]
    | .ok (some _, ps, w) => saveErr E C J w ps path f.mode
  else if f.qr then
    match showQR T w ps label (args.tail.headD []) with
    | .ok (false, _) => [errorf (ascii "Failed: " ++ qrErr E T ps label (args.tail.headD []))]
    | _ => []
  else
    match showSecret T w ps label with
    | .ok (.failed, _, _) => [errorf (ascii "Failed: " ++ showErr E T ps label)]
    | .ok (.once _, ps, w) => saveErr E C J w ps path f.mode
    | _ => []

/-- `main` (cmd/otpc/otpc.go:402-473) without -V. -/
def mainErr (f : Flags) (args : List Bytes) (path : Bytes) (w : World) : List Bytes :=
  if f.init then initMainErr E.toTexts C J path f.mode w
  else if args.length < (if f.store then 1 else if f.qr then 2 else 1) then
    [errorf (ascii "Not enough arguments: want " ++ decimal (if f.store then 1 else if f.qr then 2 else 1) ++ ascii ", have " ++ decimal args.length ++ ascii "."),
     errorf (ascii "Want: " ++ if f.store then ascii "label" else if f.qr then ascii "label, filename" else ascii "label")]
  else loadErr E.toTexts w path ++
    match loadStore C J w path f.mode with
    | .panic => []
    | .ok (none, _) => [errorf (ascii "Failed to open two-factor store.")]
    | .ok (some ps, w) => runErr E C J T U f args path w ps

end Verif.Model.OtpcErrors
