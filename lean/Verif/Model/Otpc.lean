import Verif.Model.Secrets
import Verif.Go.Text
/-!
Model of cmd/otpc/otpc.go: the program as a function of its flags and arguments, the answers given
at its prompts, the clock, the PRNG and the files. Of what it prints only the one-time passwords
are kept here; the rest is in Model/OtpcOutput. Loading and saving a store (otpc.go:43-81) is, up to the prompt, the same text as in
cmd/secrets, and the definitions of Model/Secrets are used for it.

The packages github.com/gokyle/twofactor and time (for durations) are parameters.
-/

namespace Verif.Model.Otpc
open Verif Verif.Go Verif.Model.Util Verif.Model.SecretStore Verif.Model.Secrets

/-! ### Parameters -/

/-- `twofactor.HOTP` and `twofactor.TOTP` (with SHA-1 and start 0). -/
inductive Otp where
  | hotp (key : Bytes) (counter : BitVec 64) (digits : Int)
  | totp (key : Bytes) (step : BitVec 64) (digits : Int)
deriving DecidableEq

/-- Letters and digits. -/
def plainByte (b : UInt8) : Bool := (48 ≤ b && b ≤ 57) || (65 ≤ b && b ≤ 90) || (97 ≤ b && b ≤ 122)

/-- The parameters `twofactor` is meant for. -/
def Otp.Usual : Otp → Prop
  | .hotp key _ digits => key ≠ [] ∧ (digits = 6 ∨ digits = 8)
  | .totp key step digits => key ≠ [] ∧ step ≠ 0 ∧ (digits = 6 ∨ digits = 8)

/-- The packages otpc calls. `hcode` and `tcode` are the functions behind `OTP()`: they are given
the counter or the time. The laws are restricted to ordinary parameters and labels. -/
structure TwoFactor where
  hcode : (key : Bytes) → (counter : BitVec 64) → (digits : Int) → Res Bytes
  tcode : (key : Bytes) → (step : BitVec 64) → (digits : Int) → (now : BitVec 64) → Res Bytes
  /-- `HOTP.URL` and `TOTP.URL` -/
  url : Otp → Bytes → Bytes
  /-- `twofactor.FromURL` -/
  fromURL : Bytes → Option (Otp × Bytes)
  /-- `twofactor.NewGoogleTOTP`: the key it finds in its argument -/
  google : Bytes → Option Bytes
  /-- `HOTP.QR` and `TOTP.QR` -/
  qr : Otp → Bytes → Option Bytes
  /-- `time.ParseDuration`: `uint64(d.Seconds())` and `d.String()` -/
  duration : Bytes → Option (BitVec 64 × Bytes)
  hcode_ok : ∀ key c d, (Otp.hotp key c d).Usual → ∃ code, hcode key c d = .ok code
  tcode_ok : ∀ key s d now, (Otp.totp key s d).Usual → ∃ code, tcode key s d now = .ok code
  google_b32 : ∀ key, key ≠ [] → google (b32Encode key) = some key
  fromURL_url : ∀ t label, t.Usual → label ≠ [] → (∀ b ∈ label, plainByte b = true) → fromURL (url t label) = some (t, label)
  duration_default : ∃ str, duration (ascii "30s") = some (30, str)

/-! ### The program -/

/-- The constants of cmd/otpc/otpc.go:36-41. -/
inductive Kind where
  | unknown | hotp | totp | google
deriving DecidableEq

/-- `parseOTPKind` (cmd/otpc/otpc.go:113-125). -/
def parseOTPKind (t : Bytes) : Kind :=
  let t := lower t
  if t = ascii "totp" then .totp
  else if t = ascii "google" ∨ t = ascii "totp-google" then .google
  else if t = ascii "hotp" then .hotp
  else .unknown

/-- `parseTwofactorType` (cmd/otpc/otpc.go:321-330). -/
def Otp.kind : Otp → Kind
  | .hotp .. => .hotp
  | .totp .. => .totp

/-- `OTP()`: the code, the state afterwards, and the world (a TOTP looks at the clock). -/
def otp (T : TwoFactor) (w : World) : Otp → Res (Bytes × Otp × World)
  | .hotp key c d => do
    let code ← T.hcode key c d
    pure (code, .hotp key (c + 1) d, w)
  | .totp key s d => do
    let (now, t) := w.term.now
    let code ← T.tcode key s d now
    pure (code, .totp key s d, { w with term := t })

/-- `config` (cmd/otpc/otpc.go:127-133); `Updated` is a result and `WithMeta` not used. -/
structure Config where
  args : List Bytes
  otpType : Kind
  overwrite : Bool

/-- `unicode.ToUpper` on the encodings of runes. -/
structure Case where
  up : Bytes → Bytes
  up_ascii : ∀ b : UInt8, b < 0x80 → up [b] = [upperByte b]
  up_rune : ∀ r, runeLen r = some r.length → runeLen (up r) = some (up r).length
  up_up : ∀ r, runeLen r = some r.length → up (up r) = up r

/-- `bytes.ToUpper`: rune by rune, each ill-formed byte giving U+FFFD. -/
def toUpperF (U : Case) : Nat → Bytes → Bytes
  | 0, _ => []
  | _ + 1, [] => []
  | n + 1, b :: r =>
    match runeLen (b :: r) with
    | some k => U.up ((b :: r).take k) ++ toUpperF U n ((b :: r).drop k)
    | none => U.up [0xEF, 0xBF, 0xBD] ++ toUpperF U n r

def toUpper (U : Case) (s : Bytes) : Bytes :=
  if s.all (· < 0x80) then s.map upperByte else toUpperF U s.length s

/-- `sanitiseSecret` (cmd/otpc/otpc.go:137-147). -/
def sanitiseSecret (U : Case) (s : Bytes) : Bytes :=
  let s := toUpper U s
  let s := s.filter (· ≠ 0x20)
  if s.length % 8 ≠ 0 then s ++ List.replicate (8 - s.length % 8) 61 else s

/-- `strconv.Atoi` on a 64-bit machine. -/
def digitsVal (s : Bytes) : Option Nat :=
  if s ≠ [] ∧ s.all (fun b => 48 ≤ b && b ≤ 57) then some (s.foldl (fun n b => 10 * n + (b.toNat - 48)) 0) else none

@[inherit_doc digitsVal] def atoi (s : Bytes) : Option Int :=
  match s with
  | 45 :: r => match digitsVal r with
    | some n => if n ≤ 2 ^ 63 then some (-(n : Int)) else none
    | none => none
  | 43 :: r => match digitsVal r with
    | some n => if n < 2 ^ 63 then some (n : Int) else none
    | none => none
  | r => match digitsVal r with
    | some n => if n < 2 ^ 63 then some (n : Int) else none
    | none => none

/-- `base32.StdEncoding.DecodeString`: line breaks are ignored. -/
def decodeString (s : Bytes) : Option Bytes := b32Decode (s.filter (fun b => b ≠ 10 && b ≠ 13))

/-- An empty answer stands for the default. -/
def orDefault (d : Bytes) (s : Bytes) : Bytes := if s = [] then d else s

/-- The keys of the metadata. -/
abbrev kKey : Bytes := ascii "key"
@[inherit_doc kKey] abbrev kType : Bytes := ascii "type"
@[inherit_doc kKey] abbrev kStep : Bytes := ascii "step"
@[inherit_doc kKey] abbrev kConf : Bytes := ascii "confirmation"

variable (C : Crypto) (J : Json) (T : TwoFactor) (U : Case)

/-- What `addSecret` makes of the answers: `none` is an error. The code printed is the
confirmation in the record. -/
abbrev Made := Option (SecretRecord × Bytes)

/-- Case `HOTP` of `addSecret` (cmd/otpc/otpc.go:168-212). -/
def addHotp (w : World) (label secret : Bytes) : Res (Made × World) :=
  let (i1, t) := w.term.read
  let w := { w with term := t }
  match i1 with
  | none => .ok (none, w)
  | some i1 =>
    match atoi (orDefault (ascii "0") i1) with
    | none => .ok (none, w)
    | some d =>
      let (i2, t) := w.term.read
      let w := { w with term := t }
      match i2 with
      | none => .ok (none, w)
      | some i2 =>
        match atoi (orDefault (ascii "6") i2) with
        | none => .ok (none, w)
        | some digits =>
          match decodeString secret with
          | none => .ok (none, w)
          | some key => do
            let (code, hotp, w) ← otp T w (.hotp key (BitVec.ofInt 64 d) digits)
            let (now, t) := w.term.now
            pure (some ({ label := label, secret := T.url hotp label, timestamp := now
                          metadata := some (((Map.empty.set kKey secret).set kType (ascii "HOTP")).set kConf code) }, code),
              { w with term := t })

/-- Case `TOTP` of `addSecret` (cmd/otpc/otpc.go:213-257). -/
def addTotp (w : World) (label secret : Bytes) : Res (Made × World) :=
  let (i1, t) := w.term.read
  let w := { w with term := t }
  match i1 with
  | none => .ok (none, w)
  | some i1 =>
    match T.duration (orDefault (ascii "30s") i1) with
    | none => .ok (none, w)
    | some (step, str) =>
      let (i2, t) := w.term.read
      let w := { w with term := t }
      match i2 with
      | none => .ok (none, w)
      | some i2 =>
        match atoi (orDefault (ascii "6") i2) with
        | none => .ok (none, w)
        | some digits =>
          match decodeString secret with
          | none => .ok (none, w)
          | some key => do
            let (code, totp, w) ← otp T w (.totp key step digits)
            let (now, t) := w.term.now
            pure (some ({ label := label, secret := T.url totp label, timestamp := now
                          metadata := some ((((Map.empty.set kKey secret).set kType (ascii "TOTP-SHA1")).set kStep str).set kConf code) }, code),
              { w with term := t })

/-- Case `GoogleTOTP` of `addSecret` (cmd/otpc/otpc.go:258-276). -/
def addGoogle (w : World) (label secret : Bytes) : Res (Made × World) :=
  match T.google secret with
  | none => .ok (none, w)
  | some key => do
    let (code, totp, w) ← otp T w (.totp key 30 6)
    let (now, t) := w.term.now
    pure (some ({ label := label, secret := T.url totp label, timestamp := now
                  metadata := some ((((Map.empty.set kKey secret).set kType (ascii "TOTP-GOOGLE")).set kStep (ascii "30s")).set kConf code) }, code),
      { w with term := t })

/-- The switch of `addSecret` (cmd/otpc/otpc.go:167-279). -/
def makeRecord (w : World) (k : Kind) (label secret : Bytes) : Res (Made × World) :=
  match k with
  | .hotp => addHotp T w label secret
  | .totp => addTotp T w label secret
  | .google => addGoogle T w label secret
  | .unknown => .ok (none, w)

/-- `addSecret` (cmd/otpc/otpc.go:149-282): the code printed, or `none` for an error. -/
def addSecret (w : World) (ps : SecretStore) (cfg : Config) (label : Bytes) : Res (Option Bytes × SecretStore × World) :=
  if ps.has label && !cfg.overwrite then .ok (none, ps, w)
  else
    let (secret, t) := w.term.read
    let w := { w with term := t }
    match secret with
    | none => .ok (none, ps, w)
    | some secret => do
      match ← makeRecord T w cfg.otpType label (sanitiseSecret U secret) with
      | (none, w) => pure (none, ps, w)
      | (some (r, code), w) =>
        let ps ← assign ps label r
        pure (some code, ps, w)

/-- How `showSecret` ends. -/
inductive Shown where
  | failed
  /-- It printed this code and goes on printing. -/
  | forever (first : Bytes)
  /-- It printed this code. -/
  | once (code : Bytes)
deriving DecidableEq

/-- The type of a token (cmd/otpc/otpc.go:378-382). -/
def kindOf (r : SecretRecord) (o : Otp) : Kind :=
  match r.metadata.bind (· kType) with
  | none => o.kind
  | some t => parseOTPKind t

/-- `showSecret` (cmd/otpc/otpc.go:366-400) with the functions `printGTOTP`, `printTOTP` and
`printHOTP` (cmd/otpc/otpc.go:284-318), of which the first two never return. The record is changed
through its pointer, hence under the label asked for, and stored under the label that the URL
contains. -/
def showSecret (w : World) (ps : SecretStore) (label : Bytes) : Res (Shown × SecretStore × World) :=
  if !ps.has label then .ok (.failed, ps, w)
  else do
    let r ← fetch ps label
    match T.fromURL r.secret with
    | none => pure (.failed, ps, w)
    | some (o, label') =>
      match kindOf r o with
      | .unknown => pure (.failed, ps, w)
      | .hotp => do
        let (code, o, w) ← otp T w o
        match o with
        | .totp .. => .panic -- the type assertion
        | .hotp .. =>
          let (now, t) := w.term.now
          let r := { r with secret := T.url o label', timestamp := now }
          let ps ← assign ps label r
          let ps ← assign ps label' r
          pure (.once code, ps, { w with term := t })
      | .totp => do
        let (code, _, w) ← otp T w o
        pure (.forever code, ps, w)
      | .google => do
        let (_, t) := w.term.now -- for the line "Updates in"
        let (code, _, w) ← otp T { w with term := t } o
        pure (.forever code, ps, w)

/-- `showQR` (cmd/otpc/otpc.go:332-364): whether the error is nil. It uses `ioutil.WriteFile`. -/
def showQR (w : World) (ps : SecretStore) (label filename : Bytes) : Res (Bool × World) :=
  if !ps.has label then .ok (false, w)
  else do
    let r ← fetch ps label
    match T.fromURL r.secret with
    | none => pure (false, w)
    | some (o, label') =>
      match T.qr o label' with
      | none => pure (false, w)
      | some png =>
        let (fs, ok) := Go.writeFile w.write w.fs filename png
        pure (ok, { w with fs := fs })

/-- `initStore` (cmd/otpc/otpc.go:83-111); the result is whether the error is nil. -/
def initStore (w : World) (path : Bytes) (mode : Int) : Res (Bool × World) :=
  let (pass, t) := w.term.read
  let w := { w with term := t }
  match pass with
  | none => .ok (false, w)
  | some pass => do
    let (now, t) := w.term.now
    let w := { w with term := t }
    let (out, _, rng) ← marshalSecretStore C J (newSecretStore pass now) mode w.rng
    let w := { w with rng := rng }
    match out with
    | none => pure (false, w)
    | some fileData =>
      let (w, ok) := w.writeFile path fileData
      if !ok then pure (false, w)
      else do
        let s ← unmarshalSecretStore C J fileData pass mode
        pure (s.isSome, w)

/-- The flags of `main` (cmd/otpc/otpc.go:404-411) but -V. -/
structure Flags where
  init : Bool := false
  store : Bool := false
  qr : Bool := false
  kind : Bytes := []
  interactive : Bool := false

def Flags.mode (f : Flags) : Int := if f.interactive then 1 else 0

/-- How a run ends: with a status, having printed these codes, or never. -/
inductive Outcome where
  | exit (status : Nat) (codes : List Bytes)
  | forever (first : Bytes)
deriving DecidableEq

/-- The end of `main` (cmd/otpc/otpc.go:466-472). -/
def save (w : World) (ps : SecretStore) (path : Bytes) (mode : Int) (codes : List Bytes) : Res (Outcome × World) := do
  let (now, t) := w.term.now
  let (w, ok) ← writeStore C J { w with term := t } { ps with timestamp := now } path mode
  pure (.exit (if ok then 0 else 1) codes, w)

/-- `main` (cmd/otpc/otpc.go:402-473) without -V. The field `Overwrite` is never set. -/
def main (f : Flags) (args : List Bytes) (path : Bytes) (w : World) : Res (Outcome × World) :=
  if f.init then do
    let (ok, w) ← initStore C J w path f.mode
    pure (.exit (if ok then 0 else 1) [], w)
  else if args.length < (if f.store then 1 else if f.qr then 2 else 1) then .ok (.exit 1 [], w)
  else do
    match ← loadStore C J w path f.mode with
    | (none, w) => pure (.exit 1 [], w)
    | (some ps, w) =>
      let label := args.headD []
      if f.store then do
        match ← addSecret T U w ps ⟨args, parseOTPKind f.kind, false⟩ label with
        | (none, _, w) => pure (.exit 1 [], w)
        | (some code, ps, w) => save C J w ps path f.mode [code]
      else if f.qr then do
        let (ok, w) ← showQR T w ps label (args.tail.headD [])
        pure (.exit (if ok then 0 else 1) [], w)
      else do
        match ← showSecret T w ps label with
        | (.failed, _, w) => pure (.exit 1 [], w)
        | (.forever first, _, w) => pure (.forever first, w)
        | (.once code, ps, w) => save C J w ps path f.mode [code]

end Verif.Model.Otpc
