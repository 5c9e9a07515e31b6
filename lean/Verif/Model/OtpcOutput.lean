import Verif.Model.Otpc
/-!
What cmd/otpc prints on standard output, function by function, beside the model of what it does in
Model/Otpc. What package readpass prints at its prompts, and what goes to standard error (all of
`util.Errorf`), is left out; so is what `util.WriteFile` writes with path "-", which is in
`World.stdout`. Of the functions that never return it is what they print before they first wait.
-/

namespace Verif.Model.OtpcOutput
open Verif Verif.Go Verif.Model.Util Verif.Model.SecretStore Verif.Model.Otpc
open Verif.Model.Secrets (World loadStore fetch)

/-- `t.Second()`: minutes of local time begin at multiples of 60 seconds (true where the offset from
UTC is a whole number of minutes). -/
def second (t : BitVec 64) : Nat := (t.toInt % 60).toNat

variable (C : Crypto) (J : Json) (T : TwoFactor) (U : Case)

/-- `fmt.Printf("Confirmation: %s\n", confirmation)` (cmd/otpc/otpc.go:202, 246 and 265), once
`OTP()` has returned. -/
def confirmationText (w : World) (o : Otp) : Bytes :=
  match otp T w o with
  | .panic => []
  | .ok (code, _, _) => ascii "Confirmation: " ++ code ++ [10]

/-- Case `HOTP` of `addSecret` (cmd/otpc/otpc.go:168-212). -/
def addHotpText (w : World) (secret : Bytes) : Bytes :=
  let (i1, t) := w.term.read
  let w := { w with term := t }
  ascii "Initial counter (0): " ++
  match i1 with
  | none => []
  | some i1 =>
    match atoi (orDefault (ascii "0") i1) with
    | none => []
    | some d =>
      let (i2, t) := w.term.read
      let w := { w with term := t }
      ascii "Digits (6 or 8): " ++
      match i2 with
      | none => []
      | some i2 =>
        match atoi (orDefault (ascii "6") i2) with
        | none => []
        | some digits =>
          match decodeString secret with
          | none => secret
          | some key => confirmationText T w (.hotp key (BitVec.ofInt 64 d) digits)

/-- Case `TOTP` of `addSecret` (cmd/otpc/otpc.go:213-257). -/
def addTotpText (w : World) (secret : Bytes) : Bytes :=
  let (i1, t) := w.term.read
  let w := { w with term := t }
  ascii "Time step (30s): " ++
  match i1 with
  | none => []
  | some i1 =>
    match T.duration (orDefault (ascii "30s") i1) with
    | none => []
    | some (step, _) =>
      let (i2, t) := w.term.read
      let w := { w with term := t }
      ascii "Digits (6 or 8): " ++
      match i2 with
      | none => []
      | some i2 =>
        match atoi (orDefault (ascii "6") i2) with
        | none => []
        | some digits =>
          match decodeString secret with
          | none => []
          | some key => confirmationText T w (.totp key step digits)

/-- Case `GoogleTOTP` of `addSecret` (cmd/otpc/otpc.go:258-276). -/
def addGoogleText (w : World) (secret : Bytes) : Bytes :=
  match T.google secret with
  | none => []
  | some key => confirmationText T w (.totp key 30 6)

/-- The switch of `addSecret` (cmd/otpc/otpc.go:167-279). -/
def recordText (w : World) (k : Kind) (secret : Bytes) : Bytes :=
  match k with
  | .hotp => addHotpText T w secret
  | .totp => addTotpText T w secret
  | .google => addGoogleText T w secret
  | .unknown => []

/-- `addSecret` (cmd/otpc/otpc.go:149-282). -/
def addText (w : World) (ps : SecretStore) (cfg : Config) (label : Bytes) : Bytes :=
  if ps.has label && !cfg.overwrite then []
  else
    let (secret, t) := w.term.read
    let w := { w with term := t }
    match secret with
    | none => []
    | some secret => recordText T w cfg.otpType (sanitiseSecret U secret)

/-- `fmt.Println(otp.OTP())` in `printTOTP` and `printHOTP` (cmd/otpc/otpc.go:303-305 and 316-318). -/
def printText (w : World) (o : Otp) : Bytes :=
  match otp T w o with
  | .panic => []
  | .ok (code, _, _) => code ++ [10]

/-- The beginning of `printGTOTP` (cmd/otpc/otpc.go:284-287). -/
def printGText (w : World) (o : Otp) : Bytes :=
  let (t0, t) := w.term.now
  match otp T { w with term := t } o with
  | .panic => []
  | .ok (code, _, _) => code ++ [10] ++ ascii "Updates in " ++ decimal (30 - second t0 % 30) ++ ascii " seconds." ++ [10]

/-- `showSecret` (cmd/otpc/otpc.go:366-400). -/
def showText (w : World) (ps : SecretStore) (label : Bytes) : Bytes :=
  if !ps.has label then []
  else match fetch ps label with
    | .panic => []
    | .ok r =>
      match T.fromURL r.secret with
      | none => []
      | some (o, _) =>
        match kindOf r o with
        | .unknown => []
        | .hotp | .totp => printText T w o
        | .google => printGText T w o

/-- `initStore` (cmd/otpc/otpc.go:83-111). -/
def initText (w : World) : Bytes :=
  match w.term.read.1 with
  | none => []
  | some _ => ascii "creating store..." ++ [10]

/-- `main` (cmd/otpc/otpc.go:402-473) without -V. -/
def mainText (f : Flags) (args : List Bytes) (path : Bytes) (w : World) : Bytes :=
  if f.init then initText w
  else if args.length < (if f.store then 1 else if f.qr then 2 else 1) then []
  else match loadStore C J w path f.mode with
    | .ok (some ps, w) =>
      let label := args.headD []
      if f.store then addText T U w ps ⟨args, parseOTPKind f.kind, false⟩ label
      else if f.qr then []
      else showText T w ps label
    | _ => []

end Verif.Model.OtpcOutput
