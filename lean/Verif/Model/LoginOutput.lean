import Verif.Model.Login
/-!
What common/auth/examples/login/login.go prints and logs, function by function, beside the model of what it does in
Model/Login. Log lines are without the date that package log puts before them; what package readpass prints at
its prompt is left out.
-/

namespace Verif.Model.LoginOutput
open Verif Verif.Go Verif.Model.Util Verif.Model.Auth Verif.Model.Login

/-- Something written to standard output, or a line of the log (on standard error). -/
inductive Piece where
  | out (text : Bytes)
  | log (text : Bytes)
deriving DecidableEq

/-- The texts of errors: those of package auth (common/auth/authenticator.go:33, 37, common/auth/totp.go:122,
common/auth/session.go:125); one from encoding/hex quotes from the line typed. Of the errors of the operating system,
terminal, bcrypt and json the model takes one text. -/
structure Texts where
  auth : AErr → Bytes → Bytes
  fail : ∀ p, auth .fail p = ascii "auth: authentication failed"
  invalid : ∀ p, auth .invalidAuth p = ascii "auth: invalid authenticator"
  config : ∀ p, auth .badConfig p = ascii "auth: invalid TOTP configuration"
  prng : ∀ p, auth .prng p = ascii "auth: PRNG failure"
  error : Bytes

variable (T : Texts) (C : Crypto) (J : UserJson) (e : Env)

/-- The end of `login` (login.go:52-64). -/
def attemptText (path : Bytes) (m : Users) (name : Bytes) (u : User) (password : Bytes) (w : World) : List Piece :=
  let (now, w) := w.now
  match validate C e.yubi u.auth password now w.rng e.spare with
  | .panic => []
  | .ok (v, rng) =>
    let w := { w with rng := rng }
    let m := m.set name (some { u with auth := v.auth })
    match v.err with
    | some err => [.log (ascii "authentication failed (" ++ T.auth err password ++ ascii ")")]
    | none =>
      if v.update then
        match writeStore J path m w with
        | (false, _) => [.log T.error]
        | (true, _) => [.log (ascii "authentication successful")]
      else [.log (ascii "authentication successful")]

/-- `login` (login.go:36-65). -/
def loginText (path : Bytes) (m : Users) (w : World) : List Piece :=
  .out (ascii "User name: ") ::
  match w.readLine with
  | (none, _) => [.log T.error]
  | (some name, w) =>
    if name = [] then []
    else .out (ascii "Password: ") ::
      match w.readLine with
      | (none, _) => [.log T.error]
      | (some password, w) =>
        match m name with
        | none => [.log (ascii "authentication failed (no such user)")]
        | some none => []
        | some (some u) => attemptText T C J e path m name u password w

/-- `regPassword` (login.go:77-85). -/
def regPasswordText (w : World) : List Piece :=
  match regPassword C w with
  | (none, _) => [.log T.error]
  | (some _, _) => []

/-- `regTOTP` (login.go:90-99). -/
def regTOTPText (w : World) : List Piece :=
  let (now, w) := w.now
  match newGoogleTOTP C e.qr e.provider now totpLabel w.rng with
  | .panic => []
  | .ok (.error _, _) => [.log T.error]
  | .ok (.ok (_, ud), rng) =>
    if !(({ w with rng := rng } : World).save (ascii "qr.png") ud.qr).1 then [.log T.error]
    else [.log (ascii "Google Authenticator TOTP key: " ++ ud.secret), .log (ascii "wrote Google Authenticator PNG QR code to qr.png")]

/-- The loop of `register` (login.go:138-150). -/
def askTypeText : List (Option Bytes) → List Piece
  | some line :: as =>
    .out (ascii "Authentication type: ") ::
    match method (trimSpace line) with
    | some _ => []
    | none => .out (trimSpace line ++ ascii " isn't a supported authentication type." ++ [10]) :: askTypeText as
  | _ => [.out (ascii "Authentication type: "), .log T.error]

/-- `register` (login.go:121-155). -/
def registerText (path : Bytes) (m : Option Users) (w : World) : List Piece :=
  .out (ascii "Login name: ") ::
  match w.readLine with
  | (none, _) => [.log T.error]
  | (some name, w) =>
    .out (ascii "Supported authentication types:" ++ [10]) ::
    (supported.map fun t => Piece.out ([9] ++ t ++ [10])) ++
    askTypeText T w.term.answers ++
    let (k, as) := askType w.term.answers
    let w := { w with term := { w.term with answers := as } }
    match k with
    | none => []
    | some k =>
      (match k with
       | .password => regPasswordText T C w
       | .totp => regTOTPText T C e w) ++
      match enrol C e k w with
      | .panic => []
      | .ok (none, _) => []
      | .ok (some a, w) =>
        match m with
        | none => []
        | some m =>
          match writeStore J path (m.set name (some { name := name, auth := some a })) w with
          | (false, _) => [.log T.error]
          | (true, _) => [.log (ascii "registered " ++ name)]

/-- The loop of `main` (login.go:172-176), for at most `fuel` turns. -/
def loopText (path : Bytes) : (fuel : Nat) → Users → World → List Piece
  | 0, _, _ => []
  | n + 1, m, w =>
    loginText T C J e path m w ++
    match login C J e path m w with
    | (.again, m, w) => loopText path n m w
    | _ => []

/-- `usage` (login.go:183-200). -/
def usageText : Bytes := ascii "Demo of the common auth code.

This program runs a simulated user registration system and login
prompt. Users should first be added using the \"register\" command, then
authentications validated with \"run\".

Usage:
	login [-f storepath] register
	login [-f storepath] run

	where storepath is the location of the user store.

	register is used to add users to the \"system\".

	run checks logins against the users in the \"system\".
"

/-- `main` (login.go:157-181). -/
def mainText (path : Bytes) (args : List Bytes) (fuel : Nat) (w : World) : List Piece :=
  match args with
  | [] => [.out usageText]
  | cmd :: _ =>
    match loadStore J path w with
    | none => [.log T.error]
    | some m =>
      if cmd = ascii "register" then registerText T C J e path m w
      else if cmd = ascii "run" then loopText T C J e path fuel (m.getD Map.empty) w
      else [.out usageText]

end Verif.Model.LoginOutput
