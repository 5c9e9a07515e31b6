import Verif.Model.Auth
import Verif.Model.SecretStore
import Verif.Go.Term
import Verif.Go.Strings
/-!
Model of common/auth/examples/login/login.go: the program as a function of its arguments, the lines
typed, the clock, the PRNG and the files. Of what it prints and logs the outcome of each login, the
names registered and the TOTP keys are kept; prompts and the texts of errors are left out.
-/

namespace Verif.Model.Login
open Verif Verif.Go Verif.Model.Util Verif.Model.Auth
open Verif.Model.SecretStore (MapSan OptRel)

/-- `User` (common/auth/examples/login/login.go:19-22). -/
structure User where
  name : Bytes
  auth : Option Authenticator
deriving DecidableEq

/-- The contents of `store` (login.go:26); `some none` under a name is a nil `*User`. -/
abbrev Users := Map (Option User)

/-- An authenticator after a trip through JSON; the secret is a byte slice, hence base64. -/
def AuthSan (a a' : Authenticator) : Prop :=
  a'.typ = sanitise a.typ ∧ a'.label = sanitise a.label ∧ a'.last = sanitise a.last ∧ a'.secret = a.secret

/-- A user after a trip through JSON. -/
def UserSan (u u' : User) : Prop := u'.name = sanitise u.name ∧ OptRel AuthSan u.auth u'.auth

/-- All strings are UTF-8. -/
def Users.Utf8 (m : Users) : Prop :=
  ∀ k v, m k = some v → ValidUtf8 k ∧ ∀ u, v = some u → ValidUtf8 u.name ∧
    ∀ a, u.auth = some a → ValidUtf8 a.typ ∧ ValidUtf8 a.label ∧ ValidUtf8 a.last

/-- `json.Marshal` and `json.Unmarshal` for `map[string]*User`, as a parameter. Marshalling never
fails; it writes an object, of which no proper prefix is JSON. `dec` gives the map that a nil map
becomes, `some none` being nil. What is parsed is finite, and its strings are UTF-8, since the decoder
replaces what is not. -/
structure UserJson where
  enc : Users → Bytes
  dec : Bytes → Option (Option Users)
  dec_enc : ∀ m, m.Finite → ∃ m', dec (enc m) = some (some m') ∧ MapSan (OptRel UserSan) m m'
  dec_finite : ∀ b m, dec b = some (some m) → m.Finite
  dec_utf8 : ∀ b m, dec b = some (some m) → Users.Utf8 m
  dec_prefix : ∀ m k, k < (enc m).length → dec ((enc m).take k) = none
  dec_nil : dec [] = none
  dec_null : dec (ascii "null") = some none
  dec_nobody : ∃ b, dec b = some (some (Map.empty.set (ascii "u") none))

/-- What is logged. -/
inductive Msg where
  | failed
  | successful
  | registered (name : Bytes)
  | totpKey (key : Bytes)
deriving DecidableEq

/-- What the program runs in. `salts n` is the salt the n-th call of bcrypt finds, `none` if there is
no randomness; `writes n` says how the n-th write of a file will go. -/
structure World where
  term : Term
  rng : Rng
  salts : Nat → Option Bytes
  fs : Fs
  writes : Nat → WriteOutcome
  log : List Msg

/-- What other packages decide: QR codes, the `TOTPProvider`, and what lies behind the secret of an
authenticator in memory. -/
structure Env where
  yubi : Yubi
  qr : TOTPConfig → Bytes → Option Bytes
  provider : Bytes
  spare : Bytes

/-- `util.ReadLine` (common/util/util.go:136-146): the answer is trimmed. -/
def World.readLine (w : World) : Option Bytes × World :=
  let (a, t) := w.term.read
  (a.map trimSpace, { w with term := t })

/-- `readpass.PasswordPrompt`. -/
def World.readPass (w : World) : Option Bytes × World :=
  let (a, t) := w.term.read
  (a, { w with term := t })

/-- `time.Now().Unix()`. The model takes a reading for every validation. -/
def World.now (w : World) : BitVec 64 × World :=
  let (t, term) := w.term.now
  (t, { w with term := term })

def World.say (w : World) (m : Msg) : World := { w with log := w.log ++ [m] }

/-- `ioutil.WriteFile`: whether the error is nil. -/
def World.save (w : World) (path data : Bytes) : Bool × World :=
  let (fs, ok) := Go.writeFile (w.writes 0) w.fs path data
  (ok, { w with fs := fs, writes := fun n => w.writes (n + 1) })

/-- How `login` and `register` end: returning true, returning false (or returning), in
`log.Fatalf`, or by a panic. -/
inductive Ret where
  | again
  | stop
  | fatal
  | panic
deriving DecidableEq, Repr

variable (C : Crypto) (J : UserJson) (e : Env)

/-- `writeStore` (login.go:224-230). -/
def writeStore (path : Bytes) (m : Users) (w : World) : Bool × World := w.save path (J.enc m)

/-- The end of `login` (login.go:52-64), for a user that is found. `auth.Validate` changes the
authenticator through the pointer in the store. -/
def attempt (path : Bytes) (m : Users) (name : Bytes) (u : User) (password : Bytes) (w : World) : Ret × Users × World :=
  let (now, w) := w.now
  match validate C e.yubi u.auth password now w.rng e.spare with
  | .panic => (.panic, m, w)
  | .ok (v, rng) =>
    let w := { w with rng := rng }
    let m := m.set name (some { u with auth := v.auth })
    if v.err ≠ none then (.again, m, w.say .failed)
    else if v.update then
      match writeStore J path m w with
      | (false, w) => (.fatal, m, w)
      | (true, w) => (.again, m, w.say .successful)
    else (.again, m, w.say .successful)

/-- `login` (login.go:36-65). -/
def login (path : Bytes) (m : Users) (w : World) : Ret × Users × World :=
  match w.readLine with
  | (none, w) => (.fatal, m, w)
  | (some name, w) =>
    if name = [] then (.stop, m, w)
    else match w.readLine with
      | (none, w) => (.fatal, m, w)
      | (some password, w) =>
        match m name with
        | none => (.again, m, w.say .failed)
        | some none => (.panic, m, w)
        | some (some u) => attempt C J e path m name u password w

/-- `regPassword` (login.go:77-85); `none` is `log.Fatalf`. -/
def regPassword (w : World) : Option Authenticator × World :=
  match w.readPass with
  | (none, w) => (none, w)
  | (some password, w) =>
    let salt := w.salts 0
    let w := { w with salts := fun n => w.salts (n + 1) }
    match newPasswordAuth C password 0 salt with
    | .error _ => (none, w)
    | .ok a => (some a, w)

/-- "common-auth example login" (login.go:91). -/
def totpLabel : Bytes := ascii "common-auth example login"

/-- `regTOTP` (login.go:90-99). -/
def regTOTP (w : World) : Res (Option Authenticator × World) := do
  let (now, w) := w.now
  let (r, rng) ← newGoogleTOTP C e.qr e.provider now totpLabel w.rng
  let w := { w with rng := rng }
  match r with
  | .error _ => pure (none, w)
  | .ok (a, ud) =>
    let (ok, w) := w.save (ascii "qr.png") ud.qr
    if !ok then pure (none, w) else pure (some a, w.say (.totpKey ud.secret))

/-- The types `register` says are supported (login.go:69-73, 133-136). -/
def supported : List Bytes := [typePassword, typeYubiKey, typeTOTP]

/-- The map `rfns` (login.go:122-125): what is done for a type. -/
inductive Method where
  | password
  | totp
deriving DecidableEq

@[inherit_doc Method] def method (t : Bytes) : Option Method :=
  if t = typePassword then some .password else if t = typeTOTP then some .totp else none

/-- The loop of `register` (login.go:138-150) up to the call of `rfn`: the first answer that is a
key of `rfns`; `none` is a read error. -/
def askType : List (Option Bytes) → Option Method × List (Option Bytes)
  | [] => (none, [])
  | none :: as => (none, as)
  | some line :: as =>
    match method (trimSpace line) with
    | some k => (some k, as)
    | none => askType as

/-- `u.Auth = rfn()` (login.go:148). -/
def enrol (k : Method) (w : World) : Res (Option Authenticator × World) :=
  match k with
  | .password => .ok (regPassword C w)
  | .totp => regTOTP C e w

/-- `register` (login.go:121-155). `m` is `none` for a nil map, which cannot be assigned to. -/
def register (path : Bytes) (m : Option Users) (w : World) : Ret × World :=
  match w.readLine with
  | (none, w) => (.fatal, w)
  | (some name, w) =>
    let (k, as) := askType w.term.answers
    let w := { w with term := { w.term with answers := as } }
    match k with
    | none => (.fatal, w)
    | some k =>
      match enrol C e k w with
      | .panic => (.panic, w)
      | .ok (none, w) => (.fatal, w)
      | .ok (some a, w) =>
        match m with
        | none => (.panic, w)
        | some m =>
          match writeStore J path (m.set name (some { name := name, auth := some a })) w with
          | (false, w) => (.fatal, w)
          | (true, w) => (.stop, w.say (.registered name))

/-- The loop of `main` (login.go:172-176); `none` means that it is still running. -/
def loop (path : Bytes) : (fuel : Nat) → Users → World → Option (Ret × World)
  | 0, _, _ => none
  | n + 1, m, w =>
    match login C J e path m w with
    | (.again, m, w) => loop path n m w
    | (r, _, w) => some (r, w)

/-- `loadStore` (login.go:208-222): the outer `none` is `log.Fatal`, the inner one a nil map. A file
that exists can be read, so that `util.Exists` reports no error. -/
def loadStore (path : Bytes) (w : World) : Option (Option Users) :=
  match w.fs path with
  | none => some (some Map.empty)
  | some data => J.dec data

/-- `main` (login.go:157-181), `-f` giving `path`: how it ends (`stop` is exit status 0, `fatal` 1);
`none` means that it is still running. Reading a nil map finds nothing. -/
def main (path : Bytes) (args : List Bytes) (fuel : Nat) (w : World) : Option (Ret × World) :=
  match args with
  | [] => some (.fatal, w)
  | cmd :: _ =>
    match loadStore J path w with
    | none => some (.fatal, w)
    | some m =>
      if cmd = ascii "register" then some (register C J e path m w)
      else if cmd = ascii "run" then loop C J e path fuel (m.getD Map.empty) w
      else some (.fatal, w)

end Verif.Model.Login
