import Verif.Go.Text
import Verif.Go.Mem
import Verif.Model.Public
/-!
Model of common/auth. Strings are their bytes. A validator gets a pointer to an
authenticator (`Option`) and returns what the pointer then points to, the "needs update"
flag and the error. The clock is a parameter (`now`, the uint64 of `time.Now().Unix()`), the
PRNG a byte stream.
-/

namespace Verif.Model.Auth
open Verif.Go Verif.Model.Util Verif.Model.Tlv

variable (C : Crypto)

/-- `Authenticator` (common/auth/authenticator.go:16-21). -/
structure Authenticator where
  typ : Bytes
  label : Bytes := []
  last : Bytes := []
  secret : Bytes := []
deriving DecidableEq, Repr

/-- `TypeTOTP` = "TOTP" (common/auth/totp.go:24). -/
abbrev typeTOTP : Bytes := [84, 79, 84, 80]
/-- `TypeYubiKey` = "yubikey" (common/auth/yubikey.go:23). -/
abbrev typeYubiKey : Bytes := [121, 117, 98, 105, 107, 101, 121]
/-- `TypeSession` = "session" (common/auth/session.go:54). -/
abbrev typeSession : Bytes := [115, 101, 115, 115, 105, 111, 110]
/-- `TypePassword` = "password" (common/auth/password.go:8). -/
abbrev typePassword : Bytes := [112, 97, 115, 115, 119, 111, 114, 100]

/-- The errors the package returns. -/
inductive AErr where
  /-- `ErrInvalidAuthenticator` -/
  | invalidAuth
  /-- `ErrValidationFail` -/
  | fail
  /-- `errInvalidTOTPConfig` -/
  | badConfig
  /-- an error of encoding/hex -/
  | hex
  /-- "auth: PRNG failure" -/
  | prng
  /-- an error of common/public or of a third-party package -/
  | foreign
deriving DecidableEq, Repr

/-- What a validator leaves behind. -/
structure VRes where
  auth : Option Authenticator
  update : Bool
  err : Option AErr
deriving DecidableEq, Repr

/-- `Authenticator.Zero` (common/auth/authenticator.go:24-26). -/
def Authenticator.zero (a : Authenticator) : Authenticator := { a with secret := Util.zero a.secret }

/-! ### TOTP -/

/-- `crypto.SHA1` (crypto.Hash value 3). -/
abbrev sha1Id : BitVec 64 := 3

/-- `TOTPConfig` (common/auth/totp.go:31-59). `Size` is an int, `Algo` a `crypto.Hash` (uint,
64 bits). -/
structure TOTPConfig where
  key : Bytes
  start : BitVec 64
  step : BitVec 64
  size : Int
  algo : BitVec 64
  provider : Bytes
deriving DecidableEq, Repr

/-- `TOTPConfig.ExportKey` (common/auth/totp.go:66-68). -/
def exportKey (c : TOTPConfig) : Bytes := b32Encode c.key

/-- `TOTPConfig.Bytes` (common/auth/totp.go:111-120): `int32(Size)` and `int8(Algo)` truncate.
The error is always nil. -/
def TOTPConfig.bytes (c : TOTPConfig) : Bytes :=
  let enc : Encoder := {}
  let enc := (enc.encode (.val (.bytes c.key))).1
  let enc := (enc.encode (.val (.u64 c.start))).1
  let enc := (enc.encode (.val (.u64 c.step))).1
  let enc := (enc.encode (.val (.i32 (BitVec.ofInt 32 c.size)))).1
  let enc := (enc.encode (.val (.i8 (c.algo.setWidth 8)))).1
  let enc := (enc.encode (.val (.bytes c.provider))).1
  enc.bytes

/-- `err := dec.Decode(&x)`: `none` on error, else the decoder and the variable. -/
def decodeVar (d : Decoder) (cur : Val) : Res (Option (Decoder × Val)) := do
  match ← d.decode (.ptr cur) with
  | ⟨d', .ptr v, none⟩ => pure (some (d', v))
  | _ => pure none

/-- Content of a `[]byte` variable (`Decode` never changes the type of a variable). -/
def asBytes : Val → Bytes | .bytes b => b | _ => []
/-- Content of a `uint64` variable. -/
def asU64 : Val → BitVec 64 | .u64 v => v | _ => 0
/-- Content of a `uint32` variable. -/
def asU32 : Val → BitVec 32 | .u32 v => v | _ => 0
/-- Content of an `int32` variable. -/
def asI32 : Val → BitVec 32 | .i32 v => v | _ => 0
/-- Content of an `int8` variable. -/
def asI8 : Val → BitVec 8 | .i8 v => v | _ => 0

/-- `ParseTOTPConfig` (common/auth/totp.go:125-165). `spare` is what lies between length and
capacity of `in`. `crypto.Hash(algo)` sign-extends. -/
def parseTOTPConfig (b : Bytes) (spare : Bytes := []) : Res (Option TOTPConfig) := do
  match ← decodeVar (newDecoder b spare) (.bytes []) with
  | none => pure none
  | some (dec, key) =>
  match ← decodeVar dec (.u64 0) with
  | none => pure none
  | some (dec, start) =>
  match ← decodeVar dec (.u64 0) with
  | none => pure none
  | some (dec, step) =>
  match ← decodeVar dec (.i32 0) with
  | none => pure none
  | some (dec, size) =>
  match ← decodeVar dec (.i8 0) with
  | none => pure none
  | some (dec, algo) =>
  match ← decodeVar dec (.bytes []) with
  | none => pure none
  | some (_, provider) =>
  pure (some {
    key := asBytes key, start := asU64 start, step := asU64 step, size := (asI32 size).toInt
    algo := (asI8 algo).signExtend 64, provider := asBytes provider })

/-- `oathDigits[i]` (common/auth/totp.go:200-212): eleven entries, indexing panics otherwise. -/
def oathDigits (i : Int) : Res Nat := if 0 ≤ i ∧ i ≤ 10 then .ok (10 ^ i.toNat) else .panic

/-- `truncate` (common/auth/totp.go:246-255). The int32 sum cannot overflow because the top
byte is masked to seven bits. -/
def truncate (b : Bytes) : Res Nat :=
  match b.getLast? with
  | none => .panic
  | some x =>
    let offset := (x &&& 0xF).toNat
    match b.drop offset with
    | p0 :: p1 :: p2 :: p3 :: _ =>
      .ok (((p0 &&& 0x7f).toNat * 2 ^ 24 + p1.toNat * 2 ^ 16 + p2.toNat * 2 ^ 8 + p3.toNat) % 2 ^ 31)
    | _ => .panic

/-- `generateOTPAt` (common/auth/totp.go:219-241); `none` is `ErrUnsupportedHash`. Subtraction
wraps, division by zero panics. -/
def generateOTPAt (c : TOTPConfig) (counter : BitVec 64) : Res (Option Bytes) :=
  let counter := counter - c.start
  if c.step = 0 then .panic
  else do
    let counter := counter / c.step
    let ctr := be 8 counter.toNat
    let mod ← oathDigits c.size
    if c.algo ≠ sha1Id then pure none
    else do
      let dt ← truncate (C.hmacSha1 c.key ctr)
      pure (some (decimalPad c.size.toNat (dt % mod)))

/-- `ImportGoogleTOTP` (common/auth/totp.go:276-300); `provider` is the global `TOTPProvider`.
The ignored error of `generateOTP` leaves an empty string. -/
def importGoogleTOTP (provider : Bytes) (now : BitVec 64) (key : Bytes) : Res Authenticator := do
  let totp : TOTPConfig :=
    { key := key, start := 0, step := 30, size := 6, algo := sha1Id, provider := provider }
  let initial ← generateOTPAt C totp now
  pure { typ := typeTOTP, last := initial.getD [], secret := totp.bytes }

/-- `UserTOTP` (common/auth/totp.go:169-172) -/
structure UserTOTP where
  secret : Bytes
  qr : Bytes
deriving DecidableEq, Repr

/-- `ExportUserTOTP` (common/auth/totp.go:176-198). `qr` stands for `config.ExportQR(label)`
(rsc.io/qr over the otpauth URL), which may fail. -/
def exportUserTOTP (qr : TOTPConfig → Bytes → Option Bytes) (auth : Option Authenticator)
    (label : Bytes) (spare : Bytes := []) : Res (Except AErr UserTOTP) :=
  match auth with
  | none => .ok (.error .invalidAuth)
  | some a =>
    if a.typ ≠ typeTOTP then .ok (.error .invalidAuth)
    else do
      match ← parseTOTPConfig a.secret spare with
      | none => pure (.error .invalidAuth)
      | some config =>
        if label ≠ [] then
          match qr config label with
          | none => pure (.error .foreign)
          | some png => pure (.ok ⟨exportKey config, png⟩)
        else pure (.ok ⟨exportKey config, []⟩)

/-- `NewGoogleTOTP` (common/auth/totp.go:259-272). -/
def newGoogleTOTP (qr : TOTPConfig → Bytes → Option Bytes) (provider : Bytes) (now : BitVec 64)
    (label : Bytes) (rng : Rng) : Res (Except AErr (Authenticator × UserTOTP) × Rng) :=
  match randBytes rng 20 with
  | (none, rng') => .ok (.error .prng, rng')
  | (some key, rng') => do
    let auth ← importGoogleTOTP C provider now key
    match ← exportUserTOTP qr (some auth) label with
    | .error e => pure (.error e, rng')
    | .ok ud => pure (.ok (auth, ud), rng')

/-- One turn of the loop of `ValidateTOTP` (common/auth/totp.go:326-336). -/
def totpTry (c : TOTPConfig) (otp : Bytes) (st : Authenticator × Bool) (t : BitVec 64) :
    Res (Authenticator × Bool) := do
  match ← generateOTPAt C c t with
  | none => pure st
  | some s => if s = otp then pure ({ st.1 with last := otp }, true) else pure st

/-- `ValidateTOTP` (common/auth/totp.go:306-344). -/
def validateTOTP (auth : Option Authenticator) (otp : Bytes) (now : BitVec 64)
    (spare : Bytes := []) : Res VRes :=
  match auth with
  | none => .ok ⟨none, false, some .invalidAuth⟩
  | some a =>
    if a.typ ≠ typeTOTP then .ok ⟨some a, false, some .invalidAuth⟩
    else if a.last = otp then .ok ⟨some a, false, some .fail⟩
    else do
      match ← parseTOTPConfig a.secret spare with
      | none => pure ⟨some a, false, some .badConfig⟩
      | some c =>
        let st ← totpTry C c otp (a, false) now
        let (a, verified) ← totpTry C c otp st (now - c.step)
        if !verified then pure ⟨some a, false, some .fail⟩
        else pure ⟨some a, true, none⟩

/-! ### YubiKey -/

/-- The parts of `yubikey.Token` (github.com/conformal/yubikey) that are used: `Ctr` is a
uint16 and `Use` a uint8. -/
structure Token where
  ctr : BitVec 16
  use : BitVec 8
deriving DecidableEq, Repr

/-- github.com/conformal/yubikey, which is not part of the repository, as a parameter. -/
structure Yubi where
  /-- `ParseOTPString`: public identity and encrypted token -/
  parseOTP : Bytes → Option (Bytes × Bytes)
  /-- `OTP.Parse`: decrypt with a 16-byte key and check the CRC -/
  parseToken : (key otp : Bytes) → Option Token

/-- `yubikey.KeySize`. -/
abbrev ykKeySize : Nat := 16

/-- `getTokenCounter` (common/auth/yubikey.go:14-20): `token.Use << 16` is computed in uint8;
`token.Counter()` is `Ctr & 0x7fff`. -/
def getTokenCounter (t : Token) : BitVec 32 :=
  let counter := (t.use <<< 16).setWidth 32
  counter + (t.ctr &&& 0x7fff).setWidth 32

/-- `YubiKeyConfig` (common/auth/yubikey.go:26-30). -/
structure YubiKeyConfig where
  key : Bytes
  counter : BitVec 32
  pub : Bytes
deriving DecidableEq, Repr

/-- `YubiKeyConfig.Bytes` (common/auth/yubikey.go:33-39). -/
def YubiKeyConfig.bytes (c : YubiKeyConfig) : Bytes :=
  let enc : Encoder := {}
  let enc := (enc.encode (.val (.bytes c.key))).1
  let enc := (enc.encode (.val (.u32 c.counter))).1
  let enc := (enc.encode (.val (.bytes c.pub))).1
  enc.bytes

/-- `ParseYubiKeyConfig` (common/auth/yubikey.go:45-66). -/
def parseYubiKeyConfig (b : Bytes) (spare : Bytes := []) : Res (Option YubiKeyConfig) := do
  match ← decodeVar (newDecoder b spare) (.bytes []) with
  | none => pure none
  | some (dec, key) =>
  if (asBytes key).length ≠ ykKeySize then pure none else
  match ← decodeVar dec (.u32 0) with
  | none => pure none
  | some (dec, counter) =>
  match ← decodeVar dec (.bytes []) with
  | none => pure none
  | some (_, pub) =>
  pure (some { key := asBytes key, counter := asU32 counter, pub := asBytes pub })

/-- `NewYubiKey` (common/auth/yubikey.go:70-97): the authenticator and what the caller's key
buffer then holds. `yubikey.NewKey` copies into a 16-byte array. -/
def newYubiKey (Y : Yubi) (key initial : Bytes) : Except AErr Authenticator × Bytes :=
  match Y.parseOTP initial with
  | none => (.error .foreign, key)
  | some (pub, otp) =>
    match Y.parseToken (copyInto ykKeySize key) otp with
    | none => (.error .foreign, key)
    | some token =>
      let config : YubiKeyConfig := { key := key, counter := getTokenCounter token, pub := pub }
      (.ok { typ := typeYubiKey, last := initial, secret := config.bytes }, Util.zero key)

/-- `ValidateYubiKey` (common/auth/yubikey.go:104-144). -/
def validateYubiKey (Y : Yubi) (auth : Option Authenticator) (otp : Bytes) (spare : Bytes := []) :
    Res VRes :=
  match auth with
  | none => .ok ⟨none, false, some .invalidAuth⟩
  | some a =>
    if a.typ ≠ typeYubiKey then .ok ⟨some a, false, some .invalidAuth⟩
    else if a.last = otp then .ok ⟨some a, false, some .fail⟩
    else do
      match ← parseYubiKeyConfig a.secret spare with
      | none => pure ⟨some a, false, some .invalidAuth⟩
      | some config =>
      let tmpKey := copyInto ykKeySize config.key
      match Y.parseOTP otp with
      | none => pure ⟨some a, false, some .fail⟩
      | some (pub, ykOTP) =>
      if pub ≠ config.pub then pure ⟨some a, false, some .fail⟩ else
      match Y.parseToken tmpKey ykOTP with
      | none => pure ⟨some a, false, some .fail⟩
      | some userToken =>
      if getTokenCounter userToken < config.counter then pure ⟨some a, false, some .fail⟩
      else
        let config := { config with counter := getTokenCounter userToken }
        pure ⟨some { a with last := otp, secret := config.bytes }, true, none⟩

/-! ### Sessions -/

/-- `KeySession` (common/auth/session.go:24-38). The deferred `privKey.Zero()` cannot panic:
`UnmarshalPrivate` fills every component. The session is its shared key. -/
def keySession (priv pub : Bytes) : Res (Option Bytes) := do
  match ← Public.unmarshalPrivate priv with
  | none => pure none
  | some privKey =>
    match Public.unmarshalPublic pub with
    | none => pure none
    | some pubKey => do
      let shared ← Public.keyExchange C (some privKey) (some pubKey)
      pure (some shared)

/-- `Session.OTP` (common/auth/session.go:41-45), value level. -/
def sessionOTP (shared next : Bytes) : Bytes := hexEncode (next ++ C.hmacSha256 shared next)

/-- `Session.OTP` (common/auth/session.go:41-45) with the memory the argument lives in:
`append(next, ...)` may write behind `next`. `grow` is the runtime's growth policy. -/
def sessionOTPMem (grow : Nat → Nat → Nat) (m : Mem) (shared : Bytes) (next : Slice) : Mem × Bytes :=
  let (m', s) := Mem.append grow m next (C.hmacSha256 shared (m.read next))
  (m', hexEncode (m'.read s))

/-- `sessionLength` (common/auth/session.go:57). -/
abbrev sessionLength : Nat := 32

/-- `NewSession` (common/auth/session.go:63-89). -/
def newSession (pub : Bytes) (rng : Rng) : Res (Except AErr (Authenticator × Bytes) × Rng) :=
  match randBytes rng sessionLength with
  | (none, rng') => .ok (.error .prng, rng')
  | (some next, rng') => do
    match ← Public.generateKey C rng' with
    | (none, rng'') => pure (.error .foreign, rng'')
    | (some ephemeral, rng'') =>
      if !Public.validPriv (some ephemeral) then pure (.error .foreign, rng'')
      else do
        let ephemeralPublic ← Public.marshalPublic ephemeral.pub
        match Public.unmarshalPublic pub with
        | none => pure (.error .foreign, rng'')
        | some peer => do
          let shared ← Public.keyExchange C (some ephemeral) (some peer)
          pure (.ok ({ typ := typeSession, last := hexEncode next, secret := shared },
            ephemeralPublic.getD []), rng'')

/-- `ValidateSession` (common/auth/session.go:93-131). -/
def validateSession (auth : Option Authenticator) (otp : Bytes) (rng : Rng) : VRes × Rng :=
  match auth with
  | none => (⟨none, false, some .invalidAuth⟩, rng)
  | some a =>
    if a.typ ≠ typeSession then (⟨some a, false, some .invalidAuth⟩, rng)
    else match hexDecode otp with
      | none => (⟨some a, false, some .hex⟩, rng)
      | some otpBytes =>
        if otpBytes.length ≠ 2 * sessionLength then (⟨some a, false, some .fail⟩, rng)
        else match hexDecode a.last with
          | none => (⟨some a, false, some .hex⟩, rng)
          | some lastBytes =>
            let expected := C.hmacSha256 a.secret lastBytes
            if otpBytes.take sessionLength ≠ lastBytes then (⟨some a, false, some .fail⟩, rng)
            else if otpBytes.drop sessionLength ≠ expected then (⟨some a, false, some .fail⟩, rng)
            else match randBytes rng sessionLength with
              | (none, rng') => (⟨some a, false, some .prng⟩, rng')
              | (some next, rng') => (⟨some { a with last := hexEncode next }, true, none⟩, rng')

/-! ### Passwords and dispatch -/

/-- `NewPasswordAuth` (common/auth/password.go:13-27). bcrypt (golang.org/x/crypto v0.26)
refuses passwords above 72 bytes and needs 16 bytes of system randomness (`salt`, `none` when
that fails). MinCost is 4, MaxCost 31. -/
def newPasswordAuth (password : Bytes) (cost : Int) (salt : Option Bytes) :
    Except AErr Authenticator :=
  let cost := if cost = 0 ∨ cost < 4 ∨ cost > 31 then 14 else cost
  if password.length > 72 then .error .foreign
  else match salt with
    | none => .error .foreign
    | some salt => .ok { typ := typePassword, secret := C.bcryptHash password salt cost.toNat }

/-- `ValidatePassword` (common/auth/password.go:31-41). -/
def validatePassword (auth : Option Authenticator) (password : Bytes) : VRes :=
  match auth with
  | none => ⟨none, false, some .invalidAuth⟩
  | some a =>
    if a.typ ≠ typePassword then ⟨some a, false, some .invalidAuth⟩
    else if C.bcryptMatch a.secret password then ⟨some a, false, none⟩
    else ⟨some a, false, some .fail⟩

/-- `Validate` with the default `Validators` map (common/auth/authenticator.go:42-64). -/
def validate (Y : Yubi) (auth : Option Authenticator) (password : Bytes) (now : BitVec 64)
    (rng : Rng) (spare : Bytes := []) : Res (VRes × Rng) :=
  match auth with
  | none => .ok (⟨none, false, some .invalidAuth⟩, rng)
  | some a =>
    if a.typ = typeYubiKey then do let v ← validateYubiKey Y auth password spare; pure (v, rng)
    else if a.typ = typeTOTP then do let v ← validateTOTP C auth password now spare; pure (v, rng)
    else if a.typ = typeSession then .ok (validateSession C auth password rng)
    else if a.typ = typePassword then .ok (validatePassword C auth password, rng)
    else .ok (⟨some a, false, some .invalidAuth⟩, rng)

end Verif.Model.Auth
