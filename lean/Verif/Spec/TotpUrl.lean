import Verif.Spec.Auth
import Verif.Go.Strings
/-!
How an authenticator app reads the text of a QR code, after the description of the format
`otpauth://totp/LABEL?PARAMETERS` (Key Uri Format, the wiki of Google Authenticator).
-/

namespace Verif.Spec.TotpUrl
open Verif Verif.Go Verif.Model.Auth

/-- Percent-decoding (RFC 3986, 2.1). -/
def pctDecode : Bytes → Option Bytes
  | a :: b :: c :: r =>
    if a = 37 then
      match hexVal b, hexVal c, pctDecode r with
      | some x, some y, some r => some (UInt8.ofNat (16 * x + y) :: r)
      | _, _, _ => none
    else (pctDecode (b :: c :: r)).map (a :: ·)
  | r => if 37 ∈ r then none else some r

/-- Decoding of a name or value in a query, where `+` is a space. -/
def formDecode (b : Bytes) : Option Bytes := pctDecode (b.map (fun c => if c = 43 then 32 else c))

/-- What comes before and after the first `sep`. -/
def cut (sep : UInt8) (b : Bytes) : Bytes × Bytes :=
  (b.takeWhile (· ≠ sep), (b.dropWhile (· ≠ sep)).drop 1)

/-- The parts between the `sep`s. -/
def parts (sep : UInt8) : Bytes → List Bytes
  | [] => [[]]
  | c :: r =>
    if c = sep then [] :: parts sep r
    else match parts sep r with
      | p :: ps => (c :: p) :: ps
      | [] => [[c]]

/-- What a QR code says. -/
structure KeyUri where
  label : Bytes
  params : List (Bytes × Bytes)
deriving DecidableEq

/-- One `name=value`. -/
def readParam (b : Bytes) : Option (Bytes × Bytes) :=
  match formDecode (cut 61 b).1, formDecode (cut 61 b).2 with
  | some k, some v => some (k, v)
  | _, _ => none

/-- Reading the text: `otpauth://totp/`, the label, `?` and the parameters. -/
def readUri (u : Bytes) : Option KeyUri :=
  if (ascii "otpauth://totp/").isPrefixOf u then
    let rest := u.drop (ascii "otpauth://totp/").length
    match pctDecode (cut 63 rest).1, (parts 38 (cut 63 rest).2).mapM readParam with
    | some label, some params => some ⟨label, params⟩
    | _, _ => none
  else none

/-- The value of a parameter. -/
def KeyUri.param (k : KeyUri) (name : Bytes) : Option Bytes :=
  (k.params.find? (fun p => p.1 = name)).map (·.2)

/-- A number in decimal. -/
def readNat (b : Bytes) : Option Nat :=
  if b ≠ [] ∧ ∀ c ∈ b, 48 ≤ c.toNat ∧ c.toNat ≤ 57 then some (decVal b) else none

/-- The same, with a minus sign for negative ones. -/
def readInt (b : Bytes) : Option Int :=
  if b.head? = some 45 then (readNat (b.drop 1)).map (fun n => -Int.ofNat n) else (readNat b).map Int.ofNat

/-- The token the app then has: six digits, 30 seconds and SHA-1 are the defaults, and time is
counted from the epoch. Tokens with other algorithms are left out. -/
def appToken (k : KeyUri) : Option TOTPConfig := do
  let key ← (k.param (ascii "secret")).bind b32Decode
  let digits ← ((k.param (ascii "digits")).map readNat).getD (some 6)
  let period ← ((k.param (ascii "period")).map readNat).getD (some 30)
  if (k.param (ascii "algorithm")).getD (ascii "SHA1") = ascii "SHA1" then
    some { key := key, start := 0, step := BitVec.ofNat 64 period, size := digits, algo := 3,
           provider := (k.param (ascii "issuer")).getD [] }
  else none

end Verif.Spec.TotpUrl
