import Verif.Model.Auth
/-! Vocabulary for the properties of common/auth. -/

namespace Verif.Spec.Auth
open Verif Verif.Go Verif.Model.Util Verif.Model.Auth

/-- RFC 4226, 5.3: the low 31 bits of the four bytes at the offset given by the low nibble of
the last byte. -/
def dynamicTruncation (h : Bytes) : Nat :=
  ofBe ((h.drop ((h.getLast?.getD 0).toNat % 16)).take 4) % 2 ^ 31

/-- RFC 6238: number of whole steps since the start, for uint64 arithmetic. -/
def timeCounter (c : TOTPConfig) (t : BitVec 64) : Nat :=
  (t.toNat + 2 ^ 64 - c.start.toNat) % 2 ^ 64 / c.step.toNat

/-- The number the code shows at time `t`. -/
def codeValue (C : Crypto) (c : TOTPConfig) (t : BitVec 64) : Nat :=
  dynamicTruncation (C.hmacSha1 c.key (be 8 (timeCounter c t))) % 10 ^ c.size.toNat

/-- `s` consists of ASCII digits. -/
def Digits (s : Bytes) : Prop := ∀ ch ∈ s, 48 ≤ ch.toNat ∧ ch.toNat ≤ 57

/-- `otp` is the code at time `t`: the right number of digits, with the right value. -/
def IsCode (C : Crypto) (c : TOTPConfig) (t : BitVec 64) (otp : Bytes) : Prop :=
  (otp.length : Int) = c.size ∧ Digits otp ∧ decVal otp = codeValue C c t

/-- A configuration the generator supports. -/
def Supported (c : TOTPConfig) : Prop := c.step ≠ 0 ∧ 1 ≤ c.size ∧ c.size ≤ 10 ∧ c.algo = 3

/-- The configuration Google Authenticator uses. -/
def google (provider key : Bytes) : TOTPConfig :=
  { key := key, start := 0, step := 30, size := 6, algo := 3, provider := provider }

/-- A history of attempts: each entry is an input and whether it was accepted. -/
inductive History {σ ι : Type} (step : σ → ι → Bool → σ → Prop) : σ → List (ι × Bool) → σ → Prop
  | nil (s : σ) : History step s [] s
  | cons {s i ok s' h s''} : step s i ok s' → History step s' h s'' →
      History step s ((i, ok) :: h) s''

/-- One call of `ValidateTOTP` with an OTP at some time; accepted means a nil error. -/
def totpStep (C : Crypto) (a : Authenticator) (i : Bytes × BitVec 64) (ok : Bool)
    (a' : Authenticator) : Prop :=
  ∃ spare u e, validateTOTP C (some a) i.1 i.2 spare = .ok ⟨some a', u, e⟩ ∧ ok = e.isNone

/-- One call of `ValidateYubiKey`. -/
def ykStep (Y : Yubi) (a : Authenticator) (otp : Bytes) (ok : Bool) (a' : Authenticator) : Prop :=
  ∃ spare u e, validateYubiKey Y (some a) otp spare = .ok ⟨some a', u, e⟩ ∧ ok = e.isNone

/-- One call of `ValidateSession`; the state includes the PRNG. -/
def sessionStep (C : Crypto) (s : Authenticator × Rng) (otp : Bytes) (ok : Bool)
    (s' : Authenticator × Rng) : Prop :=
  ∃ u e, validateSession C (some s.1) otp s.2 = (⟨some s'.1, u, e⟩, s'.2) ∧ ok = e.isNone

/-- The 15-bit insertion counter of a YubiKey token. -/
def insertions (t : Token) : Nat := t.ctr.toNat % 2 ^ 15

/-- What an acceptable YubiKey OTP is, given the stored configuration and last OTP: its
public identity matches and it decrypts to a token that is not older. -/
def YkGood (Y : Yubi) (c : YubiKeyConfig) (otp : Bytes) (t : Token) : Prop :=
  ∃ box, Y.parseOTP otp = some (c.pub, box) ∧ Y.parseToken c.key box = some t ∧
    c.counter.toNat ≤ insertions t

/-- The `k`-th block of 32 PRNG bytes. -/
def block (r : Rng) (k : Nat) : Bytes := (r.drop (32 * k)).take 32

/-- The challenge and the PRNG blocks still to come are pairwise different. -/
def FreshChallenges (challenge : Bytes) (r : Rng) : Prop :=
  (∀ k, 32 * (k + 1) ≤ r.length → block r k ≠ challenge) ∧
  (∀ i j, i < j → 32 * (j + 1) ≤ r.length → block r i ≠ block r j)

/-- What an acceptable session OTP is: hex (of either case) of the challenge and its MAC. -/
def SessionGood (C : Crypto) (a : Authenticator) (otp : Bytes) : Prop :=
  ∃ challenge, challenge.length = 32 ∧ hexDecode a.last = some challenge ∧
    hexDecode otp = some (challenge ++ C.hmacSha256 a.secret challenge)

/-- The `n` answers of a client holding `shared` against a server drawing its challenges from
`r`, starting with `challenge`. -/
def clientAnswers (C : Crypto) (shared : Bytes) : (n : Nat) → (challenge : Bytes) → Rng → List Bytes
  | 0, _, _ => []
  | n + 1, challenge, r => sessionOTP C shared challenge :: clientAnswers C shared n (r.take 32) (r.drop 32)

end Verif.Spec.Auth
