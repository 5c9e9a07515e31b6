import Verif.Go.Basic
/-!
The cryptographic primitives the code calls, as a parameter.

The laws are functional facts about the real primitives, not security claims:
* `golang.org/x/crypto/nacl/secretbox`: `Open` verifies a deterministic tag and removes a
  key stream, so it succeeds exactly on the outputs of `Seal`; the overhead is 16 bytes.
* `nacl/box` is secretbox under `Precompute`; X25519 commutes.
* `crypto/ed25519`: signatures made with `seed ++ public` verify; sizes 32, 64, 64.
* `scrypt.Key` returns as many bytes as asked for.
* HMAC output sizes.
* `bcrypt.CompareHashAndPassword` accepts the output of `GenerateFromPassword`.
-/

namespace Verif
open Verif.Go

structure Crypto where
  /-- `secretbox.Seal(nil, msg, nonce, key)` -/
  sealBox : (key nonce msg : Bytes) → Bytes
  /-- `secretbox.Open(nil, box, nonce, key)` -/
  openBox : (key nonce box : Bytes) → Option Bytes
  open_iff : ∀ k n c m, openBox k n c = some m ↔ c = sealBox k n m
  seal_length : ∀ k n m, (sealBox k n m).length = m.length + 16
  /-- curve25519 `ScalarBaseMult`: public from private key -/
  base : (priv : Bytes) → Bytes
  base_length : ∀ a, (base a).length = 32
  /-- `box.Precompute(peersPublic, private)` -/
  shared : (pub priv : Bytes) → Bytes
  shared_length : ∀ p a, (shared p a).length = 32
  shared_comm : ∀ a b, shared (base a) b = shared (base b) a
  /-- ed25519 public key of a 32-byte seed -/
  edPub : (seed : Bytes) → Bytes
  edPub_length : ∀ s, (edPub s).length = 32
  /-- `ed25519.Sign` with a 64-byte private key -/
  sign : (sk msg : Bytes) → Bytes
  sign_length : ∀ sk m, (sign sk m).length = 64
  /-- `ed25519.Verify` -/
  verify : (pub msg sig : Bytes) → Bool
  verify_sign : ∀ seed m, seed.length = 32 → verify (edPub seed) m (sign (seed ++ edPub seed) m) = true
  /-- `scrypt.Key` for admissible parameters -/
  scrypt : (pass salt : Bytes) → (N r p keyLen : Nat) → Bytes
  scrypt_length : ∀ pw s N r p l, (scrypt pw s N r p l).length = l
  hmacSha1 : (key msg : Bytes) → Bytes
  hmacSha1_length : ∀ k m, (hmacSha1 k m).length = 20
  hmacSha256 : (key msg : Bytes) → Bytes
  hmacSha256_length : ∀ k m, (hmacSha256 k m).length = 32
  /-- `bcrypt.GenerateFromPassword` with explicit 16-byte salt and admissible cost -/
  bcryptHash : (pass salt : Bytes) → (cost : Nat) → Bytes
  /-- `bcrypt.CompareHashAndPassword` returns nil -/
  bcryptMatch : (hash pass : Bytes) → Bool
  bcrypt_match : ∀ pw s c, bcryptMatch (bcryptHash pw s c) pw = true

namespace Toy

/-- First `n` bytes, zero padded. -/
def pad (n : Nat) (b : Bytes) : Bytes := (b ++ List.replicate n 0).take n

theorem pad_length (n : Nat) (b : Bytes) : (pad n b).length = n := by
  simp [pad]

def toyAdd (a b : Bytes) : Bytes := List.zipWith (· + ·) (pad 32 a) (pad 32 b)

theorem pad_pad (n : Nat) (b : Bytes) : pad n (pad n b) = pad n b := by
  have h := pad_length n b
  unfold pad at *
  rw [List.take_append_of_le_length (by omega), List.take_of_length_le (by omega)]

/-- A toy instance: the laws are satisfiable. It has no security at all. -/
def crypto : Crypto where
  sealBox k n m := pad 16 (k ++ n) ++ m
  openBox k n c := if c.take 16 = pad 16 (k ++ n) then some (c.drop 16) else none
  open_iff := by
    intro k n c m
    have hp := pad_length 16 (k ++ n)
    constructor
    · intro h
      split at h
      · rename_i h'
        simp only [Option.some.injEq] at h
        rw [← h', ← h, List.take_append_drop]
      · simp at h
    · rintro rfl
      rw [if_pos (List.take_left' hp), List.drop_left' hp]
  seal_length := by intro k n m; simp [pad_length]; omega
  base := pad 32
  base_length := pad_length 32
  shared p a := toyAdd p a
  shared_length := by intro p a; simp [toyAdd, pad_length]
  shared_comm := by
    intro a b
    simp only [toyAdd, pad_pad]
    rw [List.zipWith_comm]
    congr 1
    funext x y
    exact UInt8.add_comm y x
  edPub := pad 32
  edPub_length := pad_length 32
  sign sk m := pad 32 (sk.drop 32) ++ pad 32 m
  sign_length := by intro sk m; simp [pad_length]
  verify p m s := s == pad 32 p ++ pad 32 m
  verify_sign := by
    intro seed m h
    simp [List.drop_left' h]
  scrypt pw s _ _ _ l := pad l (pw ++ s)
  scrypt_length := by intros; exact pad_length _ _
  hmacSha1 k m := pad 20 (k ++ m)
  hmacSha1_length := by intros; exact pad_length _ _
  hmacSha256 k m := pad 32 (k ++ m)
  hmacSha256_length := by intros; exact pad_length _ _
  bcryptHash pw s c := UInt8.ofNat c :: (pad 16 s ++ pw)
  bcryptMatch h pw := h.drop 17 == pw
  bcrypt_match := by intro pw s c; simp [List.drop_left' (pad_length 16 s)]

end Toy
end Verif
