import Verif.Model.Public
import Verif.Spec.Tlv
/-! Vocabulary for the properties of common/public. -/

namespace Verif.Spec.Public
open Verif Verif.Go Verif.Model.Public

/-- The public half belonging to a curve25519 private key and an ed25519 seed. -/
def pubOf (C : Crypto) (d seed : Bytes) : PublicKey :=
  { E := some (C.base d), V := some (C.edPub seed) }

/-- The complete key pair of a curve25519 private key and an ed25519 seed. -/
def pairOf (C : Crypto) (d seed : Bytes) : PrivateKey :=
  { D := some d, S := some (seed ++ C.edPub seed), pub := some (pubOf C d seed) }

/-- `k` is a genuine key pair: all four components are there and belong together. -/
def IsPair (C : Crypto) (k : PrivateKey) : Prop :=
  ∃ d seed, d.length = 32 ∧ seed.length = 32 ∧ k = pairOf C d seed

/-- A complete (not necessarily matching) private key with explicit components. -/
def mkPriv (d s e v : Bytes) : PrivateKey :=
  { D := some d, S := some s, pub := some { E := some e, V := some v } }

/-- The layout of every public-key ciphertext for the encryption key `e`. -/
def boxFor (C : Crypto) (e epriv nonce plain : Bytes) : Bytes :=
  C.base epriv ++ nonce ++ C.sealBox (C.shared e epriv) nonce plain

end Verif.Spec.Public
