import Verif.Crypto
/-! File formats before and after migration, stated without the model. -/

namespace Verif.Spec.Migrate
open Verif Verif.Go

/-- `b` is a file sealed under `pass` with the given scrypt work factors and plaintext. -/
def Sealed (C : Crypto) (N r p : Nat) (b pass blob : Bytes) : Prop :=
  ∃ salt nonce, salt.length = 32 ∧ nonce.length = 24 ∧
    b = salt ++ (nonce ++ C.sealBox (C.scrypt pass salt N r p 32) nonce blob)

/-- The legacy work factors (cmd/migrate-store/legacy/crypto.go:4-5, package comment). -/
def Old (C : Crypto) : Bytes → Bytes → Bytes → Prop := Sealed C 32768 8 4

/-- The current work factors (common/secret/crypto.go:41-45; the package comment there still names
the old ones). -/
def New (C : Crypto) : Bytes → Bytes → Bytes → Prop := Sealed C 1048576 8 2

end Verif.Spec.Migrate
