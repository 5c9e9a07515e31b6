import Verif.Model.Auth
/-!
Model of common/auth/session.go with the memory the shared key lives in: making a session, answering with it
and wiping it.
-/

namespace Verif.Model.SessionMem
open Verif Verif.Go Verif.Model.Util Verif.Model.Auth

/-- `Session` (common/auth/session.go:16-20): the slice that holds the shared key. -/
structure Session where
  shared : Slice
deriving DecidableEq, Repr

variable (C : Crypto)

/-- `KeySession` (common/auth/session.go:24-38). `KeyExchange` (common/public/crypto.go:454-459) returns a slice
of an array of its own, exactly as long as the key. What is done to the decoded private key is not in this
memory: it is decoded into arrays of its own as well. -/
def keySession (m : Mem) (priv pub : Bytes) : Res (Mem × Option Session) := do
  match ← Auth.keySession C priv pub with
  | none => pure (m, none)
  | some k =>
    pure ({ arrays := m.arrays ++ [k] },
      some { shared := { arr := m.arrays.length, off := 0, len := k.length, cap := k.length } })

/-- `Session.OTP` (common/auth/session.go:41-45). -/
def Session.otp (s : Session) (grow : Nat → Nat → Nat) (m : Mem) (next : Slice) : Mem × Bytes :=
  sessionOTPMem C grow m (m.read s.shared) next

/-- `Session.Zero` (common/auth/session.go:49-51). -/
def Session.zero (s : Session) (m : Mem) : Mem :=
  m.write s.shared.arr s.shared.off (Util.zero (m.read s.shared))

end Verif.Model.SessionMem
