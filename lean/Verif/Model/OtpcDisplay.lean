import Verif.Go.Basic
/-!
Model of the functions of cmd/otpc/otpc.go that keep a code on the screen. Time is in milliseconds
since the epoch; minutes of local time begin at multiples of 60000 (true where the offset from UTC
is a whole number of minutes). Only waiting takes time. `late k` says how much longer than asked
for the `k`th wait takes. The functions never return, and the model is given the number of turns
to look at.
-/

namespace Verif.Model.OtpcDisplay
open Verif Verif.Go

/-- `t.Second()` -/
def second (t : Nat) : Nat := t / 1000 % 60

/-- The loops of `printGTOTP` (cmd/otpc/otpc.go:288-300) from the call of `time.Now` on: the times
at which it prints the code of that time. -/
def gtotpLoop (late : Nat → Nat) : (turns : Nat) → (k : Nat) → (t : Nat) → List Nat
  | 0, _, _ => []
  | n + 1, k, t =>
    if second t = 0 ∨ second t = 30 then t :: gtotpLoop late n (k + 1) (t + 30000 + late k)
    else gtotpLoop late n (k + 1) (t + 1000 + late k)

/-- `printGTOTP` (cmd/otpc/otpc.go:284-301), started at `t`. -/
def printGTOTP (late : Nat → Nat) (turns : Nat) (t : Nat) : List Nat := t :: gtotpLoop late turns 0 t

/-- The loop of `printTOTP` (cmd/otpc/otpc.go:306-312), where `code` is the code of each moment:
the times and codes printed. The two calls of `otp.OTP` of a turn happen at the same moment. -/
def totpLoop (code : Nat → Bytes) (late : Nat → Nat) : (turns : Nat) → (k : Nat) → (t : Nat) → (last : Bytes) → List (Nat × Bytes)
  | 0, _, _, _ => []
  | n + 1, k, t, last =>
    if code t ≠ last then (t, code t) :: totpLoop code late n (k + 1) (t + 1000 + late k) (code t)
    else totpLoop code late n (k + 1) (t + 1000 + late k) last

/-- `printTOTP` (cmd/otpc/otpc.go:303-314), started at `t`. -/
def printTOTP (code : Nat → Bytes) (late : Nat → Nat) (turns : Nat) (t : Nat) : List (Nat × Bytes) :=
  (t, code t) :: totpLoop code late turns 0 t (code t)

end Verif.Model.OtpcDisplay
