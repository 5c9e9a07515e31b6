import Verif.Spec.Otpc
import Verif.Spec.SecretsOutput
/-! Vocabulary for what cmd/otpc prints. -/

namespace Verif.Spec.OtpcOutput
open Verif Verif.Go Verif.Model.Otpc Verif.Spec.SecretsOutput

/-- The questions asked before a token is stored, as far as they were asked. -/
def questions : List Bytes :=
  [ascii "", ascii "Initial counter (0): ", ascii "Initial counter (0): Digits (6 or 8): ",
    ascii "Time step (30s): ", ascii "Time step (30s): Digits (6 or 8): "]

/-- What a run with these flags that ends like this may say. -/
inductive Says (f : Flags) : Outcome → Bytes → Prop
  | created {n : Nat} {s : Bytes} : f.init = true → s = ascii "" ∨ s = line (ascii "creating store...") → Says f (.exit n []) s
  | failed {n : Nat} {q : Bytes} : f.init = false → f.store = true → q ∈ questions → Says f (.exit n []) q
  | stored {n : Nat} {q code : Bytes} : f.init = false → f.store = true → q ∈ questions →
      Says f (.exit n [code]) (q ++ line (ascii "Confirmation: " ++ code))
  | silent {n : Nat} : f.init = false → f.store = false → Says f (.exit n []) []
  | shown {n : Nat} {code : Bytes} : f.init = false → f.store = false → f.qr = false → Says f (.exit n [code]) (line code)
  | timed {code : Bytes} : f.init = false → f.store = false → f.qr = false → Says f (.forever code) (line code)
  | google {code : Bytes} {n : Nat} : f.init = false → f.store = false → f.qr = false → 1 ≤ n → n ≤ 30 →
      Says f (.forever code) (line code ++ line (ascii "Updates in " ++ decimal n ++ ascii " seconds."))

end Verif.Spec.OtpcOutput
