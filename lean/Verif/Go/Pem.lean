import Verif.Go.Basic
/-!
encoding/pem as a parameter: armour carries a type and a body. The "Version" header the code
adds is ignored by every reader of it in /repo and is left out.
-/

namespace Verif.Go

/-- Types of armour made of capitals and spaces, as all those in /repo are. -/
def plainType (typ : Bytes) : Bool := typ.all (fun c => c == 32 || (65 ≤ c && c ≤ 90))

structure Pem where
  /-- `pem.EncodeToMemory(&pem.Block{Type: typ, Bytes: body})` -/
  enc : (typ body : Bytes) → Bytes
  /-- `pem.Decode`: type and body of the first block, if any -/
  dec : Bytes → Option (Bytes × Bytes)
  dec_enc : ∀ typ body, plainType typ = true → body ≠ [] → dec (enc typ body) = some (typ, body)

/-- A toy armour (type length in unary) showing that the law is satisfiable. -/
def Pem.toy : Pem where
  enc typ body := List.replicate typ.length 1 ++ (0 :: (typ ++ body))
  dec b :=
    let n := (b.takeWhile (· == 1)).length
    match b.dropWhile (· == 1) with
    | [] => none
    | _ :: r => some (r.take n, r.drop n)
  dec_enc := by
    intro typ body _ _
    have h1 : ∀ n (r : Bytes), (List.replicate n 1 ++ 0 :: r).takeWhile (· == 1) = List.replicate n 1 := by
      intro n r
      induction n with
      | zero => rfl
      | succ n ih => simp [List.replicate_succ, ih]
    have h2 : ∀ n (r : Bytes), (List.replicate n 1 ++ 0 :: r).dropWhile (· == 1) = 0 :: r := by
      intro n r
      induction n with
      | zero => rfl
      | succ n ih => simp [List.replicate_succ, ih]
    simp [h1, h2]

end Verif.Go
