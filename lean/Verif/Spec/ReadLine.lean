import Verif.Go.Strings
/-! Vocabulary for reading lines. -/

namespace Verif.Spec.ReadLine
open Verif.Go

/-- The lines of a text, each with its newline, and what follows the last newline. -/
def lines : Bytes → List Bytes × Bytes
  | [] => ([], [])
  | b :: s =>
    let (ls, rest) := lines s
    if b = 10 then ([10] :: ls, rest)
    else match ls with
      | [] => ([], b :: rest)
      | l :: ls => ((b :: l) :: ls, rest)

/-- What a terminal in its usual mode delivers: a read returns no more than one line. -/
def AtMostLine (c : Bytes) : Prop := ∀ a b, c = a ++ 10 :: b → b = []

example : lines [97, 10, 10, 98] = ([[97, 10], [10]], [98]) := by decide

end Verif.Spec.ReadLine
