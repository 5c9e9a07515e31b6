import Verif.Go.Fs
/-!
What a command talks to: the person at the terminal, the clock, and the standard streams.
-/

namespace Verif.Go

/-- The answers still to be given at prompts, `none` being a read error; when there are no more,
the input has ended and every read fails. `clock` is what successive calls of `time.Now().Unix()`
return. -/
structure Term where
  answers : List (Option Bytes)
  clock : Nat → BitVec 64

/-- `util.ReadLine`, `util.PassPrompt` and `readpass.PasswordPromptBytes`; `none` is an error. -/
def Term.read (t : Term) : Option Bytes × Term :=
  match t.answers with
  | [] => (none, t)
  | a :: as => (a, { t with answers := as })

/-- `time.Now().Unix()` -/
def Term.now (t : Term) : BitVec 64 × Term := (t.clock 0, { t with clock := fun n => t.clock (n + 1) })

end Verif.Go
