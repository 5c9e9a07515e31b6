import Verif.Go.Flag
/-! How a command line is read, as a grammar: the documentation of Go's package flag. -/

namespace Verif.Spec.Flag
open Verif Verif.Go Verif.Go.Flag

/-- One dash or two. -/
def Dashes (d : Bytes) : Prop := d = ascii "-" ∨ d = ascii "--"

/-- A name of a flag: not empty, no equals sign in it, no dash in front. -/
def Name (n : Bytes) : Prop := n ≠ [] ∧ (61 : UInt8) ∉ n ∧ n.head? ≠ some 45

/-- An argument that is not a flag: "-", or nothing that begins with a dash. -/
def Plain (a : Bytes) : Prop := a = ascii "-" ∨ a.head? ≠ some 45

/-- The texts of the two truth values. -/
def Truth (v : Bytes) (b : Bool) : Prop :=
  v ∈ (if b then ["1", "t", "T", "TRUE", "true", "True"] else ["0", "f", "F", "FALSE", "false", "False"]).map ascii

/-- The text of a value; `dur` reads durations. -/
inductive Text (dur : Bytes → Option Int) : Kind → Bytes → Val → Prop
  | bool {v b} : Truth v b → Text dur .bool v (.bool b)
  | str (v) : Text dur .str v (.str v)
  | dur {v d} : dur v = some d → Text dur .dur v (.dur d)

/-- The command line `argv` gives these values to flags, in this order, and then has these
arguments. -/
inductive Reads (dur : Bytes → Option Int) (decl : Bytes → Option Kind) : List Bytes → List (Bytes × Val) → List Bytes → Prop
  /-- There are no arguments. -/
  | nil : Reads dur decl [] [] []
  /-- Flags end at the first argument that is none. -/
  | args {a as} : Plain a → Reads dur decl (a :: as) [] (a :: as)
  /-- "--" ends the flags. -/
  | stop {as} : Reads dur decl (ascii "--" :: as) [] as
  /-- -name, for a flag that is on or off. -/
  | on {d n argv s as} : Dashes d → Name n → decl n = some .bool → Reads dur decl argv s as →
      Reads dur decl ((d ++ n) :: argv) ((n, .bool true) :: s) as
  /-- -name=value -/
  | joined {d n k v x argv s as} : Dashes d → Name n → decl n = some k → Text dur k v x → Reads dur decl argv s as →
      Reads dur decl ((d ++ n ++ ascii "=" ++ v) :: argv) ((n, x) :: s) as
  /-- -name value, for other flags. -/
  | apart {d n k v x argv s as} : Dashes d → Name n → decl n = some k → k ≠ .bool → Text dur k v x → Reads dur decl argv s as →
      Reads dur decl ((d ++ n) :: v :: argv) ((n, x) :: s) as

end Verif.Spec.Flag
