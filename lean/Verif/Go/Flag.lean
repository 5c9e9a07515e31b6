import Verif.Go.Strings
/-!
Model of the part of Go's package flag that the programs use: `flag.Bool`, `flag.String`, `flag.DurationVar`,
`flag.Parse`, `flag.Args`. Of a command line that is not accepted, and of -h and -help, all that is
modelled is that `flag.Parse` does not return; the exit status is 2, or 0 for -h with newer versions of Go.
-/

namespace Verif.Go.Flag
open Verif Verif.Go

/-- The kinds of flags that are used. -/
inductive Kind where
  | bool | str | dur
deriving DecidableEq

/-- A value of a flag; durations are in nanoseconds. -/
inductive Val where
  | bool (b : Bool)
  | str (s : Bytes)
  | dur (d : Int)
deriving DecidableEq

/-- `strconv.ParseBool` -/
def parseBool (s : Bytes) : Option Bool :=
  if s ∈ [ascii "1", ascii "t", ascii "T", ascii "TRUE", ascii "true", ascii "True"] then some true
  else if s ∈ [ascii "0", ascii "f", ascii "F", ascii "FALSE", ascii "false", ascii "False"] then some false
  else none

/-- `Value.Set`: `boolValue`, `stringValue` and `durationValue`. `time.ParseDuration` is the parameter `dur`. -/
def convert (dur : Bytes → Option Int) : Kind → Bytes → Option Val
  | .bool, s => (parseBool s).map .bool
  | .str, s => some (.str s)
  | .dur, s => (dur s).map .dur

/-- What the first part of `FlagSet.parseOne` finds: no flag, the end of the flags, an error, or a
name with the value after an equals sign, if there is one. -/
inductive Word where
  | arg
  | stop
  | bad
  | flag (name : Bytes) (value : Option Bytes)

/-- The loop of `FlagSet.parseOne` that looks for an equals sign. -/
def cutEq : Bytes → Bytes × Option Bytes
  | [] => ([], none)
  | b :: s => if b = 61 then ([], some s) else
    let (n, v) := cutEq s
    (b :: n, v)

/-- The name, with its checks: it is not empty and begins neither with a minus nor with an equals
sign. -/
def nameOf : Bytes → Word
  | [] => .bad
  | b :: s => if b = 45 ∨ b = 61 then .bad else
    let (n, v) := cutEq s
    .flag (b :: n) v

/-- The first part of `FlagSet.parseOne`. -/
def word : Bytes → Word
  | 45 :: 45 :: [] => .stop
  | 45 :: 45 :: s => nameOf s
  | 45 :: b :: s => nameOf (b :: s)
  | _ => .arg

/-- `FlagSet.Parse`, with `decl` as the flags defined: the values set, in order, and the arguments;
`none` if it does not return. -/
def parse (dur : Bytes → Option Int) (decl : Bytes → Option Kind) : List Bytes → Option (List (Bytes × Val) × List Bytes)
  | [] => some ([], [])
  | s :: args =>
    match word s with
    | .arg => some ([], s :: args)
    | .stop => some ([], args)
    | .bad => none
    | .flag name value =>
      match decl name, value with
      | none, _ => none
      | some .bool, value =>
        match parseBool (value.getD (ascii "true")) with
        | none => none
        | some b => (parse dur decl args).map (fun p => ((name, .bool b) :: p.1, p.2))
      | some k, some v =>
        match convert dur k v with
        | none => none
        | some x => (parse dur decl args).map (fun p => ((name, x) :: p.1, p.2))
      | some k, none =>
        match args with
        | [] => none
        | v :: args =>
          match convert dur k v with
          | none => none
          | some x => (parse dur decl args).map (fun p => ((name, x) :: p.1, p.2))

/-- The value that a flag was given last, if any. -/
def last (s : List (Bytes × Val)) (name : Bytes) : Option Val :=
  s.foldl (fun v p => if p.1 = name then some p.2 else v) none

/-- `*flag.Bool(name, false, …)` -/
def boolOf (s : List (Bytes × Val)) (name : Bytes) : Bool :=
  match last s name with
  | some (.bool b) => b
  | _ => false

/-- `*flag.String(name, default, …)` -/
def strOf (s : List (Bytes × Val)) (name default : Bytes) : Bytes :=
  match last s name with
  | some (.str v) => v
  | _ => default

/-- `flag.DurationVar(&v, name, default, …)` -/
def durOf (s : List (Bytes × Val)) (name : Bytes) (default : Int) : Int :=
  match last s name with
  | some (.dur d) => d
  | _ => default

/-- Flags of both kinds by their names. -/
def table (bools strs : List Bytes) (name : Bytes) : Option Kind :=
  if name ∈ bools then some .bool else if name ∈ strs then some .str else none

end Verif.Go.Flag
