import Verif.Spec.Flag
/-! Command lines as users write them: options in some order, and then arguments. -/

namespace Verif.Spec.CommandLine
open Verif Verif.Go Verif.Go.Flag Verif.Spec.Flag

/-- An option that switches something on, or one with a value. -/
inductive Item where
  | on (n : Bytes)
  | set (n v : Bytes)
deriving DecidableEq

/-- How it is written. -/
def Item.words : Item → List Bytes
  | .on n => [ascii "-" ++ n]
  | .set n v => [ascii "-" ++ n, v]

/-- All of them. -/
def options (items : List Item) : List Bytes := items.flatMap Item.words

/-- The options are among those that can be switched on and those that take a value. -/
def Among (ons sets : List Bytes) (items : List Item) : Prop :=
  ∀ i ∈ items, match i with
    | .on n => n ∈ ons
    | .set n _ => n ∈ sets

/-- What an option was set to last. -/
def value (n default : Bytes) : List Item → Bytes
  | [] => default
  | .on _ :: items => value n default items
  | .set m v :: items => value n (if m = n then v else default) items

/-- What an option was set to last, if at all. -/
def given (n : Bytes) (items : List Item) : Option Bytes :=
  (items.filterMap (fun i => match i with | .set m v => if m = n then some v else none | _ => none)).getLast?

/-- Options by their kinds: switches, texts and durations. -/
def declared (ons sets durs : List Bytes) (n : Bytes) : Option Kind :=
  if n ∈ ons then some .bool else if n ∈ sets then some .str else if n ∈ durs then some .dur else none

/-- How arguments are written: as they are, if the first does not begin with a dash or is just a
dash, and after two dashes in any case. -/
def Rest (tail args : List Bytes) : Prop := tail = ascii "--" :: args ∨ tail = args ∧ ∀ a ∈ args.head?, Plain a

end Verif.Spec.CommandLine
