import Verif.Model.Secrets
import Verif.Model.Secretscli
/-!
What cmd/secrets prints on standard output, function by function, beside the model of what it does in
Model/Secrets. What package readpass prints at its prompts, and what goes to standard error (all of
`util.Errorf`, see Model/SecretsErrors), is left out; so is what `util.WriteFile` writes with path "-", which is in `World.stdout`.
-/

namespace Verif.Model.SecretsOutput
open Verif Verif.Go Verif.Model.Util Verif.Model.SecretStore Verif.Model.Secrets
open Verif.Model.Secretscli (signed)

/-- The order in which the runtime iterates over metadata, and `time.Unix(t, 0).Format(timeFormat)`
(cmd/secrets/secrets.go:119) in the time zone of the user. -/
structure Env where
  metaOrder : Map Bytes → List Bytes
  date : BitVec 64 → Bytes

/-- Strings, one to a line, after a tab: `fmt.Printf("\t%s\n", s)`. -/
def tabbed (l : List Bytes) : Bytes := l.flatMap (fun s => 9 :: s ++ [10])

/-- `sort.Strings` -/
def sorted (l : List Bytes) : List Bytes := l.mergeSort (fun a b => decide (a ≤ b))

variable (C : Crypto) (J : Json) (ord : Map (Option SecretRecord) → List Bytes) (e : Env)

/-- `showSecret` (cmd/secrets/secrets.go:121-142). -/
def showText (ps : SecretStore) (cfg : Config) (label : Bytes) : Bytes :=
  if !ps.has label then []
  else match fetch ps label with
    | .panic => []
    | .ok r =>
      if cfg.clip then r.secret
      else ascii "Secret: " ++ r.secret ++ [10] ++
        (if cfg.withMeta then
          ascii "Timestamp: " ++ signed r.timestamp ++ ascii " (" ++ e.date r.timestamp ++ ascii ")" ++ [10] ++
            (let md := r.metadata.getD Map.empty
             (e.metaOrder md).flatMap (fun k => 9 :: k ++ ascii ": " ++ (md k).getD [] ++ [10]))
        else [])

/-- The prompts of the loop of `addMeta` (cmd/secrets/secrets.go:160-178). -/
def metaLoopText : List (Option Bytes) → Bytes
  | some line :: as => ascii "key = value: " ++ (if line = [] then [] else metaLoopText as)
  | _ => ascii "key = value: "

/-- The second part of `addMeta` (cmd/secrets/secrets.go:155-180). -/
def editMetaText (w : World) (ps : SecretStore) (label : Bytes) : Bytes :=
  match fetch ps label with
  | .panic => []
  | .ok _ => ascii "Enter metadata; use an empty line to indicate that you are done." ++ [10] ++ metaLoopText w.term.answers

/-- `addSecret` and `addMeta` (cmd/secrets/secrets.go:144-210). Without -m nothing is printed on standard
output. -/
def addText (w : World) (ps : SecretStore) (cfg : Config) (label : Bytes) : Bytes :=
  if cfg.withMeta then
    if ps.has label then editMetaText w ps label
    else match addPlain w ps label cfg.overwrite with
      | .ok (true, ps, w) => editMetaText w ps label
      | _ => []
  else []

/-- `list` (cmd/secrets/secrets.go:212-233). -/
def listText (ps : SecretStore) : Bytes :=
  let names := ord (ps.store.getD Map.empty)
  if names.length = 0 then ascii "no passwords"
  else ascii "Secrets store was updated  " ++ e.date ps.timestamp ++ [10] ++
    decimal names.length ++ ascii " entries" ++ [10, 10] ++
    ascii "Names:" ++ [10] ++ tabbed (sorted names)

/-- The loop of `removeMeta` (cmd/secrets/secrets.go:255-275), as far as it got. -/
def removeMetaLoopText : (fuel : Nat) → Map Bytes → List (Option Bytes) → Bytes
  | 0, _, _ => []
  | n + 1, md, as =>
    ascii "Keys:" ++ [10] ++ tabbed (sorted (e.metaOrder md)) ++ ascii "Remove key: " ++
    match as with
    | [] => removeMetaLoopText n md []
    | none :: as => removeMetaLoopText n md as
    | some key :: as =>
      if key = [] then [] else ascii "Deleted key " ++ key ++ [10] ++ removeMetaLoopText n (md.erase key) as

/-- `remove` and `removeMeta` (cmd/secrets/secrets.go:247-294). -/
def removeText (fuel : Nat) (w : World) (ps : SecretStore) (cfg : Config) (label : Bytes) : Bytes :=
  if !ps.has label then []
  else if cfg.withMeta then
    match fetch ps label with
    | .panic => []
    | .ok r => removeMetaLoopText e fuel (r.metadata.getD Map.empty) w.term.answers
  else ascii "Removed  " ++ label ++ [10]

/-- The prompts of the loop of `multi` (cmd/secrets/secrets.go:298-331). -/
def multiLoopText (overwrite : Bool) : List (Option Bytes) → (Nat → BitVec 64) → SecretStore → Bytes
  | [], _, _ => ascii "Name: "
  | none :: _, _, _ => ascii "Name: "
  | some name :: as, ck, ps =>
    ascii "Name: " ++
    if name = [] then []
    else if ps.has name && !overwrite then multiLoopText overwrite as ck ps
    else match as with
      | [] => []
      | none :: _ => []
      | some password :: as =>
        if password = [] then multiLoopText overwrite as ck ps
        else match (do
          let r ← if ps.has name then fetch ps name else pure { label := name, timestamp := 0, secret := [], metadata := none }
          assign ps name { r with secret := password, timestamp := ck 0 } : Res SecretStore) with
        | .panic => []
        | .ok ps => multiLoopText overwrite as (fun n => ck (n + 1)) ps

/-- `multi` (cmd/secrets/secrets.go:296-333). -/
def multiText (w : World) (ps : SecretStore) (cfg : Config) : Bytes :=
  ascii "Use an empty name to indicate that you are done." ++ [10] ++
    multiLoopText cfg.overwrite w.term.answers w.term.clock ps

/-- `fmt.Sprintf("%+v", l)` -/
def listed (l : List Bytes) : Bytes := ascii "[" ++ List.intercalate [32] l ++ ascii "]"

/-- The end of `merge` (cmd/secrets/secrets.go:352-359), for the labels that `Merge` returned. -/
def mergedText (mergeList : List Bytes) : Bytes :=
  listed mergeList ++ [10] ++ (sorted mergeList).flatMap (fun l => ascii "Merged '" ++ l ++ ascii "'" ++ [10])

/-- `merge` (cmd/secrets/secrets.go:335-361). -/
def mergeText (w : World) (ps : SecretStore) (otherPath : Bytes) (mode : Int) : Bytes :=
  let (pass, t) := w.term.read
  let w := { w with term := t }
  match pass with
  | none => []
  | some pass =>
    match w.readFile otherPath with
    | none => []
    | some data =>
      match unmarshalSecretStore C J data pass mode with
      | .ok (some other) =>
        match ps.merge other (ord (other.store.getD Map.empty)) w.term.now.1 with
        | .ok (_, mergeList) => mergedText mergeList
        | .panic => []
      | _ => []

/-- Field `Run` of `commandSet` (cmd/secrets/secrets.go:27-35). `chpass` prints nothing. -/
def cmdText (fuel : Nat) (c : Cmd) (w : World) (ps : SecretStore) (cfg : Config) (mode : Int) : Bytes :=
  let arg := cfg.args.headD []
  match c with
  | .show => showText e ps cfg arg
  | .store => addText w ps cfg arg
  | .list => listText ord e ps
  | .passwd => []
  | .remove => removeText e fuel w ps cfg arg
  | .multi => multiText w ps cfg
  | .merge => mergeText C J ord w ps arg mode

/-- The part of `main` after the switch (cmd/secrets/secrets.go:479-503). -/
def runText (fuel : Nat) (c : Cmd) (cfg : Config) (mode : Int) (path : Bytes) (w : World) : Bytes :=
  if cfg.args.length < c.requiredArgc then []
  else match loadStore C J w path mode with
    | .ok (some ps, w) => cmdText C J ord e fuel c w ps cfg mode
    | _ => []

/-- `initStore` (cmd/secrets/secrets.go:84-117). -/
def initText (w : World) : Bytes :=
  match w.term.read.1 with
  | none => []
  | some pass => if pass.length = 0 then [] else ascii "creating store..." ++ [10]

/-- `main` (cmd/secrets/secrets.go:395-504) without -V. -/
def mainText (fuel : Nat) (f : Flags) (args : List Bytes) (path : Bytes) (w : World) : Bytes :=
  match f.action with
  | .init => initText w
  | .doExport | .doImport => []
  | .cmd c => runText C J ord e fuel c { args := args, clip := f.clip, overwrite := f.overwrite, withMeta := f.withMeta } f.mode path w

end Verif.Model.SecretsOutput
