import Verif.Model.Secrets
import Verif.Go.Text
/-!
What cmd/secrets writes to standard error, function by function, beside the model of what it does in
Model/Secrets: a list with the text of every call of `util.Errorf`, in order. Where the code crashes, it is what was
written before; what the runtime then writes is left out.
-/

namespace Verif.Model.SecretsErrors
open Verif Verif.Go Verif.Model.Util Verif.Model.SecretStore Verif.Model.Secrets

/-- `util.Errorf` (common/util/util.go:109-115), with the arguments filled in, for a format that does not end in a
newline. -/
def errorf (text : Bytes) : Bytes := ascii "[!] " ++ text ++ [10]

/-- The texts of errors that come from elsewhere: why nothing could be read from the terminal, why a file could
not be read, and why one could not be written. -/
structure Texts where
  prompt : Bytes
  read : Bytes → Bytes
  write : Bytes → Bytes

/-- What a function writes to standard error, and the text of the error it returns, if it returns one. -/
structure Told where
  msgs : List Bytes := []
  error : Bytes := []

variable (T : Texts) (C : Crypto) (J : Json)

/-- `writeStore` (cmd/secrets/secrets.go:44-56). -/
def writeErr (w : World) (ps : SecretStore) (path : Bytes) (mode : Int) : List Bytes :=
  match marshalSecretStore C J ps mode w.rng with
  | .ok (some fileData, _, rng) =>
    if (World.writeFile { w with rng := rng } path fileData).2 then []
    else [errorf (ascii "Write failed: " ++ T.write path)]
  | _ => []

/-- `loadStore` (cmd/secrets/secrets.go:58-82). -/
def loadErr (w : World) (path : Bytes) : List Bytes :=
  match w.term.read.1 with
  | none => [errorf (ascii "Failed to read passphrase: " ++ T.prompt)]
  | some _ =>
    if w.exist path then
      match w.readFile path with
      | none => [errorf (T.read path)]
      | some _ => []
    else [errorf (ascii "could not find " ++ path)]

/-- `initStore` (cmd/secrets/secrets.go:84-117). -/
def initErr (w : World) (path : Bytes) (mode : Int) : Told :=
  let (pass, t) := w.term.read
  let w := { w with term := t }
  match pass with
  | none => { msgs := [errorf (ascii "Failed to read passphrase: " ++ T.prompt)], error := T.prompt }
  | some pass =>
    if pass.length = 0 then { error := ascii "No passphrase provided." }
    else match marshalSecretStore C J (newSecretStore pass w.term.now.1) mode w.rng with
      | .ok (none, _, _) => { error := ascii "failed to marshal store" }
      | .ok (some fileData, _, rng) =>
        if !(World.writeFile { w with rng := rng } path fileData).2 then { error := T.write path }
        else { error := ascii "failed to unmarshal store" }
      | .panic => {}

/-- `showSecret` (cmd/secrets/secrets.go:121-142). -/
def showErr : Told := { error := ascii "entry not found" }

/-- The metadata loop of `addMeta` (cmd/secrets/secrets.go:159-178). -/
def metaLoopErr : List (Option Bytes) → Told
  | [] => { error := T.prompt }
  | none :: _ => { error := T.prompt }
  | some line :: as =>
    if line = [] then {}
    else match splitEq line with
      | none =>
        let t := metaLoopErr as
        { t with msgs := errorf (ascii "Metadata should be in the form 'key=value'") :: t.msgs }
      | some _ => metaLoopErr as

/-- `addSecret` (cmd/secrets/secrets.go:183-210) when `cfg.WithMeta` is false. -/
def addPlainErr (w : World) (ps : SecretStore) (label : Bytes) (overwrite : Bool) : Told :=
  if ps.has label && !overwrite then { error := ascii "entry exists, not forcing overwrite" }
  else
    let warning := if ps.has label then [errorf (ascii "*** WARNING: overwriting password")] else []
    match w.term.read.1 with
    | none => { msgs := warning, error := T.prompt }
    | some _ => { msgs := warning, error := ascii "no password entered" }

/-- The second part of `addMeta` (cmd/secrets/secrets.go:155-180). -/
def editMetaErr (w : World) (ps : SecretStore) (label : Bytes) : Told :=
  match fetch ps label with
  | .panic => {}
  | .ok _ => metaLoopErr T w.term.answers

/-- `addSecret` and `addMeta` (cmd/secrets/secrets.go:144-210). -/
def addErr (w : World) (ps : SecretStore) (cfg : Config) (label : Bytes) : Told :=
  if cfg.withMeta then
    if ps.has label then editMetaErr T w ps label
    else
      let t := addPlainErr T w ps label cfg.overwrite
      match addPlain w ps label cfg.overwrite with
      | .ok (true, ps, w) =>
        let t2 := editMetaErr T w ps label
        { t2 with msgs := t.msgs ++ t2.msgs }
      | _ => t
  else addPlainErr T w ps label cfg.overwrite

/-- `chpass` (cmd/secrets/secrets.go:235-245). -/
def chpassErr (w : World) : Told :=
  match w.term.read.1 with
  | none => { error := T.prompt }
  | some _ => { error := ascii "no password entered" }

/-- The loop of `removeMeta` (cmd/secrets/secrets.go:255-275), as far as it got. -/
def removeMetaLoopErr : (fuel : Nat) → List (Option Bytes) → List Bytes
  | 0, _ => []
  | n + 1, [] => errorf (ascii "Failed to read key: " ++ T.prompt) :: removeMetaLoopErr n []
  | n + 1, none :: as => errorf (ascii "Failed to read key: " ++ T.prompt) :: removeMetaLoopErr n as
  | n + 1, some key :: as => if key = [] then [] else removeMetaLoopErr n as

/-- `remove` and `removeMeta` (cmd/secrets/secrets.go:247-294). -/
def removeErr (fuel : Nat) (w : World) (ps : SecretStore) (cfg : Config) (label : Bytes) : Told :=
  if !ps.has label then { error := ascii "entry not found" }
  else if cfg.withMeta then
    match fetch ps label with
    | .panic => {}
    | .ok _ => { msgs := removeMetaLoopErr T fuel w.term.answers }
  else {}

/-- The loop of `multi` (cmd/secrets/secrets.go:298-331). -/
def multiLoopErr (overwrite : Bool) : List (Option Bytes) → (Nat → BitVec 64) → SecretStore → Told
  | [], _, _ => { error := T.prompt }
  | none :: _, _, _ => { error := T.prompt }
  | some name :: as, ck, ps =>
    if name = [] then {}
    else if ps.has name && !overwrite then
      let t := multiLoopErr overwrite as ck ps
      { t with msgs := errorf (ascii "Entry exists, not forcing overwrite.") :: t.msgs }
    else
      let warning := if ps.has name then [errorf (ascii "*** WARNING: overwriting password")] else []
      match as with
      | [] => { msgs := warning, error := T.prompt }
      | none :: _ => { msgs := warning, error := T.prompt }
      | some password :: as =>
        if password = [] then
          let t := multiLoopErr overwrite as ck ps
          { t with msgs := warning ++ errorf (ascii "No password entered.") :: t.msgs }
        else match (do
          let r ← if ps.has name then fetch ps name else pure { label := name, timestamp := 0, secret := [], metadata := none }
          assign ps name { r with secret := password, timestamp := ck 0 } : Res SecretStore) with
        | .panic => { msgs := warning }
        | .ok ps =>
          let t := multiLoopErr overwrite as (fun n => ck (n + 1)) ps
          { t with msgs := warning ++ t.msgs }

/-- `merge` (cmd/secrets/secrets.go:335-361). -/
def mergeErr (w : World) (otherPath : Bytes) : Told :=
  let (pass, t) := w.term.read
  let w := { w with term := t }
  match pass with
  | none => { error := T.prompt }
  | some _ =>
    match w.readFile otherPath with
    | none => { error := T.read otherPath }
    | some _ => { error := ascii "failed to open other password store" }

/-- Field `Run` of `commandSet` (cmd/secrets/secrets.go:27-35). `list` does not fail. -/
def cmdErr (fuel : Nat) (c : Cmd) (w : World) (ps : SecretStore) (cfg : Config) : Told :=
  let arg := cfg.args.headD []
  match c with
  | .show => showErr
  | .store => addErr T w ps cfg arg
  | .list => {}
  | .passwd => chpassErr T w
  | .remove => removeErr T fuel w ps cfg arg
  | .multi => multiLoopErr T cfg.overwrite w.term.answers w.term.clock ps
  | .merge => mergeErr T w arg

/-- Field `Args` of `commandSet` (cmd/secrets/secrets.go:27-35), joined with commas. -/
def Cmd.argNames : Cmd → Bytes
  | .show | .store | .remove => ascii "label"
  | .merge => ascii "other store"
  | _ => []

variable (ord : Map (Option SecretRecord) → List Bytes)

/-- The part of `main` after the switch (cmd/secrets/secrets.go:479-503). -/
def runErr (fuel : Nat) (c : Cmd) (cfg : Config) (mode : Int) (path : Bytes) (w : World) : List Bytes :=
  if cfg.args.length < c.requiredArgc then
    [errorf (ascii "Not enough arguments: want " ++ decimal c.requiredArgc ++ ascii ", have " ++ decimal cfg.args.length ++ ascii "."),
     errorf (ascii "Want: " ++ Cmd.argNames c)]
  else loadErr T w path ++
    match loadStore C J w path mode with
    | .panic => []
    | .ok (none, _) => [errorf (ascii "Failed to open password store")]
    | .ok (some ps, w) =>
      let t := cmdErr T fuel c w ps cfg
      t.msgs ++
      match Cmd.run C J ord fuel c w ps cfg mode with
      | some (.ok (false, _, _)) => [errorf (ascii "Failed: " ++ t.error)]
      | some (.ok (true, ps, w)) =>
        if c.shouldWrite then
          let (now, t) := w.term.now
          writeErr T C J { w with term := t } { ps with timestamp := now } path mode ++
          match writeStore C J { w with term := t } { ps with timestamp := now } path mode with
          | .ok (_, false) => [errorf (ascii "Failed to write store!")]
          | _ => []
        else []
      | _ => []

/-- `exportStore` (cmd/secrets/secrets.go:365-377): the text of its error, if there is one. -/
def exportErr (w : World) (storePath outPath : Bytes) : Bytes :=
  match w.readFile storePath with
  | none => T.read storePath
  | some _ => T.write outPath

/-- `importStore` (cmd/secrets/secrets.go:379-393): the text of its error, if there is one. -/
def importErr (P : Pem) (w : World) (storePath inPath : Bytes) : Bytes :=
  match w.readFile inPath with
  | none => T.read inPath
  | some data =>
    match P.dec data with
    | none => ascii "invalid PEM data"
    | some (typ, _) => if typ ≠ pemType then ascii "invalid PEM type" else T.write storePath

/-- `main` (cmd/secrets/secrets.go:395-504) without -V. -/
def mainErr (P : Pem) (fuel : Nat) (f : Flags) (args : List Bytes) (path : Bytes) (w : World) : List Bytes :=
  match f.action with
  | .init =>
    let t := initErr T C J w path f.mode
    t.msgs ++
    match initStore C J w path f.mode with
    | .ok (false, _) => [errorf (ascii "Failed: " ++ t.error)]
    | _ => []
  | .doExport =>
    (if args.length ≠ 1 then [errorf (ascii "No output file specified.")] else []) ++
    (if (exportStore P w path (args.headD [])).1 then [] else [errorf (ascii "Failed: " ++ exportErr T w path (args.headD []))])
  | .doImport =>
    (if args.length ≠ 1 then [errorf (ascii "No input file specified.")] else []) ++
    (if (importStore P w path (args.headD [])).1 then [] else [errorf (ascii "Failed: " ++ importErr T P w path (args.headD []))])
  | .cmd c =>
    runErr T C J ord fuel c { args := args, clip := f.clip, overwrite := f.overwrite, withMeta := f.withMeta } f.mode path w

end Verif.Model.SecretsErrors
