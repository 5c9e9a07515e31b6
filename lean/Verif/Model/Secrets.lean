import Verif.Model.SecretStore
import Verif.Go.Term
import Verif.Go.Strings
import Verif.Go.Pem
/-!
Model of cmd/secrets/secrets.go: the program as a function of its flags and arguments, the answers
given at its prompts, the clock, the PRNG and the files. What it prints is left out, except what
goes through `util.WriteFile` to standard output.
-/

namespace Verif.Model.Secrets
open Verif Verif.Go Verif.Model.Util Verif.Model.SecretStore

/-- What the program runs in. `write` says how the next write of a file will go; `stdin` is what
`ioutil.ReadAll(os.Stdin)` would return and `stdout` what was written with path "-". -/
structure World where
  term : Term
  rng : Rng
  fs : Fs
  write : WriteOutcome
  stdin : Bytes
  stdout : Bytes

/-- The path that stands for the standard streams. -/
abbrev dash : Bytes := [45]

/-- `util.ReadFile` (common/util/util.go:119-124). A file that exists can be read. -/
def World.readFile (w : World) (path : Bytes) : Option Bytes :=
  if path = dash then some w.stdin else w.fs path

/-- `util.WriteFile` (common/util/util.go:128-134). Writing to standard output succeeds. -/
def World.writeFile (w : World) (path data : Bytes) : World × Bool :=
  if path = dash then ({ w with stdout := w.stdout ++ data }, true)
  else
    let (fs, ok) := Go.writeFile w.write w.fs path data
    ({ w with fs := fs }, ok)

/-- `util.Exists` (common/util/util.go:97-105), first result. -/
def World.exist (w : World) (path : Bytes) : Bool := (w.fs path).isSome

/-- `config` (cmd/secrets/secrets.go:37-42). -/
structure Config where
  args : List Bytes
  clip : Bool
  overwrite : Bool
  withMeta : Bool

variable (C : Crypto) (J : Json)

/-- `writeStore` (cmd/secrets/secrets.go:44-56). -/
def writeStore (w : World) (ps : SecretStore) (path : Bytes) (mode : Int) : Res (World × Bool) := do
  let (out, _, rng) ← marshalSecretStore C J ps mode w.rng
  let w := { w with rng := rng }
  match out with
  | none => pure (w, false)
  | some fileData => pure (w.writeFile path fileData)

/-- `loadStore` (cmd/secrets/secrets.go:58-82); `none` is nil. The passphrase is copied before it
is wiped. -/
def loadStore (w : World) (path : Bytes) (mode : Int) : Res (Option SecretStore × World) :=
  let (pass, t) := w.term.read
  let w := { w with term := t }
  match pass with
  | none => .ok (none, w)
  | some pass =>
    if w.exist path then
      match w.readFile path with
      | none => .ok (none, w)
      | some data => do
        let s ← unmarshalSecretStore C J data pass mode
        pure (s, w)
    else .ok (none, w)

/-- `initStore` (cmd/secrets/secrets.go:84-117); the result is whether the error is nil. -/
def initStore (w : World) (path : Bytes) (mode : Int) : Res (Bool × World) :=
  let (pass, t) := w.term.read
  let w := { w with term := t }
  match pass with
  | none => .ok (false, w)
  | some pass =>
    if pass.length = 0 then .ok (false, w)
    else do
      let (now, t) := w.term.now
      let w := { w with term := t }
      let (out, _, rng) ← marshalSecretStore C J (newSecretStore pass now) mode w.rng
      let w := { w with rng := rng }
      match out with
      | none => pure (false, w)
      | some fileData =>
        let (w, ok) := w.writeFile path fileData
        if !ok then pure (false, w)
        else do
          let s ← unmarshalSecretStore C J fileData pass mode
          pure (s.isSome, w)

/-- `ps.Store[label] = rec`; a nil map cannot be assigned to. -/
def assign (ps : SecretStore) (label : Bytes) (r : SecretRecord) : Res SecretStore :=
  match ps.store with
  | none => .panic
  | some m => .ok { ps with store := some (m.set label (some r)) }

/-- The pointer `ps.Store[label]`, about to be dereferenced. -/
def fetch (ps : SecretStore) (label : Bytes) : Res SecretRecord :=
  match ps.store with
  | none => .panic
  | some m => match m label with
    | some (some r) => .ok r
    | _ => .panic

/-- `showSecret` (cmd/secrets/secrets.go:121-142): whether the error is nil. -/
def showSecret (ps : SecretStore) (label : Bytes) : Res Bool :=
  if !ps.has label then .ok false
  else do
    let _ ← fetch ps label
    pure true

/-- The metadata loop of `addMeta` (cmd/secrets/secrets.go:159-178), also found in
cmd/secretscli/commands.go:222-244: the metadata, whether the loop ended without error, and the
answers not used. -/
def metaLoop : Map Bytes → List (Option Bytes) → Map Bytes × Bool × List (Option Bytes)
  | md, [] => (md, false, [])
  | md, none :: as => (md, false, as)
  | md, some line :: as =>
    if line = [] then (md, true, as)
    else match splitEq line with
      | none => metaLoop md as
      | some (k, v) => metaLoop (md.set (trimSpace k) (trimSpace v)) as

/-- `addSecret` (cmd/secrets/secrets.go:183-210) when `cfg.WithMeta` is false. -/
def addPlain (w : World) (ps : SecretStore) (label : Bytes) (overwrite : Bool) : Res (Bool × SecretStore × World) :=
  let exists' := ps.has label
  if exists' && !overwrite then .ok (false, ps, w)
  else
    let (password, t) := w.term.read
    let w := { w with term := t }
    match password with
    | none => .ok (false, ps, w)
    | some password =>
      if password.length = 0 then .ok (false, ps, w)
      else do
        let r ← if exists' then fetch ps label else pure { label := label, timestamp := 0, secret := [], metadata := none }
        let (now, t) := w.term.now
        let ps ← assign ps label { r with secret := password, timestamp := now }
        pure (true, ps, { w with term := t })

/-- The second part of `addMeta` (cmd/secrets/secrets.go:155-180). The metadata map is changed in
place, so that a failing call leaves its traces in the store. -/
def editMeta (w : World) (ps : SecretStore) (label : Bytes) : Res (Bool × SecretStore × World) := do
  let r ← fetch ps label
  let (md, ok, as) := metaLoop (r.metadata.getD Map.empty) w.term.answers
  let w := { w with term := { w.term with answers := as } }
  if !ok then do
    let ps ← assign ps label { r with metadata := some md }
    pure (false, ps, w)
  else do
    let (now, t) := w.term.now
    let ps ← assign ps label { r with metadata := some md, timestamp := now }
    pure (true, ps, { w with term := t })

/-- `addMeta` (cmd/secrets/secrets.go:144-181). -/
def addMeta (w : World) (ps : SecretStore) (label : Bytes) (overwrite : Bool) : Res (Bool × SecretStore × World) :=
  if ps.has label then editMeta w ps label
  else match addPlain w ps label overwrite with
    | .panic => .panic
    | .ok (false, ps, w) => .ok (false, ps, w)
    | .ok (true, ps, w) => editMeta w ps label

/-- `addSecret` (cmd/secrets/secrets.go:183-210). -/
def addSecret (w : World) (ps : SecretStore) (cfg : Config) (label : Bytes) : Res (Bool × SecretStore × World) :=
  if cfg.withMeta then addMeta w ps label cfg.overwrite else addPlain w ps label cfg.overwrite

/-- `chpass` (cmd/secrets/secrets.go:235-245). -/
def chpass (w : World) (ps : SecretStore) : Bool × SecretStore × World :=
  let (password, t) := w.term.read
  let w := { w with term := t }
  match password with
  | none => (false, ps, w)
  | some password =>
    if password.length = 0 then (false, ps, w) else (true, ps.changePassword password, w)

/-- The loop of `removeMeta` (cmd/secrets/secrets.go:255-275): a read error does not end it.
`none` means it is still running after `fuel` turns. -/
def removeMetaLoop : (fuel : Nat) → Option (Map Bytes) → List (Option Bytes) → Option (Option (Map Bytes) × List (Option Bytes))
  | 0, _, _ => none
  | n + 1, md, [] => removeMetaLoop n md []
  | n + 1, md, none :: as => removeMetaLoop n md as
  | n + 1, md, some key :: as =>
    if key = [] then some (md, as) else removeMetaLoop n (md.map (·.erase key)) as

/-- `removeMeta` (cmd/secrets/secrets.go:247-279). -/
def removeMeta (fuel : Nat) (w : World) (ps : SecretStore) (label : Bytes) : Option (Res (Bool × SecretStore × World)) :=
  if !ps.has label then some (.ok (false, ps, w))
  else match fetch ps label with
    | .panic => some .panic
    | .ok r =>
      match removeMetaLoop fuel r.metadata w.term.answers with
      | none => none
      | some (md, as) => some (do
          let w := { w with term := { w.term with answers := as } }
          let (now, t) := w.term.now
          let ps ← assign ps label { r with metadata := md, timestamp := now }
          pure (true, ps, { w with term := t }))

/-- `remove` (cmd/secrets/secrets.go:281-294). -/
def remove (fuel : Nat) (w : World) (ps : SecretStore) (cfg : Config) (label : Bytes) :
    Option (Res (Bool × SecretStore × World)) :=
  if cfg.withMeta then removeMeta fuel w ps label
  else if !ps.has label then some (.ok (false, ps, w))
  else some (.ok (true, ps.delete label, w))

/-- `multi` (cmd/secrets/secrets.go:296-333). -/
def multiLoop (overwrite : Bool) : List (Option Bytes) → (Nat → BitVec 64) → SecretStore → Res (Bool × SecretStore × Term)
  | [], ck, ps => .ok (false, ps, ⟨[], ck⟩)
  | none :: as, ck, ps => .ok (false, ps, ⟨as, ck⟩)
  | some name :: as, ck, ps =>
    if name = [] then .ok (true, ps, ⟨as, ck⟩)
    else if ps.has name && !overwrite then multiLoop overwrite as ck ps
    else match as with
      | [] => .ok (false, ps, ⟨[], ck⟩)
      | none :: as => .ok (false, ps, ⟨as, ck⟩)
      | some password :: as =>
        if password = [] then multiLoop overwrite as ck ps
        else do
          let r ← if ps.has name then fetch ps name else pure { label := name, timestamp := 0, secret := [], metadata := none }
          let ps ← assign ps name { r with secret := password, timestamp := ck 0 }
          multiLoop overwrite as (fun n => ck (n + 1)) ps

def multi (w : World) (ps : SecretStore) (cfg : Config) : Res (Bool × SecretStore × World) := do
  let (ok, ps, t) ← multiLoop cfg.overwrite w.term.answers w.term.clock ps
  pure (ok, ps, { w with term := t })

/-- `merge` (cmd/secrets/secrets.go:335-361); `ord` is the order in which the runtime iterates
over a map. -/
def merge (ord : Map (Option SecretRecord) → List Bytes) (w : World) (ps : SecretStore) (otherPath : Bytes) (mode : Int) :
    Res (Bool × SecretStore × World) :=
  let (pass, t) := w.term.read
  let w := { w with term := t }
  match pass with
  | none => .ok (false, ps, w)
  | some pass =>
    match w.readFile otherPath with
    | none => .ok (false, ps, w)
    | some data => do
      match ← unmarshalSecretStore C J data pass mode with
      | none => pure (false, ps, w)
      | some other =>
        let (now, t) := w.term.now
        let (ps, _) ← ps.merge other (ord (other.store.getD Map.empty)) now
        pure (true, ps, { w with term := t })

/-- The names in `commandSet` (cmd/secrets/secrets.go:27-35). -/
inductive Cmd where
  | show | store | list | passwd | remove | multi | merge
deriving DecidableEq, Repr

/-- Field `ShouldWrite` of `commandSet` (cmd/secrets/secrets.go:27-35). -/
def Cmd.shouldWrite : Cmd → Bool
  | .show | .list => false
  | _ => true

/-- Field `RequiredArgc` of `commandSet` (cmd/secrets/secrets.go:27-35). -/
def Cmd.requiredArgc : Cmd → Nat
  | .list | .passwd | .multi => 0
  | _ => 1

/-- Field `Run` of `commandSet` (cmd/secrets/secrets.go:27-35). `cfg.Args[0]` exists when an
argument is required. -/
def Cmd.run (ord : Map (Option SecretRecord) → List Bytes) (fuel : Nat) (c : Cmd) (w : World) (ps : SecretStore) (cfg : Config) (mode : Int) :
    Option (Res (Bool × SecretStore × World)) :=
  let arg := cfg.args.headD []
  match c with
  | .show => some (do let ok ← showSecret ps arg; pure (ok, ps, w))
  | .store => some (addSecret w ps cfg arg)
  | .list => some (.ok (true, ps, w))
  | .passwd => some (.ok (chpass w ps))
  | .remove => Secrets.remove fuel w ps cfg arg
  | .multi => some (Secrets.multi w ps cfg)
  | .merge => some (Secrets.merge C J ord w ps arg mode)

/-- `pemType` (cmd/secrets/secrets.go:363). -/
def pemType : Bytes := ascii "SECRET STORE"

/-- `exportStore` (cmd/secrets/secrets.go:365-377). -/
def exportStore (P : Pem) (w : World) (storePath outPath : Bytes) : Bool × World :=
  match w.readFile storePath with
  | none => (false, w)
  | some data =>
    let (w, ok) := w.writeFile outPath (P.enc pemType data)
    (ok, w)

/-- `importStore` (cmd/secrets/secrets.go:379-393). -/
def importStore (P : Pem) (w : World) (storePath inPath : Bytes) : Bool × World :=
  match w.readFile inPath with
  | none => (false, w)
  | some data =>
    match P.dec data with
    | none => (false, w)
    | some (typ, body) =>
      if typ ≠ pemType then (false, w)
      else
        let (w, ok) := w.writeFile storePath body
        (ok, w)

/-- The flags of `main` (cmd/secrets/secrets.go:396-411) but -V. -/
structure Flags where
  init : Bool := false
  passwd : Bool := false
  store : Bool := false
  remove : Bool := false
  list : Bool := false
  multi : Bool := false
  merge : Bool := false
  «export» : Bool := false
  «import» : Bool := false
  withMeta : Bool := false
  clip : Bool := false
  overwrite : Bool := false
  interactive : Bool := false

/-- What the switch in `main` selects (cmd/secrets/secrets.go:432-477). -/
inductive Action where
  | init | doExport | doImport
  | cmd (c : Cmd)
deriving DecidableEq

def Flags.action (f : Flags) : Action :=
  if f.init then .init
  else if f.passwd then .cmd .passwd
  else if f.store then .cmd .store
  else if f.remove then .cmd .remove
  else if f.list then .cmd .list
  else if f.multi then .cmd .multi
  else if f.merge then .cmd .merge
  else if f.export then .doExport
  else if f.import then .doImport
  else .cmd .show

/-- `scryptMode` (cmd/secrets/secrets.go:418-421), as in Model/Secret: 0 is the standard mode. -/
def Flags.mode (f : Flags) : Int := if f.interactive then 1 else 0

/-- The part of `main` after the switch (cmd/secrets/secrets.go:479-503): exit status and world. -/
def runCmd (ord : Map (Option SecretRecord) → List Bytes) (fuel : Nat) (c : Cmd) (cfg : Config) (mode : Int) (path : Bytes) (w : World) :
    Option (Res (Nat × World)) :=
  if cfg.args.length < c.requiredArgc then some (.ok (1, w))
  else match loadStore C J w path mode with
    | .panic => some .panic
    | .ok (none, w) => some (.ok (1, w))
    | .ok (some ps, w) =>
      match Cmd.run C J ord fuel c w ps cfg mode with
      | none => none
      | some .panic => some .panic
      | some (.ok (false, _, w)) => some (.ok (1, w))
      | some (.ok (true, ps, w)) =>
        if c.shouldWrite then some (do
          let (now, t) := w.term.now
          let (w, ok) ← writeStore C J { w with term := t } { ps with timestamp := now } path mode
          pure (if ok then 0 else 1, w))
        else some (.ok (0, w))

/-- `main` (cmd/secrets/secrets.go:395-504) without -V: exit status and world, `none` if it is
still running. For -export and -import a missing argument is only reported; `flag.Arg(0)` is then
empty. -/
def main (P : Pem) (ord : Map (Option SecretRecord) → List Bytes) (fuel : Nat) (f : Flags) (args : List Bytes) (path : Bytes) (w : World) :
    Option (Res (Nat × World)) :=
  match f.action with
  | .init => some (do
      let (ok, w) ← initStore C J w path f.mode
      pure (if ok then 0 else 1, w))
  | .doExport =>
    let (ok, w) := exportStore P w path (args.headD [])
    some (.ok (if ok then 0 else 1, w))
  | .doImport =>
    let (ok, w) := importStore P w path (args.headD [])
    some (.ok (if ok then 0 else 1, w))
  | .cmd c =>
    runCmd C J ord fuel c { args := args, clip := f.clip, overwrite := f.overwrite, withMeta := f.withMeta } f.mode path w

end Verif.Model.Secrets
