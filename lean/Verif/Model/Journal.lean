import Verif.Model.Otpc
/-!
Model of cmd/journal/journal.go: the program as a function of its flags and arguments, the answers
given at its prompts, the clock, the PRNG, the files, and the editor. Loading and saving the journal
(journal.go:39-77) is, up to the prompt, the same text as in cmd/secrets, and creating one
(journal.go:79-107) the same as in cmd/otpc; the definitions of those models are used.
-/

namespace Verif.Model.Journal
open Verif Verif.Go Verif.Model.Util Verif.Model.SecretStore
open Verif.Model.Secrets (World loadStore writeStore assign fetch)

/-- What happens to the temporary file: the name `ioutil.TempFile` finds for it, if any; how the
write that follows goes; what the editor makes of its contents (`none`: no such file), and whether
the editor runs and exits with status 0; whether the file can be removed. `date` is the format of
the date (journal.go:109). -/
structure Env where
  temp : Option Path
  write : WriteOutcome
  edit : Option Bytes → Option Bytes × Bool
  removes : Bool
  date : BitVec 64 → Bytes

/-- The file has these contents, or does not exist. -/
def put (fs : Fs) (p : Path) (b : Option Bytes) : Fs := fun q => if q = p then b else fs q

/-- The common part of `newEntry` and `editEntry` (cmd/journal/journal.go:203-241 and 250-290):
create a temporary file, write the data to it, run the editor, read the file, and remove it. Errors
of writing are ignored by the code. The result is `none` for an error. The command line of the
editor is in Model/CommandLine. -/
def runEditor (e : Env) (w : World) (data : Bytes) : Option Bytes × World :=
  match e.temp with
  | none => (none, w)
  | some n =>
    let fs := (Go.writeFile e.write (w.fs.set n []) n data).1
    let (new, ok) := e.edit (fs n)
    let fs := put fs n new
    let fs := if e.removes then put fs n none else fs
    (if ok then new else none, { w with fs := fs })

/-- The header of a new entry (cmd/journal/journal.go:211). -/
def header (title date : Bytes) : Bytes := title ++ [10] ++ date ++ [10, 10] ++ ascii "-----" ++ [10]

/-- `newEntry` (cmd/journal/journal.go:202-242). -/
def newEntry (e : Env) (w : World) (title : Bytes) : Option Bytes × World :=
  match e.temp with
  | none => (none, w)
  | some _ =>
    let (now, t) := w.term.now
    runEditor e { w with term := t } (header title (e.date now))

/-- `editEntry` (cmd/journal/journal.go:244-294): whether the error is nil. -/
def editEntry (e : Env) (w : World) (ps : SecretStore) (title : Bytes) : Res (Bool × SecretStore × World) :=
  if !ps.has title then .ok (false, ps, w)
  else match e.temp with
    | none => .ok (false, ps, w)
    | some _ => do
      let r ← fetch ps title
      match runEditor e w r.secret with
      | (none, w) => pure (false, ps, w)
      | (some data, w) =>
        let ps ← assign ps title { r with secret := data }
        pure (true, ps, w)

/-- The end of `writeNew` (cmd/journal/journal.go:187-199). -/
def addEntry (e : Env) (w : World) (ps : SecretStore) (title : Bytes) : Res (Bool × SecretStore × World) :=
  match newEntry e w title with
  | (none, w) => .ok (false, ps, w)
  | (some entry, w) => do
    let (now, t) := w.term.now
    let ps ← assign ps title { label := title, timestamp := now, secret := entry, metadata := none }
    pure (true, ps, { w with term := t })

/-- `writeNew` (cmd/journal/journal.go:162-200). -/
def writeNew (e : Env) (w : World) (ps : SecretStore) (arg : Bytes) : Res (Bool × SecretStore × World) :=
  let title := trimSpace arg
  if ps.has title then
    let (yesOrNo, t) := w.term.read
    let w := { w with term := t }
    match yesOrNo with
    | none => .ok (false, ps, w)
    | some yesOrNo =>
      if lower yesOrNo = ascii "y" ∨ lower yesOrNo = ascii "yes" then editEntry e w ps arg
      else
        let (newTitle, t) := w.term.read
        let w := { w with term := t }
        match newTitle with
        | none => .ok (false, ps, w)
        | some newTitle => if newTitle = [] then .ok (false, ps, w) else addEntry e w ps newTitle
  else addEntry e w ps title

/-- `showEntry` (cmd/journal/journal.go:151-160): what is printed before the line break; `none` is
an error. -/
def showEntry (ps : SecretStore) (title : Bytes) : Res (Option Bytes) :=
  if !ps.has title then .ok none
  else do
    let r ← fetch ps title
    pure (some r.secret)

/-- The first loop of `listEntries` (cmd/journal/journal.go:135-138): the timestamps, and the map
from timestamps to labels. -/
def collect (m : Map (Option SecretRecord)) : List Bytes → List (BitVec 64) × (BitVec 64 → Bytes) → Res (List (BitVec 64) × (BitVec 64 → Bytes))
  | [], st => .ok st
  | k :: ks, (ts, labels) =>
    match m k with
    | some (some r) => collect m ks (ts ++ [r.timestamp], fun t => if t = r.timestamp then k else labels t)
    | _ => .panic

/-- `listEntries` (cmd/journal/journal.go:131-149): the lines printed, with timestamps instead of
dates. `order` is the order in which the runtime iterates over the map. `sort.Sort` with `int64Slice` (23-37) leaves
the only permutation that is sorted (`Proofs.Sorting.timestamps_sorted`). -/
def listEntries (ps : SecretStore) (order : List Bytes) : Res (List (BitVec 64 × Bytes)) := do
  let (ts, labels) ← collect (ps.store.getD Map.empty) order ([], fun _ => [])
  let ts := ts.mergeSort (fun a b => decide (a.toInt ≤ b.toInt))
  pure (ts.reverse.map fun t => (t, labels t))

/-- The flags of `main` (cmd/journal/journal.go:298-306) but -V; the path and the editor are
parameters. -/
structure Flags where
  init : Bool := false
  edit : Bool := false
  list : Bool := false
  write : Bool := false
  interactive : Bool := false

def Flags.mode (f : Flags) : Int := if f.interactive then 1 else 0

/-- What a run prints. -/
inductive Output where
  | nothing
  | entry (text : Bytes)
  | entries (lines : List (BitVec 64 × Bytes))

variable (C : Crypto) (J : Json) (ord : Map (Option SecretRecord) → List Bytes)

/-- The end of `main` (cmd/journal/journal.go:358-370): the result of a command that is to be
saved. -/
def finish (path : Bytes) (mode : Int) : Bool × SecretStore × World → Res (Nat × Output × World)
  | (false, _, w) => .ok (1, .nothing, w)
  | (true, ps, w) => do
    let (now, t) := w.term.now
    let (w, ok) ← writeStore C J { w with term := t } { ps with timestamp := now } path mode
    pure (if ok then 0 else 1, .nothing, w)

/-- The switch of `main` (cmd/journal/journal.go:325-342) and the call of the command. -/
def run (e : Env) (f : Flags) (args : List Bytes) (path : Bytes) (w : World) (ps : SecretStore) : Res (Nat × Output × World) :=
  if f.edit then do
    finish C J path f.mode (← editEntry e w ps (args.headD []))
  else if f.list then do
    let lines ← listEntries ps (ord (ps.store.getD Map.empty))
    pure (0, .entries lines, w)
  else if f.write then do
    finish C J path f.mode (← writeNew e w ps (args.headD []))
  else do
    match ← showEntry ps (args.headD []) with
    | none => pure (1, .nothing, w)
    | some text => pure (0, .entry text, w)

/-- `main` (cmd/journal/journal.go:296-371) without -V: the exit status, what is printed, and the
world afterwards. -/
def main (e : Env) (f : Flags) (args : List Bytes) (path : Bytes) (w : World) : Res (Nat × Output × World) :=
  if f.init then do
    let (ok, w) ← Otpc.initStore C J w path f.mode
    pure (if ok then 0 else 1, .nothing, w)
  else if args.length < (if f.edit then 1 else if f.list then 0 else 1) then .ok (1, .nothing, w)
  else do
    match ← loadStore C J w path f.mode with
    | (none, w) => pure (1, .nothing, w)
    | (some ps, w) => run C J ord e f args path w ps

end Verif.Model.Journal
