import Verif.Model.Journal
/-!
What cmd/journal prints on standard output, function by function, beside the model of what it does in
Model/Journal. What the editor itself prints, what package
readpass prints at its prompt, and what goes to standard error (all of `util.Errorf`), is left out; so is what
`util.WriteFile` writes with path "-", which is in `World.stdout`. Where the code crashes, the text is what was
printed before.
-/

namespace Verif.Model.JournalOutput
open Verif Verif.Go Verif.Model.Util Verif.Model.SecretStore Verif.Model.Journal
open Verif.Model.Secrets (World loadStore fetch)

/-- The texts of errors of the operating system: why an entry could not be written (`err` in
cmd/journal/journal.go:190), and why a file could not be removed (lines 220 and 265). -/
structure Messages where
  error : Bytes
  reason : Bytes

/-- The second of the deferred functions of `newEntry` and `editEntry` (cmd/journal/journal.go:214-222 and
259-267) when the file is not removed. -/
def warningText (M : Messages) (fileName : Bytes) : Bytes :=
  ascii "*** WARNING ***" ++ [10] ++
  ascii "FAILED TO REMOVE TEMPORARY FILE" ++ [32] ++ fileName ++ [10] ++
  ascii "You should remove this yourself." ++ [10] ++
  [10] ++ ascii "The reason: " ++ M.reason ++ [10]

/-- The common part of `newEntry` and `editEntry` (cmd/journal/journal.go:203-241 and 250-290), beside
`Journal.runEditor`. A file that is not there cannot be removed. -/
def editorText (e : Env) (M : Messages) (w : World) (data : Bytes) : Bytes :=
  match e.temp with
  | none => []
  | some n =>
    let fs := (Go.writeFile e.write (w.fs.set n []) n data).1
    let (new, _) := e.edit (fs n)
    if e.removes && new.isSome then [] else warningText M n

/-- `newEntry` (cmd/journal/journal.go:202-242). -/
def newEntryText (e : Env) (M : Messages) (w : World) (title : Bytes) : Bytes :=
  let (now, t) := w.term.now
  editorText e M { w with term := t } (header title (e.date now))

/-- `editEntry` (cmd/journal/journal.go:244-294). -/
def editEntryText (e : Env) (M : Messages) (w : World) (ps : SecretStore) (title : Bytes) : Bytes :=
  if !ps.has title then []
  else match fetch ps title with
    | .panic => []
    | .ok r => editorText e M w r.secret

/-- The end of `writeNew` (cmd/journal/journal.go:187-199). -/
def addEntryText (e : Env) (M : Messages) (w : World) (title : Bytes) : Bytes :=
  newEntryText e M w title ++
  match newEntry e w title with
  | (none, _) => ascii "[!] Failed to write a new entry:" ++ [10] ++ [9] ++ M.error ++ [10]
  | (some _, _) => []

/-- `writeNew` (cmd/journal/journal.go:162-200). -/
def writeNewText (e : Env) (M : Messages) (w : World) (ps : SecretStore) (arg : Bytes) : Bytes :=
  let title := trimSpace arg
  if ps.has title then
    ascii "There is already an entry with the title '" ++ title ++ ascii "'." ++ [10] ++
    ascii "Do you want to edit the entry (y/n)? " ++
    let (yesOrNo, t) := w.term.read
    let w := { w with term := t }
    match yesOrNo with
    | none => []
    | some yesOrNo =>
      if lower yesOrNo = ascii "y" ∨ lower yesOrNo = ascii "yes" then editEntryText e M w ps arg
      else
        ascii "Please enter a new title (or an empty string to abort)." ++ [10] ++ ascii "Title: " ++
        let (newTitle, t) := w.term.read
        let w := { w with term := t }
        match newTitle with
        | none => []
        | some newTitle => if newTitle = [] then [] else addEntryText e M w newTitle
  else addEntryText e M w title

/-- `showEntry` (cmd/journal/journal.go:151-160). -/
def showText (ps : SecretStore) (title : Bytes) : Bytes :=
  if !ps.has title then []
  else match fetch ps title with
    | .panic => []
    | .ok r => r.secret ++ [10]

/-- `listEntries` (cmd/journal/journal.go:131-149). -/
def listText (e : Env) (ps : SecretStore) (order : List Bytes) : Bytes :=
  match listEntries ps order with
  | .panic => []
  | .ok lines => ascii "Entries:" ++ [10] ++ lines.flatMap fun x => [9] ++ e.date x.1 ++ [9, 9] ++ x.2 ++ [10]

/-- `initStore` (cmd/journal/journal.go:79-107). The store is created after the passphrase is read, whatever it
is (common/store/secretstore.go:102-111). -/
def initText (w : World) : Bytes :=
  match w.term.read.1 with
  | none => []
  | some _ => ascii "creating store..." ++ [10]

variable (C : Crypto) (J : Json) (ord : Map (Option SecretRecord) → List Bytes)

/-- `main` (cmd/journal/journal.go:296-371) without -V. Nothing is printed after the command. -/
def mainText (e : Env) (M : Messages) (f : Flags) (args : List Bytes) (path : Bytes) (w : World) : Bytes :=
  if f.init then initText w
  else if args.length < (if f.edit then 1 else if f.list then 0 else 1) then []
  else match loadStore C J w path f.mode with
    | .ok (some ps, w) =>
      if f.edit then editEntryText e M w ps (args.headD [])
      else if f.list then listText e ps (ord (ps.store.getD Map.empty))
      else if f.write then writeNewText e M w ps (args.headD [])
      else showText ps (args.headD [])
    | _ => []

end Verif.Model.JournalOutput
