import Verif.Model.SecretsErrors
import Verif.Model.OtpcErrors
import Verif.Model.Journal
/-!
What cmd/journal writes to standard error, function by function, beside the model of what it does in Model/Journal:
a list with the text of every call of `util.Errorf`, in order. The editor has the same standard error
(cmd/journal/journal.go:233 and 278); what it writes is left out. Where the code crashes, it is what was written
before. Loading and saving the journal (journal.go:39-77) is the same text as in cmd/secrets, and creating one
(journal.go:79-107) the same as in cmd/otpc; the definitions for those are used.
-/

namespace Verif.Model.JournalErrors
open Verif Verif.Go Verif.Model.Util Verif.Model.SecretStore Verif.Model.Journal
open Verif.Model.Secrets (World loadStore writeStore fetch)
open Verif.Model.SecretsErrors (Told errorf writeErr loadErr)

/-- The texts of errors that come from elsewhere: those of Model/SecretsErrors, and why there is no temporary file, why
the editor failed, and why its file could not be read. -/
structure Texts extends SecretsErrors.Texts where
  temp : Bytes
  editor : Bytes
  reread : Bytes

variable (T : Texts) (C : Crypto) (J : Json) (ord : Map (Option SecretRecord) → List Bytes)

/-- The common part of `newEntry` and `editEntry` (cmd/journal/journal.go:203-241 and 250-290): the error, if there
is one. -/
def editorErr (e : Env) (w : World) (data : Bytes) : Bytes :=
  match e.temp with
  | none => T.temp
  | some n => if (e.edit ((Go.writeFile e.write (w.fs.set n []) n data).1 n)).2 then T.reread else T.editor

/-- `newEntry` (cmd/journal/journal.go:202-242): the error, if there is one. -/
def newEntryErr (e : Env) (w : World) (title : Bytes) : Bytes :=
  let (now, t) := w.term.now
  editorErr T e { w with term := t } (header title (e.date now))

/-- `editEntry` (cmd/journal/journal.go:244-294): the error, if there is one. -/
def editEntryErr (e : Env) (w : World) (ps : SecretStore) (title : Bytes) : Bytes :=
  if !ps.has title then ascii "entry not found"
  else match e.temp with
    | none => T.temp
    | some _ =>
      match fetch ps title with
      | .panic => []
      | .ok r => editorErr T e w r.secret

/-- `writeNew` (cmd/journal/journal.go:162-200): the error, if there is one. -/
def writeNewErr (e : Env) (w : World) (ps : SecretStore) (arg : Bytes) : Bytes :=
  let title := trimSpace arg
  if ps.has title then
    let (yesOrNo, t) := w.term.read
    let w := { w with term := t }
    match yesOrNo with
    | none => T.prompt
    | some yesOrNo =>
      if lower yesOrNo = ascii "y" ∨ lower yesOrNo = ascii "yes" then editEntryErr T e w ps arg
      else
        let (newTitle, t) := w.term.read
        let w := { w with term := t }
        match newTitle with
        | none => T.prompt
        | some newTitle => if newTitle = [] then ascii "user aborted entry" else newEntryErr T e w newTitle
  else newEntryErr T e w title

/-- The end of `main` (cmd/journal/journal.go:358-370), for a command that is to be saved and whose error, if it has
one, is given. -/
def finishErr (path : Bytes) (mode : Int) (error : Bytes) : Res (Bool × SecretStore × World) → List Bytes
  | .panic => []
  | .ok (false, _, _) => [errorf (ascii "Failed: " ++ error)]
  | .ok (true, ps, w) =>
    let (now, t) := w.term.now
    writeErr T.toTexts C J { w with term := t } { ps with timestamp := now } path mode ++
    match writeStore C J { w with term := t } { ps with timestamp := now } path mode with
    | .ok (_, false) => [errorf (ascii "Failed to write store!")]
    | _ => []

/-- The switch of `main` (cmd/journal/journal.go:325-342) and the call of the command. `listEntries` does not fail,
and `showEntry` (151-160) in one way. -/
def runErr (e : Env) (f : Flags) (args : List Bytes) (path : Bytes) (w : World) (ps : SecretStore) : List Bytes :=
  if f.edit then finishErr T C J path f.mode (editEntryErr T e w ps (args.headD [])) (editEntry e w ps (args.headD []))
  else if f.list then []
  else if f.write then finishErr T C J path f.mode (writeNewErr T e w ps (args.headD [])) (writeNew e w ps (args.headD []))
  else if ps.has (args.headD []) then []
  else [errorf (ascii "Failed: " ++ ascii "entry not found")]

/-- `main` (cmd/journal/journal.go:296-371) without -V. -/
def mainErr (e : Env) (f : Flags) (args : List Bytes) (path : Bytes) (w : World) : List Bytes :=
  if f.init then OtpcErrors.initMainErr T.toTexts C J path f.mode w
  else if args.length < (if f.edit then 1 else if f.list then 0 else 1) then
    [errorf (ascii "Not enough arguments: want " ++ decimal (if f.edit then 1 else if f.list then 0 else 1) ++ ascii ", have " ++ decimal args.length ++ ascii "."),
     errorf (ascii "Want: " ++ ascii "title")]
  else loadErr T.toTexts w path ++
    match loadStore C J w path f.mode with
    | .panic => []
    | .ok (none, _) => [errorf (ascii "Failed to open password store")]
    | .ok (some ps, w) => runErr T C J e f args path w ps

end Verif.Model.JournalErrors
