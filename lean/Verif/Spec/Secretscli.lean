import Verif.Spec.Journal
import Verif.Model.Secretscli
/-!
Vocabulary for the properties of secretscli: what a session looks like to the person at the
terminal.
-/

namespace Verif.Spec.Secretscli
open Verif Verif.Go Verif.Model.SecretStore Verif.Spec.SecretStore Verif.Spec.Secrets Verif.Spec.Journal

/-- A secret and its metadata under every label. -/
abbrev Entries := Map (Bytes × Map Bytes)

/-- What a user sees of a store. -/
def entries (s : SecretStore) : Entries :=
  fun k => (lookup s k).map (fun r => (r.secret, r.metadata.getD Map.empty))

/-- How the session stands to the file: nothing was changed; something was changed and not written;
it was written while the session went on, and this is what was written, under this passphrase;
something was changed after that. -/
inductive Stage where
  | clean
  | changed
  | written (e : Entries) (pass : Bytes)
  | changedAgain

/-- A change that is to be saved. -/
def Stage.change : Stage → Stage
  | .clean | .changed => .changed
  | .written .. | .changedAgain => .changedAgain

/-- The session as the user knows it. -/
structure View where
  entry : Entries
  pass : Bytes
  stage : Stage

/-- The store is written before the session ends. -/
def View.write (v : View) : View :=
  match v.stage with
  | .changed => { v with stage := .written v.entry v.pass }
  | _ => v

/-- A prompt fails: the input has ended, or there is an error. -/
inductive Fails : List (Option Bytes) → List (Option Bytes) → Prop
  | ended : Fails [] []
  | error (as) : Fails (none :: as) as

/-- No password is given. -/
inductive NoPassword : List (Option Bytes) → List (Option Bytes) → Prop
  | empty (as) : NoPassword (some [] :: as) as
  | fails {as as'} : Fails as as' → NoPassword as as'

/-- `store` with one label: the session, the answers to come, the session afterwards, whether there
was no error, and the answers left. -/
inductive Store (l : Bytes) : View → List (Option Bytes) → View → Bool → List (Option Bytes) → Prop
  | new {v pw as} : v.entry l = none → pw ≠ [] →
      Store l v (some pw :: as) { v with entry := v.entry.set l (pw, Map.empty), stage := v.stage.change } true as
  | replace {v a pw as old md} : v.entry l = some (old, md) → Yes a → pw ≠ [] →
      Store l v (some a :: some pw :: as) { v with entry := v.entry.set l (pw, md), stage := v.stage.change } true as
  | keep {v a as old} : v.entry l = some old → ¬ Yes a → Store l v (some a :: as) v true as
  | noPassword {v as as'} : v.entry l = none → NoPassword as as' → Store l v as v false as'
  | noNewPassword {v a as as' old} : v.entry l = some old → Yes a → NoPassword as as' → Store l v (some a :: as) v false as'
  | noAnswer {v as as' old} : v.entry l = some old → Fails as as' → Store l v as v false as'

/-- `store` with several labels, up to the first error. -/
inductive StoreAll : List Bytes → View → List (Option Bytes) → View → Bool → List (Option Bytes) → Prop
  | nil {v as} : StoreAll [] v as v true as
  | cons {l ls v v1 v2 as as1 as2 b} : Store l v as v1 true as1 → StoreAll ls v1 as1 v2 b as2 → StoreAll (l :: ls) v as v2 b as2
  | stop {l ls v v1 as as1} : Store l v as v1 false as1 → StoreAll (l :: ls) v as v1 false as1

/-- `md` after the lines were entered. -/
def EnteredAll (md : Map Bytes) (lines : List Bytes) (md' : Map Bytes) : Prop :=
  ∀ k x, md' k = some x ↔ Entered (md k) lines k x

/-- The commands that change something, or use the file. -/
def active : List Bytes := [ascii "store", ascii "wmeta", ascii "passwd", ascii "write", ascii "quit"]

/-- What a command line, and the answers to the prompts that follow, do to the session. -/
inductive Command (line : Bytes) : View → List (Option Bytes) → View → List (Option Bytes) → Prop
  /-- No command, or one that only prints something, or an unknown one. -/
  | other {v as} : (∀ c, (fields line).head? = some c → c ∉ active) → Command line v as v as
  | storeNothing {v as} : fields line = [ascii "store"] → Command line v as v as
  | storeAll {v v' as as' ls} : fields line = ascii "store" :: ls → StoreAll ls v as v' true as' → Command line v as v' as'
  | storeFirstFails {v v' as as' l ls} : fields line = ascii "store" :: l :: ls → Store l v as v' false as' → Command line v as v' as'
  /-- An error at a later label: the store is written. -/
  | storeLaterFails {v v1 v' as as1 as' l ls} : fields line = ascii "store" :: l :: ls → Store l v as v1 true as1 →
      StoreAll ls v1 as1 v' false as' → Command line v as v'.write as'
  | wmetaUsage {v as args} : fields line = ascii "wmeta" :: args → args.length ≠ 1 → Command line v as v as
  | wmetaUnknown {v as l} : fields line = [ascii "wmeta", l] → v.entry l = none → Command line v as v as
  /-- Lines up to an empty one. -/
  | wmeta {v as l x md md' lines} : fields line = [ascii "wmeta", l] → v.entry l = some (x, md) →
      (∀ b ∈ lines, b ≠ []) → EnteredAll md lines md' →
      Command line v (lines.map some ++ some [] :: as) { v with entry := v.entry.set l (x, md'), stage := v.stage.change } as
  /-- Lines up to an error: they stay in the session, but are not marked for saving. -/
  | wmetaFails {v as as' l x md md' lines} : fields line = [ascii "wmeta", l] → v.entry l = some (x, md) →
      (∀ b ∈ lines, b ≠ []) → EnteredAll md lines md' → Fails as as' →
      Command line v (lines.map some ++ as) { v with entry := v.entry.set l (x, md') } as'
  /-- The new passphrase is not marked for saving either. -/
  | passwd {v as p args} : fields line = ascii "passwd" :: args → Command line v (some p :: some p :: as) { v with pass := p } as
  | passwdMismatch {v as p q args} : fields line = ascii "passwd" :: args → p ≠ q → Command line v (some p :: some q :: as) v as
  | passwdFails {v as as' args} : fields line = ascii "passwd" :: args → Fails as as' → Command line v as v as'
  | passwdFails2 {v as as' p args} : fields line = ascii "passwd" :: args → Fails as as' → Command line v (some p :: as) v as'
  | writeUsage {v as a args} : fields line = ascii "write" :: a :: args → Command line v as v as
  | write {v as} : fields line = [ascii "write"] → Command line v as v.write as

/-- A session, up to some command prompt, with the command lines typed. -/
inductive Session : List Bytes → View → List (Option Bytes) → View → List (Option Bytes) → Prop
  | nil {v as} : Session [] v as v as
  | blank {ls v as v' as'} : Session ls v as v' as' → Session ls v (some [] :: as) v' as'
  | error {ls v as v' as'} : Session ls v as v' as' → Session ls v (none :: as) v' as'
  | command {ls v as line v1 as1 v' as'} : line ≠ [] → line ≠ ascii "quit" → Command line v as v1 as1 →
      Session ls v1 as1 v' as' → Session (line :: ls) v (some line :: as) v' as'

/-- The input has ended, or the next line is a quit command. -/
def AtEnd (as : List (Option Bytes)) : Prop :=
  as = [] ∨ ∃ line rest, as = some line :: rest ∧ (fields line).head? = some (ascii "quit")

/-! ### The program without goroutines -/

open Verif.Model.Secretscli

variable (C : Crypto) (J : Json)

/-- What comes of one line: the next one, the end of the loop, or the end of the process. -/
inductive Turn where
  | next (st : St)
  | stop (st : St)
  | over (st : St)

def Turn.after : Ret × St → Turn
  | (.ok, st) => .next st
  | (.err, st) => .next st
  | (.panic, st) => .stop st
  | (.exit, st) => .over st

/-- A line is read, and the command, if any, is run. -/
def turn (e : Env) (st : St) : Turn :=
  match st.w.term.answers with
  | [] => .stop st
  | none :: as => .next (st.rest as)
  | some line :: as =>
    if line = [] then .next (st.rest as)
    else if line = ascii "quit" then .stop (st.rest as)
    else Turn.after (processCommands C J e line (st.rest as))

/-- A program that does one turn after the other and never times out. -/
def sequential (e : Env) : Nat → St → St
  | 0, st => st
  | n + 1, st =>
    match turn C J e st with
    | .next st => sequential e n st
    | .stop st => shutdown C J st
    | .over st => st

/-- The command line that is read next, if any. -/
def typedLine (st : St) : List Bytes :=
  match st.w.term.answers with
  | some line :: _ => if line = [] then [] else [line]
  | _ => []

/-- Turns that did not end the loop, with the command lines read. -/
inductive Turns (e : Env) : St → List Bytes → St → Prop
  | nil (st : St) : Turns e st [] st
  | snoc {st st1 st2 : St} {ls : List Bytes} : Turns e st ls st1 → turn C J e st1 = .next st2 → Turns e st (ls ++ typedLine st1) st2

/-- The command that ended, unless the session ended with it. -/
def ran : Event → List Bytes
  | .command line .ok => [line]
  | .command line .err => [line]
  | _ => []

/-- The commands carried out in a run, except one that ended it. -/
def commands (evs : List Event) : List Bytes := evs.flatMap ran

end Verif.Spec.Secretscli
