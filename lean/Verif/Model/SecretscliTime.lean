import Verif.Model.Secretscli
/-!
The session of secretscli in time, and the limit that -t sets. Times are in nanoseconds. The inputs, which
are the lines and answers in the order of `Term.answers` and then the end of the input, are typed at
given times. The program itself takes no time: time passes only while everything waits for input or
for the timer.
-/

namespace Verif.Model.Secretscli
open Verif Verif.Go Verif.Model.Util Verif.Model.SecretStore
open Verif.Model.Secrets (World)

variable (C : Crypto) (J : Json)

/-- `maxTimeout` (cmd/secretscli/secretscli.go:21): twelve hours. -/
def maxTimeout : Int := 12 * 60 * 60 * 1000000000

/-- `defaultTimeout` without -t (cmd/secretscli/secretscli.go:20): five minutes. -/
def defaultTimeout : Int := 5 * 60 * 1000000000

/-- The beginning of `main` (cmd/secretscli/secretscli.go:157-188), after the flags: `none` is an exit with
status 1. -/
def startFor (limit : Int) (w : World) (writes : Nat → WriteOutcome) (path : Bytes) (mode : Int) : Res (Option St) :=
  if limit > maxTimeout then .ok none else start C J w writes path mode

/-- How many of the inputs a command reads, the end of the input included. A read at the end of the
input fails like one that gives an error, so that this can be counted with an error added at the end. -/
def awaited (e : Env) (line : Bytes) (st : St) : Nat :=
  st.w.term.answers.length + 1 -
    (processCommands C J e line (st.rest (st.w.term.answers ++ [none]))).2.w.term.answers.length

/-- How many inputs a step needs. -/
def inputs (e : Env) (s : Sys) : Event → Nat
  | .read _ => 1
  | .silent => if s.reader = .reading then 1 else 0
  | .command line _ => awaited C J e line s.st
  | _ => 0

/-- The process at a time. `since` is when the select statement was last entered, which starts the
timer (cmd/secretscli/secretscli.go:99); `due k` is when the k-th of the inputs to come is typed. -/
structure Timed where
  s : Sys
  now : Int
  since : Int
  due : Nat → Int

/-- The inputs that a step needs are there, and the timer has run for long enough. A limit below
zero is like zero. -/
def Ready (e : Env) (limit : Int) (t : Timed) (ev : Event) : Prop :=
  (∀ k, k < inputs C J e t.s ev → t.due k ≤ t.now) ∧ (ev = .timeout → t.since + limit ≤ t.now)

/-- The process after a step to `s`. -/
def Timed.next (t : Timed) (s : Sys) : Timed where
  s := s
  now := t.now
  since := if t.s.main ≠ .select ∧ s.main = .select then t.now else t.since
  due := fun k => t.due (k + (t.s.st.w.term.answers.length - s.st.w.term.answers.length))

/-- A run in time, with what happened when. -/
inductive TimedRun (e : Env) (limit : Int) : Timed → List (Int × Event) → Timed → Prop
  | nil (t : Timed) : TimedRun e limit t [] t
  /-- A step that is ready is taken. -/
  | act {t t1 : Timed} {tr : List (Int × Event)} {ev : Event} {s : Sys} :
      TimedRun e limit t tr t1 → Step C J e t1.s ev s → Ready C J e limit t1 ev →
      TimedRun e limit t (tr ++ [(t1.now, ev)]) (t1.next s)
  /-- If no step is ready, time passes. -/
  | wait {t t1 : Timed} {tr : List (Int × Event)} :
      TimedRun e limit t tr t1 → t1.s.main ≠ .exited → (∀ ev s, Step C J e t1.s ev s → ¬ Ready C J e limit t1 ev) →
      TimedRun e limit t tr { t1 with now := t1.now + 1 }

/-- The beginning of `inputLoop` (cmd/secretscli/secretscli.go:85-92), at time `t0`. -/
def Timed.init (st : St) (t0 : Int) (due : Nat → Int) : Timed := ⟨Sys.init st, t0, t0, due⟩

end Verif.Model.Secretscli
