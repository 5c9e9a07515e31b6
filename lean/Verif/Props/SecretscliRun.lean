import Verif.Props.Secretscli
/-! Property C71: the two goroutines of secretscli (cmd/secretscli/secretscli.go:24-110). -/

namespace Verif.Props.SecretscliRun
open Verif Verif.Go Verif.Model.Util Verif.Model.SecretStore Verif.Model.Secretscli
open Verif.Model.Secrets (World assign metaLoop dash)
open Verif.Spec.SecretStore Verif.Spec.Secrets Verif.Spec.Journal Verif.Spec.Secretscli
open Verif.Proofs.SecretStore Verif.Proofs.Strings Verif.Proofs.Secretscli
open Verif.Proofs.Secrets hiding fmode
open Verif.Props.SecretStore Verif.Props.Secretscli
open Verif.Props.Secrets (exWorld exFile exMap_other exClock)

variable (C : Crypto) (J : Json)

/-! ### No deadlock -/

/-- As long as the process has not ended, something other than the timer can happen. -/
theorem C71_progress {e : Env} {st : St} {evs : List Event} {s : Sys} (h : Run C J e (Sys.init st) evs s) (hx : s.main ≠ .exited) :
    ∃ ev s', Step C J e s ev s' ∧ ev ≠ .timeout := by
  have hi := inv C J h
  cases hi with
  | reading b hb =>
    cases ha : b.w.term.answers with
    | nil => exact ⟨_, _, .readEof _ hx rfl ha, by simp⟩
    | cons a as =>
      cases a with
      | none => exact ⟨_, _, .readError _ as hx rfl ha, by simp⟩
      | some line =>
        by_cases hl : line = []
        · subst hl
          exact ⟨_, _, .readBlank _ as hx rfl ha, by simp⟩
        · exact ⟨_, _, .readLine _ line as hx rfl ha hl, by simp⟩
  | sending b l as hb ha hl =>
    by_cases hq : l = ascii "quit"
    · exact ⟨_, _, .handOverQuit _ l rfl rfl hq, by simp⟩
    · exact ⟨_, _, .handOver _ l rfl rfl hq, by simp⟩
  | ended b hb ha => exact ⟨_, _, .closed _ rfl rfl, by simp⟩
  | running b l as hb ha hl hq =>
    cases hp : processCommands C J e l (b.rest as) with
    | mk r st' => exact ⟨_, _, .command _ l r st' rfl hp, by simp⟩
  | acking b hb => exact ⟨_, _, .proceed _ rfl rfl rfl, by simp⟩
  | stopped b x r ic hb hx' hr => exact ⟨_, _, .shutdown _ rfl, by simp⟩
  | timedOut b as r ic hb => exact ⟨_, _, .shutdown _ rfl, by simp⟩
  | finished => exact absurd rfl hx
  | quit => exact absurd rfl hx
  | late => exact absurd rfl hx

/-- What is left to do, at most. -/
def weight (s : Sys) : Nat :=
  5 * s.st.w.term.answers.length +
  (match s.reader with
    | .done => 0
    | .waiting => 1
    | .reading => 1
    | .sending _ => 4) +
  (match s.main with
    | .exited => 0
    | .stopped => 1
    | .select => 2
    | .acking => 3
    | .running _ => 4)

theorem step_weight {e : Env} {s s' : Sys} {ev : Event} (h : Step C J e s ev s') : weight s' < weight s := by
  cases h with
  | readLine line as h1 h2 h3 h4 => simp only [weight, h2, h3, rest_answers, List.length_cons]; omega
  | readBlank as h1 h2 h3 => simp only [weight, h2, h3, rest_answers, List.length_cons]; omega
  | readError as h1 h2 h3 => simp only [weight, h2, h3, rest_answers, List.length_cons]; omega
  | readEof h1 h2 h3 => simp only [weight, h2]; omega
  | handOver line h1 h2 h3 => simp only [weight, h1, h2]; omega
  | handOverQuit line h1 h2 h3 => simp only [weight, h1, h2]; omega
  | closed h1 h2 => simp only [weight, h1]; omega
  | timeout h1 => simp only [weight, h1]; omega
  | command line r st h1 h2 =>
    have hs := (process_suffix C J e line s.st).length_le
    rw [h2] at hs
    simp only [weight, h1]
    cases r <;> (simp only [Ret.next] at *; omega)
  | proceed h1 h2 h3 => simp only [weight, h1, h2]; omega
  | readerDone h1 h2 h3 => simp only [weight, h2]; omega
  | shutdown h1 => simp only [weight, h1, shutdown_term]; omega

/-- No run goes on for ever: there is a bound on the number of steps. Together with `C71_progress`,
every run that does not stop by itself reaches the end of the process. -/
theorem C71_terminates {e : Env} {st : St} {evs : List Event} {s : Sys} (h : Run C J e (Sys.init st) evs s) :
    evs.length ≤ 5 * st.w.term.answers.length + 3 := by
  have key : ∀ {s1 s2 : Sys} {evs : List Event}, Run C J e s1 evs s2 → evs.length + weight s2 ≤ weight s1 := by
    intro s1 s2 evs h
    induction h with
    | nil => simp
    | cons h1 _ ih =>
      have := step_weight C J h1
      simp only [List.length_cons]
      omega
  have := key h
  simp only [weight, Sys.init] at this
  omega

/-- Every run can be continued to the end of the process without the timer. -/
theorem C71_completes {e : Env} {st : St} {evs : List Event} {s : Sys} (h : Run C J e (Sys.init st) evs s) :
    ∃ evs' s', Run C J e s evs' s' ∧ .timeout ∉ evs' ∧ s'.main = .exited := by
  suffices ∀ n evs s, Run C J e (Sys.init st) evs s → weight s = n → ∃ evs' s', Run C J e s evs' s' ∧ .timeout ∉ evs' ∧ s'.main = .exited from
    this _ evs s h rfl
  intro n
  induction n using Nat.strongRecOn with
  | ind n ih =>
    intro evs s h hn
    by_cases hx : s.main = .exited
    · exact ⟨[], s, .nil _, by simp, hx⟩
    · obtain ⟨ev, s1, hs, ht⟩ := C71_progress C J h hx
      obtain ⟨evs', s', r1, r2, r3⟩ := ih (weight s1) (by rw [← hn]; exact step_weight C J hs) _ s1 (run_snoc C J h hs) rfl
      exact ⟨ev :: evs', s', .cons hs r1, by simp [r2, Ne.symm ht], r3⟩

/-! ### Lines are processed in order, and once -/

/-- The lines read by the reader. -/
def reads (evs : List Event) : List Bytes := evs.filterMap (fun | .read l => some l | _ => none)

/-- The lines taken by the command loop. -/
def accepts (evs : List Event) : List Bytes := evs.filterMap (fun | .accept l => some l | _ => none)

/-- The lines processed. -/
def processed (evs : List Event) : List Bytes := evs.filterMap (fun | .command l _ => some l | _ => none)

/-- Where the lines are. -/
structure Lines (st : St) (evs : List Event) (s : Sys) : Prop where
  typed : (reads evs ++ s.st.w.term.answers.filterMap id).Sublist (st.w.term.answers.filterMap id)
  sent : reads evs = accepts evs ++ (match s.reader with | .sending l => [l] | _ => [])
  run : ∃ q, accepts evs = processed evs ++ q ∧ (∀ l, s.main = .running l → q = [l]) ∧ (s.main = .select ∨ s.main = .acking → q = []) ∧ q.length ≤ 1 ∧
    ∀ l ∈ q, s.main = .running l ∨ l = ascii "quit"
  stuck : ∀ l, s.reader = .sending l → s.main = .select ∨ .timeout ∈ evs

theorem reads_snoc (evs : List Event) (ev : Event) : reads (evs ++ [ev]) = reads evs ++ reads [ev] := List.filterMap_append
theorem accepts_snoc (evs : List Event) (ev : Event) : accepts (evs ++ [ev]) = accepts evs ++ accepts [ev] := List.filterMap_append
theorem processed_snoc (evs : List Event) (ev : Event) : processed (evs ++ [ev]) = processed evs ++ processed [ev] := List.filterMap_append

theorem lines {e : Env} {st : St} {evs : List Event} {s : Sys} (h : Run C J e (Sys.init st) evs s) : Lines st evs s := by
  refine run_induct C J (P := fun evs s => Lines st evs s)
    ⟨by simp [reads, Sys.init], rfl, ⟨[], rfl, by simp [Sys.init], by simp, by simp, by simp⟩, fun l hl => .inl rfl⟩ ?_ h
  intro evs s ev s' hr hl hs
  obtain ⟨l1, l2, ⟨q, l3, l4, l5, l6, l7⟩, l8⟩ := hl
  have hi := inv C J hr
  -- events of no interest
  have nr : ∀ ev, reads [ev] = [] → reads (evs ++ [ev]) = reads evs := fun ev h => by rw [reads_snoc, h, List.append_nil]
  have na : ∀ ev, accepts [ev] = [] → accepts (evs ++ [ev]) = accepts evs := fun ev h => by rw [accepts_snoc, h, List.append_nil]
  have np : ∀ ev, processed [ev] = [] → processed (evs ++ [ev]) = processed evs := fun ev h => by rw [processed_snoc, h, List.append_nil]
  have hmem : ∀ ev : Event, .timeout ∈ evs → .timeout ∈ evs ++ [ev] := fun ev h => List.mem_append_left _ h
  cases hs with
  | readLine line as h1 h2 h3 h4 =>
    rw [h3] at l1
    rw [h2] at l2
    refine ⟨?_, ?_, ⟨q, ?_, l4, l5, l6, l7⟩, fun l hl => ?_⟩
    · rw [reads_snoc]
      simpa [reads] using l1
    · rw [reads_snoc, na _ rfl, l2]
      simp [reads]
    · rw [na _ rfl, np _ rfl]; exact l3
    · have ht := timeout_iff C J hr
      cases hi with
      | reading => exact .inl rfl
      | timedOut => exact .inr (hmem _ (ht.mpr rfl))
      | stopped b x r ic hb hx hr2 => simp only at h2; rw [h2] at hr2; rcases hr2 with h | h <;> cases h
      | sending => cases h2
      | ended => cases h2
      | running => cases h2
      | acking => cases h2
      | finished => exact absurd rfl h1
      | quit => exact absurd rfl h1
      | late => exact absurd rfl h1
  | readBlank as h1 h2 h3 =>
    rw [h3] at l1
    refine ⟨?_, ?_, ⟨q, ?_, l4, l5, l6, l7⟩, fun l hl => by rw [h2] at hl; cases hl⟩
    · rw [nr _ rfl]
      exact .trans (List.Sublist.append_left (by simp) _) l1
    · rw [nr _ rfl, na _ rfl]; exact l2
    · rw [na _ rfl, np _ rfl]; exact l3
  | readError as h1 h2 h3 =>
    rw [h3] at l1
    refine ⟨?_, ?_, ⟨q, ?_, l4, l5, l6, l7⟩, fun l hl => by rw [h2] at hl; cases hl⟩
    · rw [nr _ rfl]
      exact .trans (List.Sublist.append_left (by simp) _) l1
    · rw [nr _ rfl, na _ rfl]; exact l2
    · rw [na _ rfl, np _ rfl]; exact l3
  | readEof h1 h2 h3 =>
    rw [h2] at l2
    refine ⟨?_, ?_, ⟨q, ?_, l4, l5, l6, l7⟩, fun l hl => (nomatch hl)⟩
    · rw [nr _ rfl]; exact l1
    · rw [nr _ rfl, na _ rfl]; exact l2
    · rw [na _ rfl, np _ rfl]; exact l3
  | handOver line h1 h2 h3 =>
    rw [h2] at l2
    have hq := l5 (.inl h1)
    subst hq
    refine ⟨?_, ?_, ⟨[line], ?_, fun l hl => (by cases hl; rfl), fun hl => (by rcases hl with hl | hl <;> cases hl), by simp, ?_⟩, fun l hl => (nomatch hl)⟩
    · rw [nr _ rfl]; exact l1
    · rw [nr _ rfl, accepts_snoc, l2]; simp [accepts]
    · rw [accepts_snoc, np _ rfl, l3]; simp [accepts]
    · intro l hl; rw [List.mem_singleton.mp hl]; exact .inl rfl
  | handOverQuit line h1 h2 h3 =>
    rw [h2] at l2
    have hq := l5 (.inl h1)
    subst hq
    refine ⟨?_, ?_, ⟨[line], ?_, fun l hl => (nomatch hl), fun hl => (by rcases hl with hl | hl <;> cases hl), by simp, ?_⟩, fun l hl => (nomatch hl)⟩
    · rw [nr _ rfl]; exact l1
    · rw [nr _ rfl, accepts_snoc, l2]; simp [accepts]
    · rw [accepts_snoc, np _ rfl, l3]; simp [accepts]
    · intro l hl; rw [List.mem_singleton.mp hl]; exact .inr h3
  | closed h1 h2 =>
    have hq := l5 (.inl h1)
    subst hq
    refine ⟨?_, ?_, ⟨[], ?_, fun l hl => (nomatch hl), fun hl => rfl, by simp, by simp⟩, fun l hl => ?_⟩
    · rw [nr _ rfl]; exact l1
    · rw [nr _ rfl, na _ rfl]; exact l2
    · rw [na _ rfl, np _ rfl]; exact l3
    · cases hi with
      | ended => cases hl
      | reading => cases h2
      | sending => cases h2
      | running => cases h1
      | acking => cases h1
      | stopped => cases h1
      | timedOut => cases h1
      | finished => cases h1
      | quit => cases h1
      | late => cases h1
  | timeout h1 =>
    have hq := l5 (.inl h1)
    subst hq
    refine ⟨?_, ?_, ⟨[], ?_, fun l hl => (nomatch hl), fun hl => rfl, by simp, by simp⟩, fun l hl => .inr (by simp)⟩
    · rw [nr _ rfl]; exact l1
    · rw [nr _ rfl, na _ rfl]; exact l2
    · rw [na _ rfl, np _ rfl]; exact l3
  | command line r st' h1 h2 =>
    have hq := l4 line h1
    subst hq
    refine ⟨?_, ?_, ⟨[], ?_, fun l hl => (by cases r <;> cases hl), fun hl => rfl, by simp, by simp⟩, fun l hl => ?_⟩
    · rw [nr _ rfl]
      have hsuf := process_suffix C J e line s.st
      rw [h2] at hsuf
      exact .trans (List.Sublist.append_left (hsuf.sublist.filterMap id) _) l1
    · rw [nr _ rfl, na _ rfl]; exact l2
    · rw [na _ rfl, processed_snoc, l3]; simp [processed]
    · rcases l8 l hl with h | h
      · rw [h] at h1; cases h1
      · exact .inr (hmem _ h)
  | proceed h1 h2 h3 =>
    rw [h2] at l2
    have hq := l5 (.inr h1)
    subst hq
    refine ⟨?_, ?_, ⟨[], ?_, fun l hl => (nomatch hl), fun hl => rfl, by simp, by simp⟩, fun l hl => (nomatch hl)⟩
    · rw [nr _ rfl]; exact l1
    · rw [nr _ rfl, na _ rfl]; exact l2
    · rw [na _ rfl, np _ rfl]; exact l3
  | readerDone h1 h2 h3 =>
    rw [h2] at l2
    refine ⟨?_, ?_, ⟨q, ?_, l4, l5, l6, l7⟩, fun l hl => (nomatch hl)⟩
    · rw [nr _ rfl]; exact l1
    · rw [nr _ rfl, na _ rfl]; exact l2
    · rw [na _ rfl, np _ rfl]; exact l3
  | shutdown h1 =>
    refine ⟨?_, ?_, ⟨q, ?_, fun l hl => (nomatch hl), fun hl => (by rcases hl with hl | hl <;> cases hl), l6, fun l hl => ?_⟩, fun l hl => ?_⟩
    · rw [nr _ rfl, shutdown_term]; exact l1
    · rw [nr _ rfl, na _ rfl]; exact l2
    · rw [na _ rfl, np _ rfl]; exact l3
    · rcases l7 l hl with h | h
      · rw [h] at h1; cases h1
      · exact .inr h
    · rcases l8 l hl with h | h
      · rw [h] at h1; cases h1
      · exact .inr (hmem _ h)

/-- In every run the lines read are lines typed, in the order in which they were typed, and none is
read twice. All of them but possibly the last were taken by the command loop, in that order, and
all of these but possibly the last were processed, in that order. -/
theorem C71_order {e : Env} {st : St} {evs : List Event} {s : Sys} (h : Run C J e (Sys.init st) evs s) :
    (reads evs).Sublist (st.w.term.answers.filterMap id) ∧
    accepts evs <+: reads evs ∧ (reads evs).length ≤ (accepts evs).length + 1 ∧
    processed evs <+: accepts evs ∧ (accepts evs).length ≤ (processed evs).length + 1 := by
  obtain ⟨l1, l2, ⟨q, l3, -, -, l6, -⟩, -⟩ := lines C J h
  refine ⟨.trans (List.sublist_append_left _ _) l1, ?_, ?_, ?_, ?_⟩
  · rw [l2]; exact List.prefix_append _ _
  · rw [l2, List.length_append]
    split <;> simp
  · rw [l3]; exact List.prefix_append _ _
  · rw [l3, List.length_append]; omega

/-- If the process ends and the timer did not fire, no line that was read is lost: each was processed,
except for a last "quit", which ends the loop instead. -/
theorem C71_processed {e : Env} {st : St} {evs : List Event} {s : Sys} (h : Run C J e (Sys.init st) evs s) (hx : s.main = .exited)
    (ht : .timeout ∉ evs) : reads evs = processed evs ∨ reads evs = processed evs ++ [ascii "quit"] := by
  obtain ⟨-, l2, ⟨q, l3, -, -, l6, l7⟩, l8⟩ := lines C J h
  have h1 : reads evs = accepts evs := by
    cases hr : s.reader with
    | sending l =>
      rcases l8 l hr with h | h
      · rw [h] at hx; cases hx
      · exact absurd h ht
    | _ => rw [l2, hr]; simp
  rw [h1, l3]
  match q, l6, l7 with
  | [], _, _ => exact .inl (List.append_nil _)
  | [l], _, l7 =>
    rcases l7 l (List.mem_singleton.mpr rfl) with h | h
    · rw [h] at hx; cases hx
    · rw [h]; exact .inr rfl
  | _ :: _ :: _, l6, _ => simp at l6

/-- A command runs alone: as long as it does, the only step there is is its end. -/
theorem C71_alone {e : Env} {st : St} {s s' : Sys} {evs : List Event} {ev : Event} {line : Bytes}
    (h : Run C J e (Sys.init st) evs s) (hm : s.main = .running line) (hs : Step C J e s ev s') : ∃ r, ev = .command line r :=
  running_alone C J h hm hs

/-! ### The outcome does not depend on the interleaving -/

theorem turn_shorter {e : Env} {st st' : St} (h : turn C J e st = .next st') : st'.w.term.answers.length < st.w.term.answers.length := by
  unfold turn at h
  cases ha : st.w.term.answers with
  | nil => rw [ha] at h; cases h
  | cons a as =>
    rw [ha] at h
    cases a with
    | none => cases h; simp
    | some line =>
      dsimp only at h
      by_cases hl : line = []
      · rw [if_pos hl] at h; cases h; simp
      · rw [if_neg hl] at h
        by_cases hq : line = ascii "quit"
        · rw [if_pos hq] at h; cases h
        · rw [if_neg hq] at h
          have hs := (process_suffix C J e line (st.rest as)).length_le
          cases hp : processCommands C J e line (st.rest as) with
          | mk r st2 =>
            rw [hp] at h hs
            rw [rest_answers] at hs
            cases r with
            | ok => cases h; simp only [List.length_cons] at hs ⊢; omega
            | err => cases h; simp only [List.length_cons] at hs ⊢; omega
            | panic => cases h
            | exit => cases h

theorem sequential_turns {e : Env} {st b : St} {ls : List Bytes} (h : Turns C J e st ls b) :
    ∃ n, n + b.w.term.answers.length ≤ st.w.term.answers.length ∧ ∀ m, sequential C J e (n + m) st = sequential C J e m b := by
  induction h with
  | nil => exact ⟨0, by simp, fun m => by rw [Nat.zero_add]⟩
  | snoc _ h2 ih =>
    obtain ⟨n, h3, h4⟩ := ih
    have := turn_shorter C J h2
    refine ⟨n + 1, by omega, fun m => ?_⟩
    rw [show n + 1 + m = n + (m + 1) by omega, h4, sequential, h2]

/-- Whatever the order in which the goroutines take their steps, the process ends in the state in
which a single thread would end that reads a line, runs the command, and reads the next line,
unless the timer fires. -/
theorem C71_deterministic {e : Env} {st : St} {evs : List Event} {s : Sys} (h : Run C J e (Sys.init st) evs s) (hx : s.main = .exited)
    (ht : .timeout ∉ evs) : s.st = sequential C J e (st.w.term.answers.length + 1) st := by
  obtain ⟨b, hb, h1⟩ := run_exited C J h hx
  obtain ⟨n, h2, h3⟩ := sequential_turns C J hb
  obtain ⟨m, hm⟩ : ∃ m, st.w.term.answers.length + 1 = n + (m + 1) := ⟨st.w.term.answers.length - n, by omega⟩
  rw [hm, h3, sequential]
  rcases h1 with ⟨x, h4, h5⟩ | h4 | ⟨h4, -⟩
  · rw [h4, h5]
  · rw [h4]
  · exact absurd h4 ht

/-- If the timer fires, it does so between two commands, and the store is shut down as they left
it. -/
theorem C71_timeout {e : Env} {st : St} {evs : List Event} {s : Sys} (h : Run C J e (Sys.init st) evs s) (hx : s.main = .exited)
    (ht : .timeout ∈ evs) : ∃ b as, Turns C J e st (commands evs) b ∧ s.st = shutdown C J (b.rest as) := by
  have hc := (timeout_iff C J h).mp ht
  have hi := inv C J h
  cases hi with
  | late b as r ic hb => exact ⟨b, as, hb, rfl⟩
  | finished => cases hc
  | quit => cases hc
  | _ => cases hx

/-! ### The store is written -/

/-- The process ends with the deferred shutdown or with the quit command, and nothing comes after.
If there was something to be saved, the store as it was then is written to the file; if there was
not, no file changes. Missing from the property: "dirty" is not set by every change, see
C71_written_violated, and the write may fail. -/
theorem C71_written_partial {e : Env} {st : St} {evs : List Event} {s : Sys} (h : Run C J e (Sys.init st) evs s) (hx : s.main = .exited) :
    ∃ evs1 s1 ev, evs = evs1 ++ [ev] ∧ Run C J e (Sys.init st) evs1 s1 ∧ (ev = .shutdown ∨ ∃ l, ev = .command l .exit) ∧
      (s1.st.sess.dirty = false → s.st.w.fs = s1.st.w.fs) ∧
      (∀ p, s1.st.sess.dirty = true → s1.st.sess.path ≠ dash → s1.st.sess.mode = 0 ∨ s1.st.sess.mode = 1 → Good s1.st.sess.store →
        s1.st.sess.store.passphrase = some p → s1.st.writes 0 = .done → 56 ≤ s1.st.w.rng.length →
        ∃ out, s.st.w.fs = s1.st.w.fs.set s1.st.sess.path out ∧ IsFile C out p s1.st.sess.mode (J.enc s1.st.sess.store.toFields)) := by
  rcases run_last C J h with ⟨-, h1⟩ | ⟨evs1, s1, ev, h1, h2, h3⟩
  · rw [h1] at hx; cases hx
  have key : s.st = shutdown C J s1.st → (s1.st.sess.dirty = false → s.st.w.fs = s1.st.w.fs) ∧
      (∀ p, s1.st.sess.dirty = true → s1.st.sess.path ≠ dash → s1.st.sess.mode = 0 ∨ s1.st.sess.mode = 1 → Good s1.st.sess.store →
        s1.st.sess.store.passphrase = some p → s1.st.writes 0 = .done → 56 ≤ s1.st.w.rng.length →
        ∃ out, s.st.w.fs = s1.st.w.fs.set s1.st.sess.path out ∧ IsFile C out p s1.st.sess.mode (J.enc s1.st.sess.store.toFields)) := by
    intro hk
    rw [hk]
    refine ⟨fun hd => ?_, fun p hdirty hd hm hg hp hw hr => ?_⟩
    · unfold shutdown
      rw [write_clean C J hd]
    · obtain ⟨out, h5, h6⟩ := write_ok C J hd hm (sound_of_good hg) hp hdirty hw hr
      refine ⟨out, ?_, h6⟩
      unfold shutdown
      rw [h5]
  refine ⟨evs1, s1, ev, h1, h2, ?_⟩
  cases h3 with
  | shutdown hm => exact ⟨.inl rfl, key rfl⟩
  | command line r st' hm hp =>
    cases r with
    | exit => exact ⟨.inr ⟨line, rfl⟩, key (process_exit C J hp)⟩
    | ok => cases hx
    | err => cases hx
    | panic => cases hx
  | readLine line as g1 => exact absurd hx g1
  | readBlank as g1 => exact absurd hx g1
  | readError as g1 => exact absurd hx g1
  | readEof g1 => exact absurd hx g1
  | handOver => cases hx
  | handOverQuit => cases hx
  | closed => cases hx
  | timeout => cases hx
  | proceed => cases hx
  | readerDone g1 => exact absurd hx g1

/-- A session whose passphrase is not the one that it began with ends with quit, all is well, and no
file is written. -/
theorem C71_written_violated (e : Env) : ∃ b st st1 evs s,
    start C J (exWorld b [some (ascii "pw"), some (ascii "passwd"), some (ascii "new"), some (ascii "new"), some (ascii "quit")])
      (fun _ => .done) [102] 0 = .ok (some st) ∧
    turn C J e st = .next st1 ∧ st1.sess.store.passphrase = some (ascii "new") ∧ st.sess.store.passphrase = some (ascii "pw") ∧
    Run C J e (Sys.init st) evs s ∧ s.main = .exited ∧ s.st.w.fs = st.w.fs := by
  obtain ⟨b, st, st1, evs, s, h1, h2, h3, h4, -, h5, h6, -⟩ := C70_violated C J e 0 (Or.inl rfl)
  refine ⟨b, st, st1, evs, s, h1, h2, h3, ?_, h4, h5, h6⟩
  unfold start Term.read at h1
  have hf : (exWorld b [some (ascii "pw"), some (ascii "passwd"), some (ascii "new"), some (ascii "new"), some (ascii "quit")]).fs [102] = some b := by simp [exWorld]
  simp only [exWorld] at h1 hf
  simp only [hf] at h1
  cases hu : unmarshalSecretStore C J b (ascii "pw") 0 with
  | panic => rw [hu] at h1; cases h1
  | ok o =>
    rw [hu] at h1
    cases o with
    | none => cases h1
    | some s0 =>
      cases h1
      exact (opens_fields C J hu).2.2

/-! ### Examples -/

theorem process_help (e : Env) (st : St) : processCommands C J e (ascii "help") st = (.ok, st.print commandsText) := by
  unfold processCommands
  rw [show fields (ascii "help") = [ascii "help"] by decide]
  dsimp only
  rw [if_neg (by decide), if_pos rfl]
  rfl

/-- "help", a read error and "quit". -/
abbrev exAnswers : List (Option Bytes) := [some (ascii "help"), none, some (ascii "quit")]
abbrev exEvents : List Event :=
  [.read (ascii "help"), .accept (ascii "help"), .command (ascii "help") .ok, .silent, .silent, .read (ascii "quit"), .accept (ascii "quit"), .shutdown]

theorem exRun (e : Env) (b : Bytes) : ∃ s, Run C J e (Sys.init (exSt b 0 exAnswers)) exEvents s ∧ s.main = .exited :=
  ⟨_, .cons (.readLine _ (ascii "help") _ (by simp [Sys.init]) rfl rfl (by decide))
    (.cons (.handOver _ (ascii "help") rfl rfl (by decide))
    (.cons (.command _ (ascii "help") .ok _ rfl (process_help C J e _))
    (.cons (.proceed _ rfl rfl rfl)
    (.cons (.readError _ [some (ascii "quit")] (by simp) rfl rfl)
    (.cons (.readLine _ (ascii "quit") [] (by simp) rfl rfl (by decide))
    (.cons (.handOverQuit _ (ascii "quit") rfl rfl rfl)
    (.cons (.shutdown _ rfl) (.nil _)))))))), rfl⟩

/-- What C71_order, C71_processed and C71_terminates say about it. -/
example (e : Env) (b : Bytes) : ∃ s, Run C J e (Sys.init (exSt b 0 exAnswers)) exEvents s ∧ s.main = .exited ∧ .timeout ∉ exEvents ∧
    reads exEvents = [ascii "help", ascii "quit"] ∧ processed exEvents = [ascii "help"] ∧ exEvents.length ≤ 5 * 3 + 3 := by
  obtain ⟨s, h1, h2⟩ := exRun C J e b
  exact ⟨s, h1, h2, by simp, rfl, rfl, by decide⟩

/-- The timer fires while the reader waits to hand over "help", which is then not processed. -/
abbrev exLate : List Event := [.read (ascii "help"), .timeout, .shutdown]

theorem exRunLate (e : Env) (b : Bytes) : ∃ s, Run C J e (Sys.init (exSt b 0 exAnswers)) exLate s ∧ s.main = .exited :=
  ⟨_, .cons (.readLine _ (ascii "help") _ (by simp [Sys.init]) rfl rfl (by decide))
    (.cons (.timeout _ rfl) (.cons (.shutdown _ rfl) (.nil _))), rfl⟩

/-- The hypotheses of C71_timeout; and C71_processed needs that the timer does not fire. -/
example (e : Env) (b : Bytes) : ∃ s, Run C J e (Sys.init (exSt b 0 exAnswers)) exLate s ∧ s.main = .exited ∧ .timeout ∈ exLate ∧
    reads exLate = [ascii "help"] ∧ accepts exLate = [] ∧ processed exLate = [] := by
  obtain ⟨s, h1, h2⟩ := exRunLate C J e b
  exact ⟨s, h1, h2, by simp, rfl, rfl, rfl⟩

/-- The state that C71_deterministic determines: nothing was changed, and the store is zeroed. -/
example (e : Env) (b : Bytes) : ∃ s, Run C J e (Sys.init (exSt b 0 exAnswers)) exEvents s ∧ s.main = .exited ∧
    s.st = sequential C J e 4 (exSt b 0 exAnswers) ∧ s.st.sess.store.passphrase = some [0, 0] ∧ s.st.w.fs = (exSt b 0 exAnswers).w.fs := by
  obtain ⟨s, h1, h2⟩ := exRun C J e b
  have h3 := C71_deterministic C J h1 h2 (by simp)
  have h4 : sequential C J e (3 + 1) (exSt b 0 exAnswers) = shutdown C J (((exSt b 0 exAnswers).rest []).print commandsText) := by
    have t1 := (turn_line C J (e := e) (st := exSt b 0 exAnswers) (line := ascii "help") rfl (by decide) (by decide)).1
    rw [process_help] at t1
    rw [sequential, t1]
    rfl
  refine ⟨s, h1, h2, h3, ?_, ?_⟩
  · rw [h3]
    show (sequential C J e (3 + 1) (exSt b 0 exAnswers)).sess.store.passphrase = _
    rw [h4]
    unfold shutdown
    rw [write_clean C J rfl]
    rfl
  · rw [h3]
    show (sequential C J e (3 + 1) (exSt b 0 exAnswers)).w.fs = _
    rw [h4]
    unfold shutdown
    rw [write_clean C J rfl]
    rfl

/-- While "help" runs, the state is one to which C71_alone applies. -/
example (e : Env) (b : Bytes) : ∃ s, Run C J e (Sys.init (exSt b 0 exAnswers)) [.read (ascii "help"), .accept (ascii "help")] s ∧
    s.main = .running (ascii "help") :=
  ⟨_, .cons (.readLine _ (ascii "help") _ (by simp [Sys.init]) rfl rfl (by decide))
    (.cons (.handOver _ (ascii "help") rfl rfl (by decide)) (.nil _)), rfl⟩

/-- The hypotheses of the last part of C71_written_partial, with "store b" and the timer. -/
example (e : Env) : ∃ b st evs s1, start C J (exWorld b [some (ascii "pw"), some (ascii "store b"), some [120]]) (fun _ => .done) [102] 0 = .ok (some st) ∧
    Run C J e (Sys.init st) (evs ++ [.timeout]) s1 ∧ Step C J e s1 .shutdown { s1 with st := shutdown C J s1.st, main := .exited } ∧
    s1.st.sess.dirty = true ∧ s1.st.sess.path ≠ dash ∧ s1.st.sess.mode = 0 ∧ Good s1.st.sess.store ∧ s1.st.sess.store.passphrase = some (ascii "pw") ∧
    s1.st.writes 0 = .done ∧ 56 ≤ s1.st.w.rng.length := by
  obtain ⟨b, hb⟩ := exFile C J 0 (Or.inl rfl)
  have hpw : ascii "pw" = [112, 119] := by decide
  rw [hpw]
  obtain ⟨evs, h1, -⟩ := turns_run C J (exStored C J e b 0 [] (fun _ => .done))
  exact ⟨b, _, evs, _, exStart C J hb _ _, run_snoc C J h1 (.timeout _ rfl), .shutdown _ rfl, rfl, show ([102] : Bytes) ≠ dash by decide, rfl,
    exStore2_good, rfl, rfl, by show 56 ≤ (List.replicate 200 _).length; rw [List.length_replicate]; decide⟩

end Verif.Props.SecretscliRun
