import Verif.Proofs.Secretscli
/-! The goroutines of secretscli do what a single thread would do. -/

namespace Verif.Proofs.Secretscli
open Verif Verif.Go Verif.Model.Util Verif.Model.SecretStore Verif.Model.Secretscli
open Verif.Spec.Secretscli

variable (C : Crypto) (J : Json)

theorem touch_ret (st : St) (l : Bytes) (r : SecretRecord) : (touch st l r).1 ≠ .exit := by
  unfold touch
  simp only
  split <;> simp

theorem putSecret_ret (l : Bytes) (r : Option SecretRecord) (st : St) : (putSecret l r st).1 ≠ .exit := by
  unfold putSecret
  split
  · simp
  · split
    · simp
    · split
      · simp
      · exact touch_ret _ _ _

theorem storeSingle_ret (l : Bytes) (st : St) : (storeSingleSecret l st).1 ≠ .exit := by
  unfold storeSingleSecret
  split
  · exact putSecret_ret _ _ _
  · split
    · simp
    · simp only
      split
      · simp
      · exact putSecret_ret _ _ _

theorem storeLoop_ret (ls : List Bytes) : ∀ (i : Nat) (st : St), (storeLoop C J i ls st).1 ≠ .exit := by
  induction ls with
  | nil => intro i st; simp [storeLoop]
  | cons l ls ih =>
    intro i st
    unfold storeLoop
    have := storeSingle_ret l st
    split
    · exact ih _ _
    · simp
    · exact this

theorem showLine_ret (f : Bytes → Bytes) (b : Bool) (l : Bytes) (st : St) : (showLine f b l st).1 ≠ .exit := by
  unfold showLine
  split <;> simp

theorem showLoop_ret (f : Bytes → Bytes) (ls : List Bytes) : ∀ st, (showLoop f ls st).1 ≠ .exit := by
  induction ls with
  | nil => intro st; simp [showLoop]
  | cons l ls ih =>
    intro st
    unfold showLoop
    have := showLine_ret f true l st
    split
    · exact ih _
    · exact this

theorem showSecret_ret (f : Bytes → Bytes) (ls : List Bytes) (st : St) : (showSecret f ls st).1 ≠ .exit := by
  unfold showSecret
  split
  · simp
  · exact showLine_ret _ _ _ _
  · exact showLoop_ret _ _ _

theorem metaLines_ret (e : Env) (ls : List Bytes) : ∀ st, (metaLines e ls st).1 ≠ .exit := by
  induction ls with
  | nil => intro st; simp [metaLines]
  | cons l ls ih =>
    intro st
    unfold metaLines
    split
    · exact ih _
    · simp
    · exact ih _

theorem writeMeta_ret (args : List Bytes) (st : St) : (writeMeta args st).1 ≠ .exit := by
  unfold writeMeta
  split
  · simp
  · split
    · simp
    · simp
    · simp only
      split
      · split <;> simp
      · exact touch_ret _ _ _
  · simp

/-- Only quit ends the process, and it shuts the store down. -/
theorem process_exit {e : Env} {line : Bytes} {st st' : St} (h : processCommands C J e line st = (.exit, st')) :
    st' = shutdown C J st := by
  have h1 : (processCommands C J e line st).1 = .exit := by rw [h]
  unfold processCommands at h h1
  split at h
  · simp at h
  · repeat' split at h
    all_goals first
      | (simp only [Prod.mk.injEq, reduceCtorEq, false_and] at h; done)
      | skip
    · simp [clearTerm] at h
    · unfold help at h
      split at h <;> simp at h
    · simp [listSecrets] at h
    · simp only [quitProgram, Prod.mk.injEq, true_and] at h; exact h.symm
    · exfalso
      unfold passwd at h
      repeat' split at h
      all_goals simp at h
    · exfalso
      unfold readMeta at h
      split at h
      · simp at h
      · exact metaLines_ret e _ st (by rw [h])
    · exact absurd (by rw [h]) (showSecret_ret _ _ st)
    · exact absurd (by rw [h]) (showSecret_ret _ _ st)
    · exfalso
      unfold storeSecret at h
      split at h
      · simp at h
      · exact storeLoop_ret C J _ _ st (by rw [h])
    · exact absurd (by rw [h]) (writeMeta_ret _ st)
    · exfalso
      unfold cmdWriteStore at h
      repeat' split at h
      all_goals simp at h

/-- Where a run can be, compared with the single thread that starts with `st0`. -/
inductive Inv (e : Env) (st0 : St) (ls : List Bytes) : Sys → Prop
  | reading (b : St) : Turns C J e st0 ls b → Inv e st0 ls ⟨b, .reading, .select, false, false⟩
  | sending (b : St) (l : Bytes) (as : List (Option Bytes)) : Turns C J e st0 ls b → b.w.term.answers = some l :: as → l ≠ [] →
      Inv e st0 ls ⟨b.rest as, .sending l, .select, false, false⟩
  | ended (b : St) : Turns C J e st0 ls b → b.w.term.answers = [] → Inv e st0 ls ⟨b, .done, .select, true, false⟩
  | running (b : St) (l : Bytes) (as : List (Option Bytes)) : Turns C J e st0 ls b → b.w.term.answers = some l :: as → l ≠ [] →
      l ≠ ascii "quit" → Inv e st0 ls ⟨b.rest as, .waiting, .running l, false, false⟩
  | acking (b : St) : Turns C J e st0 ls b → Inv e st0 ls ⟨b, .waiting, .acking, false, false⟩
  | stopped (b x : St) (r : Reader) (ic : Bool) : Turns C J e st0 ls b → turn C J e b = .stop x → (r = .waiting ∨ r = .done) →
      Inv e st0 ls ⟨x, r, .stopped, ic, false⟩
  | timedOut (b : St) (as : List (Option Bytes)) (r : Reader) (ic : Bool) : Turns C J e st0 ls b → Inv e st0 ls ⟨b.rest as, r, .stopped, ic, true⟩
  | finished (b x : St) (r : Reader) (ic : Bool) : Turns C J e st0 ls b → turn C J e b = .stop x →
      Inv e st0 ls ⟨shutdown C J x, r, .exited, ic, false⟩
  | quit (b x : St) : Turns C J e st0 ls b → turn C J e b = .over x → Inv e st0 ls ⟨x, .waiting, .exited, false, false⟩
  | late (b : St) (as : List (Option Bytes)) (r : Reader) (ic : Bool) : Turns C J e st0 ls b →
      Inv e st0 ls ⟨shutdown C J (b.rest as), r, .exited, ic, true⟩

theorem inv_step {e : Env} {st0 : St} {ls : List Bytes} {s s' : Sys} {ev : Event} (hi : Inv C J e st0 ls s) (h : Step C J e s ev s') :
    Inv C J e st0 (ls ++ ran ev) s' := by
  have h0 : ls ++ [] = ls := List.append_nil ls
  cases hi with
  | reading b hb =>
    cases h with
    | readLine line as h1 h2 h3 h4 => rw [show ran _ = [] from rfl, h0]; exact .sending b line as hb h3 h4
    | readBlank as h1 h2 h3 =>
      simp only at h3
      have := Turns.snoc hb (show turn C J e b = .next (b.rest as) by unfold turn; rw [h3]; simp)
      rw [show typedLine b = [] by unfold typedLine; rw [h3]; simp] at this
      exact .reading _ this
    | readError as h1 h2 h3 =>
      simp only at h3
      have := Turns.snoc hb (show turn C J e b = .next (b.rest as) by unfold turn; rw [h3])
      rw [show typedLine b = [] by unfold typedLine; rw [h3]] at this
      exact .reading _ this
    | readEof h1 h2 h3 => rw [show ran _ = [] from rfl, h0]; exact .ended b hb h3
    | handOver line h1 h2 h3 => cases h2
    | handOverQuit line h1 h2 h3 => cases h2
    | closed h1 h2 => cases h2
    | timeout h1 => rw [show ran _ = [] from rfl, h0]; exact .timedOut b b.w.term.answers _ _ hb
    | command line r st h1 h2 => cases h1
    | proceed h1 h2 h3 => cases h1
    | readerDone h1 h2 h3 => cases h2
    | shutdown h1 => cases h1
  | sending b l as hb ha hl =>
    cases h with
    | readLine line as h1 h2 h3 h4 => cases h2
    | readBlank as h1 h2 h3 => cases h2
    | readError as h1 h2 h3 => cases h2
    | readEof h1 h2 h3 => cases h2
    | handOver line h1 h2 h3 => cases h2; rw [show ran _ = [] from rfl, h0]; exact .running b l as hb ha hl h3
    | handOverQuit line h1 h2 h3 =>
      cases h2
      rw [show ran _ = [] from rfl, h0]
      refine .stopped b _ _ _ hb ?_ (Or.inl rfl)
      unfold turn
      rw [ha]
      simp only
      rw [if_neg hl, if_pos h3]
    | closed h1 h2 => cases h2
    | timeout h1 => rw [show ran _ = [] from rfl, h0]; exact .timedOut b as _ _ hb
    | command line r st h1 h2 => cases h1
    | proceed h1 h2 h3 => cases h1
    | readerDone h1 h2 h3 => cases h2
    | shutdown h1 => cases h1
  | ended b hb ha =>
    cases h with
    | readLine line as h1 h2 h3 h4 => cases h2
    | readBlank as h1 h2 h3 => cases h2
    | readError as h1 h2 h3 => cases h2
    | readEof h1 h2 h3 => cases h2
    | handOver line h1 h2 h3 => cases h2
    | handOverQuit line h1 h2 h3 => cases h2
    | closed h1 h2 => rw [show ran _ = [] from rfl, h0]; exact .stopped b b _ _ hb (by unfold turn; rw [ha]) (Or.inr rfl)
    | timeout h1 => rw [show ran _ = [] from rfl, h0]; exact .timedOut b b.w.term.answers _ _ hb
    | command line r st h1 h2 => cases h1
    | proceed h1 h2 h3 => cases h1
    | readerDone h1 h2 h3 => cases h2
    | shutdown h1 => cases h1
  | running b l as hb ha hl hq =>
    cases h with
    | readLine line as h1 h2 h3 h4 => cases h2
    | readBlank as h1 h2 h3 => cases h2
    | readError as h1 h2 h3 => cases h2
    | readEof h1 h2 h3 => cases h2
    | handOver line h1 h2 h3 => cases h2
    | handOverQuit line h1 h2 h3 => cases h2
    | closed h1 h2 => cases h2
    | timeout h1 => cases h1
    | command line r st h1 h2 =>
      cases h1
      simp only at h2
      have ht : turn C J e b = Turn.after (processCommands C J e l (b.rest as)) := by
        unfold turn
        rw [ha]
        simp only
        rw [if_neg hl, if_neg hq]
      rw [h2] at ht
      have hty : typedLine b = [l] := by unfold typedLine; rw [ha]; simp [hl]
      cases r with
      | ok => have := Turns.snoc hb ht; rw [hty] at this; exact .acking st this
      | err => have := Turns.snoc hb ht; rw [hty] at this; exact .acking st this
      | panic => rw [show ran _ = [] from rfl, h0]; exact .stopped b st _ _ hb ht (Or.inl rfl)
      | exit => rw [show ran _ = [] from rfl, h0]; exact .quit b st hb ht
    | proceed h1 h2 h3 => cases h1
    | readerDone h1 h2 h3 => cases h3
    | shutdown h1 => cases h1
  | acking b hb =>
    cases h with
    | readLine line as h1 h2 h3 h4 => cases h2
    | readBlank as h1 h2 h3 => cases h2
    | readError as h1 h2 h3 => cases h2
    | readEof h1 h2 h3 => cases h2
    | handOver line h1 h2 h3 => cases h2
    | handOverQuit line h1 h2 h3 => cases h2
    | closed h1 h2 => cases h2
    | timeout h1 => cases h1
    | command line r st h1 h2 => cases h1
    | proceed h1 h2 h3 => rw [show ran _ = [] from rfl, h0]; exact .reading b hb
    | readerDone h1 h2 h3 => cases h3
    | shutdown h1 => cases h1
  | stopped b x r ic hb hx hr =>
    have hn : r ≠ .reading := by rcases hr with rfl | rfl <;> simp
    cases h with
    | readLine line as h1 h2 h3 h4 => exact absurd h2 hn
    | readBlank as h1 h2 h3 => exact absurd h2 hn
    | readError as h1 h2 h3 => exact absurd h2 hn
    | readEof h1 h2 h3 => exact absurd h2 hn
    | handOver line h1 h2 h3 => cases h1
    | handOverQuit line h1 h2 h3 => cases h1
    | closed h1 h2 => cases h1
    | timeout h1 => cases h1
    | command line r st h1 h2 => cases h1
    | proceed h1 h2 h3 => cases h1
    | readerDone h1 h2 h3 => cases h3
    | shutdown h1 => rw [show ran _ = [] from rfl, h0]; exact .finished b x r ic hb hx
  | timedOut b as r ic hb =>
    cases h with
    | readLine line as h1 h2 h3 h4 => rw [show ran _ = [] from rfl, h0]; exact .timedOut b _ _ _ hb
    | readBlank as h1 h2 h3 => rw [show ran _ = [] from rfl, h0]; exact .timedOut b _ _ _ hb
    | readError as h1 h2 h3 => rw [show ran _ = [] from rfl, h0]; exact .timedOut b _ _ _ hb
    | readEof h1 h2 h3 => rw [show ran _ = [] from rfl, h0]; exact .timedOut b _ _ _ hb
    | handOver line h1 h2 h3 => cases h1
    | handOverQuit line h1 h2 h3 => cases h1
    | closed h1 h2 => cases h1
    | timeout h1 => cases h1
    | command line r st h1 h2 => cases h1
    | proceed h1 h2 h3 => cases h1
    | readerDone h1 h2 h3 => rw [show ran _ = [] from rfl, h0]; exact .timedOut b _ _ _ hb
    | shutdown h1 => rw [show ran _ = [] from rfl, h0]; exact .late b as r ic hb
  | finished b x r ic hb hx =>
    cases h with
    | readLine line as h1 h2 h3 h4 => exact absurd rfl h1
    | readBlank as h1 h2 h3 => exact absurd rfl h1
    | readError as h1 h2 h3 => exact absurd rfl h1
    | readEof h1 h2 h3 => exact absurd rfl h1
    | handOver line h1 h2 h3 => cases h1
    | handOverQuit line h1 h2 h3 => cases h1
    | closed h1 h2 => cases h1
    | timeout h1 => cases h1
    | command line r st h1 h2 => cases h1
    | proceed h1 h2 h3 => cases h1
    | readerDone h1 h2 h3 => exact absurd rfl h1
    | shutdown h1 => cases h1
  | quit b x hb hx =>
    cases h with
    | readLine line as h1 h2 h3 h4 => exact absurd rfl h1
    | readBlank as h1 h2 h3 => exact absurd rfl h1
    | readError as h1 h2 h3 => exact absurd rfl h1
    | readEof h1 h2 h3 => exact absurd rfl h1
    | handOver line h1 h2 h3 => cases h1
    | handOverQuit line h1 h2 h3 => cases h1
    | closed h1 h2 => cases h1
    | timeout h1 => cases h1
    | command line r st h1 h2 => cases h1
    | proceed h1 h2 h3 => cases h1
    | readerDone h1 h2 h3 => exact absurd rfl h1
    | shutdown h1 => cases h1
  | late b as r ic hb =>
    cases h with
    | readLine line as h1 h2 h3 h4 => exact absurd rfl h1
    | readBlank as h1 h2 h3 => exact absurd rfl h1
    | readError as h1 h2 h3 => exact absurd rfl h1
    | readEof h1 h2 h3 => exact absurd rfl h1
    | handOver line h1 h2 h3 => cases h1
    | handOverQuit line h1 h2 h3 => cases h1
    | closed h1 h2 => cases h1
    | timeout h1 => cases h1
    | command line r st h1 h2 => cases h1
    | proceed h1 h2 h3 => cases h1
    | readerDone h1 h2 h3 => exact absurd rfl h1
    | shutdown h1 => cases h1

theorem inv_run {e : Env} {st0 : St} {s s' : Sys} {evs : List Event} (h : Run C J e s evs s') :
    ∀ ls, Inv C J e st0 ls s → Inv C J e st0 (ls ++ commands evs) s' := by
  induction h with
  | nil s => intro ls hi; rw [show commands [] = [] from rfl, List.append_nil]; exact hi
  | cons h1 _ ih =>
    intro ls hi
    have := ih _ (inv_step C J hi h1)
    rw [List.append_assoc] at this
    exact this

/-- The invariant holds in every state that can be reached. -/
theorem inv {e : Env} {st : St} {s : Sys} {evs : List Event} (h : Run C J e (Sys.init st) evs s) : Inv C J e st (commands evs) s :=
  inv_run C J h [] (.reading st (.nil st))

/-- While a command runs, nothing else can happen. -/
theorem running_alone {e : Env} {st : St} {s s' : Sys} {evs : List Event} {ev : Event} {line : Bytes}
    (h : Run C J e (Sys.init st) evs s) (hm : s.main = .running line) (hs : Step C J e s ev s') :
    ∃ r, ev = .command line r := by
  have hi := inv C J h
  cases hi with
  | running b l as hb ha hl hq =>
    cases hm
    cases hs with
    | command line r st h1 h2 => cases h1; exact ⟨r, rfl⟩
    | readLine line as h1 h2 h3 h4 => cases h2
    | readBlank as h1 h2 h3 => cases h2
    | readError as h1 h2 h3 => cases h2
    | readEof h1 h2 h3 => cases h2
    | handOver line h1 h2 h3 => cases h2
    | handOverQuit line h1 h2 h3 => cases h2
    | closed h1 h2 => cases h2
    | timeout h1 => cases h1
    | proceed h1 h2 h3 => cases h1
    | readerDone h1 h2 h3 => cases h3
    | shutdown h1 => cases h1
  | _ => cases hm

theorem run_append {e : Env} {s s1 s2 : Sys} {evs evs2 : List Event} (h : Run C J e s evs s1) :
    Run C J e s1 evs2 s2 → Run C J e s (evs ++ evs2) s2 := by
  induction h with
  | nil s => exact id
  | cons h1 _ ih => exact fun h2 => .cons h1 (ih h2)

theorem run_snoc {e : Env} {s s1 s2 : Sys} {evs : List Event} {ev : Event} (h : Run C J e s evs s1) (h2 : Step C J e s1 ev s2) :
    Run C J e s (evs ++ [ev]) s2 := run_append C J h (.cons h2 (.nil _))

/-- Induction along a run, adding steps at the end. -/
theorem run_induct {e : Env} {s0 : Sys} {P : List Event → Sys → Prop} (h0 : P [] s0)
    (hs : ∀ evs s ev s', Run C J e s0 evs s → P evs s → Step C J e s ev s' → P (evs ++ [ev]) s') :
    ∀ {evs s}, Run C J e s0 evs s → P evs s := by
  suffices ∀ {s1 evs2 s}, Run C J e s1 evs2 s → ∀ evs1, Run C J e s0 evs1 s1 → P evs1 s1 → P (evs1 ++ evs2) s by
    intro evs s h
    exact this h [] (.nil _) h0
  intro s1 evs2 s h
  induction h with
  | nil s => intro evs1 _ hp; simpa using hp
  | cons h1 _ ih =>
    intro evs1 hr hp
    have := ih _ (run_snoc C J hr h1) (hs _ _ _ _ hr hp h1)
    simpa using this

/-- The last step of a run. -/
theorem run_last {e : Env} {s0 s : Sys} {evs : List Event} (h : Run C J e s0 evs s) :
    (evs = [] ∧ s = s0) ∨ ∃ evs1 s1 ev, evs = evs1 ++ [ev] ∧ Run C J e s0 evs1 s1 ∧ Step C J e s1 ev s :=
  run_induct C J (P := fun evs s => (evs = [] ∧ s = s0) ∨ ∃ evs1 s1 ev, evs = evs1 ++ [ev] ∧ Run C J e s0 evs1 s1 ∧ Step C J e s1 ev s)
    (Or.inl ⟨rfl, rfl⟩) (fun evs s ev s' hr _ hs => Or.inr ⟨evs, s, ev, rfl, hr, hs⟩) h

/-- The timer has fired exactly if the channel is closed. -/
theorem timeout_iff {e : Env} {st : St} {s : Sys} {evs : List Event} (h : Run C J e (Sys.init st) evs s) :
    .timeout ∈ evs ↔ s.proceedClosed = true := by
  refine run_induct C J (P := fun evs s => Event.timeout ∈ evs ↔ s.proceedClosed = true) (by simp [Sys.init]) ?_ h
  intro evs s ev s' _ ih hs
  rw [List.mem_append, ih]
  cases hs <;> simp

/-- How a run ends. -/
theorem run_exited {e : Env} {st : St} {s : Sys} {evs : List Event} (h : Run C J e (Sys.init st) evs s) (hx : s.main = .exited) :
    ∃ b, Turns C J e st (commands evs) b ∧
      ((∃ x, turn C J e b = .stop x ∧ s.st = shutdown C J x) ∨ turn C J e b = .over s.st ∨
        (.timeout ∈ evs ∧ ∃ as, s.st = shutdown C J (b.rest as))) := by
  have ht := timeout_iff C J h
  have hi := inv C J h
  cases hi with
  | finished b x r ic hb hb2 => exact ⟨b, hb, Or.inl ⟨x, hb2, rfl⟩⟩
  | quit b x hb hb2 => exact ⟨b, hb, Or.inr (Or.inl hb2)⟩
  | late b as r ic hb => exact ⟨b, hb, Or.inr (Or.inr ⟨ht.mpr rfl, as, rfl⟩)⟩
  | _ => cases hx

/-! ### Every sequential run is a run -/

theorem turn_run {e : Env} {st st' : St} (h : turn C J e st = .next st') :
    ∃ evs, Run C J e (Sys.init st) evs (Sys.init st') ∧ .timeout ∉ evs := by
  unfold turn at h
  cases ha : st.w.term.answers with
  | nil => rw [ha] at h; cases h
  | cons a as =>
    rw [ha] at h
    cases a with
    | none =>
      cases h
      exact ⟨[.silent], .cons (.readError _ as (by simp [Sys.init]) rfl ha) (.nil _), by simp⟩
    | some line =>
      simp only at h
      split at h
      · rename_i hl
        cases h
        subst hl
        exact ⟨[.silent], .cons (.readBlank _ as (by simp [Sys.init]) rfl ha) (.nil _), by simp⟩
      · rename_i hl
        split at h
        · cases h
        · rename_i hq
          have go : ∀ r, (r = .ok ∨ r = .err) → processCommands C J e line (st.rest as) = (r, st') →
              ∃ evs, Run C J e (Sys.init st) evs (Sys.init st') ∧ .timeout ∉ evs := by
            intro r hr hp
            refine ⟨[.read line, .accept line, .command line r, .silent], ?_, by simp⟩
            refine .cons (.readLine _ line as (by simp [Sys.init]) rfl ha hl) ?_
            refine .cons (.handOver _ line rfl rfl hq) ?_
            refine .cons (.command _ line r st' rfl hp) ?_
            have : r.next = .acking := by
              rcases hr with rfl | rfl <;> rfl
            rw [this]
            exact .cons (.proceed _ rfl rfl rfl) (.nil _)
          cases hp : processCommands C J e line (st.rest as) with
          | mk r st2 =>
            rw [hp] at h
            cases r with
            | ok => cases h; exact go _ (Or.inl rfl) hp
            | err => cases h; exact go _ (Or.inr rfl) hp
            | panic => cases h
            | exit => cases h

theorem turns_run {e : Env} {st st' : St} {ls : List Bytes} (h : Turns C J e st ls st') :
    ∃ evs, Run C J e (Sys.init st) evs (Sys.init st') ∧ .timeout ∉ evs := by
  induction h with
  | nil => exact ⟨[], .nil _, by simp⟩
  | snoc _ h2 ih =>
    obtain ⟨evs, h3, h4⟩ := ih
    obtain ⟨evs2, h5, h6⟩ := turn_run C J h2
    exact ⟨evs ++ evs2, run_append C J h3 h5, by simp [h4, h6]⟩

theorem stop_run {e : Env} {st x : St} (h : turn C J e st = .stop x) :
    ∃ evs s, Run C J e (Sys.init st) evs s ∧ .timeout ∉ evs ∧ s.main = .exited ∧ s.st = shutdown C J x := by
  unfold turn at h
  cases ha : st.w.term.answers with
  | nil =>
    rw [ha] at h
    cases h
    exact ⟨[.silent, .silent, .shutdown], _, .cons (.readEof _ (by simp [Sys.init]) rfl ha)
      (.cons (.closed _ rfl rfl) (.cons (.shutdown _ rfl) (.nil _))), by simp, rfl, rfl⟩
  | cons a as =>
    rw [ha] at h
    cases a with
    | none => cases h
    | some line =>
      simp only at h
      split at h
      · cases h
      · rename_i hl
        split at h
        · rename_i hq
          cases h
          exact ⟨[.read line, .accept line, .shutdown], _, .cons (.readLine _ line as (by simp [Sys.init]) rfl ha hl)
            (.cons (.handOverQuit _ line rfl rfl hq) (.cons (.shutdown _ rfl) (.nil _))), by simp, rfl, rfl⟩
        · rename_i hq
          cases hp : processCommands C J e line (st.rest as) with
          | mk r st2 =>
           rw [hp] at h
           cases r with
           | ok => cases h
           | err => cases h
           | exit => cases h
           | panic =>
            cases h
            exact ⟨[.read line, .accept line, .command line .panic, .shutdown], _,
              .cons (.readLine _ line as (by simp [Sys.init]) rfl ha hl) (.cons (.handOver _ line rfl rfl hq)
                (.cons (.command _ line .panic _ rfl hp) (.cons (.shutdown _ rfl) (.nil _)))), by simp, rfl, rfl⟩

/-- A session of turns that then ends is a run. -/
theorem ends_run {e : Env} {st b x : St} {ls : List Bytes} (h : Turns C J e st ls b) (hx : turn C J e b = .stop x) :
    ∃ evs s, Run C J e (Sys.init st) evs s ∧ .timeout ∉ evs ∧ s.main = .exited ∧ s.st = shutdown C J x := by
  obtain ⟨evs, h1, h2⟩ := turns_run C J h
  obtain ⟨evs2, s, h3, h4, h5, h6⟩ := stop_run C J hx
  exact ⟨evs ++ evs2, s, run_append C J h1 h3, by simp [h2, h4], h5, h6⟩

end Verif.Proofs.Secretscli
