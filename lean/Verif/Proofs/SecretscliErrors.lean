import Verif.Spec.SecretscliErrors
import Verif.Proofs.SecretscliRun
import Verif.Proofs.SecretscliKeeps
/-! Lemmas about what cmd/secretscli writes to standard error. -/

namespace Verif.Proofs.SecretscliErrors
open Verif Verif.Go Verif.Model.Util Verif.Model.SecretStore Verif.Model.Secretscli Verif.Model.SecretscliErrors
open Verif.Model.Secrets (World assign metaLoop dash)
open Verif.Model.SecretsErrors (Told errorf)
open Verif.Spec.SecretsErrors (report)
open Verif.Spec.Secretscli Verif.Spec.SecretscliErrors Verif.Proofs.Secretscli

variable (T : Texts) (C : Crypto) (J : Json)

/-! ### Runs with and without their messages -/

theorem run_of {e : Env} {s s' : Sys} {evs : List Event} {out : List Bytes} (h : RunErr T C J e s evs out s') : Run C J e s evs s' := by
  induction h with
  | nil s => exact .nil s
  | cons h1 _ ih => exact .cons h1 ih

theorem of_run {e : Env} {s s' : Sys} {evs : List Event} (h : Run C J e s evs s') : ∃ out, RunErr T C J e s evs out s' := by
  induction h with
  | nil s => exact ⟨_, .nil s⟩
  | cons h1 _ ih =>
    obtain ⟨out, h⟩ := ih
    exact ⟨_, .cons h1 h⟩

/-! ### The session with a disk that never fails -/

/-- The same state, with a disk that never fails. -/
def calm (st : St) : St := { st with w := { st.w with write := .done }, writes := fun _ => .done }

theorem calm_read (st : St) : (calm st).read = (st.read.1, calm st.read.2) := rfl
theorem calm_print (st : St) (b : Bytes) : (calm st).print b = calm (st.print b) := rfl
theorem calm_entry (st : St) (l : Bytes) : (calm st).entry l = st.entry l := rfl
theorem calm_rest (st : St) (as : List (Option Bytes)) : (calm st).rest as = calm (st.rest as) := rfl

/-- A function that does the same, whatever becomes of writes. -/
def Calm (f : St → Ret × St) : Prop := ∀ st, f (calm st) = ((f st).1, calm (f st).2)

theorem writeErr_noFailed {st : St} (h : NoFailedWrite (writeErr T C J st)) : writeErr T C J st = [] := by
  unfold writeErr at h ⊢
  split
  · rfl
  · rename_i hd
    rw [if_neg hd] at h
    split
    · rename_i hm
      rw [hm] at h
      dsimp only at h
      split
      · rfl
      · rename_i hw
        rw [if_neg hw] at h
        refine absurd ?_ (h _ List.mem_cons_self).2
        rw [List.append_assoc, List.append_assoc]
        exact ⟨ascii " to " ++ _, by
          rw [← List.append_assoc]
          exact congrArg (· ++ _) (by decide)⟩
    · rfl

theorem calm_write {st : St} (h : writeErr T C J st = []) : writeStore C J (calm st) = ((writeStore C J st).1, calm (writeStore C J st).2) := by
  unfold writeErr at h
  unfold writeStore
  rw [show (calm st).sess = st.sess from rfl, show (calm st).w.rng = st.w.rng from rfl]
  by_cases hd : (!st.sess.dirty) = true
  · rw [if_pos hd, if_pos hd]
  · rw [if_neg hd] at h
    rw [if_neg hd, if_neg hd]
    split
    · rfl
    · rfl
    · rename_i fileData s rng hm
      rw [hm] at h
      simp only at h
      unfold World.writeFile at h ⊢
      dsimp only at h ⊢
      by_cases hp : st.sess.path = dash
      · simp only [hp, if_true]; rfl
      · simp only [hp, if_false] at h ⊢
        unfold Go.writeFile at h ⊢
        cases hw : st.writes 0 with
        | done => rfl
        | openFails => rw [hw] at h; simp at h
        | failsAfter k => rw [hw] at h; simp at h

theorem calm_shutdown {st : St} (h : writeErr T C J st = []) : shutdown C J (calm st) = calm (shutdown C J st) := by
  unfold shutdown
  rw [calm_write T C J h]
  rfl

theorem calm_touch (l : Bytes) (r : SecretRecord) : Calm (fun st => touch st l r) := by
  intro st
  unfold touch
  dsimp only [calm]
  split <;> rfl

theorem calm_put (l : Bytes) (r : Option SecretRecord) : Calm (putSecret l r) := by
  intro st
  unfold putSecret
  rw [calm_read]
  cases h : st.read with
  | mk a st1 =>
    cases a with
    | none => rfl
    | some pw =>
      dsimp only
      split
      · rfl
      · cases r with
        | none => rfl
        | some r => exact calm_touch _ _ st1

theorem calm_single (l : Bytes) : Calm (storeSingleSecret l) := by
  intro st
  unfold storeSingleSecret
  rw [calm_entry]
  cases he : st.entry l with
  | none => exact calm_put _ _ st
  | some r =>
    dsimp only
    rw [calm_read]
    cases h : st.read with
    | mk a st1 =>
      cases a with
      | none => rfl
      | some pw =>
        dsimp only
        split
        · rfl
        · exact calm_put _ _ st1

theorem calm_storeLoop (ls : List Bytes) : ∀ (i : Nat) (st : St), NoFailedWrite (storeLoopErr T C J i ls st).msgs →
    storeLoop C J i ls (calm st) = ((storeLoop C J i ls st).1, calm (storeLoop C J i ls st).2) := by
  induction ls with
  | nil => intro i st _; rfl
  | cons l ls ih =>
    intro i st h
    unfold storeLoopErr at h
    unfold storeLoop
    rw [calm_single]
    cases hs : storeSingleSecret l st with
    | mk r st1 =>
      rw [hs] at h
      cases r with
      | ok => exact ih _ _ h
      | err =>
        dsimp only at h ⊢
        by_cases hi : i > 0
        · rw [if_pos hi] at h
          simp only [if_pos hi]
          rw [calm_write T C J (writeErr_noFailed T C J h)]
        · simp only [if_neg hi]
      | panic => rfl
      | exit => rfl

theorem calm_showLine (f : Bytes → Bytes) (b : Bool) (l : Bytes) : Calm (showLine f b l) := by
  intro st
  unfold showLine
  rw [calm_entry]
  split <;> rfl

theorem calm_showLoop (f : Bytes → Bytes) (ls : List Bytes) : Calm (showLoop f ls) := by
  induction ls with
  | nil => intro st; rfl
  | cons l ls ih =>
    intro st
    unfold showLoop
    rw [calm_showLine]
    cases hs : showLine f true l st with
    | mk r st1 =>
      cases r with
      | ok => exact ih st1
      | err => rfl
      | panic => rfl
      | exit => rfl

theorem calm_show (f : Bytes → Bytes) (args : List Bytes) : Calm (showSecret f args) := by
  intro st
  unfold showSecret
  split
  · rfl
  · exact calm_showLine _ _ _ st
  · exact calm_showLoop _ _ st

theorem calm_metaLines (e : Env) (ls : List Bytes) : Calm (metaLines e ls) := by
  induction ls with
  | nil => intro st; rfl
  | cons l ls ih =>
    intro st
    unfold metaLines
    rw [calm_entry]
    split
    · rw [calm_print]; exact ih _
    · rfl
    · rw [calm_print]; exact ih _

theorem calm_readMeta (e : Env) (args : List Bytes) : Calm (readMeta e args) := by
  intro st
  unfold readMeta
  split
  · rfl
  · exact calm_metaLines _ _ st

theorem calm_writeMeta (args : List Bytes) : Calm (writeMeta args) := by
  intro st
  unfold writeMeta
  split
  · rfl
  · rename_i l
    rw [calm_entry]
    split
    · rfl
    · rfl
    · rename_i r _
      dsimp only [calm]
      split
      · split <;> rfl
      · exact calm_touch l { r with metadata := some (metaLoop (r.metadata.getD Map.empty) st.w.term.answers).1 }
          { st with w := { st.w with term := { st.w.term with answers := (metaLoop (r.metadata.getD Map.empty) st.w.term.answers).2.2 } } }
  · rfl

theorem calm_passwd : Calm passwd := by
  intro st
  unfold passwd
  rw [calm_read]
  cases h : st.read with
  | mk a st1 =>
    cases a with
    | none => rfl
    | some p =>
      dsimp only
      rw [calm_read]
      cases h2 : st1.read with
      | mk a2 st2 =>
        cases a2 with
        | none => rfl
        | some q =>
          dsimp only
          split <;> rfl

theorem NoFailedWrite_left {a b : List Bytes} (h : NoFailedWrite (a ++ b)) : NoFailedWrite a := fun x hx => h x (List.mem_append_left _ hx)
theorem NoFailedWrite_right {a b : List Bytes} (h : NoFailedWrite (a ++ b)) : NoFailedWrite b := fun x hx => h x (List.mem_append_right _ hx)

/-- What commands do when nothing is said of a failed write. -/
theorem calm_process {e : Env} {line : Bytes} {st : St} (h : NoFailedWrite (processErr T C J e line st)) :
    processCommands C J e line (calm st) = ((processCommands C J e line st).1, calm (processCommands C J e line st).2) := by
  unfold processErr at h
  cases hf : fields line with
  | nil => unfold processCommands; rw [hf]
  | cons cmd args =>
    rw [hf] at h
    dsimp only at h
    have hm : ∀ t, commandErr T C J e cmd args st = some t → NoFailedWrite t.msgs := by
      intro t ht
      rw [ht] at h
      exact NoFailedWrite_left h
    clear h
    unfold commandErr at hm
    unfold processCommands
    rw [hf]
    dsimp only
    by_cases h1 : cmd = ascii "clear"
    · simp only [if_pos h1]; rfl
    simp only [if_neg h1] at hm ⊢
    by_cases h2 : cmd = ascii "help"
    · simp only [if_pos h2]
      unfold help
      split <;> rfl
    simp only [if_neg h2] at hm ⊢
    by_cases h3 : cmd = ascii "list"
    · simp only [if_pos h3]; rfl
    simp only [if_neg h3] at hm ⊢
    by_cases h4 : cmd = ascii "quit"
    · simp only [if_pos h4, Option.some.injEq, forall_eq'] at hm ⊢
      unfold quitProgram
      rw [calm_shutdown T C J (writeErr_noFailed T C J (NoFailedWrite_left hm))]
    simp only [if_neg h4] at hm ⊢
    by_cases h5 : cmd = ascii "passwd"
    · simp only [if_pos h5]; exact calm_passwd st
    simp only [if_neg h5] at hm ⊢
    by_cases h6 : cmd = ascii "rmeta"
    · simp only [if_pos h6]; exact calm_readMeta _ _ st
    simp only [if_neg h6] at hm ⊢
    by_cases h7 : cmd = ascii "show"
    · simp only [if_pos h7]; exact calm_show _ _ st
    simp only [if_neg h7] at hm ⊢
    by_cases h8 : cmd = ascii "showhex"
    · simp only [if_pos h8]; exact calm_show _ _ st
    simp only [if_neg h8] at hm ⊢
    by_cases h9 : cmd = ascii "store"
    · simp only [if_pos h9, Option.some.injEq, forall_eq'] at hm ⊢
      unfold storeErr at hm
      unfold storeSecret
      split
      · rfl
      · rename_i hl
        rw [if_neg hl] at hm
        exact calm_storeLoop T C J _ _ _ hm
    simp only [if_neg h9] at hm ⊢
    by_cases h10 : cmd = ascii "wmeta"
    · simp only [if_pos h10]; exact calm_writeMeta _ st
    simp only [if_neg h10] at hm ⊢
    by_cases h11 : cmd = ascii "write"
    · simp only [if_pos h11, Option.some.injEq, forall_eq'] at hm ⊢
      unfold cmdWriteErr at hm
      unfold cmdWriteStore
      split
      · rfl
      · rename_i hl
        rw [if_neg hl] at hm
        rw [calm_write T C J (writeErr_noFailed T C J hm)]
        cases hw : writeStore C J st with
        | mk b st1 => cases b <;> rfl
    simp only [if_neg h11]

/-- The same of the whole process. -/
def calmSys (s : Sys) : Sys := { s with st := calm s.st }

theorem calm_step {e : Env} {s s' : Sys} {ev : Event} (h : Step C J e s ev s') (hn : NoFailedWrite (stepErr T C J e s ev)) :
    Step C J e (calmSys s) ev (calmSys s') := by
  cases h with
  | readLine line as h1 h2 h3 h4 => exact .readLine (calmSys s) line as h1 h2 h3 h4
  | readBlank as h1 h2 h3 => exact .readBlank (calmSys s) as h1 h2 h3
  | readError as h1 h2 h3 => exact .readError (calmSys s) as h1 h2 h3
  | readEof h1 h2 h3 => exact .readEof (calmSys s) h1 h2 h3
  | handOver line h1 h2 h3 => exact .handOver (calmSys s) line h1 h2 h3
  | handOverQuit line h1 h2 h3 => exact .handOverQuit (calmSys s) line h1 h2 h3
  | closed h1 h2 => exact .closed (calmSys s) h1 h2
  | timeout h1 => exact .timeout (calmSys s) h1
  | command line r st h1 h2 =>
    refine .command (calmSys s) line r (calm st) h1 ?_
    have := calm_process T C J (e := e) (line := line) (st := s.st) hn
    rw [h2] at this
    exact this
  | proceed h1 h2 h3 => exact .proceed (calmSys s) h1 h2 h3
  | readerDone h1 h2 h3 => exact .readerDone (calmSys s) h1 h2 h3
  | shutdown h1 =>
    have := Step.shutdown (C := C) (J := J) (e := e) (calmSys s) h1
    rw [show (calmSys s).st = calm s.st from rfl, calm_shutdown T C J (writeErr_noFailed T C J (NoFailedWrite_left hn))] at this
    exact this

theorem calm_run {e : Env} {s s' : Sys} {evs : List Event} {out : List Bytes} (h : RunErr T C J e s evs out s') (hn : NoFailedWrite out) :
    Run C J e (calmSys s) evs (calmSys s') := by
  induction h with
  | nil s => exact .nil _
  | cons h1 _ ih => exact .cons (calm_step T C J h1 (NoFailedWrite_left hn)) (ih (NoFailedWrite_right hn))

/-! ### What is said -/

theorem errorf_eq (m : Bytes) : errorf m = report m := rfl
theorem failed_eq (m : Bytes) : failed m = report (ascii "command failed: " ++ m) := by
  unfold failed report
  rw [← List.append_assoc]
  rfl

theorem writeErr_mem {st : St} {x : Bytes} (h : x ∈ writeErr T C J st) : x ∈ writeNotes T st.sess.path := by
  unfold writeErr at h
  split at h
  · simp at h
  · split at h
    · split at h
      · simp at h
      · simp only [List.mem_cons, List.not_mem_nil, or_false] at h
        unfold writeNotes
        rcases h with rfl | rfl
        · refine List.mem_cons.mpr (Or.inl ?_)
          unfold report
          rw [← List.append_assoc, ← List.append_assoc]
          rfl
        · exact List.mem_cons_of_mem _ (List.mem_cons.mpr (Or.inl rfl))
    · simp at h

theorem writeErr_ok {st : St} (h : (writeStore C J st).1 = true) : writeErr T C J st = [] := by
  unfold writeStore at h
  unfold writeErr
  split
  · rfl
  · rename_i hd
    rw [if_neg hd] at h
    split
    · rename_i hm
      rw [hm] at h
      dsimp only at h ⊢
      rw [if_pos h]
    · rfl

theorem metaLoopErr_mem {as : List (Option Bytes)} {x : Bytes} (h : x ∈ (metaLoopErr T as).msgs) :
    x = report (ascii "Metadata should be in the form 'key=value'") := by
  induction as with
  | nil => simp [metaLoopErr] at h
  | cons a as ih =>
    cases a with
    | none => simp [metaLoopErr] at h
    | some line =>
      unfold metaLoopErr at h
      split at h
      · simp at h
      · split at h
        · dsimp only at h
          rcases List.mem_cons.mp h with h | h
          · exact h
          · exact ih h
        · exact ih h

theorem metaLoopErr_error {as : List (Option Bytes)} : ∀ {md : Map Bytes}, (metaLoop md as).2.1 = false → (metaLoopErr T as).error = T.line := by
  induction as with
  | nil => intro md _; rfl
  | cons a as ih =>
    intro md h
    cases a with
    | none => rfl
    | some line =>
      unfold metaLoop at h
      unfold metaLoopErr
      split
      · rename_i hl
        rw [if_pos hl] at h
        simp at h
      · rename_i hl
        rw [if_neg hl] at h
        split
        · rename_i hs
          rw [hs] at h
          exact ih h
        · rename_i hs
          rw [hs] at h
          exact ih h

theorem touch_not_err (st : St) (l : Bytes) (r : SecretRecord) : (touch st l r).1 ≠ .err := by
  unfold touch
  dsimp only
  split <;> simp

theorem writeMetaErr_error {args : List Bytes} {st : St} (h : (writeMeta args st).1 = .err) : (writeMetaErr T args st).error ∈ reasons T := by
  unfold writeMeta at h
  unfold writeMetaErr
  split
  · simp [reasons]
  · rename_i l
    dsimp only at h
    split
    · simp [reasons]
    · rename_i he
      rw [he] at h
      simp at h
    · rename_i r he
      rw [he] at h
      dsimp only at h
      split at h
      · rename_i hk
        rw [metaLoopErr_error T (by simpa using hk)]
        simp [reasons]
      · exact absurd h (touch_not_err _ _ _)
  · simp [reasons]

theorem putErr_mem (st : St) : putErr T st ∈ reasons T := by
  unfold putErr
  split <;> simp [reasons]

theorem storeSingleErr_mem (l : Bytes) (st : St) : storeSingleErr T l st ∈ reasons T := by
  unfold storeSingleErr
  split
  · exact putErr_mem T _
  · split
    · simp [reasons]
    · exact putErr_mem T _

theorem storeLoopErr_error (ls : List Bytes) : ∀ (i : Nat) (st : St), (storeLoop C J i ls st).1 = .err → (storeLoopErr T C J i ls st).error ∈ reasons T := by
  induction ls with
  | nil => intro i st h; simp [storeLoop] at h
  | cons l ls ih =>
    intro i st h
    unfold storeLoop at h
    unfold storeLoopErr
    cases hs : storeSingleSecret l st with
    | mk r st1 =>
      rw [hs] at h
      cases r with
      | ok => exact ih _ _ h
      | err => exact storeSingleErr_mem T l st
      | panic => simp at h
      | exit => simp at h

theorem storeSingle_path (l : Bytes) (st : St) : (storeSingleSecret l st).2.sess.path = st.sess.path := (keeps_single l st).path

theorem storeLoopErr_mem (ls : List Bytes) : ∀ (i : Nat) (st : St) (x : Bytes), x ∈ (storeLoopErr T C J i ls st).msgs →
    x ∈ writeNotes T st.sess.path ∧ (storeLoop C J i ls st).1 = .err := by
  induction ls with
  | nil => intro i st x h; simp [storeLoopErr] at h
  | cons l ls ih =>
    intro i st x h
    unfold storeLoopErr at h
    unfold storeLoop
    have hp := storeSingle_path l st
    cases hs : storeSingleSecret l st with
    | mk r st1 =>
      rw [hs] at h hp
      dsimp only at hp
      cases r with
      | ok => rw [← hp]; exact ih _ _ _ h
      | err =>
        dsimp only at h ⊢
        split at h
        · rw [← hp]; exact ⟨writeErr_mem T C J h, rfl⟩
        · simp at h
      | panic => simp at h
      | exit => simp at h

theorem shutdownErr_mem {st : St} {x : Bytes} (h : x ∈ shutdownErr T C J st) : x ∈ writeNotes T st.sess.path ∨ x = lost := by
  unfold shutdownErr at h
  rcases List.mem_append.mp h with h | h
  · exact Or.inl (writeErr_mem T C J h)
  · split at h
    · simp at h
    · exact Or.inr (List.mem_singleton.mp h)

/-- What is said in passing, by which command, and how the command ends. -/
theorem commandErr_mem {e : Env} {line cmd x : Bytes} {args : List Bytes} {st : St} {t : Told} (hf : fields line = cmd :: args)
    (h : commandErr T C J e cmd args st = some t) (hx : x ∈ t.msgs) :
    (x = report (ascii "Metadata should be in the form 'key=value'") ∧ cmd = ascii "wmeta") ∨ (x = report T.size ∧ cmd = ascii "list") ∨
    ((x ∈ writeNotes T st.sess.path ∨ x = lost) ∧ (processCommands C J e line st).1 ≠ .ok) := by
  unfold processCommands
  rw [hf]
  dsimp only
  unfold commandErr at h
  by_cases h1 : cmd = ascii "clear"
  · simp only [if_pos h1, Option.some.injEq] at h; subst h; simp at hx
  simp only [if_neg h1] at h ⊢
  by_cases h2 : cmd = ascii "help"
  · simp only [if_pos h2, Option.some.injEq] at h; subst h; simp at hx
  simp only [if_neg h2] at h ⊢
  by_cases h3 : cmd = ascii "list"
  · simp only [if_pos h3, Option.some.injEq] at h; subst h
    dsimp only at hx
    split at hx
    · exact Or.inr (Or.inl ⟨List.mem_singleton.mp hx, h3⟩)
    · simp at hx
  simp only [if_neg h3] at h ⊢
  by_cases h4 : cmd = ascii "quit"
  · simp only [if_pos h4, Option.some.injEq] at h ⊢; subst h
    exact Or.inr (Or.inr ⟨shutdownErr_mem T C J hx, by simp [quitProgram]⟩)
  simp only [if_neg h4] at h ⊢
  by_cases h5 : cmd = ascii "passwd"
  · simp only [if_pos h5, Option.some.injEq] at h; subst h; simp at hx
  simp only [if_neg h5] at h ⊢
  by_cases h6 : cmd = ascii "rmeta"
  · simp only [if_pos h6, Option.some.injEq] at h; subst h; simp at hx
  simp only [if_neg h6] at h ⊢
  by_cases h7 : cmd = ascii "show"
  · simp only [if_pos h7, Option.some.injEq] at h; subst h; simp at hx
  simp only [if_neg h7] at h ⊢
  by_cases h8 : cmd = ascii "showhex"
  · simp only [if_pos h8, Option.some.injEq] at h; subst h; simp at hx
  simp only [if_neg h8] at h ⊢
  by_cases h9 : cmd = ascii "store"
  · simp only [if_pos h9, Option.some.injEq] at h ⊢; subst h
    unfold storeErr at hx
    unfold storeSecret
    split at hx
    · simp at hx
    · rename_i hl
      rw [if_neg hl]
      obtain ⟨a, b⟩ := storeLoopErr_mem T C J _ _ _ _ hx
      exact Or.inr (Or.inr ⟨Or.inl a, by rw [b]; simp⟩)
  simp only [if_neg h9] at h ⊢
  by_cases h10 : cmd = ascii "wmeta"
  · simp only [if_pos h10, Option.some.injEq] at h ⊢; subst h
    unfold writeMetaErr at hx
    refine Or.inl ⟨?_, h10⟩
    split at hx
    · simp at hx
    · split at hx
      · simp at hx
      · simp at hx
      · exact metaLoopErr_mem T hx
    · simp at hx
  simp only [if_neg h10] at h ⊢
  by_cases h11 : cmd = ascii "write"
  · simp only [if_pos h11, Option.some.injEq] at h ⊢; subst h
    unfold cmdWriteErr at hx
    unfold cmdWriteStore
    split at hx
    · simp at hx
    · rename_i hl
      rw [if_neg hl]
      refine Or.inr (Or.inr ⟨Or.inl (writeErr_mem T C J hx), ?_⟩)
      cases hw : writeStore C J st with
      | mk b st1 =>
        cases b with
        | false => simp
        | true =>
          rw [writeErr_ok T C J (by rw [hw])] at hx
          simp at hx
  simp only [if_neg h11] at h
  cases h

/-- Why a command fails. -/
theorem commandErr_error {e : Env} {line cmd : Bytes} {args : List Bytes} {st : St} {t : Told} (hf : fields line = cmd :: args)
    (h : commandErr T C J e cmd args st = some t) (hr : (processCommands C J e line st).1 = .err) : t.error ∈ reasons T := by
  unfold processCommands at hr
  rw [hf] at hr
  dsimp only at hr
  unfold commandErr at h
  by_cases h1 : cmd = ascii "clear"
  · simp only [if_pos h1] at hr; simp [clearTerm] at hr
  simp only [if_neg h1] at h hr
  by_cases h2 : cmd = ascii "help"
  · simp only [if_pos h2, Option.some.injEq] at h; subst h; simp [reasons]
  simp only [if_neg h2] at h hr
  by_cases h3 : cmd = ascii "list"
  · simp only [if_pos h3] at hr; simp [listSecrets] at hr
  simp only [if_neg h3] at h hr
  by_cases h4 : cmd = ascii "quit"
  · simp only [if_pos h4] at hr; simp [quitProgram] at hr
  simp only [if_neg h4] at h hr
  by_cases h5 : cmd = ascii "passwd"
  · simp only [if_pos h5, Option.some.injEq] at h; subst h
    unfold passwdErr
    dsimp only
    split
    · simp [reasons]
    · split <;> simp [reasons]
  simp only [if_neg h5] at h hr
  by_cases h6 : cmd = ascii "rmeta"
  · simp only [if_pos h6, Option.some.injEq] at h; subst h; simp [reasons]
  simp only [if_neg h6] at h hr
  by_cases h7 : cmd = ascii "show"
  · simp only [if_pos h7, Option.some.injEq] at h; subst h; simp [reasons]
  simp only [if_neg h7] at h hr
  by_cases h8 : cmd = ascii "showhex"
  · simp only [if_pos h8, Option.some.injEq] at h; subst h; simp [reasons]
  simp only [if_neg h8] at h hr
  by_cases h9 : cmd = ascii "store"
  · simp only [if_pos h9, Option.some.injEq] at h hr; subst h
    unfold storeErr
    unfold storeSecret at hr
    split
    · simp [reasons]
    · rename_i hl
      rw [if_neg hl] at hr
      exact storeLoopErr_error T C J _ _ _ hr
  simp only [if_neg h9] at h hr
  by_cases h10 : cmd = ascii "wmeta"
  · simp only [if_pos h10, Option.some.injEq] at h hr; subst h
    exact writeMetaErr_error T hr
  simp only [if_neg h10] at h hr
  by_cases h11 : cmd = ascii "write"
  · simp only [if_pos h11, Option.some.injEq] at h; subst h
    unfold cmdWriteErr
    split <;> simp [reasons]
  simp only [if_neg h11] at h
  cases h

/-- A word that is no command. -/
theorem commandErr_none {e : Env} {line cmd : Bytes} {args : List Bytes} {st : St} (hf : fields line = cmd :: args)
    (h : commandErr T C J e cmd args st = none) : processCommands C J e line st = (.err, st) := by
  unfold processCommands
  rw [hf]
  dsimp only
  unfold commandErr at h
  repeat' split at h
  all_goals simp at h
  simp only [*, if_false]

/-! ### Runs -/

theorem runErr_append {e : Env} {s s1 s2 : Sys} {evs evs2 : List Event} {out out2 : List Bytes} (h : RunErr T C J e s evs out s1) :
    RunErr T C J e s1 evs2 out2 s2 → RunErr T C J e s (evs ++ evs2) (out ++ out2) s2 := by
  induction h with
  | nil s => exact id
  | cons h1 _ ih =>
    intro h2
    rw [List.append_assoc]
    exact .cons h1 (ih h2)

/-- A line is typed. -/
theorem line_runErr {e : Env} {st st' : St} {line : Bytes} {as : List (Option Bytes)} {r : Ret} (ha : st.w.term.answers = some line :: as)
    (hl : line ≠ []) (hq : line ≠ ascii "quit") (hr : r = .ok ∨ r = .err) (hp : processCommands C J e line (st.rest as) = (r, st')) :
    ∃ evs, RunErr T C J e (Sys.init st) evs (processErr T C J e line (st.rest as)) (Sys.init st') ∧ .timeout ∉ evs ∧
      commands evs = [line] := by
  refine ⟨[.read line, .accept line, .command line r, .silent], ?_, by simp, by rcases hr with rfl | rfl <;> rfl⟩
  have h4 : RunErr T C J e { Sys.init st with st := st', reader := .waiting, main := .acking } [.silent] [] (Sys.init st') := by
    have := RunErr.cons (T := T) (C := C) (J := J) (e := e) (Step.proceed { Sys.init st with st := st', reader := .waiting, main := .acking } rfl rfl rfl) (.nil (Sys.init st'))
    simpa [stepErr] using this
  have hn : r.next = .acking := by rcases hr with rfl | rfl <;> rfl
  have h3 := RunErr.cons (T := T) (C := C) (J := J) (e := e)
    (Step.command { Sys.init st with st := st.rest as, reader := .waiting, main := .running line } line r st' rfl hp) (by rw [hn]; exact h4)
  have h2 := RunErr.cons (T := T) (C := C) (J := J) (e := e) (Step.handOver { Sys.init st with st := st.rest as, reader := .sending line } line rfl rfl hq) h3
  have h1 := RunErr.cons (T := T) (C := C) (J := J) (e := e) (Step.readLine (Sys.init st) line as (by simp [Sys.init]) rfl ha hl) h2
  simpa [stepErr] using h1

/-- The session ends with quit. -/
theorem quit_runErr {e : Env} {st : St} {as : List (Option Bytes)} (ha : st.w.term.answers = some (ascii "quit") :: as) :
    ∃ evs s, RunErr T C J e (Sys.init st) evs (shutdownErr T C J (st.rest as)) s ∧ .timeout ∉ evs ∧ s.main = .exited ∧ s.st = shutdown C J (st.rest as) := by
  refine ⟨[.read (ascii "quit"), .accept (ascii "quit"), .shutdown],
    { Sys.init st with st := shutdown C J (st.rest as), reader := .waiting, main := .exited }, ?_, by simp, rfl, rfl⟩
  have h3 := RunErr.cons (T := T) (C := C) (J := J) (e := e) (Step.shutdown { Sys.init st with st := st.rest as, reader := .waiting, main := .stopped } rfl) (.nil _)
  have h2 := RunErr.cons (T := T) (C := C) (J := J) (e := e) (Step.handOverQuit { Sys.init st with st := st.rest as, reader := .sending (ascii "quit") } (ascii "quit") rfl rfl rfl) h3
  have h1 := RunErr.cons (T := T) (C := C) (J := J) (e := e) (Step.readLine (Sys.init st) (ascii "quit") as (by simp [Sys.init]) rfl ha (by decide)) h2
  simpa [stepErr] using h1

end Verif.Proofs.SecretscliErrors
