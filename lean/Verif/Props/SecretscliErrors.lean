import Verif.Proofs.SecretscliErrors
import Verif.Props.Secretscli
import Verif.Model.SecretscliOutput
/-! Properties C206-C209: what secretscli writes to standard error. -/

namespace Verif.Props.SecretscliErrors
open Verif Verif.Go Verif.Model.Util Verif.Model.SecretStore Verif.Model.Secretscli Verif.Model.SecretscliErrors
open Verif.Model.Secrets (World dash)
open Verif.Spec.SecretStore Verif.Spec.Secrets Verif.Spec.Secretscli Verif.Spec.SecretscliErrors
open Verif.Spec.SecretsErrors (report)
open Verif.Proofs.Secretscli Verif.Proofs.SecretscliErrors Verif.Proofs.SecretStore Verif.Proofs.Strings
open Verif.Proofs.Secrets hiding fmode
open Verif.Props.SecretStore Verif.Props.Secretscli
open Verif.Props.Secrets (exWorld exFile)

variable (T : Texts) (C : Crypto) (J : Json)

/-! ### C206: failures are reported -/

/-- A command that fails has said so when it is over, with one of the reasons known, and all it said before that is
a note or about a write that failed. -/
theorem C206_failed {e : Env} {line : Bytes} {st st' : St} (h : processCommands C J e line st = (.err, st')) :
    ∃ pre x, processErr T C J e line st = pre ++ [x] ∧ (∀ y ∈ pre, y ∈ notes T ∨ y ∈ writeNotes T st.sess.path ∨ y = lost) ∧
      ((∃ m ∈ reasons T, x = report (ascii "command failed: " ++ m)) ∨ Unknown [line] x) := by
  have hr : (processCommands C J e line st).1 = .err := by rw [h]
  unfold processErr
  cases hf : fields line with
  | nil => unfold processCommands at hr; rw [hf] at hr; simp at hr
  | cons cmd args =>
    dsimp only
    cases ht : commandErr T C J e cmd args st with
    | none => exact ⟨[], _, rfl, (fun _ h => nomatch h), Or.inr ⟨line, List.mem_singleton.mpr rfl, cmd, args, hf, by simp [report, ascii]⟩⟩
    | some t =>
      dsimp only
      rw [hr]
      refine ⟨t.msgs, _, rfl, fun y hy => ?_, Or.inl ⟨t.error, commandErr_error T C J hf ht hr, failed_eq _⟩⟩
      rcases commandErr_mem T C J hf ht hy with ⟨h1, -⟩ | ⟨h1, -⟩ | ⟨h1 | h1, -⟩
      · exact Or.inl (by simp [notes, h1])
      · exact Or.inl (by simp [notes, h1])
      · exact Or.inr (Or.inl h1)
      · exact Or.inr (Or.inr h1)

/-- A command that does what it was asked to says nothing, but for a note, and that only if it is list or wmeta. -/
theorem C206_ok {e : Env} {line : Bytes} {st st' : St} (h : processCommands C J e line st = (.ok, st')) {x : Bytes}
    (hx : x ∈ processErr T C J e line st) :
    x ∈ notes T ∧ ((fields line).head? = some (ascii "list") ∨ (fields line).head? = some (ascii "wmeta")) := by
  have hr : (processCommands C J e line st).1 = .ok := by rw [h]
  unfold processErr at hx
  cases hf : fields line with
  | nil => rw [hf] at hx; simp at hx
  | cons cmd args =>
    rw [hf] at hx
    dsimp only at hx
    cases ht : commandErr T C J e cmd args st with
    | none =>
      rw [commandErr_none T C J hf ht] at h
      simp at h
    | some t =>
      rw [ht] at hx
      dsimp only at hx
      rw [hr, List.append_nil] at hx
      rcases commandErr_mem T C J hf ht hx with ⟨h1, h2⟩ | ⟨h1, h2⟩ | ⟨-, h2⟩
      · exact ⟨by simp [notes, h1], Or.inr (by simp [h2])⟩
      · exact ⟨by simp [notes, h1], Or.inl (by simp [h2])⟩
      · exact absurd hr h2

/-- A command other than list and wmeta that does what it was asked to says nothing. -/
theorem quiet {e : Env} {line : Bytes} {st st' : St} (h : processCommands C J e line st = (.ok, st')) {c : Bytes} {args : List Bytes} (hf : fields line = c :: args)
    (h1 : c ≠ ascii "list") (h2 : c ≠ ascii "wmeta") : processErr T C J e line st = [] := by
  refine List.eq_nil_iff_forall_not_mem.mpr fun x hx => ?_
  rcases (C206_ok T C J h hx).2 with h3 | h3 <;> · rw [hf] at h3; simp only [List.head?_cons, Option.some.injEq] at h3; contradiction

/-- Unless it is said at the end of a session that the store was not written, a store that was changed is in the
file, however the disk behaved. -/
theorem C206_saved_partial {st : St} {p : Bytes} (hd : st.sess.path ≠ dash) (hdirty : st.sess.dirty = true) (hp : st.sess.store.passphrase = some p)
    (h : lost ∉ shutdownErr T C J st) :
    ∃ out, (shutdown C J st).w.fs = st.w.fs.set st.sess.path out ∧ IsFile C out p st.sess.mode (J.enc st.sess.store.toFields) := by
  have hw : (writeStore C J st).1 = true := by
    by_contra hw
    refine h ?_
    unfold shutdownErr
    rw [if_neg hw]
    exact List.mem_append_right _ (List.mem_singleton.mpr rfl)
  unfold shutdown
  unfold writeStore at hw ⊢
  simp only [hdirty, Bool.not_true, Bool.false_eq_true, if_false] at hw ⊢
  cases hm : marshalSecretStore C J st.sess.store st.sess.mode st.w.rng with
  | panic => rw [hm] at hw; simp at hw
  | ok q =>
    obtain ⟨o, s, rng⟩ := q
    rw [hm] at hw
    cases o with
    | none => simp at hw
    | some out =>
      obtain ⟨-, -, q, hq, hfile⟩ := marshal_some C J hm
      rw [hp] at hq
      cases hq
      refine ⟨out, ?_, hfile⟩
      dsimp only at hw ⊢
      unfold World.writeFile at hw ⊢
      rw [if_neg hd] at hw ⊢
      unfold Go.writeFile at hw ⊢
      cases ho : st.writes 0 <;> simp_all

/-- No false alarm: it is said that the store was not written only if the file was left as it was, or the disk
failed. -/
theorem C206_warning {st : St} (h : lost ∈ shutdownErr T C J st) : (shutdown C J st).w.fs = st.w.fs ∨ st.writes 0 ≠ .done := by
  by_cases ho : st.writes 0 = .done
  · refine Or.inl ?_
    have hw : (writeStore C J st).1 = false := by
      cases hw : (writeStore C J st).1 with
      | false => rfl
      | true =>
        unfold shutdownErr at h
        rw [hw, writeErr_ok T C J hw] at h
        simp at h
    unfold shutdown
    unfold writeStore at hw ⊢
    split at hw
    · simp at hw
    · rename_i hd
      rw [if_neg hd]
      cases hm : marshalSecretStore C J st.sess.store st.sess.mode st.w.rng with
      | panic => rfl
      | ok q =>
        obtain ⟨o, s, rng⟩ := q
        rw [hm] at hw
        cases o with
        | none => rfl
        | some out =>
          dsimp only at hw ⊢
          unfold World.writeFile Go.writeFile at hw
          rw [ho] at hw
          split at hw <;> simp at hw
  · exact Or.inr ho

/-- `write` with an argument does nothing at all but say why. -/
theorem C206_write_arguments (F : Model.SecretscliOutput.Printf) {e : Env} {line a : Bytes} {as : List Bytes} (hf : fields line = ascii "write" :: a :: as) (st : St) :
    processCommands C J e line st = (.err, st) ∧ processErr T C J e line st = [report (ascii "command failed: write takes no arguments")] ∧
    Model.SecretscliOutput.commandText F e line st = [] := by
  have h : processCommands C J e line st = (.err, st) := by
    unfold processCommands
    rw [hf]
    dsimp only
    rw [if_neg (by decide), if_neg (by decide), if_neg (by decide), if_neg (by decide), if_neg (by decide), if_neg (by decide),
      if_neg (by decide), if_neg (by decide), if_neg (by decide), if_neg (by decide), if_pos rfl]
    unfold cmdWriteStore
    rw [if_pos (by simp)]
  have ht : Model.SecretscliOutput.commandText F e line st = [] := by
    unfold Model.SecretscliOutput.commandText
    rw [hf]
    dsimp only
    rw [if_neg (by decide), if_neg (by decide), if_neg (by decide), if_neg (by decide), if_neg (by decide), if_neg (by decide),
      if_neg (by decide), if_neg (by decide), if_neg (by decide), if_neg (by decide), if_pos rfl, if_pos (by simp)]
  refine ⟨h, ?_, ht⟩
  unfold processErr
  rw [hf]
  dsimp only
  rw [h]
  unfold commandErr
  rw [if_neg (by decide), if_neg (by decide), if_neg (by decide), if_neg (by decide), if_neg (by decide), if_neg (by decide),
    if_neg (by decide), if_neg (by decide), if_neg (by decide), if_neg (by decide), if_pos rfl]
  unfold cmdWriteErr
  rw [if_pos (by simp)]
  dsimp only
  rw [failed_eq]
  decide

/-- A command that panics is said to have. -/
theorem C206_panic {e : Env} {line : Bytes} {st st' : St} (h : processCommands C J e line st = (.panic, st')) :
    ∃ pre, processErr T C J e line st = pre ++ [ascii "inputLoop error: " ++ T.crash ++ ascii "\n"] := by
  have hr : (processCommands C J e line st).1 = .panic := by rw [h]
  unfold processErr
  cases hf : fields line with
  | nil => unfold processCommands at hr; rw [hf] at hr; simp at hr
  | cons cmd args =>
    dsimp only
    cases ht : commandErr T C J e cmd args st with
    | none => rw [commandErr_none T C J hf ht] at hr; simp at hr
    | some t =>
      dsimp only
      rw [hr]
      exact ⟨t.msgs, rfl⟩

/-- The example session after "b" was stored. -/
abbrev exSt2 (b : Bytes) (mode : Int) (as : List (Option Bytes)) (rng : Bytes) (writes : Nat → WriteOutcome := fun _ => .done) : St where
  sess := { store := exStore2, path := [102], mode := mode, dirty := true }
  w := { exWorld b as with term := ⟨as, fun n => 1000 + BitVec.ofNat 64 (n + 1)⟩, rng := rng }
  writes := writes

/-- "store b c" is typed, "b" gets a password, "c" gets none, and there is no randomness left: the attempt to save
"b" fails, the file is as it was, and all that is said is that no password was entered. -/
theorem C206_violated (e : Env) (b : Bytes) (mode : Int) : ∃ st',
    processCommands C J e (ascii "store b c") { exSt b mode [some [120], some []] with w := { exWorld b [some [120], some []] with rng := [] } } = (.err, st') ∧
    processErr T C J e (ascii "store b c") { exSt b mode [some [120], some []] with w := { exWorld b [some [120], some []] with rng := [] } } =
      [report (ascii "command failed: no password entered")] ∧
    st'.sess.dirty = true ∧ st'.w.fs [102] = some b ∧ secretOf st'.sess.store [98] = some [120] := by
  have hf : fields (ascii "store b c") = [ascii "store", [98], [99]] := by decide
  have h1 : storeSingleSecret [98] { exSt b mode [some [120], some []] with w := { exWorld b [some [120], some []] with rng := [] } } =
      (.ok, (exSt2 b mode [some []] [])) := rfl
  have h2 : storeSingleSecret [99] (exSt2 b mode [some []] []) =
      (.err, (exSt2 b mode [] [])) := rfl
  have hm : marshalSecretStore C J exStore2 mode [] = .ok (none, exStore2, []) := by
    rw [marshal_eq C J exStore2 [112, 119] mode [] exStore2_good.1 rfl, if_pos (by decide)]
  have h3 : writeStore C J (exSt2 b mode [] []) =
      (false, (exSt2 b mode [] [])) := by
    unfold writeStore
    simp only [Bool.not_true, Bool.false_eq_true, if_false, hm]
  have h4 : writeErr T C J (exSt2 b mode [] []) = [] := by
    unfold writeErr
    simp only [Bool.not_true, Bool.false_eq_true, if_false, hm]
  have hp : processCommands C J e (ascii "store b c") { exSt b mode [some [120], some []] with w := { exWorld b [some [120], some []] with rng := [] } } =
      (.err, (exSt2 b mode [] [])) := by
    unfold processCommands
    rw [hf]
    dsimp only
    rw [if_neg (by decide), if_neg (by decide), if_neg (by decide), if_neg (by decide), if_neg (by decide), if_neg (by decide),
      if_neg (by decide), if_neg (by decide), if_pos rfl]
    unfold storeSecret
    rw [if_neg (by decide), storeLoop, h1]
    dsimp only
    rw [storeLoop, h2]
    dsimp only
    rw [if_pos (by decide), h3]
  refine ⟨_, hp, ?_, rfl, by simp [exWorld], rfl⟩
  unfold processErr
  rw [hf]
  dsimp only
  rw [hp]
  unfold commandErr
  rw [if_neg (by decide), if_neg (by decide), if_neg (by decide), if_neg (by decide), if_neg (by decide), if_neg (by decide),
    if_neg (by decide), if_neg (by decide), if_pos rfl]
  unfold storeErr
  rw [if_neg (by decide), storeLoopErr, h1]
  dsimp only
  rw [storeLoopErr, h2]
  dsimp only
  rw [if_pos (by decide), h4]
  show [failed (ascii "no password entered")] = _
  rw [failed_eq]
  decide

/-- "wmeta z" is typed in the example session, in which there is no "z". -/
example (e : Env) (b : Bytes) (as : List (Option Bytes)) : ∃ st', processCommands C J e (ascii "wmeta z") (exSt b 0 as) = (.err, st') ∧
    processErr T C J e (ascii "wmeta z") (exSt b 0 as) = [report (ascii "command failed: no such record")] := ⟨_, rfl, rfl⟩

/-- "Show a" is typed: there is no such command. -/
example (e : Env) (b : Bytes) (as : List (Option Bytes)) : processErr T C J e (ascii "Show a") (exSt b 0 as) = [report (ascii "Show is not a valid command.")] := rfl

/-- "write it". -/
example (F : Model.SecretscliOutput.Printf) (e : Env) (b : Bytes) (as : List (Option Bytes)) :
    processErr T C J e (ascii "write it") (exSt b 0 as) = [report (ascii "command failed: write takes no arguments")] :=
  (C206_write_arguments T C J F (a := ascii "it") (as := []) (by decide) _).2.1

/-- A line of metadata is not as it should be, but the rest is, and wmeta goes well. -/
example (e : Env) (b : Bytes) : ∃ st', processCommands C J e (ascii "wmeta a") (exSt b 0 [some (ascii "user"), some (ascii "x=y"), some []]) = (.ok, st') ∧
    processErr T C J e (ascii "wmeta a") (exSt b 0 [some (ascii "user"), some (ascii "x=y"), some []]) =
      [report (ascii "Metadata should be in the form 'key=value'")] := ⟨_, rfl, rfl⟩

/-- The disk fails when the session ends: it is said that the store was not written. -/
example (e : Env) (b : Bytes) : lost ∈ shutdownErr T C J
    { sess := { store := exStore2, path := [102], mode := 0, dirty := true }, w := exWorld b [], writes := fun _ => .openFails } := by
  obtain ⟨out, hout⟩ := marshal_ok C J (s := exStore2) (mode := 0) (rng := (exWorld b []).rng) exStore2_good.1 (Or.inl rfl)
    (by show 56 ≤ (List.replicate 200 _).length; rw [List.length_replicate]; decide)
  unfold shutdownErr writeStore
  simp only [Bool.not_true, Bool.false_eq_true, if_false, hout, World.writeFile, Go.writeFile]
  rw [if_neg (show ¬ ([102] : Bytes) = dash by decide)]
  exact List.mem_append_right _ (List.mem_singleton.mpr rfl)

/-! ### C207: silence means that the store was saved -/

/-- C69 of a session on a disk that may fail, if nothing was said of a write that failed. -/
theorem C207_partial {e : Env} {w : World} {writes : Nat → WriteOutcome} {path p : Bytes} {mode : Int} {as : List (Option Bytes)} {s0 : SecretStore}
    {st : St} {evs : List Event} {out : List Bytes} {s : Sys} (hd : path ≠ dash) (hm : mode = 0 ∨ mode = 1)
    (ha : w.term.answers = some p :: as) (ho : Opens C J w.fs path p mode s0) (hg : Good s0)
    (hu : ∀ b, some b ∈ as → ValidUtf8 b) (hc : ∀ n, w.term.clock n ≠ 0) (hr : 56 ≤ w.rng.length)
    (hst : start C J w writes path mode = .ok (some st)) (hrun : RunErr T C J e (Sys.init st) evs out s) (hx : s.main = .exited)
    (hout : NoFailedWrite out) :
    ∃ v rest, Session (commands evs) ⟨entries s0, p, .clean⟩ as v rest ∧ (.timeout ∈ evs ∨ AtEnd rest) ∧
      (∀ q, q ≠ path → s.st.w.fs q = w.fs q) ∧
      match v.stage with
      | .clean => s.st.w.fs = w.fs
      | .changed => ∃ s', Opens C J s.st.w.fs path v.pass mode s' ∧ entries s' = v.entry
      | .written e p => ∃ s', Opens C J s.st.w.fs path p mode s' ∧ entries s' = e
      | .changedAgain => True := by
  have h0 := calm_run T C J hrun hout
  have hst' := start_ok C J (w := { w with write := .done }) (writes := fun _ => .done) ha ho
  rw [start_ok C J ha ho] at hst
  cases hst
  exact C69_partial C J (e := e) (s := calmSys s) (w := { w with write := .done }) (writes := fun _ => .done) hd hm ha ho hg hu hc (fun _ => rfl) hr hst' h0 hx

/-- So if no command is `write`, or `store` with more than one label, silence means that the file opens with the
session's passphrase and holds everything, or that nothing was changed and the file was left alone. -/
theorem C207_no_write_partial {e : Env} {w : World} {writes : Nat → WriteOutcome} {path p : Bytes} {mode : Int} {as : List (Option Bytes)} {s0 : SecretStore}
    {st : St} {evs : List Event} {out : List Bytes} {s : Sys} (hd : path ≠ dash) (hm : mode = 0 ∨ mode = 1)
    (ha : w.term.answers = some p :: as) (ho : Opens C J w.fs path p mode s0) (hg : Good s0)
    (hu : ∀ b, some b ∈ as → ValidUtf8 b) (hc : ∀ n, w.term.clock n ≠ 0) (hr : 56 ≤ w.rng.length)
    (hst : start C J w writes path mode = .ok (some st)) (hrun : RunErr T C J e (Sys.init st) evs out s) (hx : s.main = .exited)
    (hout : NoFailedWrite out)
    (hno : ∀ b ∈ commands evs, fields b ≠ [ascii "write"] ∧ ∀ l l2 ls, fields b ≠ ascii "store" :: l :: l2 :: ls) :
    ∃ v rest, Session (commands evs) ⟨entries s0, p, .clean⟩ as v rest ∧ (.timeout ∈ evs ∨ AtEnd rest) ∧
      ((v.stage = .clean ∧ s.st.w.fs = w.fs) ∨
        (v.stage = .changed ∧ ∃ s', Opens C J s.st.w.fs path v.pass mode s' ∧ entries s' = v.entry)) := by
  obtain ⟨v, rest, h1, h0, -, h2⟩ := C207_partial T C J hd hm ha ho hg hu hc hr hst hrun hx hout
  refine ⟨v, rest, h1, h0, ?_⟩
  rcases session_stage h1 hno (Or.inl rfl) with h | h <;> rw [h] at h2
  · exact .inl ⟨h, h2⟩
  · exact .inr ⟨h, h2⟩

/-- "store b" is typed at the beginning of the example session, and nothing is said. -/
theorem exStoredErr (e : Env) (b : Bytes) (mode : Int) (as : List (Option Bytes)) (writes : Nat → WriteOutcome) :
    ∃ evs, RunErr T C J e (Sys.init (exSt b mode (some (ascii "store b") :: some [120] :: as) writes)) evs []
      (Sys.init (exSt2 b mode as (List.replicate 200 7) writes)) ∧ .timeout ∉ evs := by
  have hp := process_store C J (e := e) (st := (exSt b mode (some (ascii "store b") :: some [120] :: as) writes).rest (some [120] :: as)) (line := ascii "store b")
    (l := [98]) (pw := [120]) (as := as) (m := Map.empty.set [97] (some (exRecord [97] [1, 2, 3] 7))) (by decide) rfl (by decide) rfl (by decide)
  obtain ⟨evs, h, ht, -⟩ := line_runErr T C J (st := exSt b mode (some (ascii "store b") :: some [120] :: as) writes) (as := some [120] :: as) rfl (by decide) (by decide) (Or.inl rfl) hp
  rw [quiet T C J hp (c := ascii "store") (args := [[98]]) (by decide) (by decide) (by decide)] at h
  exact ⟨evs, h, ht⟩

/-- "store b", "write", "store c" and "quit" are typed, nothing goes wrong, nothing is written to standard error,
and in the file the secrets "a" and "b" are zeros, and so is the passphrase. -/
theorem C207_violated (e : Env) (mode : Int) (hm : mode = 0 ∨ mode = 1) : ∃ b st evs s s',
    start C J (exWorld b [some (ascii "pw"), some (ascii "store b"), some [120], some (ascii "write"), some (ascii "store c"), some [121], some (ascii "quit")])
      (fun _ => .done) [102] mode = .ok (some st) ∧
    RunErr T C J e (Sys.init st) evs [] s ∧ .timeout ∉ evs ∧ s.main = .exited ∧
    Opens C J s.st.w.fs [102] [0, 0] mode s' ∧ secretOf s' [97] = some [0, 0, 0] ∧ secretOf s' [98] = some [0] ∧ secretOf s' [99] = some [121] := by
  obtain ⟨b, hb⟩ := exFile C J mode hm
  have hpw : ascii "pw" = [112, 119] := by decide
  rw [hpw]
  obtain ⟨evs1, r1, t1⟩ := exStoredErr T C J e b mode [some (ascii "write"), some (ascii "store c"), some [121], some (ascii "quit")] (fun _ => .done)
  obtain ⟨b1, hb1⟩ : ∃ b1, b1 = exSt2 b mode [some (ascii "write"), some (ascii "store c"), some [121], some (ascii "quit")] (List.replicate 200 7) := ⟨_, rfl⟩
  rw [← hb1] at r1
  obtain ⟨out, w1, -⟩ := write_ok C J (st := b1.rest [some (ascii "store c"), some [121], some (ascii "quit")]) (p := [112, 119])
    (by rw [hb1]; exact (show ([102] : Bytes) ≠ dash by decide)) (by rw [hb1]; exact hm)
    (by rw [hb1]; exact sound_of_good exStore2_good) (by rw [hb1]; rfl) (by rw [hb1]; rfl) (by rw [hb1]; rfl)
    (by rw [hb1]; show 56 ≤ (List.replicate 200 _).length; rw [List.length_replicate]; decide)
  have p2 := process_write C J (e := e) (st := b1.rest [some (ascii "store c"), some [121], some (ascii "quit")]) (line := ascii "write") (by decide)
  unfold cmdWriteStore at p2
  rw [if_neg (by simp), w1] at p2
  obtain ⟨evs2, r2, t2, -⟩ := line_runErr T C J (e := e) (st := b1) (line := ascii "write") (by rw [hb1]) (by decide) (by decide) (Or.inl rfl) p2
  rw [quiet T C J p2 (c := ascii "write") (args := []) (by decide) (by decide) (by decide)] at r2
  obtain ⟨b2, hb2⟩ : ∃ b2 : St, b2 =
      { exSt2 b mode [some (ascii "store c"), some [121], some (ascii "quit")] ((List.replicate 200 7).drop 56) with
        sess := { store := exStore2.zero, path := [102], mode := mode, dirty := false }
        w := { exWorld b [] with
          term := ⟨[some (ascii "store c"), some [121], some (ascii "quit")], fun n => 1000 + BitVec.ofNat 64 (n + 1)⟩
          rng := (List.replicate 200 7).drop 56
          fs := (exWorld b []).fs.set [102] out } } := ⟨_, rfl⟩
  have r2' : RunErr T C J e (Sys.init b1) evs2 [] (Sys.init b2) := by
    rw [hb1, hb2]
    rw [hb1] at r2
    exact r2
  obtain ⟨b3, hb3, p3⟩ : ∃ b3, b3 = _ ∧ processCommands C J e (ascii "store c") (b2.rest [some [121], some (ascii "quit")]) = (.ok, b3) :=
    ⟨_, rfl, process_store C J (e := e) (st := b2.rest [some [121], some (ascii "quit")]) (line := ascii "store c") (l := [99]) (pw := [121]) (as := [some (ascii "quit")])
      (by decide) (by rw [hb2]; rfl) (by decide) rfl (by decide)⟩
  obtain ⟨evs3, r3, t3, -⟩ := line_runErr T C J (e := e) (st := b2) (line := ascii "store c") (by rw [hb2]) (by decide) (by decide) (Or.inl rfl) p3
  rw [quiet T C J p3 (c := ascii "store") (args := [[99]]) (by decide) (by decide) (by decide)] at r3
  rw [hb2] at hb3
  have hz : Sound exStore2.zero := sound_zero (sound_of_good exStore2_good)
  obtain ⟨out2, w4, f4⟩ := write_ok C J (st := b3.rest []) (p := [0, 0])
    (by rw [hb3]; exact (show ([102] : Bytes) ≠ dash by decide)) (by rw [hb3]; exact hm)
    (by rw [hb3]; exact sound_set hz rfl [99] _ (show (1000 + BitVec.ofNat 64 1 : BitVec 64) ≠ 0 by decide)) (by rw [hb3]; rfl) (by rw [hb3]; rfl) (by rw [hb3]; rfl)
    (by rw [hb3]; show 56 ≤ ((List.replicate 200 _).drop 56).length; rw [List.length_drop, List.length_replicate]; decide)
  obtain ⟨evs4, s, r4, t4, x4, s4⟩ := quit_runErr T C J (e := e) (st := b3) (as := []) (by rw [hb3])
  have hq : shutdownErr T C J (b3.rest []) = [] := by
    have hok : (writeStore C J (b3.rest [])).1 = true := by rw [w4]
    unfold shutdownErr
    rw [hok, writeErr_ok T C J hok]
    rfl
  rw [hq] at r4
  have hfs : s.st.w.fs [102] = some out2 := by
    rw [s4]
    unfold shutdown
    rw [w4]
    show ((b3.rest []).w.fs.set (b3.rest []).sess.path out2) [102] = _
    have : (b3.rest []).sess.path = [102] := by rw [hb3]; rfl
    rw [this]
    simp
  have hpath : (b3.rest []).sess.mode = mode := by rw [hb3]; rfl
  rw [hpath, hb3] at f4
  refine ⟨b, _, _, s, { toFields := _, passphrase := some [0, 0] }, exStart C J hb _ _, runErr_append T C J r1 (runErr_append T C J r2' (runErr_append T C J r3 r4)), by simp [t1, t2, t3, t4], x4,
    ⟨out2, hfs, saved_exact C J (finite_set (finite_zero exStore2_finite) rfl [99] _ (fun md (h : none = some md) => nomatch h) _)
      (utf8_set (utf8_zero exStore2_clean) rfl (by decide) (show ValidUtf8 [] by decide) (fun md _ _ (h : none = some md) => nomatch h) _) f4⟩, rfl, rfl, rfl⟩

/-- "passwd" and "quit" are typed, the new password is confirmed, nothing is written to standard error, and the file
is as it was. -/
theorem C207_passwd_violated (e : Env) (mode : Int) (hm : mode = 0 ∨ mode = 1) : ∃ b st evs s,
    start C J (exWorld b [some (ascii "pw"), some (ascii "passwd"), some (ascii "new"), some (ascii "new"), some (ascii "quit")])
      (fun _ => .done) [102] mode = .ok (some st) ∧
    RunErr T C J e (Sys.init st) evs [] s ∧ .timeout ∉ evs ∧ s.main = .exited ∧ s.st.w.fs = st.w.fs ∧
    Opens C J s.st.w.fs [102] (ascii "pw") mode (exStore [1, 2, 3] 7) := by
  obtain ⟨b, hb⟩ := exFile C J mode hm
  have hpw : ascii "pw" = [112, 119] := by decide
  rw [hpw]
  have p1 := process_passwd C J (e := e) (st := (exSt b mode [some (ascii "passwd"), some (ascii "new"), some (ascii "new"), some (ascii "quit")]).rest [some (ascii "new"), some (ascii "new"), some (ascii "quit")])
    (line := ascii "passwd") (p := ascii "new") (as := [some (ascii "quit")]) (by decide) rfl
  obtain ⟨evs1, r1, t1, -⟩ := line_runErr T C J (st := exSt b mode [some (ascii "passwd"), some (ascii "new"), some (ascii "new"), some (ascii "quit")])
    (as := [some (ascii "new"), some (ascii "new"), some (ascii "quit")]) rfl (by decide) (by decide) (Or.inl rfl) p1
  rw [quiet T C J p1 (c := ascii "passwd") (args := []) (by decide) (by decide) (by decide)] at r1
  obtain ⟨evs2, s, r2, t2, x2, s2⟩ := quit_runErr T C J (e := e) (as := []) (st := { (((exSt b mode [some (ascii "passwd"), some (ascii "new"), some (ascii "new"), some (ascii "quit")]).rest [some (ascii "new"), some (ascii "new"), some (ascii "quit")]).rest [some (ascii "quit")]) with
    sess := { (exSt b mode []).sess with store := (exStore [1, 2, 3] 7).changePassword (ascii "new") } }) rfl
  have hq : ∀ st : St, st.sess.dirty = false → shutdownErr T C J st = [] ∧ (shutdown C J st).w = st.w := by
    intro st h
    have hok : writeStore C J st = (true, st) := write_clean C J h
    refine ⟨?_, ?_⟩
    · unfold shutdownErr
      rw [hok, writeErr_ok T C J (by rw [hok])]
      rfl
    · unfold shutdown
      rw [hok]
  obtain ⟨q1, q2⟩ := hq _ (show (St.rest { (((exSt b mode [some (ascii "passwd"), some (ascii "new"), some (ascii "new"), some (ascii "quit")]).rest [some (ascii "new"), some (ascii "new"), some (ascii "quit")]).rest [some (ascii "quit")]) with
    sess := { (exSt b mode []).sess with store := (exStore [1, 2, 3] 7).changePassword (ascii "new") } } []).sess.dirty = false from rfl)
  rw [q1] at r2
  have hfs : s.st.w.fs = (exWorld b []).fs := by
    rw [s2, q2]
    rfl
  have hget : (exWorld b []).fs [102] = some b := by simp [exWorld]
  exact ⟨b, _, _, s, exStart C J hb _ _, runErr_append T C J r1 r2, by simp [t1, t2], x2, hfs, b, by rw [hfs]; exact hget, hb⟩

/-- A session that C207_partial is about: "store b" and "quit" are typed, the disk takes the write and would fail
later, nothing is said, and "b" is in the file. -/
example (e : Env) : ∃ b st evs s s',
    start C J (exWorld b [some (ascii "pw"), some (ascii "store b"), some [120], some (ascii "quit")]) (fun n => if n = 0 then .done else .openFails) [102] 0 = .ok (some st) ∧
    RunErr T C J e (Sys.init st) evs [] s ∧ s.main = .exited ∧ NoFailedWrite [] ∧ Opens C J s.st.w.fs [102] (ascii "pw") 0 s' ∧ secretOf s' [98] = some [120] := by
  obtain ⟨b, hb⟩ := exFile C J 0 (Or.inl rfl)
  have hpw : ascii "pw" = [112, 119] := by decide
  rw [hpw]
  obtain ⟨evs1, r1, -⟩ := exStoredErr T C J e b 0 [some (ascii "quit")] (fun n => if n = 0 then .done else .openFails)
  obtain ⟨out, w1, f1⟩ := write_ok C J (st := (exSt2 b 0 [some (ascii "quit")] (List.replicate 200 7) (fun n => if n = 0 then .done else .openFails)).rest []) (p := [112, 119])
    (show ([102] : Bytes) ≠ dash by decide) (Or.inl rfl) (sound_of_good exStore2_good) rfl rfl rfl
    (by show 56 ≤ (List.replicate 200 _).length; rw [List.length_replicate]; decide)
  obtain ⟨evs2, s, r2, -, x2, s2⟩ := quit_runErr T C J (e := e) (st := exSt2 b 0 [some (ascii "quit")] (List.replicate 200 7) (fun n => if n = 0 then .done else .openFails)) (as := []) rfl
  have hq : shutdownErr T C J ((exSt2 b 0 [some (ascii "quit")] (List.replicate 200 7) (fun n => if n = 0 then .done else .openFails)).rest []) = [] := by
    unfold shutdownErr
    rw [w1, writeErr_ok T C J (by rw [w1])]
    rfl
  rw [hq] at r2
  refine ⟨b, _, _, s, _, exStart C J hb _ _, runErr_append T C J r1 r2, x2, (fun _ h => nomatch h), ⟨out, ?_, saved_exact C J exStore2_finite exStore2_clean f1⟩, rfl⟩
  rw [s2]
  unfold shutdown
  rw [w1]
  show (Fs.set (exWorld b []).fs [102] out) [102] = some out
  simp

/-! ### C208: all that can be said -/

theorem process_words {e : Env} {line : Bytes} {st : St} {x : Bytes} (hx : x ∈ processErr T C J e line st) :
    x ∈ vocabulary T st.sess.path ∨ (Unknown [line] x ∧ (processCommands C J e line st).1 = .err) := by
  have hin : ∀ y, y ∈ notes T ∨ y ∈ writeNotes T st.sess.path ∨ y = lost → y ∈ vocabulary T st.sess.path := by
    intro y hy
    unfold vocabulary
    rcases hy with h | h | h
    · simp [h]
    · simp [h]
    · simp [h]
  cases hp : processCommands C J e line st with
  | mk r st' =>
    cases r with
    | ok => exact Or.inl (hin _ (Or.inl (C206_ok T C J hp hx).1))
    | err =>
      obtain ⟨pre, y, h1, h2, h3⟩ := C206_failed T C J hp
      rw [h1] at hx
      rcases List.mem_append.mp hx with h | h
      · exact Or.inl (hin _ (h2 _ h))
      · rw [List.mem_singleton.mp h]
        rcases h3 with ⟨m, hm, rfl⟩ | h3
        · refine Or.inl ?_
          unfold vocabulary
          refine List.mem_append_left _ (List.mem_append_right _ ?_)
          exact List.mem_map.mpr ⟨m, hm, rfl⟩
        · exact Or.inr ⟨h3, rfl⟩
    | _ =>
      unfold processErr at hx
      cases hf : fields line with
      | nil => rw [hf] at hx; simp at hx
      | cons cmd args =>
        rw [hf] at hx
        dsimp only at hx
        cases ht : commandErr T C J e cmd args st with
        | none => rw [commandErr_none T C J hf ht] at hp; simp at hp
        | some t =>
          rw [ht] at hx
          dsimp only at hx
          rw [hp] at hx
          rcases List.mem_append.mp hx with h | h
          · rcases commandErr_mem T C J hf ht h with ⟨h1, -⟩ | ⟨h1, -⟩ | ⟨h1 | h1, -⟩
            · exact Or.inl (hin _ (Or.inl (by simp [notes, h1])))
            · exact Or.inl (hin _ (Or.inl (by simp [notes, h1])))
            · exact Or.inl (hin _ (Or.inr (Or.inl h1)))
            · exact Or.inl (hin _ (Or.inr (Or.inr h1)))
          · refine Or.inl ?_
            unfold vocabulary
            simp at h
            try simp [h, ascii]

/-- All that a session writes to standard error, whatever is typed and however the disk behaves, is from a short list
of texts, in which nothing depends on the store, or a complaint with the first word of a line that was typed as
a command. -/
theorem C208_vocabulary {e : Env} {s s' : Sys} {evs : List Event} {out : List Bytes} (h : RunErr T C J e s evs out s') {x : Bytes} (hx : x ∈ out) :
    x ∈ vocabulary T s.st.sess.path ∨ Unknown (commands evs) x := by
  induction h with
  | nil => cases hx
  | @cons s s1 s2 ev evs out h1 h2 ih =>
    rcases List.mem_append.mp hx with hx | hx
    · cases ev with
      | command line r =>
        rcases process_words T C J hx with h | ⟨⟨l, hl, h⟩, hr⟩
        · exact Or.inl h
        · rw [List.mem_singleton.mp hl] at h
          cases h1 with
          | command line r st h3 h4 =>
            rw [h4] at hr
            dsimp only at hr
            subst hr
            exact Or.inr ⟨line, by simp [commands, ran], h⟩
      | shutdown =>
        refine Or.inl ?_
        unfold vocabulary
        rcases shutdownErr_mem T C J hx with h | h
        · simp [h]
        · simp [h]
      | silent =>
        simp only [stepErr] at hx
        split at hx
        · rw [List.mem_singleton.mp hx]
          exact Or.inl (by simp [vocabulary])
        · cases hx
      | _ => simp [stepErr] at hx
    · rcases ih hx with h | ⟨l, hl, h⟩
      · rw [(keeps_step C J h1).path] at h
        exact Or.inl h
      · refine Or.inr ⟨l, ?_, h⟩
        exact List.mem_flatMap.mpr (let ⟨a, h1, h2⟩ := List.mem_flatMap.mp hl; ⟨a, List.mem_cons_of_mem _ h1, h2⟩)

/-- "frob x" is typed in the example session. -/
example (e : Env) (b : Bytes) : ∃ evs s', RunErr T C J e (Sys.init (exSt b 0 [some (ascii "frob x")])) evs [report (ascii "frob is not a valid command.")] s' ∧
    Unknown (commands evs) (report (ascii "frob is not a valid command.")) := by
  obtain ⟨evs, h, -, hc⟩ := line_runErr T C J (e := e) (st := exSt b 0 [some (ascii "frob x")]) (line := ascii "frob x") (as := []) rfl (by decide) (by decide)
    (Or.inr rfl) (show processCommands C J e (ascii "frob x") _ = (.err, _) from rfl)
  have h' : RunErr T C J e (Sys.init (exSt b 0 [some (ascii "frob x")])) evs [report (ascii "frob is not a valid command.")] _ := h
  exact ⟨evs, _, h', ascii "frob x", by rw [hc]; exact List.mem_singleton.mpr rfl, ascii "frob", [ascii "x"], by decide, by decide⟩

/-! ### C209: a session that does not begin -/

/-- A session begins if and only if a passphrase is typed that opens the file. -/
theorem C209_begins {w : World} {writes : Nat → WriteOutcome} {path : Bytes} {mode : Int} :
    (∃ st, start C J w writes path mode = .ok (some st)) ↔ ∃ p as s, w.term.answers = some p :: as ∧ Opens C J w.fs path p mode s := by
  constructor
  · rintro ⟨st, h⟩
    unfold start Term.read at h
    cases ha : w.term.answers with
    | nil => simp [ha] at h
    | cons a as =>
      cases a with
      | none => simp [ha] at h
      | some p =>
        simp only [ha] at h
        cases hb : w.fs path with
        | none => simp [hb] at h
        | some b =>
          simp only [hb] at h
          cases hu : unmarshalSecretStore C J b p mode with
          | panic => exact absurd hu (unmarshal_no_panic C J b p mode)
          | ok o =>
            rw [hu] at h
            cases o with
            | none => simp at h
            | some s => exact ⟨p, as, s, rfl, b, hb, hu⟩
  · rintro ⟨p, as, s, ha, ho⟩
    exact ⟨_, start_ok C J ha ho⟩

/-- If a passphrase is typed and does not open the file, there is one text, whether the passphrase is wrong, the file is
damaged, or it was made with the other strength. -/
theorem C209_locked {w : World} {writes : Nat → WriteOutcome} {path p b : Bytes} {mode : Int} {as : List (Option Bytes)}
    (ha : w.term.answers = some p :: as) (hb : w.fs path = some b) (ho : ∀ s, ¬ Opens C J w.fs path p mode s) :
    start C J w writes path mode = .ok none ∧ startErr T w path = report (ascii "failed to unlocked store.") := by
  refine ⟨?_, ?_⟩
  · unfold start Term.read
    simp only [ha, hb]
    cases hu : unmarshalSecretStore C J b p mode with
    | panic => exact absurd hu (unmarshal_no_panic C J b p mode)
    | ok o =>
      cases o with
      | none => rfl
      | some s => exact absurd ⟨b, hb, hu⟩ (ho s)
  · unfold startErr Term.read
    simp only [ha, hb]
    rfl

/-- If there is no file, the error of the system is said, and only after a passphrase was typed. -/
theorem C209_no_file {w : World} {writes : Nat → WriteOutcome} {path p : Bytes} {mode : Int} {as : List (Option Bytes)}
    (ha : w.term.answers = some p :: as) (hb : w.fs path = none) :
    start C J w writes path mode = .ok none ∧ startErr T w path = report (T.read path) := by
  refine ⟨?_, ?_⟩
  · unfold start Term.read
    simp only [ha, hb]
  · unfold startErr Term.read
    simp only [ha, hb]
    simp [report, ascii]

/-- If no passphrase can be read, it is said why. -/
theorem C209_no_passphrase {w : World} {writes : Nat → WriteOutcome} {path : Bytes} {mode : Int} (ha : ∀ p as, w.term.answers ≠ some p :: as) :
    start C J w writes path mode = .ok none ∧ startErr T w path = report T.prompt := by
  have hr : w.term.read.1 = none := by
    unfold Term.read
    cases h : w.term.answers with
    | nil => rfl
    | cons a as =>
      cases a with
      | none => rfl
      | some p => exact absurd h (ha p as)
  refine ⟨?_, ?_⟩
  · unfold start
    cases h : w.term.read with
    | mk a t =>
      rw [h] at hr
      dsimp only at hr
      subst hr
      rfl
  · unfold startErr
    rw [hr]
    simp [report, ascii]

/-- A file of no bytes, which nothing opens. -/
example : start C J (exWorld [] [some [112, 119]]) (fun _ => .done) [102] 0 = .ok none ∧
    startErr T (exWorld [] [some [112, 119]]) [102] = report (ascii "failed to unlocked store.") :=
  C209_locked T C J (p := [112, 119]) (as := []) (b := []) rfl (by simp [exWorld]) (by
    rintro s ⟨b, hb, hu⟩
    simp only [exWorld, Fs.set_same, Option.some.injEq] at hb
    subst hb
    obtain ⟨d, ⟨salt, nonce, k, l1, l2, -, e⟩, -⟩ := (unmarshal_iff C J [] [112, 119] 0 s).mp hu
    have := congrArg List.length e
    simp [l1] at this
    omega)

/-- There is a file "f", and none with the name "g". -/
example (J : Json) (b : Bytes) : startErr T (exWorld b [some [112, 119]]) [103] = report (T.read [103]) :=
  (C209_no_file T Toy.crypto J (writes := fun _ => .done) (mode := 0) (p := [112, 119]) (as := []) rfl
    (by simp [exWorld, Fs.set_other _ _ (show ([103] : Bytes) ≠ [102] by decide)])).2

/-- Nothing is typed. -/
example (J : Json) (b : Bytes) : startErr T (exWorld b [none]) [102] = report T.prompt :=
  (C209_no_passphrase T Toy.crypto J (writes := fun _ => .done) (mode := 0) (by intro p as h; simp [exWorld] at h)).2

end Verif.Props.SecretscliErrors
