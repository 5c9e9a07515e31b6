import Verif.Model.SecretscliTime
import Verif.Props.SecretscliRun
/-! Properties C161 and C162: when secretscli locks itself (cmd/secretscli/secretscli.go:19-22, 79-110, 153-161). -/

namespace Verif.Props.SecretscliTime
open Verif Verif.Go Verif.Model.Util Verif.Model.SecretStore Verif.Model.Secretscli
open Verif.Model.Secrets (World)
open Verif.Spec.SecretStore Verif.Spec.Secretscli Verif.Proofs.Secretscli Verif.Proofs.SecretStore
open Verif.Props.SecretStore Verif.Props.Secretscli Verif.Props.SecretscliRun
open Verif.Props.Secrets (exWorld)

variable (C : Crypto) (J : Json)

/-- When the last command ended, or when the session began. -/
def idleSince (t0 : Int) (tr : List (Int × Event)) : Int :=
  tr.foldl (fun t p => match p.2 with | .command _ _ => p.1 | _ => t) t0

/-- A line, other than "quit", was taken and its command has not ended. -/
def Busy (tr : List (Int × Event)) : Prop :=
  ∃ tr1 tr2 τ line, tr = tr1 ++ (τ, .accept line) :: tr2 ∧ line ≠ ascii "quit" ∧ ∀ p ∈ tr2, ∀ l r, p.2 ≠ .command l r

/-- When lines that are not empty were typed since the last command ended. -/
def typedSince (tr : List (Int × Event)) : List Int :=
  tr.foldl (fun ts p => match p.2 with | .command _ _ => [] | .read _ => ts ++ [p.1] | _ => ts) []

theorem idleSince_snoc (t0 : Int) (tr : List (Int × Event)) (p : Int × Event) :
    idleSince t0 (tr ++ [p]) = match p.2 with | .command _ _ => p.1 | _ => idleSince t0 tr := by
  simp only [idleSince, List.foldl_append, List.foldl_cons, List.foldl_nil]

theorem typedSince_snoc (tr : List (Int × Event)) (p : Int × Event) :
    typedSince (tr ++ [p]) = match p.2 with | .command _ _ => [] | .read _ => typedSince tr ++ [p.1] | _ => typedSince tr := by
  simp only [typedSince, List.foldl_append, List.foldl_cons, List.foldl_nil]

/-- Without the times, it is a run. -/
theorem untimed {e : Env} {limit : Int} {t0 t : Timed} {tr : List (Int × Event)} (h : TimedRun C J e limit t0 tr t) :
    Run C J e t0.s (tr.map (·.2)) t.s := by
  induction h with
  | nil => exact .nil _
  | act _ h2 _ ih => rw [List.map_append]; exact run_snoc C J ih h2
  | wait _ _ _ ih => exact ih

/-- What is known at every moment. -/
def Known (limit t0 : Int) (tr : List (Int × Event)) (t : Timed) : Prop :=
  match t.s.main with
  | .select => t.since = idleSince t0 tr ∧ t.now ≤ t.since + max limit 0 ∧
      ((∃ l, t.s.reader = .sending l) ∧ typedSince tr = [t.now] ∨ (t.s.reader = .reading ∨ t.s.reader = .done) ∧ typedSince tr = [])
  | .running _ => Busy tr
  | .acking => t.now = idleSince t0 tr ∧ typedSince tr = []
  | .stopped => t.now ≤ idleSince t0 tr + max limit 0
  | .exited => True

theorem known_step {e : Env} {limit t0 : Int} {st : St} {tr : List (Int × Event)} {t : Timed} {ev : Event} {s : Sys} {ls : List Bytes}
    (hv : Inv C J e st ls t.s) (hk : Known limit t0 tr t) (h : Step C J e t.s ev s) (hr : Ready C J e limit t ev) :
    Known limit t0 (tr ++ [(t.now, ev)]) (t.next s) := by
  obtain ⟨s1, now, since, due⟩ := t
  unfold Known at *
  have hs := idleSince_snoc t0 tr (now, ev)
  have ht := typedSince_snoc tr (now, ev)
  simp only [Timed.next] at *
  cases h with
  | readLine line as h1 h2 h3 h4 =>
    simp only at hs ht
    cases hv <;> cases h2 <;> simp_all <;> omega
  | readBlank as h1 h2 h3 =>
    simp only at hs ht
    cases hv <;> cases h2 <;> simp_all <;> omega
  | readError as h1 h2 h3 =>
    simp only at hs ht
    cases hv <;> cases h2 <;> simp_all <;> omega
  | readEof h1 h2 h3 =>
    simp only at hs ht
    cases hv <;> cases h2 <;> simp_all <;> omega
  | handOver line h1 h2 h3 =>
    simp only
    exact ⟨tr, [], now, line, rfl, h3, by simp⟩
  | handOverQuit line h1 h2 h3 =>
    simp only at hs ⊢
    rw [h1] at hk
    simp only at hk
    rw [hs, ← hk.1]
    exact hk.2.1
  | closed h1 h2 =>
    simp only at hs ⊢
    rw [h1] at hk
    simp only at hk
    rw [hs, ← hk.1]
    exact hk.2.1
  | timeout h1 =>
    simp only at hs ⊢
    rw [h1] at hk
    simp only at hk
    rw [hs, ← hk.1]
    exact hk.2.1
  | command line r st h1 h2 =>
    simp only at hs ht
    cases r <;> simp_all [Ret.next] <;> omega
  | proceed h1 h2 h3 =>
    simp only at hs ht ⊢
    rw [h1] at hk
    simp only at hk
    refine ⟨?_, ?_, Or.inr ⟨by simp, by rw [ht]; exact hk.2⟩⟩
    · rw [if_pos (by rw [h1]; simp), hs]; exact hk.1
    · rw [if_pos (by rw [h1]; simp)]; omega
  | readerDone h1 h2 h3 =>
    simp only at hs ht
    cases hv <;> cases h2 <;> simp_all <;> omega
  | shutdown h1 => trivial

theorem known_wait {e : Env} {limit t0 : Int} {st : St} {tr : List (Int × Event)} {t : Timed} {ls : List Bytes}
    (hv : Inv C J e st ls t.s) (hk : Known limit t0 tr t) (hn : ∀ ev s, Step C J e t.s ev s → ¬ Ready C J e limit t ev) :
    Known limit t0 tr { t with now := t.now + 1 } := by
  obtain ⟨s1, now, since, due⟩ := t
  unfold Known at *
  simp only at *
  cases hm : s1.main with
  | select =>
    rw [hm] at hk
    simp only at hk ⊢
    have hto := hn _ _ (.timeout s1 hm)
    simp only [Ready, inputs, Nat.not_lt_zero, false_implies, implies_true, true_and, forall_const, Int.not_le] at hto
    refine ⟨hk.1, by omega, ?_⟩
    rcases hk.2.2 with ⟨⟨l, hl⟩, -⟩ | h
    · exfalso
      by_cases hq : l = ascii "quit"
      · exact hn _ _ (.handOverQuit s1 l hm hl hq) ⟨by simp [inputs], by simp⟩
      · exact hn _ _ (.handOver s1 l hm hl hq) ⟨by simp [inputs], by simp⟩
    · exact Or.inr h
  | running l => rw [hm] at hk; exact hk
  | acking =>
    exfalso
    cases hv with
    | acking b hb => exact hn _ _ (.proceed _ rfl rfl rfl) ⟨by simp [inputs], by simp⟩
    | _ => cases hm
  | stopped => exact absurd ⟨by simp [inputs], by simp⟩ (hn _ _ (.shutdown s1 hm))
  | exited => trivial

theorem known {e : Env} {limit t0 : Int} {st : St} {due : Nat → Int} {tr : List (Int × Event)} {t : Timed}
    (h : TimedRun C J e limit (Timed.init st t0 due) tr t) : Known limit t0 tr t := by
  generalize hi : Timed.init st t0 due = ti at h
  induction h with
  | nil =>
    subst hi
    refine ⟨rfl, ?_, Or.inr ⟨Or.inl rfl, rfl⟩⟩
    show t0 ≤ t0 + max limit 0
    omega
  | @act t1 tr ev s h1 h2 h3 ih =>
    subst hi
    exact known_step C J (inv C J (untimed C J h1)) ih h2 h3
  | @wait t1 tr h1 h2 h3 ih =>
    subst hi
    exact known_wait C J (inv C J (untimed C J h1)) ih h3

/-- The moment at which something happened. -/
theorem moment {e : Env} {limit : Int} {ti t : Timed} {tr tr1 tr2 : List (Int × Event)} {p : Int × Event}
    (h : TimedRun C J e limit ti tr t) (hp : tr = tr1 ++ p :: tr2) :
    ∃ t1 s, TimedRun C J e limit ti tr1 t1 ∧ Step C J e t1.s p.2 s ∧ Ready C J e limit t1 p.2 ∧ t1.now = p.1 := by
  induction h generalizing tr2 with
  | nil => simp at hp
  | @act t1 tr ev s h1 h2 h3 ih =>
    rcases List.eq_nil_or_concat tr2 with rfl | ⟨tr3, q, rfl⟩
    · obtain ⟨rfl, hq⟩ := List.append_inj' hp rfl
      cases hq
      exact ⟨t1, s, h1, h2, h3, rfl⟩
    · refine ih (tr2 := tr3) ?_
      rw [List.concat_eq_append, ← List.cons_append, ← List.append_assoc] at hp
      exact (List.append_inj' hp rfl).1
  | wait _ _ _ ih => exact ih hp

/-! ### C161: the session is locked -/

/-- As long as the process has not ended, either a command is being carried out, or the last one ended,
or the session began, no longer ago than the limit. Missing from the property: a command that waits
for an answer, see C161_violated. -/
theorem C161_partial {e : Env} {limit t0 : Int} {st : St} {due : Nat → Int} {tr : List (Int × Event)} {t : Timed}
    (h : TimedRun C J e limit (Timed.init st t0 due) tr t) (hx : t.s.main ≠ .exited) :
    Busy tr ∨ t.now ≤ idleSince t0 tr + max limit 0 := by
  have hk := known C J h
  unfold Known at hk
  cases hm : t.s.main with
  | select => rw [hm] at hk; simp only at hk; right; rw [← hk.1]; exact hk.2.1
  | running l => rw [hm] at hk; exact Or.inl hk
  | acking => rw [hm] at hk; simp only at hk; right; omega
  | stopped => rw [hm] at hk; exact Or.inr hk
  | exited => exact absurd hm hx

/-- Time does not stop: every run can be continued until the process has ended or any given time
has come. -/
theorem C161_time {e : Env} {limit : Int} {t0 t : Timed} {tr : List (Int × Event)} (h : TimedRun C J e limit t0 tr t) (n : Int) :
    ∃ tr' t', TimedRun C J e limit t0 tr' t' ∧ tr <+: tr' ∧ (t'.s.main = .exited ∨ n ≤ t'.now) := by
  suffices ∀ w k (tr : List (Int × Event)) t, TimedRun C J e limit t0 tr t → weight t.s = w → (n - t.now).toNat = k →
      ∃ tr' t', TimedRun C J e limit t0 tr' t' ∧ tr <+: tr' ∧ (t'.s.main = .exited ∨ n ≤ t'.now) from this _ _ tr t h rfl rfl
  intro w
  induction w using Nat.strongRecOn with
  | ind w ihw =>
    intro k
    induction k with
    | zero =>
      intro tr t h _ hk
      exact ⟨tr, t, h, List.prefix_rfl, Or.inr (by omega)⟩
    | succ k ihk =>
      intro tr t h hw hk
      by_cases hx : t.s.main = .exited
      · exact ⟨tr, t, h, List.prefix_rfl, Or.inl hx⟩
      · by_cases hs : ∃ ev s, Step C J e t.s ev s ∧ Ready C J e limit t ev
        · obtain ⟨ev, s, h1, h2⟩ := hs
          obtain ⟨tr', t', r1, r2, r3⟩ := ihw _ (by rw [← hw]; exact step_weight C J h1) _ _ _ (.act h h1 h2) rfl rfl
          exact ⟨tr', t', r1, (List.prefix_append _ _).trans r2, r3⟩
        · exact ihk tr _ (.wait h hx (fun ev s h1 h2 => hs ⟨ev, s, h1, h2⟩)) hw (by show (n - (t.now + 1)).toNat = k; omega)

/-- When the process has ended, nothing but zeros is left of the secrets, the metadata and the
passphrase. -/
theorem C161_wiped {e : Env} {limit t0 : Int} {st : St} {due : Nat → Int} {tr : List (Int × Event)} {t : Timed}
    (h : TimedRun C J e limit (Timed.init st t0 due) tr t) (hx : t.s.main = .exited) :
    (∀ p, t.s.st.sess.store.passphrase = some p → AllZero p) ∧
    ∀ k r, lookup t.s.st.sess.store k = some r → AllZero r.secret ∧ ∀ md j v, r.metadata = some md → md j = some v → AllZero v := by
  have hs : ∃ x : SecretStore, t.s.st.sess.store = x.zero := by
    obtain ⟨b, -, h1 | h1 | h1⟩ := run_exited C J (untimed C J h) hx
    · obtain ⟨x, -, hx⟩ := h1
      exact ⟨_, by rw [hx]; rfl⟩
    · unfold turn at h1
      split at h1
      · cases h1
      · cases h1
      · split at h1
        · cases h1
        · split at h1
          · cases h1
          · rename_i line as _ _ _
            cases hp : processCommands C J e line (b.rest as) with
            | mk r st' =>
              rw [hp] at h1
              cases r <;> cases h1
              exact ⟨_, by rw [process_exit C J hp]; rfl⟩
    · obtain ⟨-, as, hx⟩ := h1
      exact ⟨_, by rw [hx]; rfl⟩
  obtain ⟨x, hx⟩ := hs
  rw [hx]
  refine ⟨fun p hp => ?_, fun k r hr => ?_⟩
  · cases hq : x.passphrase with
    | none => simp [SecretStore.zero, hq] at hp
    | some q =>
      simp only [SecretStore.zero, hq, Option.map_some, Option.some.injEq] at hp
      rw [← hp]
      exact zero_allZero q
  · rw [lookup_zero] at hr
    cases hq : lookup x k with
    | none => rw [hq] at hr; cases hr
    | some q =>
      rw [hq] at hr
      cases hr
      refine ⟨zero_allZero _, fun md j v hm hv => ?_⟩
      cases hd : q.metadata with
      | none => simp [SecretRecord.zero, hd] at hm
      | some d =>
        simp only [SecretRecord.zero, hd, Option.map_some, Option.some.injEq] at hm
        subst hm
        cases hj : d j with
        | none => simp [hj] at hv
        | some u =>
          simp only [hj, Option.map_some, Option.some.injEq] at hv
          rw [← hv]
          exact zero_allZero u

/-- A limit of more than twelve hours is refused before anything is asked for or read; up to twelve
hours, nothing is. -/
theorem C161_limit (limit : Int) (w : World) (writes : Nat → WriteOutcome) (path : Bytes) (mode : Int) :
    (limit > 12 * 3600 * 1000000000 → startFor C J limit w writes path mode = .ok none) ∧
    (limit ≤ 12 * 3600 * 1000000000 → startFor C J limit w writes path mode = start C J w writes path mode) := by
  unfold startFor maxTimeout
  constructor
  · intro h; rw [if_pos (by omega)]
  · intro h; rw [if_neg (by omega)]

/-- While a command is carried out, time passes only until the last input that it reads is typed. -/
theorem C161_waiting {e : Env} {limit t0 : Int} {st : St} {due : Nat → Int} {tr : List (Int × Event)} {t : Timed} {line : Bytes}
    (h : TimedRun C J e limit (Timed.init st t0 due) tr t) (hm : t.s.main = .running line) :
    (∃ tr1, tr = tr1 ++ [(t.now, .accept line)]) ∨ ∃ k, k < awaited C J e line t.s.st ∧ t.now ≤ t.due k := by
  generalize hi : Timed.init st t0 due = ti at h
  induction h with
  | nil => subst hi; cases hm
  | @act t1 tr ev s h1 h2 h3 ih =>
    subst hi
    have hv := inv C J (untimed C J h1)
    obtain ⟨s1, now, since, d⟩ := t1
    simp only [Timed.next] at *
    cases h2 with
    | handOver l g1 g2 g3 => cases hm; exact Or.inl ⟨tr, rfl⟩
    | command l r st' g1 g2 => cases r <;> cases hm
    | handOverQuit => cases hm
    | closed => cases hm
    | timeout => cases hm
    | proceed => cases hm
    | shutdown => cases hm
    | _ => cases hv <;> simp_all
  | @wait t1 tr h1 h2 h3 ih =>
    subst hi
    right
    simp only at hm ⊢
    cases hp : processCommands C J e line t1.s.st with
    | mk r st' =>
      have := h3 _ _ (.command t1.s line r st' hm hp)
      simp only [Ready, inputs, reduceCtorEq, false_implies, and_true, Classical.not_forall, Int.not_le] at this
      obtain ⟨k, k1, k2⟩ := this
      exact ⟨k, k1, by omega⟩

/-! ### C161_violated: a command that waits -/

theorem process_passwd_eof (e : Env) (st : St) (ha : st.w.term.answers = [none]) :
    (processCommands C J e (ascii "passwd") st).2.w.term.answers = [] := by
  unfold processCommands
  rw [show fields (ascii "passwd") = [ascii "passwd"] by decide]
  dsimp only
  rw [if_neg (by decide), if_neg (by decide), if_neg (by decide), if_neg (by decide), if_pos rfl]
  unfold passwd St.read Term.read
  rw [ha]

/-- "passwd" is typed, and then nothing. However long that lasts, the process does not end, and the secrets
and the passphrase stay in memory. -/
theorem C161_violated (e : Env) (limit t0 : Int) (hl : limit ≤ maxTimeout) (n : Nat) : ∃ b st due tr t,
    startFor C J limit (exWorld b [some (ascii "pw"), some (ascii "passwd")]) (fun _ => .done) [102] 0 = .ok (some st) ∧
    due 0 = t0 ∧ (∀ k, due (k + 1) > t0 + n) ∧
    TimedRun C J e limit (Timed.init st t0 due) tr t ∧ t.now = t0 + n ∧ t.s.main ≠ .exited ∧
    t.s.st.sess.store = exStore [1, 2, 3] 7 ∧ t.s.st.sess.store.passphrase = some (ascii "pw") ∧
    (∀ p ∈ tr, p.1 = t0) := by
  obtain ⟨b, hb⟩ := Props.Secrets.exFile C J 0 (Or.inl rfl)
  have hpw : ascii "pw" = [112, 119] := by decide
  have hst := exStart C J hb [some (ascii "passwd")] (fun _ => .done)
  rw [hpw]
  refine ⟨b, exSt b 0 [some (ascii "passwd")], fun k => if k = 0 then t0 else t0 + n + 1, ?_⟩
  have h0 : TimedRun C J e limit (Timed.init (exSt b 0 [some (ascii "passwd")]) t0 (fun k => if k = 0 then t0 else t0 + n + 1)) [] _ := .nil _
  have h1 := TimedRun.act h0 (.readLine _ (ascii "passwd") [] (by simp [Timed.init, Sys.init]) rfl rfl (by decide))
    ⟨by intro k hk; simp only [inputs] at hk; have : k = 0 := by omega
        subst this; simp [Timed.init], by simp⟩
  have h2 := TimedRun.act h1 (.handOver _ (ascii "passwd") rfl rfl (by decide)) ⟨by simp [inputs], by simp⟩
  have h3 : ∀ m, m ≤ n → ∃ t, TimedRun C J e limit (Timed.init (exSt b 0 [some (ascii "passwd")]) t0 (fun k => if k = 0 then t0 else t0 + n + 1))
      [(t0, .read (ascii "passwd")), (t0, .accept (ascii "passwd"))] t ∧ t.now = t0 + m ∧ t.s.main = .running (ascii "passwd") ∧
      t.s.st = (exSt b 0 []) ∧ ∀ k, t.due k = t0 + n + 1 := by
    intro m
    induction m with
    | zero =>
      intro _
      refine ⟨_, h2, ?_, rfl, rfl, fun k => ?_⟩
      · show t0 = t0 + ((0 : Nat) : Int); omega
      · show (if k + 0 + 1 = 0 then t0 else t0 + n + 1) = _
        rw [if_neg (by omega)]
    | succ m ih =>
      intro hm
      obtain ⟨t, r1, r2, r3, r4, r5⟩ := ih (by omega)
      refine ⟨_, .wait r1 (by rw [r3]; simp) ?_, ?_, r3, r4, r5⟩
      · intro ev s hs hr
        obtain ⟨r, rfl⟩ := running_alone C J (untimed C J r1) r3 hs
        have := hr.1 0 (by
          simp only [inputs, awaited, r4]
          rw [process_passwd_eof C J e _ rfl]
          show 0 < 0 + 1 - 0
          decide)
        rw [r5] at this
        omega
      · show t.now + 1 = t0 + ((m + 1 : Nat) : Int)
        omega
  obtain ⟨t, r1, r2, r3, r4, r5⟩ := h3 n (Nat.le_refl _)
  refine ⟨_, t, ?_, rfl, fun k => ?_, r1, r2, by rw [r3]; simp, by rw [r4]; rfl, by rw [r4]; rfl, by simp⟩
  · rw [startFor, if_neg (by omega)]; exact hst
  · show (if k + 1 = 0 then t0 else t0 + n + 1) > _
    rw [if_neg (by omega)]; omega

/-! ### C162: the session is not locked too early -/

/-- When the timer fires, the last command ended, or the session began, at least as long ago as the
limit, and no line that is not empty was typed since, unless it was at this very moment. Missing from
the property: empty lines, see C162_violated. -/
theorem C162_partial {e : Env} {limit t0 τ : Int} {st : St} {due : Nat → Int} {tr tr1 tr2 : List (Int × Event)} {t : Timed}
    (h : TimedRun C J e limit (Timed.init st t0 due) tr t) (ht : tr = tr1 ++ (τ, .timeout) :: tr2) :
    idleSince t0 tr1 + limit ≤ τ ∧ ∀ u ∈ typedSince tr1, u = τ := by
  obtain ⟨t1, s, h1, h2, h3, rfl⟩ := moment C J h ht
  have hk := known C J h1
  unfold Known at hk
  cases h2 with
  | timeout g1 =>
    rw [g1] at hk
    simp only at hk
    refine ⟨by rw [← hk.1]; exact h3.2 rfl, ?_⟩
    rcases hk.2.2 with ⟨-, h⟩ | ⟨-, h⟩ <;> rw [h] <;> simp

/-- The state in which empty lines are typed. -/
theorem blank_round {e : Env} {limit : Nat} {t0 : Int} {ti : Timed} {j m : Nat} (hj : j < limit) {t : Timed} {tr : List (Int × Event)} {st : St}
    (h : TimedRun C J e limit ti tr t) (hs : t.s = ⟨st.rest (List.replicate (m + 1) (some [])), .reading, .select, false, false⟩)
    (hn : t.now = t0 + j) (hi : t.since = t0) (hd : ∀ k, t.due k = t0 + j + k) :
    ∃ t' : Timed, TimedRun C J e limit ti (tr ++ [(t0 + j, .silent)]) t' ∧ t'.s = ⟨st.rest (List.replicate m (some [])), .reading, .select, false, false⟩ ∧
      t'.now = t0 + (j + 1 : Nat) ∧ t'.since = t0 ∧ ∀ k, t'.due k = t0 + (j + 1 : Nat) + k := by
  obtain ⟨s1, now, since, due⟩ := t
  simp only at hs hn hi hd
  subst hs hn hi
  have h1 := TimedRun.act h (.readBlank _ (List.replicate m (some [])) (by simp) rfl rfl)
    ⟨by intro k hk; simp only [inputs, if_true] at hk; have : k = 0 := by omega
        subst this; simp [hd], by simp⟩
  have hd' : ∀ k, due (k + (m + 1 - m)) = since + (j + 1 : Nat) + k := by
    intro k
    rw [hd]
    omega
  refine ⟨_, .wait h1 (by simp [Timed.next]) ?_, rfl, by simp only [Timed.next]; omega, by simp [Timed.next], ?_⟩
  · intro ev s hs hr
    simp only [Timed.next] at hs hr
    have hk : ∀ k, due (k + ((List.replicate (m + 1) (some ([] : Bytes))).length - (List.replicate m (some ([] : Bytes))).length)) = since + (j + 1 : Nat) + k := by
      intro k
      rw [List.length_replicate, List.length_replicate]
      exact hd' k
    have h0 := hk 0
    cases hs with
    | readLine line as g1 g2 g3 g4 => have := hr.1 0 (by simp [inputs]); simp only [rest_answers] at this; omega
    | readBlank as g1 g2 g3 => have := hr.1 0 (by simp [inputs]); simp only [rest_answers] at this; omega
    | readError as g1 g2 g3 => have := hr.1 0 (by simp [inputs]); simp only [rest_answers] at this; omega
    | readEof g1 g2 g3 => have := hr.1 0 (by simp [inputs]); simp only [rest_answers] at this; omega
    | timeout g1 => have := hr.2 rfl; simp at this; omega
    | handOver line h1 h2 h3 => cases h2
    | handOverQuit line h1 h2 h3 => cases h2
    | closed h1 h2 => cases h2
    | command line r st h1 h2 => cases h1
    | proceed h1 h2 h3 => cases h1
    | readerDone h1 h2 h3 => cases h2
    | shutdown h1 => cases h1
  · intro k
    simp only [Timed.next, rest_answers, List.length_replicate]
    exact hd' k

/-- A user who presses the enter key all the time is locked out all the same: empty lines are typed at
every moment, and the timer fires. -/
theorem C162_violated (e : Env) (limit : Nat) (st : St) (t0 : Int) (ha : st.w.term.answers = List.replicate limit (some [])) :
    ∃ tr t, TimedRun C J e limit (Timed.init st t0 (fun k => t0 + k)) tr t ∧ (t0 + limit, .timeout) ∈ tr := by
  have hst : st.rest (List.replicate limit (some [])) = st := by rw [← ha]; rfl
  have key : ∀ j, j ≤ limit → ∃ tr, ∃ t : Timed, TimedRun C J e limit (Timed.init st t0 (fun k => t0 + k)) tr t ∧
      t.s = ⟨st.rest (List.replicate (limit - j) (some [])), .reading, .select, false, false⟩ ∧ t.now = t0 + j ∧ t.since = t0 ∧
      ∀ k, t.due k = t0 + j + k := by
    intro j
    induction j with
    | zero =>
      intro _
      refine ⟨[], _, .nil _, ?_, ?_, rfl, fun k => ?_⟩
      · rw [Nat.sub_zero, hst]; rfl
      · show t0 = t0 + ((0 : Nat) : Int); omega
      · show t0 + (k : Int) = _; omega
    | succ j ih =>
      intro hj
      obtain ⟨tr, t, r1, r2, r3, r4, r5⟩ := ih (by omega)
      rw [show limit - j = (limit - (j + 1)) + 1 by omega] at r2
      obtain ⟨t', q1, q2, q3, q4, q5⟩ := blank_round C J (show j < limit by omega) r1 r2 r3 r4 r5
      exact ⟨_, t', q1, q2, q3, q4, q5⟩
  obtain ⟨tr, t, r1, r2, r3, r4, r5⟩ := key limit (Nat.le_refl _)
  refine ⟨_, _, .act r1 (.timeout t.s (by rw [r2])) ⟨by simp [inputs], fun _ => by omega⟩, ?_⟩
  rw [r3]
  simp

/-! ### Examples -/

/-- Nothing is typed for a hundred units of time, and the limit is one. -/
theorem exIdle (e : Env) (b : Bytes) : ∃ t, TimedRun C J e 1 (Timed.init (exSt b 0 []) 5 (fun _ => 105)) [(6, .timeout), (6, .shutdown)] t ∧
    t.s.main = .exited ∧ t.now = 6 := by
  have h0 : TimedRun C J e 1 (Timed.init (exSt b 0 []) 5 (fun _ => 105)) [] _ := .nil _
  have h1 := TimedRun.wait h0 (by simp [Timed.init, Sys.init]) (by
    intro ev s hs hr
    cases hs with
    | readLine line as g1 g2 g3 g4 => cases g3
    | readBlank as g1 g2 g3 => cases g3
    | readError as g1 g2 g3 => cases g3
    | readEof g1 g2 g3 => exact absurd (hr.1 0 (by simp [inputs, Timed.init, Sys.init])) (by simp [Timed.init])
    | timeout g1 => exact absurd (hr.2 rfl) (by simp [Timed.init])
    | handOver line h1 h2 h3 => cases h2
    | handOverQuit line h1 h2 h3 => cases h2
    | closed h1 h2 => cases h2
    | command line r st h1 h2 => cases h1
    | proceed h1 h2 h3 => cases h1
    | readerDone h1 h2 h3 => cases h2
    | shutdown h1 => cases h1)
  have h2 := TimedRun.act h1 (.timeout _ rfl) ⟨by simp [inputs], by simp [Timed.init]⟩
  have h3 := TimedRun.act h2 (.shutdown _ rfl) ⟨by simp [inputs], by simp⟩
  exact ⟨_, h3, rfl, rfl⟩

/-- What C161_wiped and C162_partial say about it. -/
example (e : Env) (b : Bytes) : ∃ t, TimedRun C J e 1 (Timed.init (exSt b 0 []) 5 (fun _ => 105)) [(6, .timeout), (6, .shutdown)] t ∧
    t.s.main = .exited ∧ (∀ p, t.s.st.sess.store.passphrase = some p → AllZero p) ∧ idleSince 5 [] + 1 ≤ 6 := by
  obtain ⟨t, h1, h2, -⟩ := exIdle C J e b
  exact ⟨t, h1, h2, (C161_wiped C J h1 h2).1, (C162_partial C J h1 (tr1 := []) (τ := 6) rfl).1⟩

/-- The beginning of a session for C161_partial and C161_time; and a limit of twelve hours and a
nanosecond for C161_limit. -/
example (e : Env) (b : Bytes) (w : World) : (Timed.init (exSt b 0 [some (ascii "list")]) 5 (fun _ => 105)).s.main ≠ .exited ∧
    TimedRun C J e defaultTimeout (Timed.init (exSt b 0 [some (ascii "list")]) 5 (fun _ => 105)) [] (Timed.init (exSt b 0 [some (ascii "list")]) 5 (fun _ => 105)) ∧
    startFor C J 43200000000001 w (fun _ => .done) [102] 0 = .ok none ∧
    startFor C J 43200000000000 w (fun _ => .done) [102] 0 = start C J w (fun _ => .done) [102] 0 :=
  ⟨by simp [Timed.init, Sys.init], .nil _, (C161_limit C J _ _ _ _ _).1 (by decide), (C161_limit C J _ _ _ _ _).2 (by decide)⟩

/-- A state for C162_violated, and a run for C161_waiting: "passwd" waits for a password. -/
example (e : Env) (b : Bytes) : (exSt b 0 [some [], some [], some []]).w.term.answers = List.replicate 3 (some []) ∧
    ∃ tr t, TimedRun C J e 3 (Timed.init (exSt b 0 [some [], some [], some []]) 5 (fun k => 5 + k)) tr t ∧ (8, .timeout) ∈ tr :=
  ⟨rfl, C162_violated C J e 3 _ 5 rfl⟩

example (e : Env) (b : Bytes) : ∃ tr t, TimedRun C J e 9 (Timed.init (exSt b 0 [some (ascii "passwd")]) 5 (fun _ => 5)) tr t ∧
    t.s.main = .running (ascii "passwd") ∧ Busy tr := by
  have h0 : TimedRun C J e 9 (Timed.init (exSt b 0 [some (ascii "passwd")]) 5 (fun _ => 5)) [] _ := .nil _
  have h1 := TimedRun.act h0 (.readLine _ (ascii "passwd") [] (by simp [Timed.init, Sys.init]) rfl rfl (by decide))
    ⟨by intro k _; simp [Timed.init], by simp⟩
  have h2 := TimedRun.act h1 (.handOver _ (ascii "passwd") rfl rfl (by decide)) ⟨by simp [inputs], by simp⟩
  exact ⟨_, _, h2, rfl, ⟨[_], [], _, ascii "passwd", rfl, by decide, by simp⟩⟩

end Verif.Props.SecretscliTime
