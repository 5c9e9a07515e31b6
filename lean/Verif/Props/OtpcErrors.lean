import Verif.Props.JournalErrors
import Verif.Props.OtpcOutput
/-! C215-C218: what cmd/otpc writes to standard error. -/

namespace Verif.Props.OtpcErrors
open Verif Verif.Go Verif.Model.Util Verif.Model.SecretStore Verif.Model.Otpc Verif.Model.OtpcErrors
open Verif.Model.Secrets (World loadStore writeStore assign fetch dash)
open Verif.Model.SecretsErrors (errorf writeErr loadErr)
open Verif.Spec.SecretStore Verif.Spec.Secrets Verif.Spec.OtpcErrors
open Verif.Spec.SecretsErrors (report)
open Verif.Proofs.SecretStore Verif.Proofs.OtpcErrors
open Verif.Proofs.SecretsErrors (errorf_eq loadErr_some loadErr_mem writeErr_ok)
open Verif.Proofs.Secrets hiding fmode
open Verif.Proofs.Otpc (load_ok load_some has_of_lookup)
open Verif.Props.SecretStore
open Verif.Props.Secrets (exWorld exFile exMap_other exClock)

variable (E : Texts) (C : Crypto) (J : Json) (F : TwoFactor) (U : Case)

theorem failure_of (m : Bytes) : Failure (report (ascii "Failed: " ++ m)) := ⟨_, rfl, Or.inl ⟨m, rfl⟩⟩

/-! ### C215: failures are reported -/

/-- The run failed. -/
def Failed (o : Outcome) : Prop := ∃ n codes, o = .exit n codes ∧ n ≠ 0

theorem not_failed (codes : List Bytes) : ¬ Failed (.exit 0 codes) := by
  rintro ⟨n, c, h, hn⟩
  cases h
  exact hn rfl

theorem failed_one (codes : List Bytes) : Failed (.exit 1 codes) := ⟨1, codes, rfl, by simp⟩

theorem saveErr_failed {w w' : World} {ps : SecretStore} {path : Bytes} {mode : Int} {codes : List Bytes} {o : Outcome}
    (h : save C J w ps path mode codes = .ok (o, w')) :
    (Failed o → ∃ pre x, saveErr E C J w ps path mode = pre ++ [x] ∧ Failure x) ∧ (¬ Failed o → saveErr E C J w ps path mode = []) := by
  unfold save at h
  unfold saveErr
  dsimp only at h ⊢
  obtain ⟨⟨w3, ok⟩, h1, h2⟩ := Res.bind_eq_ok.mp h
  simp only [Res.pure_eq, Res.ok.injEq, Prod.mk.injEq] at h2
  obtain ⟨rfl, -⟩ := h2
  cases ok with
  | true =>
    rw [writeErr_ok _ C J h1, h1]
    exact ⟨fun hf => absurd hf (not_failed _), fun _ => rfl⟩
  | false =>
    rw [h1]
    exact ⟨fun _ => ⟨_, _, rfl, _, rfl, Or.inr (Or.inr (Or.inr rfl))⟩, fun hf => absurd (failed_one _) hf⟩

theorem told {f : Flags} {args : List Bytes} {path : Bytes} {w w' : World} {o : Outcome} (h : main C J F U f args path w = .ok (o, w')) :
    (Failed o → ∃ pre x, mainErr E C J F U f args path w = pre ++ [x] ∧ Failure x) ∧ (¬ Failed o → mainErr E C J F U f args path w = []) := by
  unfold main at h
  unfold mainErr
  by_cases hi : f.init = true
  · rw [if_pos hi] at h ⊢
    obtain ⟨⟨ok, w1⟩, h1, h2⟩ := Res.bind_eq_ok.mp h
    simp only [Res.pure_eq, Res.ok.injEq, Prod.mk.injEq] at h2
    obtain ⟨rfl, -⟩ := h2
    unfold initMainErr
    cases ok with
    | true =>
      rw [h1]
      dsimp only
      rw [initErr_ok _ C J h1]
      exact ⟨fun hf => absurd hf (not_failed _), fun _ => rfl⟩
    | false =>
      rw [h1]
      exact ⟨fun _ => ⟨_, _, rfl, failure_of _⟩, fun hf => absurd (failed_one _) hf⟩
  rw [if_neg hi] at h ⊢
  by_cases hlt : args.length < (if f.store = true then 1 else if f.qr = true then 2 else 1)
  · rw [if_pos hlt] at h ⊢
    cases h
    exact ⟨fun _ => ⟨[_], _, rfl, _, rfl, Or.inr (Or.inl ⟨_, rfl⟩)⟩, fun hf => absurd (failed_one _) hf⟩
  rw [if_neg hlt] at h ⊢
  obtain ⟨⟨x, w1⟩, hl, h2⟩ := Res.bind_eq_ok.mp h
  clear h
  cases x with
  | none =>
    cases h2
    rw [hl]
    exact ⟨fun _ => ⟨_, _, rfl, _, rfl, Or.inr (Or.inr (Or.inl rfl))⟩, fun hf => absurd (failed_one _) hf⟩
  | some ps =>
    rw [loadErr_some _ C J hl, hl, List.nil_append]
    dsimp only at h2 ⊢
    unfold runErr
    dsimp only
    by_cases hs : f.store = true
    · rw [if_pos hs] at h2 ⊢
      rw [addErr_quiet E F U rfl, List.nil_append]
      obtain ⟨⟨y, ps2, w2⟩, h3, h4⟩ := Res.bind_eq_ok.mp h2
      rw [h3]
      cases y with
      | none =>
        cases h4
        exact ⟨fun _ => ⟨[], _, rfl, failure_of _⟩, fun hf => absurd (failed_one _) hf⟩
      | some code => exact saveErr_failed E C J h4
    rw [if_neg hs] at h2 ⊢
    by_cases hq : f.qr = true
    · rw [if_pos hq] at h2 ⊢
      obtain ⟨⟨y, w2⟩, h3, h4⟩ := Res.bind_eq_ok.mp h2
      rw [h3]
      cases y with
      | false =>
        cases h4
        exact ⟨fun _ => ⟨[], _, rfl, failure_of _⟩, fun hf => absurd (failed_one _) hf⟩
      | true =>
        cases h4
        exact ⟨fun hf => absurd hf (not_failed _), fun _ => rfl⟩
    rw [if_neg hq] at h2 ⊢
    obtain ⟨⟨y, ps2, w2⟩, h3, h4⟩ := Res.bind_eq_ok.mp h2
    rw [h3]
    cases y with
    | failed =>
      cases h4
      exact ⟨fun _ => ⟨[], _, rfl, failure_of _⟩, fun hf => absurd (failed_one _) hf⟩
    | forever first =>
      cases h4
      exact ⟨(by rintro ⟨n, c, hx, -⟩; cases hx), fun _ => rfl⟩
    | once code => exact saveErr_failed E C J h4

/-- When otpc exits with a status other than 0, the last line on standard error says that it failed, or what
arguments it lacks. -/
theorem C215_failed {f : Flags} {args : List Bytes} {path : Bytes} {w w' : World} {n : Nat} {codes : List Bytes} (hn : n ≠ 0)
    (h : main C J F U f args path w = .ok (.exit n codes, w')) :
    ∃ pre x, mainErr E C J F U f args path w = pre ++ [x] ∧ Failure x := (told E C J F U h).1 ⟨n, codes, rfl, hn⟩

/-- When it exits with status 0, or goes on displaying codes, there is nothing on standard error. -/
theorem C215_quiet {f : Flags} {args : List Bytes} {path : Bytes} {w w' : World} {o : Outcome}
    (h : main C J F U f args path w = .ok (o, w')) (ho : (∃ codes, o = .exit 0 codes) ∨ ∃ first, o = .forever first) :
    mainErr E C J F U f args path w = [] := by
  refine (told E C J F U h).2 ?_
  rcases ho with ⟨codes, rfl⟩ | ⟨first, rfl⟩
  · exact not_failed codes
  · rintro ⟨n, c, hx, -⟩
    cases hx

/-- `otpc -qr a` without a file. -/
example (w : World) : main C J F U { qr := true } [[97]] [102] w = .ok (.exit 1 [], w) ∧
    mainErr E C J F U { qr := true } [[97]] [102] w = [report (ascii "Not enough arguments: want 2, have 1."), report (ascii "Want: label, filename")] := by
  constructor
  · rfl
  · unfold mainErr
    simp [errorf_eq]
    exact ⟨rfl, rfl⟩

/-! ### C216: labels that are taken, and labels that are not there -/

/-- What is on standard error when a store has been opened. -/
theorem err_of {f : Flags} {args : List Bytes} {path pass : Bytes} {w : World} {rest : List (Option Bytes)} {s : SecretStore}
    (hd : path ≠ dash) (hi : f.init = false) (hlt : ¬ args.length < (if f.store = true then 1 else if f.qr = true then 2 else 1))
    (ha : w.term.answers = some pass :: rest) (ho : Opens C J w.fs path pass f.mode s) :
    mainErr E C J F U f args path w = runErr E C J F U f args path { w with term := ⟨rest, w.term.clock⟩ } s := by
  unfold mainErr
  have h := load_ok C J hd ha ho
  rw [hi, if_neg (by simp), if_neg hlt, loadErr_some _ C J h, h]
  rfl

theorem main_of {f : Flags} {args : List Bytes} {path pass : Bytes} {w : World} {rest : List (Option Bytes)} {s : SecretStore}
    (hd : path ≠ dash) (hi : f.init = false) (hlt : ¬ args.length < (if f.store = true then 1 else if f.qr = true then 2 else 1))
    (ha : w.term.answers = some pass :: rest) (ho : Opens C J w.fs path pass f.mode s) :
    main C J F U f args path w =
      if f.store then
        (addSecret F U { w with term := ⟨rest, w.term.clock⟩ } s ⟨args, parseOTPKind f.kind, false⟩ (args.headD [])).bind fun
          | (none, _, w) => .ok (.exit 1 [], w)
          | (some code, ps, w) => save C J w ps path f.mode [code]
      else if f.qr then
        (showQR F { w with term := ⟨rest, w.term.clock⟩ } s (args.headD []) (args.tail.headD [])).bind fun x => .ok (.exit (if x.1 then 0 else 1) [], x.2)
      else
        (showSecret F { w with term := ⟨rest, w.term.clock⟩ } s (args.headD [])).bind (Proofs.Otpc.showEnd C J f path) := by
  unfold main
  have h := load_ok C J hd ha ho
  rw [hi, if_neg (by simp), if_neg hlt, h]
  rfl

/-- Storing a token under a label that is taken fails for that reason, before any key is read, and nothing else is said
or done. -/
theorem C216_taken {f : Flags} {label path pass : Bytes} {more : List Bytes} {w : World} {rest : List (Option Bytes)} {s : SecretStore} (hd : path ≠ dash)
    (hf : f.init = false ∧ f.store = true) (ha : w.term.answers = some pass :: rest) (ho : Opens C J w.fs path pass f.mode s) (hh : s.has label = true) :
    main C J F U f (label :: more) path w = .ok (.exit 1 [], { w with term := ⟨rest, w.term.clock⟩ }) ∧
    mainErr E C J F U f (label :: more) path w = [report (ascii "Failed: token already exists under label")] := by
  have hlt : ¬ (label :: more).length < (if f.store = true then 1 else if f.qr = true then 2 else 1) := by simp [hf.2]
  rw [main_of C J F U hd hf.1 hlt ha ho, err_of E C J F U hd hf.1 hlt ha ho]
  unfold runErr
  simp only [hf.2, if_true, List.headD_cons, addSecret, addErr, hh, Bool.not_false, Bool.and_true]
  exact ⟨trivial, rfl⟩

/-- Showing a token, or its QR code, under a label that is not there fails for that reason, and nothing else is said or
done. -/
theorem C216_absent {f : Flags} {label path pass : Bytes} {more : List Bytes} {w : World} {rest : List (Option Bytes)} {s : SecretStore} (hd : path ≠ dash)
    (hf : f.init = false ∧ f.store = false) (hm : f.qr = true → more ≠ []) (ha : w.term.answers = some pass :: rest)
    (ho : Opens C J w.fs path pass f.mode s) (hh : s.has label = false) :
    main C J F U f (label :: more) path w = .ok (.exit 1 [], { w with term := ⟨rest, w.term.clock⟩ }) ∧
    mainErr E C J F U f (label :: more) path w = [report (ascii "Failed: no token found under label")] := by
  have hlt : ¬ (label :: more).length < (if f.store = true then 1 else if f.qr = true then 2 else 1) := by
    cases hq : f.qr with
    | false => simp [hf.2]
    | true =>
      have := List.length_pos_iff.mpr (hm hq)
      simp only [hf.2, Bool.false_eq_true, if_false, if_true, List.length_cons]
      omega
  rw [main_of C J F U hd hf.1 hlt ha ho, err_of E C J F U hd hf.1 hlt ha ho]
  unfold runErr
  cases hq : f.qr with
  | false =>
    simp only [hf.2, Bool.false_eq_true, if_false, List.headD_cons, Proofs.Otpc.show_absent F hh, showErr, hh, Bool.not_false, if_true]
    exact ⟨rfl, rfl⟩
  | true =>
    simp only [hf.2, Bool.false_eq_true, if_false, if_true, List.headD_cons, showQR, qrErr, hh, Bool.not_false]
    exact ⟨rfl, rfl⟩

/-- Storing a token of a type that is none of the three fails for that reason, once its key was read, and nothing else is
said or done. -/
theorem C216_type {f : Flags} {label path pass key : Bytes} {more : List Bytes} {w : World} {rest : List (Option Bytes)} {s : SecretStore} (hd : path ≠ dash)
    (hf : f.init = false ∧ f.store = true) (hk : lower f.kind ∉ [ascii "totp", ascii "google", ascii "totp-google", ascii "hotp"])
    (ha : w.term.answers = some pass :: some key :: rest) (ho : Opens C J w.fs path pass f.mode s) (hh : s.has label = false) :
    main C J F U f (label :: more) path w = .ok (.exit 1 [], { w with term := ⟨rest, w.term.clock⟩ }) ∧
    mainErr E C J F U f (label :: more) path w = [report (ascii "Failed: unrecognised OTP type")] := by
  have hlt : ¬ (label :: more).length < (if f.store = true then 1 else if f.qr = true then 2 else 1) := by simp [hf.2]
  have hp : parseOTPKind f.kind = .unknown := by
    simp only [List.mem_cons, List.not_mem_nil, or_false, not_or] at hk
    unfold parseOTPKind
    simp [hk.1, hk.2.1, hk.2.2.1, hk.2.2.2]
  rw [main_of C J F U hd hf.1 hlt ha ho, err_of E C J F U hd hf.1 hlt ha ho]
  unfold runErr
  simp only [hf.2, if_true, List.headD_cons, addSecret, addErr, hh, Bool.false_and, Bool.false_eq_true, if_false, Term.read, hp, makeRecord, makeErr]
  exact ⟨rfl, rfl⟩

/-- A store with an entry "a": `otpc -s a`, `otpc b`, `otpc -qr b x` and `otpc -s -t steam b`. -/
example : ∃ b, mainErr E C J F U { store := true } [[97]] [102] (exWorld b [some [112, 119]]) = [report (ascii "Failed: token already exists under label")] ∧
    mainErr E C J F U {} [[98]] [102] (exWorld b [some [112, 119]]) = [report (ascii "Failed: no token found under label")] ∧
    mainErr E C J F U { qr := true } [[98], [120]] [102] (exWorld b [some [112, 119]]) = [report (ascii "Failed: no token found under label")] ∧
    mainErr E C J F U { store := true, kind := ascii "steam" } [[98]] [102] (exWorld b [some [112, 119], some [1]]) =
      [report (ascii "Failed: unrecognised OTP type")] := by
  obtain ⟨b, hb⟩ := exFile C J 0 (Or.inl rfl)
  have hh : (exStore [1, 2, 3] 7).has [98] = false := exMap_other (by decide) _ _
  exact ⟨b, (C216_taken E C J F U (f := { store := true }) (by decide) ⟨rfl, rfl⟩ rfl ⟨b, by simp [exWorld], hb⟩ rfl).2,
    (C216_absent E C J F U (f := {}) (by decide) ⟨rfl, rfl⟩ (by simp) rfl ⟨b, by simp [exWorld], hb⟩ hh).2,
    (C216_absent E C J F U (f := { qr := true }) (by decide) ⟨rfl, rfl⟩ (by simp) rfl ⟨b, by simp [exWorld], hb⟩ hh).2,
    (C216_type E C J F U (f := { store := true, kind := ascii "steam" }) (by decide) ⟨rfl, rfl⟩ (by decide) (rest := []) rfl ⟨b, by simp [exWorld], hb⟩ hh).2⟩

/-! ### C217: what can be on standard error -/

/-- All that otpc writes to standard error is one of a few lines, which are known from the command line alone but for
the texts of errors of the system, or a line with the error of a library that was given a number, a time step, a key or
a stored URL: no passphrase is among them. -/
theorem C217_vocabulary {f : Flags} {args : List Bytes} {path : Bytes} {w : World} :
    ∀ x ∈ mainErr E C J F U f args path w,
      x ∈ lines E path ∨ ∃ r, (r ∈ reasons E args path ∨ Library E r) ∧ x = report (ascii "Failed: " ++ r) := by
  intro x hx
  unfold mainErr at hx
  by_cases hi : f.init = true
  · rw [if_pos hi] at hx
    rcases initMainErr_mem _ C J hx with rfl | ⟨r, hr, rfl⟩
    · left; simp [lines]
    · refine Or.inr ⟨r, Or.inl ?_, rfl⟩
      simp only [List.mem_cons, List.not_mem_nil, or_false] at hr
      rcases hr with rfl | rfl | rfl | rfl <;> simp [reasons]
  rw [if_neg hi] at hx
  by_cases hlt : args.length < (if f.store = true then 1 else if f.qr = true then 2 else 1)
  · rw [if_pos hlt] at hx
    left
    by_cases hs : f.store = true
    · simp only [hs, if_true] at hx hlt
      have h0 : args.length = 0 := by omega
      rw [h0] at hx
      simp only [List.mem_cons, List.not_mem_nil, or_false, errorf_eq] at hx
      rcases hx with rfl | rfl
      · rw [show ascii "Not enough arguments: want " ++ decimal 1 ++ ascii ", have " ++ decimal 0 ++ ascii "." =
          ascii "Not enough arguments: want 1, have 0." from by decide]
        simp [lines]
      · rw [show ascii "Want: " ++ ascii "label" = ascii "Want: label" from by decide]
        simp [lines]
    · by_cases hq : f.qr = true
      · simp only [hs, hq, Bool.false_eq_true, if_true, if_false] at hx hlt
        have h0 : args.length = 0 ∨ args.length = 1 := by omega
        simp only [List.mem_cons, List.not_mem_nil, or_false, errorf_eq] at hx
        rcases hx with rfl | rfl
        · rcases h0 with h0 | h0 <;> rw [h0]
          · rw [show ascii "Not enough arguments: want " ++ decimal 2 ++ ascii ", have " ++ decimal 0 ++ ascii "." =
              ascii "Not enough arguments: want 2, have 0." from by decide]
            simp [lines]
          · rw [show ascii "Not enough arguments: want " ++ decimal 2 ++ ascii ", have " ++ decimal 1 ++ ascii "." =
              ascii "Not enough arguments: want 2, have 1." from by decide]
            simp [lines]
        · rw [show ascii "Want: " ++ ascii "label, filename" = ascii "Want: label, filename" from by decide]
          simp [lines]
      · simp only [hs, hq, Bool.false_eq_true, if_false] at hx hlt
        have h0 : args.length = 0 := by omega
        rw [h0] at hx
        simp only [List.mem_cons, List.not_mem_nil, or_false, errorf_eq] at hx
        rcases hx with rfl | rfl
        · rw [show ascii "Not enough arguments: want " ++ decimal 1 ++ ascii ", have " ++ decimal 0 ++ ascii "." =
            ascii "Not enough arguments: want 1, have 0." from by decide]
          simp [lines]
        · rw [show ascii "Want: " ++ ascii "label" = ascii "Want: label" from by decide]
          simp [lines]
  · rw [if_neg hlt] at hx
    rcases List.mem_append.mp hx with hx | hx
    · left
      rcases loadErr_mem _ hx with rfl | rfl <;> simp [lines]
    · split at hx
      · simp at hx
      · left
        rw [List.mem_singleton.mp hx, errorf_eq]; simp [lines]
      · exact otpcRun_mem C J E F U hx

/-- A number that is not one: `otpc -s -t hotp b` with the counter "x". -/
example : ∃ b, mainErr E C J F U { store := true, kind := ascii "hotp" } [[98]] [102] (exWorld b [some [112, 119], some [65], some [120]]) =
    [report (ascii "Failed: " ++ E.number [120])] := by
  obtain ⟨b, hb⟩ := exFile C J 0 (Or.inl rfl)
  have hh : (exStore [1, 2, 3] 7).has [98] = false := exMap_other (by decide) _ _
  refine ⟨b, ?_⟩
  rw [err_of E C J F U (f := { store := true, kind := ascii "hotp" }) (by decide) rfl (by simp) rfl ⟨b, by simp [exWorld], hb⟩]
  have hk : parseOTPKind (ascii "hotp") = .hotp := by decide
  have ha : atoi (orDefault (ascii "0") [120]) = none := by decide
  unfold runErr
  simp only [if_true, List.headD_cons, addSecret, addErr, hh, Bool.false_and, Bool.false_eq_true, if_false, Term.read, hk, makeRecord, makeErr, addHotp, addHotpErr,
    ha, Res.ok_bind]
  rfl

/-! ### C218: a store that does not open -/

/-- When the passphrase does not open the file, whatever the reason, and whatever was asked for, otpc writes the
same line and no other, prints nothing, exits with status 1, and has read nothing but the passphrase. -/
theorem C218_unopened {f : Flags} {args : List Bytes} {path pass b : Bytes} {rest : List (Option Bytes)} {w : World} (hd : path ≠ dash)
    (hi : f.init = false) (hargs : 2 ≤ args.length ∨ 1 ≤ args.length ∧ (f.store = true ∨ f.qr = false)) (ha : w.term.answers = some pass :: rest) (hb : w.fs path = some b)
    (hu : ∀ s, ¬ Opens C J w.fs path pass f.mode s) :
    main C J F U f args path w = .ok (.exit 1 [], { w with term := { w.term with answers := rest } }) ∧
    Model.OtpcOutput.mainText C J F U f args path w = [] ∧
    mainErr E C J F U f args path w = [report (ascii "Failed to open two-factor store.")] := by
  obtain ⟨hl, he⟩ := load_shut E.toTexts C J hd ha hb hu
  have hlt : ¬ args.length < (if f.store = true then 1 else if f.qr = true then 2 else 1) := by
    rcases hargs with h | ⟨h, h2 | h2⟩
    · split
      · omega
      · split <;> omega
    · simp only [h2, if_true]; omega
    · simp only [h2, Bool.false_eq_true, if_false, ite_self]; omega
  refine ⟨?_, ?_, ?_⟩
  · unfold main
    rw [hi, if_neg (by simp), if_neg hlt, hl]
    rfl
  · unfold Model.OtpcOutput.mainText
    rw [hi, if_neg (by simp), if_neg hlt, hl]
  · unfold mainErr
    rw [hi, if_neg (by simp), if_neg hlt, hl, he]
    rfl

/-- An empty file does not open. -/
example : mainErr E C J F U {} [[97]] [102] (exWorld [] [some [112, 119]]) = [report (ascii "Failed to open two-factor store.")] :=
  (C218_unopened E C J F U (f := {}) (by decide) rfl (Or.inr ⟨by simp, Or.inr rfl⟩) (pass := [112, 119]) (rest := []) rfl (b := [])
    (by simp [exWorld]) (by
      rintro s ⟨b, hb, hu⟩
      simp only [exWorld, Fs.set_same, Option.some.injEq] at hb
      subst hb
      simp [unmarshalSecretStore] at hu)).2.2

end Verif.Props.OtpcErrors
