import Verif.Proofs.Otpc
import Verif.Model.OtpcOutput
import Verif.Spec.OtpcOutput
/-! Lemmas on what cmd/otpc prints. -/

namespace Verif.Proofs.OtpcOutput
open Verif Verif.Go Verif.Model.Util Verif.Model.SecretStore Verif.Model.Otpc Verif.Model.OtpcOutput
open Verif.Model.Secrets hiding Config addSecret Flags main showSecret initStore
open Verif.Spec.SecretStore Verif.Spec.Secrets Verif.Spec.Otpc Verif.Spec.OtpcOutput Verif.Spec.SecretsOutput Verif.Proofs.SecretStore Verif.Proofs.Otpc
open Verif.Proofs.Secrets hiding fmode

variable (C : Crypto) (J : Json) (T : TwoFactor) (U : Case)

/-- What is printed while a record is made: questions, and the code if it was made. -/
def MadeText (x : Made) (s : Bytes) : Prop :=
  match x with
  | none => s ∈ questions
  | some (_, code) => ∃ q ∈ questions, s = q ++ line (ascii "Confirmation: " ++ code)

theorem confirmed {w w' : World} {o o' : Otp} {code : Bytes} (h : otp T w o = .ok (code, o', w')) :
    confirmationText T w o = line (ascii "Confirmation: " ++ code) := by
  unfold confirmationText
  rw [h]
  simp [line, ascii]

theorem hotp_text {w w' : World} {label secret : Bytes} {x : Made} (hk : decodeString secret ≠ none)
    (h : addHotp T w label secret = .ok (x, w')) : MadeText x (addHotpText T w secret) := by
  unfold addHotp at h
  unfold addHotpText
  cases hr : w.term.read with
  | mk i1 t =>
  simp only [hr] at h ⊢
  cases i1 with
  | none =>
    simp only [Res.ok.injEq, Prod.mk.injEq] at h
    rw [← h.1]
    show ascii "Initial counter (0): " ++ [] ∈ questions
    decide
  | some i1 =>
  dsimp only at h ⊢
  cases ha : atoi (orDefault (ascii "0") i1) with
  | none =>
    simp only [ha, Res.ok.injEq, Prod.mk.injEq] at h
    rw [← h.1]
    show ascii "Initial counter (0): " ++ [] ∈ questions
    decide
  | some d =>
  simp only [ha] at h ⊢
  cases hr2 : t.read with
  | mk i2 t2 =>
  simp only [hr2] at h ⊢
  cases i2 with
  | none =>
    simp only [Res.ok.injEq, Prod.mk.injEq] at h
    rw [← h.1]
    show ascii "Initial counter (0): " ++ (ascii "Digits (6 or 8): " ++ []) ∈ questions
    decide
  | some i2 =>
  dsimp only at h ⊢
  cases ha2 : atoi (orDefault (ascii "6") i2) with
  | none =>
    simp only [ha2, Res.ok.injEq, Prod.mk.injEq] at h
    rw [← h.1]
    show ascii "Initial counter (0): " ++ (ascii "Digits (6 or 8): " ++ []) ∈ questions
    decide
  | some digits =>
  simp only [ha2] at h ⊢
  cases hd : decodeString secret with
  | none => exact absurd hd hk
  | some key =>
  simp only [hd] at h ⊢
  obtain ⟨⟨code, o, w3⟩, h1, h2⟩ := Res.bind_eq_ok.mp h
  simp only [Res.pure_eq, Res.ok.injEq, Prod.mk.injEq] at h2
  rw [← h2.1, confirmed T h1]
  exact ⟨ascii "Initial counter (0): Digits (6 or 8): ", by decide, by rw [← List.append_assoc]; rfl⟩

theorem totp_text {w w' : World} {label secret : Bytes} {x : Made}
    (h : addTotp T w label secret = .ok (x, w')) : MadeText x (addTotpText T w secret) := by
  unfold addTotp at h
  unfold addTotpText
  cases hr : w.term.read with
  | mk i1 t =>
  simp only [hr] at h ⊢
  cases i1 with
  | none =>
    simp only [Res.ok.injEq, Prod.mk.injEq] at h
    rw [← h.1]
    show ascii "Time step (30s): " ++ [] ∈ questions
    decide
  | some i1 =>
  dsimp only at h ⊢
  cases ha : T.duration (orDefault (ascii "30s") i1) with
  | none =>
    simp only [ha, Res.ok.injEq, Prod.mk.injEq] at h
    rw [← h.1]
    show ascii "Time step (30s): " ++ [] ∈ questions
    decide
  | some d =>
  obtain ⟨step, str⟩ := d
  simp only [ha] at h ⊢
  cases hr2 : t.read with
  | mk i2 t2 =>
  simp only [hr2] at h ⊢
  cases i2 with
  | none =>
    simp only [Res.ok.injEq, Prod.mk.injEq] at h
    rw [← h.1]
    show ascii "Time step (30s): " ++ (ascii "Digits (6 or 8): " ++ []) ∈ questions
    decide
  | some i2 =>
  dsimp only at h ⊢
  cases ha2 : atoi (orDefault (ascii "6") i2) with
  | none =>
    simp only [ha2, Res.ok.injEq, Prod.mk.injEq] at h
    rw [← h.1]
    show ascii "Time step (30s): " ++ (ascii "Digits (6 or 8): " ++ []) ∈ questions
    decide
  | some digits =>
  simp only [ha2] at h ⊢
  cases hd : decodeString secret with
  | none =>
    simp only [hd, Res.ok.injEq, Prod.mk.injEq] at h
    rw [← h.1]
    show ascii "Time step (30s): " ++ (ascii "Digits (6 or 8): " ++ []) ∈ questions
    decide
  | some key =>
  simp only [hd] at h ⊢
  obtain ⟨⟨code, o, w3⟩, h1, h2⟩ := Res.bind_eq_ok.mp h
  simp only [Res.pure_eq, Res.ok.injEq, Prod.mk.injEq] at h2
  rw [← h2.1, confirmed T h1]
  exact ⟨ascii "Time step (30s): Digits (6 or 8): ", by decide, by rw [← List.append_assoc]; rfl⟩

theorem google_text {w w' : World} {label secret : Bytes} {x : Made}
    (h : addGoogle T w label secret = .ok (x, w')) : MadeText x (addGoogleText T w secret) := by
  unfold addGoogle at h
  unfold addGoogleText
  cases hg : T.google secret with
  | none =>
    simp only [hg, Res.ok.injEq, Prod.mk.injEq] at h
    rw [← h.1]
    show [] ∈ questions
    decide
  | some key =>
    simp only [hg] at h ⊢
    obtain ⟨⟨code, o, w3⟩, h1, h2⟩ := Res.bind_eq_ok.mp h
    simp only [Res.pure_eq, Res.ok.injEq, Prod.mk.injEq] at h2
    rw [← h2.1, confirmed T h1]
    exact ⟨ascii "", by decide, rfl⟩

theorem record_text {w w' : World} {k : Kind} {label secret : Bytes} {x : Made} (hk : k = .hotp → decodeString secret ≠ none)
    (h : makeRecord T w k label secret = .ok (x, w')) : MadeText x (recordText T w k secret) := by
  cases k with
  | hotp => exact hotp_text T (hk rfl) h
  | totp => exact totp_text T h
  | google => exact google_text T h
  | unknown =>
    simp only [makeRecord, Res.ok.injEq, Prod.mk.injEq] at h
    rw [← h.1]
    show [] ∈ questions
    decide

theorem add_text {w w' : World} {ps ps' : SecretStore} {k : Kind} {args : List Bytes} {label : Bytes} {x : Option Bytes}
    (hk : k = .hotp → ∀ secret, w.term.answers.head? = some (some secret) → decodeString (sanitiseSecret U secret) ≠ none)
    (h : addSecret T U w ps ⟨args, k, false⟩ label = .ok (x, ps', w')) :
    (x = none → addText T U w ps ⟨args, k, false⟩ label ∈ questions) ∧
    ∀ code, x = some code → ∃ q ∈ questions, addText T U w ps ⟨args, k, false⟩ label = q ++ line (ascii "Confirmation: " ++ code) := by
  unfold addSecret at h
  unfold addText
  dsimp only at h ⊢
  split at h
  · rename_i hh
    simp only [Res.ok.injEq, Prod.mk.injEq] at h
    rw [if_pos hh, ← h.1]
    exact ⟨fun _ => by decide, by intro code hc; cases hc⟩
  · rename_i hh
    rw [if_neg hh]
    cases ha : w.term.answers with
    | nil =>
      simp only [Term.read, ha, Res.ok.injEq, Prod.mk.injEq] at h ⊢
      rw [← h.1]
      exact ⟨fun _ => by decide, by intro code hc; cases hc⟩
    | cons a as =>
    simp only [Term.read, ha] at h ⊢
    cases a with
    | none =>
      simp only [Res.ok.injEq, Prod.mk.injEq] at h ⊢
      rw [← h.1]
      exact ⟨fun _ => by decide, by intro code hc; cases hc⟩
    | some secret =>
    dsimp only at h ⊢
    obtain ⟨⟨made, w2⟩, h1, h2⟩ := Res.bind_eq_ok.mp h
    have key := record_text T (hk := fun e => hk e secret (by rw [ha]; rfl)) h1
    cases made with
    | none =>
      simp only [Res.pure_eq, Res.ok.injEq, Prod.mk.injEq] at h2
      rw [← h2.1]
      exact ⟨fun _ => key, by intro code hc; cases hc⟩
    | some rc =>
      obtain ⟨r, code⟩ := rc
      simp only at h2
      obtain ⟨ps1, -, h2⟩ := Res.bind_eq_ok.mp h2
      simp only [Res.pure_eq, Res.ok.injEq, Prod.mk.injEq] at h2
      rw [← h2.1]
      refine ⟨fun hc => (by cases hc), fun c hc => ?_⟩
      injection hc with hc
      subst hc
      exact key

theorem printed {w w' : World} {o o' : Otp} {code : Bytes} (h : otp T w o = .ok (code, o', w')) : printText T w o = line code := by
  unfold printText
  rw [h]
  simp [line, ascii]

/-- The number of seconds left of the period. -/
theorem left_spec (t : BitVec 64) : 1 ≤ 30 - second t % 30 ∧ 30 - second t % 30 ≤ 30 ∧ (t.toInt + (30 - second t % 30 : Nat)) % 30 = 0 := by
  unfold second
  omega

theorem printedG {w w' : World} {o o' : Otp} {code : Bytes}
    (h : otp T { w with term := { w.term with clock := fun n => w.term.clock (n + 1) } } o = .ok (code, o', w')) :
    printGText T w o = line code ++ line (ascii "Updates in " ++ decimal (30 - second (w.term.clock 0) % 30) ++ ascii " seconds.") := by
  unfold printGText
  simp only [Term.now, h]
  simp [line, ascii]

theorem show_text {w w' : World} {ps ps' : SecretStore} {label : Bytes} {x : Shown} (h : showSecret T w ps label = .ok (x, ps', w')) :
    (x = .failed → showText T w ps label = []) ∧
    (∀ code, x = .once code → showText T w ps label = line code) ∧
    (∀ code, x = .forever code → showText T w ps label = line code ∨
      ∃ n, 1 ≤ n ∧ n ≤ 30 ∧ showText T w ps label = line code ++ line (ascii "Updates in " ++ decimal n ++ ascii " seconds.")) := by
  unfold showSecret at h
  unfold showText
  split at h
  · rename_i hh
    simp only [Res.ok.injEq, Prod.mk.injEq] at h
    rw [if_pos hh, ← h.1]
    exact ⟨fun _ => rfl, fun _ hc => (by cases hc), fun _ hc => by cases hc⟩
  · rename_i hh
    rw [if_neg hh]
    obtain ⟨r, hr, h⟩ := Res.bind_eq_ok.mp h
    rw [hr]
    dsimp only
    cases hu : T.fromURL r.secret with
    | none =>
      simp only [hu, Res.pure_eq, Res.ok.injEq, Prod.mk.injEq] at h
      rw [← h.1]
      exact ⟨fun _ => rfl, fun _ hc => (by cases hc), fun _ hc => by cases hc⟩
    | some ol =>
      obtain ⟨o, label'⟩ := ol
      simp only [hu] at h ⊢
      cases hk : kindOf r o with
      | unknown =>
        simp only [hk, Res.pure_eq, Res.ok.injEq, Prod.mk.injEq] at h
        rw [← h.1]
        exact ⟨fun _ => rfl, fun _ hc => (by cases hc), fun _ hc => by cases hc⟩
      | hotp =>
        simp only [hk] at h ⊢
        obtain ⟨⟨code, o', w3⟩, h1, h2⟩ := Res.bind_eq_ok.mp h
        rw [printed T h1]
        cases o' with
        | totp => simp at h2
        | hotp key c d =>
          simp only at h2
          obtain ⟨ps1, -, h2⟩ := Res.bind_eq_ok.mp h2
          obtain ⟨ps2, -, h2⟩ := Res.bind_eq_ok.mp h2
          simp only [Res.pure_eq, Res.ok.injEq, Prod.mk.injEq] at h2
          rw [← h2.1]
          exact ⟨fun hc => (by cases hc), fun _ hc => (by cases hc; rfl), fun _ hc => by cases hc⟩
      | totp =>
        simp only [hk] at h ⊢
        obtain ⟨⟨code, o', w3⟩, h1, h2⟩ := Res.bind_eq_ok.mp h
        rw [printed T h1]
        simp only [Res.pure_eq, Res.ok.injEq, Prod.mk.injEq] at h2
        rw [← h2.1]
        exact ⟨fun hc => (by cases hc), fun _ hc => (by cases hc), fun _ hc => by cases hc; exact Or.inl rfl⟩
      | google =>
        simp only [hk] at h ⊢
        obtain ⟨⟨code, o', w3⟩, h1, h2⟩ := Res.bind_eq_ok.mp h
        rw [printedG T h1]
        simp only [Res.pure_eq, Res.ok.injEq, Prod.mk.injEq] at h2
        rw [← h2.1]
        obtain ⟨e1, e2, -⟩ := left_spec (w.term.clock 0)
        exact ⟨fun hc => (by cases hc), fun _ hc => (by cases hc), fun _ hc => by cases hc; exact Or.inr ⟨_, e1, e2, rfl⟩⟩

end Verif.Proofs.OtpcOutput
