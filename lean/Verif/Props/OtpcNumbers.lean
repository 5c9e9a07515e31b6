import Verif.Props.OtpcErrors
/-! C226: the numbers that cmd/otpc asks for. -/

namespace Verif.Props.OtpcNumbers
open Verif Verif.Go Verif.Model.Util Verif.Model.SecretStore Verif.Model.Otpc Verif.Model.OtpcErrors
open Verif.Model.Secrets (World dash)
open Verif.Model.SecretsErrors (errorf)
open Verif.Spec.SecretStore Verif.Spec.Secrets Verif.Spec.Otpc
open Verif.Spec.SecretsErrors (report)
open Verif.Proofs.Otpc
open Verif.Props.SecretStore Verif.Props.Otpc Verif.Props.OtpcErrors
open Verif.Props.Secrets (exWorld exFile exMap_other exClock)

variable (E : Texts) (C : Crypto) (J : Json) (T : TwoFactor) (U : Case)

/-- The value of a sequence of decimal digits. -/
def value : Bytes → Nat
  | [] => 0
  | b :: r => (b.toNat - 48) * 10 ^ r.length + value r

/-- The text is an integer in decimal digits, with or without a sign, which fits into 64 bits. -/
def Integer (n : Int) (text : Bytes) : Prop :=
  -2 ^ 63 ≤ n ∧ n < 2 ^ 63 ∧ ∃ ds, ds ≠ [] ∧ (∀ b ∈ ds, 48 ≤ b.toNat ∧ b.toNat ≤ 57) ∧
    ((text = ds ∧ n = value ds) ∨ (text = 43 :: ds ∧ n = value ds) ∨ (text = 45 :: ds ∧ n = -(value ds : Int)))

theorem fold_value (s : Bytes) : ∀ a, s.foldl (fun n b => 10 * n + (b.toNat - 48)) a = a * 10 ^ s.length + value s := by
  induction s with
  | nil => intro a; simp [value]
  | cons b r ih =>
    intro a
    rw [List.foldl_cons, ih, value, List.length_cons, Nat.pow_succ]
    have : (10 * a + (b.toNat - 48)) * 10 ^ r.length = a * (10 ^ r.length * 10) + (b.toNat - 48) * 10 ^ r.length := by
      rw [Nat.add_mul, Nat.mul_comm 10 a, Nat.mul_assoc, Nat.mul_comm 10]
    omega

theorem digits_iff {s : Bytes} {n : Nat} : digitsVal s = some n ↔
    s ≠ [] ∧ (∀ b ∈ s, 48 ≤ b.toNat ∧ b.toNat ≤ 57) ∧ n = value s := by
  unfold digitsVal
  rw [fold_value]
  have hall : s.all (fun b => 48 ≤ b && b ≤ 57) = true ↔ ∀ b ∈ s, 48 ≤ b.toNat ∧ b.toNat ≤ 57 := by
    simp [List.all_eq_true, UInt8.le_iff_toNat_le]
  constructor
  · intro h
    split at h
    · rename_i hc
      simp only [Option.some.injEq] at h
      exact ⟨hc.1, hall.mp hc.2, by omega⟩
    · cases h
  · rintro ⟨h1, h2, rfl⟩
    rw [if_pos ⟨h1, hall.mpr h2⟩]
    simp

theorem atoi_iff {s : Bytes} {n : Int} : atoi s = some n ↔ Integer n s := by
  unfold Integer
  constructor
  · intro h
    unfold atoi at h
    split at h
    · rename_i r
      split at h
      · rename_i k hk
        obtain ⟨h1, h2, rfl⟩ := digits_iff.mp hk
        split at h
        · rename_i hb
          cases h
          exact ⟨by omega, by omega, r, h1, h2, .inr (.inr ⟨rfl, rfl⟩)⟩
        · cases h
      · cases h
    · rename_i r
      split at h
      · rename_i k hk
        obtain ⟨h1, h2, rfl⟩ := digits_iff.mp hk
        split at h
        · rename_i hb
          cases h
          exact ⟨by omega, by omega, r, h1, h2, .inr (.inl ⟨rfl, rfl⟩)⟩
        · cases h
      · cases h
    · split at h
      · rename_i k hk
        obtain ⟨h1, h2, rfl⟩ := digits_iff.mp hk
        split at h
        · rename_i hb
          cases h
          exact ⟨by omega, by omega, s, h1, h2, .inl ⟨rfl, rfl⟩⟩
        · cases h
      · cases h
  · rintro ⟨hlo, hhi, ds, h1, h2, h3⟩
    have hd : digitsVal ds = some (value ds) := digits_iff.mpr ⟨h1, h2, rfl⟩
    rcases h3 with ⟨rfl, rfl⟩ | ⟨rfl, rfl⟩ | ⟨rfl, rfl⟩
    · unfold atoi
      split
      · have := h2 45 List.mem_cons_self
        exact absurd this.1 (by decide)
      · have := h2 43 List.mem_cons_self
        exact absurd this.1 (by decide)
      · rw [hd]
        dsimp only
        rw [if_pos (by omega)]
    · show (match digitsVal ds with | some n => if n < 2 ^ 63 then some (n : Int) else none | none => none) = _
      rw [hd]
      dsimp only
      rw [if_pos (by omega)]
    · show (match digitsVal ds with | some n => if n ≤ 2 ^ 63 then some (-(n : Int)) else none | none => none) = _
      rw [hd]
      dsimp only
      rw [if_pos (by omega)]

/-- What may be typed for a number: nothing, for the default, or an integer. -/
def Answer (default n : Int) (text : Bytes) : Prop := (text = [] ∧ n = default) ∨ Integer n text

theorem answer_iff {d text : Bytes} {k n : Int} (hk : atoi d = some k) : atoi (orDefault d text) = some n ↔ Answer k n text := by
  unfold orDefault Answer
  by_cases h : text = []
  · subst h
    rw [if_pos rfl, hk]
    constructor
    · intro e
      cases e
      exact .inl ⟨rfl, rfl⟩
    · rintro (⟨-, rfl⟩ | ⟨-, -, ds, h1, -, ⟨h3, -⟩ | ⟨h3, -⟩ | ⟨h3, -⟩⟩)
      · rfl
      · exact absurd h3.symm h1
      · cases h3
      · cases h3
  · rw [if_neg h, atoi_iff]
    simp [h]

/-! ### C226: the counter and the number of digits -/

/-- C226, what holds: `otpc -s` of an HOTP token succeeds only if what was typed for the counter and for the number of
digits is nothing or an integer that fits into 64 bits; the code printed is the one for these, the counter modulo
2^64. Missing: that the numbers are not negative. -/
theorem C226_numbers_partial (f : Flags) (args : List Bytes) (path : Bytes) (w w' : World) (codes : List Bytes) (hd : path ≠ dash)
    (hi : f.init = false) (hs : f.store = true) (hk : lower f.kind = ascii "hotp")
    (h : main C J T U f args path w = .ok (.exit 0 codes, w')) :
    ∃ pass secret i1 i2 rest c d key code, w.term.answers = some pass :: some secret :: some i1 :: some i2 :: rest ∧
      Answer 0 c i1 ∧ Answer 6 d i2 ∧ codes = [code] ∧ T.hcode key (BitVec.ofInt 64 c) d = .ok code := by
  obtain ⟨pass, secret, rest, s, m, r, code, w2, out, h1, -, -, -, h2, h3, -⟩ := store_exit C J T U hd hi hs h
  have hp : parseOTPKind f.kind = .hotp := by
    unfold parseOTPKind
    rw [hk]
    decide
  rw [hp] at h3
  simp only [makeRecord] at h3
  unfold addHotp Term.read at h3
  rcases rest with _ | ⟨_ | i1, rest⟩
  · simp at h3
  · simp at h3
  · simp only at h3
    cases ha1 : atoi (orDefault (ascii "0") i1) with
    | none => rw [ha1] at h3; simp at h3
    | some c =>
      rw [ha1] at h3
      rcases rest with _ | ⟨_ | i2, rest⟩
      · simp at h3
      · simp at h3
      · simp only at h3
        cases ha2 : atoi (orDefault (ascii "6") i2) with
        | none => rw [ha2] at h3; simp at h3
        | some d =>
          rw [ha2] at h3
          simp only at h3
          split at h3
          · simp at h3
          · rename_i key hkey
            obtain ⟨⟨x, o, w3⟩, q1, q2⟩ := Res.bind_eq_ok.mp h3
            simp only [Res.pure_eq, Res.ok.injEq, Prod.mk.injEq, Option.some.injEq] at q2
            obtain ⟨⟨-, rfl⟩, -⟩ := q2
            simp only [otp] at q1
            obtain ⟨y, q3, q4⟩ := Res.bind_eq_ok.mp q1
            simp only [Res.pure_eq, Res.ok.injEq, Prod.mk.injEq] at q4
            obtain ⟨rfl, -⟩ := q4
            exact ⟨pass, secret, i1, i2, rest, c, d, key, y, h1, (answer_iff (by decide)).mp ha1, (answer_iff (by decide)).mp ha2, h2, q3⟩

/-- C226: what is no integer, or does not fit, is refused as a counter before the number of digits is asked for. -/
theorem C226_refused {f : Flags} {label path pass secret i1 : Bytes} {more : List Bytes} {w : World} {rest : List (Option Bytes)} {s : SecretStore}
    (hd : path ≠ dash) (hf : f.init = false ∧ f.store = true) (hk : lower f.kind = ascii "hotp")
    (ha : w.term.answers = some pass :: some secret :: some i1 :: rest) (ho : Opens C J w.fs path pass f.mode s) (hh : s.has label = false)
    (hn : ∀ c, ¬ Answer 0 c i1) :
    main C J T U f (label :: more) path w = .ok (.exit 1 [], { w with term := ⟨rest, w.term.clock⟩ }) ∧
    mainErr E C J T U f (label :: more) path w = [report (ascii "Failed: " ++ E.number i1)] := by
  have hlt : ¬ (label :: more).length < (if f.store = true then 1 else if f.qr = true then 2 else 1) := by simp [hf.2]
  have hp : parseOTPKind f.kind = .hotp := by
    unfold parseOTPKind
    rw [hk]
    decide
  have h0 : atoi (orDefault (ascii "0") i1) = none := by
    cases hx : atoi (orDefault (ascii "0") i1) with
    | none => rfl
    | some c => exact absurd ((answer_iff (by decide)).mp hx) (hn c)
  have h1 : i1 ≠ [] := by
    rintro rfl
    exact hn 0 (.inl ⟨rfl, rfl⟩)
  rw [main_of C J T U hd hf.1 hlt ha ho, err_of E C J T U hd hf.1 hlt ha ho]
  unfold runErr
  simp only [hf.2, if_true, List.headD_cons, addSecret, addErr, hh, Bool.false_and, Bool.false_eq_true, if_false, Term.read, hp, makeRecord, makeErr,
    addHotp, addHotpErr, h0]
  refine ⟨rfl, ?_⟩
  unfold orDefault
  rw [if_neg h1]
  rfl

/-- C226: and so it is as the number of digits. -/
theorem C226_refused_digits {f : Flags} {label path pass secret i1 i2 : Bytes} {more : List Bytes} {w : World} {rest : List (Option Bytes)}
    {s : SecretStore} {c : Int} (hd : path ≠ dash) (hf : f.init = false ∧ f.store = true) (hk : lower f.kind = ascii "hotp")
    (ha : w.term.answers = some pass :: some secret :: some i1 :: some i2 :: rest) (ho : Opens C J w.fs path pass f.mode s)
    (hh : s.has label = false) (hc : Answer 0 c i1) (hn : ∀ d, ¬ Answer 6 d i2) :
    main C J T U f (label :: more) path w = .ok (.exit 1 [], { w with term := ⟨rest, w.term.clock⟩ }) ∧
    mainErr E C J T U f (label :: more) path w = [report (ascii "Failed: " ++ E.number i2)] := by
  have hlt : ¬ (label :: more).length < (if f.store = true then 1 else if f.qr = true then 2 else 1) := by simp [hf.2]
  have hp : parseOTPKind f.kind = .hotp := by
    unfold parseOTPKind
    rw [hk]
    decide
  have hc := (answer_iff (d := ascii "0") (by decide)).mpr hc
  have h0 : atoi (orDefault (ascii "6") i2) = none := by
    cases hx : atoi (orDefault (ascii "6") i2) with
    | none => rfl
    | some d => exact absurd ((answer_iff (by decide)).mp hx) (hn d)
  have h1 : i2 ≠ [] := by
    rintro rfl
    exact hn 6 (.inl ⟨rfl, rfl⟩)
  rw [main_of C J T U hd hf.1 hlt ha ho, err_of E C J T U hd hf.1 hlt ha ho]
  unfold runErr
  simp only [hf.2, if_true, List.headD_cons, addSecret, addErr, hh, Bool.false_and, Bool.false_eq_true, if_false, Term.read, hp, makeRecord, makeErr,
    addHotp, addHotpErr, hc, h0]
  refine ⟨rfl, ?_⟩
  unfold orDefault
  rw [if_neg h1]
  rfl

/-- C226 is false: "-1" is accepted, and taken for 2^64 - 1. -/
theorem C226_negative_violated : ∃ (w w' : World) (code : Bytes),
    w.term.answers = [some [112, 119], some (ascii "mzxw 6ytb oi"), some (ascii "-1"), some (ascii "6")] ∧
    main C J T U { store := true, kind := ascii "hotp" } [ascii "mail"] [102] w = .ok (.exit 0 [code], w') ∧
    T.hcode (ascii "foobar") 18446744073709551615 6 = .ok code := by
  obtain ⟨b, hb⟩ := exFile C J 0 (Or.inl rfl)
  obtain ⟨code, hc⟩ := T.hcode_ok (ascii "foobar") 18446744073709551615 6 ⟨by decide, Or.inl rfl⟩
  have h1 : atoi (orDefault (ascii "0") (ascii "-1")) = some (-1) := by decide
  have h2 : atoi (orDefault (ascii "6") (ascii "6")) = some 6 := by decide
  have hz : BitVec.ofInt 64 (-1) = 18446744073709551615 := by decide
  have hr : addHotp T (exWorld b [some (ascii "-1"), some (ascii "6")]) (ascii "mail") (b32Encode (ascii "foobar")) =
      .ok (some ({ label := ascii "mail", secret := T.url (.hotp (ascii "foobar") (18446744073709551615 + 1) 6) (ascii "mail"), timestamp := 1000
                   metadata := some (hotpMeta (b32Encode (ascii "foobar")) code) }, code),
        { exWorld b [] with term := ⟨[], fun n => 1000 + BitVec.ofNat 64 (n + 1)⟩ }) := by
    unfold addHotp Term.read
    simp only [exWorld, h1, h2, hz, decodeString_b32, otp, hc, Res.ok_bind, Res.pure_eq, Term.now]
    rfl
  obtain ⟨out, w', e1, -, -⟩ := main_store C J T U (f := { store := true, kind := ascii "hotp" }) rfl rfl (label := ascii "mail") (path := [102])
    (pass := [112, 119]) (secret := ascii "mzxw 6ytb oi") (w := exWorld b [some [112, 119], some (ascii "mzxw 6ytb oi"), some (ascii "-1"), some (ascii "6")])
    (rest := [some (ascii "-1"), some (ascii "6")]) (s := exStore [1, 2, 3] 7) (code := code) (t := ⟨[], fun n => 1000 + BitVec.ofNat 64 (n + 1)⟩)
    (by decide) rfl ⟨b, by simp [exWorld], hb⟩ rfl (exMap_other (by decide) _ _)
    (by rw [typed_b32 U exTyped]; exact hr) rfl (exRng _ _) rfl (exClock 1 (by decide))
  exact ⟨_, w', code, rfl, e1, hc⟩

/-- What is an integer and what is not. -/
example : Integer 42 (ascii "42") ∧ Integer 42 (ascii "+042") ∧ Integer (-9223372036854775808) (ascii "-9223372036854775808") ∧
    (∀ n, ¬ Integer n (ascii "9223372036854775808")) ∧ (∀ n, ¬ Integer n (ascii "+9223372036854775808")) ∧ (∀ n, ¬ Integer n (ascii "4x")) := by
  refine ⟨atoi_iff.mp (by decide), atoi_iff.mp (by decide), atoi_iff.mp (by decide), fun n hn => ?_, fun n hn => ?_, fun n hn => ?_⟩
  · have := atoi_iff.mpr hn
    rw [show atoi (ascii "9223372036854775808") = none by decide] at this
    cases this
  · have := atoi_iff.mpr hn
    rw [show atoi (ascii "+9223372036854775808") = none by decide] at this
    cases this
  · have := atoi_iff.mpr hn
    rw [show atoi (ascii "4x") = none by decide] at this
    cases this

/-- A run to which `C226_refused` applies: "two" is typed for the counter. -/
example : ∃ b, mainErr E C J T U { store := true, kind := ascii "hotp" } [[98]] [102] (exWorld b [some [112, 119], some (ascii "mzxw 6ytb oi"), some (ascii "two")]) =
    [report (ascii "Failed: " ++ E.number (ascii "two"))] := by
  obtain ⟨b, hb⟩ := exFile C J 0 (Or.inl rfl)
  refine ⟨b, (C226_refused E C J T U (f := { store := true, kind := ascii "hotp" }) (by decide) ⟨rfl, rfl⟩ (by decide) (rest := []) rfl
    ⟨b, by simp [exWorld], hb⟩ (exMap_other (by decide) _ _) ?_).2⟩
  intro c hc
  have := (answer_iff (d := ascii "0") (k := 0) (by decide)).mpr hc
  rw [show atoi (orDefault (ascii "0") (ascii "two")) = none by decide] at this
  cases this

/-- A run to which `C226_refused_digits` applies: nothing is typed for the counter, and "6x" for the number of digits. -/
example : ∃ b, mainErr E C J T U { store := true, kind := ascii "hotp" } [[98]] [102]
      (exWorld b [some [112, 119], some (ascii "mzxw 6ytb oi"), some [], some (ascii "6x")]) =
    [report (ascii "Failed: " ++ E.number (ascii "6x"))] := by
  obtain ⟨b, hb⟩ := exFile C J 0 (Or.inl rfl)
  refine ⟨b, (C226_refused_digits E C J T U (f := { store := true, kind := ascii "hotp" }) (c := 0) (by decide) ⟨rfl, rfl⟩ (by decide) (rest := []) rfl
    ⟨b, by simp [exWorld], hb⟩ (exMap_other (by decide) _ _) (.inl ⟨rfl, rfl⟩) ?_).2⟩
  intro c hc
  have := (answer_iff (d := ascii "6") (k := 6) (by decide)).mpr hc
  rw [show atoi (orDefault (ascii "6") (ascii "6x")) = none by decide] at this
  cases this

end Verif.Props.OtpcNumbers
