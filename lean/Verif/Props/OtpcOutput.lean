import Verif.Proofs.OtpcOutput
import Verif.Props.Otpc
/-! C179 and C180: what cmd/otpc prints on standard output. -/

namespace Verif.Props.OtpcOutput
open Verif Verif.Go Verif.Model.Util Verif.Model.SecretStore Verif.Model.Otpc Verif.Model.OtpcOutput
open Verif.Model.Secrets hiding Config addSecret Flags main showSecret initStore
open Verif.Spec.SecretStore Verif.Spec.Secrets Verif.Spec.Otpc Verif.Spec.OtpcOutput Verif.Spec.SecretsOutput
open Verif.Proofs.SecretStore Verif.Proofs.Otpc Verif.Proofs.OtpcOutput
open Verif.Proofs.Secrets hiding fmode
open Verif.Props.SecretStore Verif.Props.Otpc
open Verif.Props.Secrets (exWorld exFile exMap_other exClock)

variable (C : Crypto) (J : Json) (T : TwoFactor) (U : Case)

/-! ### C179: nothing secret is printed -/

/-- Whatever otpc is asked to do and whatever is typed, it prints questions, fixed lines, the codes it
reports and the number of seconds left, and nothing else; provided that what is typed as the key of an HOTP
token can be decoded. Missing from the property: keys that cannot. -/
theorem C179_text_partial (f : Flags) (args : List Bytes) (path : Bytes) (w w' : World) (o : Outcome) (hd : path ≠ dash)
    (hk : f.init = false → f.store = true → parseOTPKind f.kind = .hotp →
      ∀ secret, w.term.answers[1]? = some (some secret) → decodeString (sanitiseSecret U secret) ≠ none)
    (h : main C J T U f args path w = .ok (o, w')) : Says f o (mainText C J T U f args path w) := by
  unfold main at h
  unfold mainText
  cases hi : f.init with
  | true =>
    simp only [hi, if_true] at h ⊢
    obtain ⟨⟨ok, w2⟩, h1, h2⟩ := Res.bind_eq_ok.mp h
    simp only [Res.pure_eq, Res.ok.injEq, Prod.mk.injEq] at h2
    rw [← h2.1]
    refine .created hi ?_
    unfold initText
    cases w.term.read.1 with
    | none => exact Or.inl rfl
    | some _ => exact Or.inr rfl
  | false =>
  simp only [hi, Bool.false_eq_true, if_false] at h ⊢
  have silent : ∀ {n : Nat}, Says f (.exit n []) [] := by
    intro n
    cases hs : f.store with
    | true => exact .failed hi hs (by decide)
    | false => exact .silent hi hs
  by_cases hl : args.length < (if f.store then 1 else if f.qr then 2 else 1)
  · rw [if_pos hl] at h ⊢
    simp only [Res.ok.injEq, Prod.mk.injEq] at h
    rw [← h.1]
    exact silent
  · rw [if_neg hl] at h ⊢
    obtain ⟨⟨x, w1⟩, h1, h2⟩ := Res.bind_eq_ok.mp h
    rw [h1]
    cases x with
    | none =>
      simp only [Res.pure_eq, Res.ok.injEq, Prod.mk.injEq] at h2
      rw [← h2.1]
      exact silent
    | some ps =>
    obtain ⟨pass, rest, ha, -, hw1⟩ := load_some C J hd h1
    dsimp only at h2 ⊢
    cases hs : f.store with
    | true =>
      simp only [hs, if_true] at h2 ⊢
      obtain ⟨⟨y, ps2, w2⟩, h3, h4⟩ := Res.bind_eq_ok.mp h2
      have key := add_text T U (w := w1) (fun e secret hsec => hk hi hs e secret (by
        rw [hw1] at hsec
        rw [ha]
        simpa [List.head?_eq_getElem?] using hsec)) h3
      cases y with
      | none =>
        simp only [Res.pure_eq, Res.ok.injEq, Prod.mk.injEq] at h4
        rw [← h4.1]
        exact .failed hi hs (key.1 rfl)
      | some code =>
        simp only at h4
        unfold save at h4
        simp only at h4
        obtain ⟨⟨w3, ok⟩, -, h5⟩ := Res.bind_eq_ok.mp h4
        simp only [Res.pure_eq, Res.ok.injEq, Prod.mk.injEq] at h5
        obtain ⟨q, hq, e⟩ := key.2 code rfl
        rw [← h5.1, e]
        exact .stored hi hs hq
    | false =>
    simp only [hs, Bool.false_eq_true, if_false] at h2 ⊢
    cases hq : f.qr with
    | true =>
      simp only [hq, if_true] at h2 ⊢
      obtain ⟨⟨ok, w2⟩, -, h4⟩ := Res.bind_eq_ok.mp h2
      simp only [Res.pure_eq, Res.ok.injEq, Prod.mk.injEq] at h4
      rw [← h4.1]
      exact silent
    | false =>
    simp only [hq, Bool.false_eq_true, if_false] at h2 ⊢
    obtain ⟨⟨y, ps2, w2⟩, h3, h4⟩ := Res.bind_eq_ok.mp h2
    obtain ⟨k1, k2, k3⟩ := show_text T h3
    cases y with
    | failed =>
      simp only [Res.pure_eq, Res.ok.injEq, Prod.mk.injEq] at h4
      rw [← h4.1, k1 rfl]
      exact silent
    | forever first =>
      simp only [Res.pure_eq, Res.ok.injEq, Prod.mk.injEq] at h4
      rw [← h4.1]
      rcases k3 first rfl with e | ⟨n, n1, n2, e⟩
      · rw [e]; exact .timed hi hs hq
      · rw [e]; exact .google hi hs hq n1 n2
    | once code =>
      simp only at h4
      unfold save at h4
      simp only at h4
      obtain ⟨⟨w3, ok⟩, -, h5⟩ := Res.bind_eq_ok.mp h4
      simp only [Res.pure_eq, Res.ok.injEq, Prod.mk.injEq] at h5
      rw [← h5.1, k2 code rfl]
      exact .shown hi hs hq

/-- In particular for keys typed as they should be. -/
theorem C179_typed_partial (f : Flags) (args : List Bytes) (path : Bytes) (w w' : World) (o : Outcome) (hd : path ≠ dash)
    (hk : ∀ secret, w.term.answers[1]? = some (some secret) → ∃ key, Typed key secret)
    (h : main C J T U f args path w = .ok (o, w')) : Says f o (mainText C J T U f args path w) := by
  refine C179_text_partial C J T U f args path w w' o hd (fun _ _ _ secret hs => ?_) h
  obtain ⟨key, ht⟩ := hk secret hs
  rw [typed_b32 U ht, decodeString_b32]
  simp

/-- Storing an HOTP token whose key is mistyped prints the key, in upper case and without spaces, and stores
nothing. -/
theorem C179_mistyped (f : Flags) (label path pass secret i1 i2 : Bytes) (c d : Nat) (w : World) (rest : List (Option Bytes)) (s : SecretStore)
    (hd : path ≠ dash) (hi : f.init = false) (hs : f.store = true) (hk : parseOTPKind f.kind = .hotp)
    (ha : w.term.answers = some pass :: some secret :: some i1 :: some i2 :: rest) (ho : Opens C J w.fs path pass f.mode s)
    (hh : s.has label = false) (h1 : Number 0 c i1) (h2 : Number 6 d i2) (hbad : decodeString (sanitiseSecret U secret) = none) :
    main C J T U f [label] path w = .ok (.exit 1 [], { w with term := ⟨rest, w.term.clock⟩ }) ∧
    mainText C J T U f [label] path w = ascii "Initial counter (0): Digits (6 or 8): " ++ sanitiseSecret U secret := by
  have e1 := atoi_typed (d := ascii "0") (k := 0) (by decide) h1
  have e2 := atoi_typed (d := ascii "6") (k := 6) (by decide) h2
  constructor
  · unfold main
    rw [hi, hs]
    simp only [Bool.false_eq_true, if_false, if_true, List.length_singleton, Nat.lt_irrefl, load_ok C J hd ha ho, Res.ok_bind,
      List.headD_cons]
    unfold addSecret Term.read
    rw [hh, hk]
    simp only [Bool.false_and, Bool.false_eq_true, if_false, makeRecord, addHotp, Term.read, e1, e2, hbad, Res.ok_bind, Res.pure_eq]
  · unfold mainText
    rw [hi, hs]
    simp only [Bool.false_eq_true, if_false, if_true, List.length_singleton, Nat.lt_irrefl, load_ok C J hd ha ho, List.headD_cons]
    unfold addText Term.read
    rw [hh, hk]
    simp only [Bool.false_and, Bool.false_eq_true, if_false, recordText, addHotpText, Term.read, e1, e2, hbad]
    rw [← List.append_assoc]
    rfl

/-- With the last letter of the key mistyped, the key is printed, which was typed at a prompt that
does not echo it. -/
theorem C179_mistyped_violated : ∃ (w w' : World),
    w.term.answers[1]? = some (some (ascii "jbsw y3dp ehpk 3px0")) ∧
    main C J T U { store := true, kind := ascii "hotp" } [ascii "mail"] [102] w = .ok (.exit 1 [], w') ∧
    mainText C J T U { store := true, kind := ascii "hotp" } [ascii "mail"] [102] w =
      ascii "Initial counter (0): Digits (6 or 8): JBSWY3DPEHPK3PX0" ∧
    ¬ Says { store := true, kind := ascii "hotp" } (.exit 1 [])
      (mainText C J T U { store := true, kind := ascii "hotp" } [ascii "mail"] [102] w) := by
  obtain ⟨b, hb⟩ := exFile C J 0 (Or.inl rfl)
  have hsan : sanitiseSecret U (ascii "jbsw y3dp ehpk 3px0") = ascii "JBSWY3DPEHPK3PX0" := by
    have hup : toUpper U (ascii "jbsw y3dp ehpk 3px0") = ascii "JBSW Y3DP EHPK 3PX0" := by
      unfold toUpper
      rw [if_pos (by decide)]
      decide
    simp only [sanitiseSecret, hup]
    decide
  obtain ⟨k1, k2⟩ := C179_mistyped C J T U { store := true, kind := ascii "hotp" } (ascii "mail") [102] [112, 119] (ascii "jbsw y3dp ehpk 3px0") []
    [] 0 6 (exWorld b [some [112, 119], some (ascii "jbsw y3dp ehpk 3px0"), some [], some []]) [] (exStore [1, 2, 3] 7) (by decide) rfl rfl (by decide) rfl
    ⟨b, by simp [exWorld], hb⟩ (exMap_other (by decide) _ _) (Or.inr ⟨rfl, rfl⟩) (Or.inr ⟨rfl, rfl⟩) (by rw [hsan]; decide)
  have k3 := k2
  rw [hsan] at k3
  refine ⟨_, _, rfl, k1, k3.trans (by decide), ?_⟩
  rw [k3]
  intro hs
  cases hs with
  | created h => exact absurd h (by decide)
  | failed _ _ h => exact absurd h (by decide)

/-- What is printed when an HOTP token is stored. -/
theorem C179_stored (f : Flags) (label path pass secret key i1 i2 code : Bytes) (c d : Nat) (w : World) (rest : List (Option Bytes)) (s : SecretStore)
    (hd : path ≠ dash) (hi : f.init = false) (hs : f.store = true) (hk : parseOTPKind f.kind = .hotp)
    (ha : w.term.answers = some pass :: some secret :: some i1 :: some i2 :: rest) (ho : Opens C J w.fs path pass f.mode s)
    (hh : s.has label = false) (ht : Typed key secret) (h1 : Number 0 c i1) (h2 : Number 6 d i2)
    (hc : T.hcode key (BitVec.ofNat 64 c) d = .ok code) :
    mainText C J T U f [label] path w = ascii "Initial counter (0): Digits (6 or 8): " ++ line (ascii "Confirmation: " ++ code) := by
  have e1 := atoi_typed (d := ascii "0") (k := 0) (by decide) h1
  have e2 := atoi_typed (d := ascii "6") (k := 6) (by decide) h2
  unfold mainText
  rw [hi, hs]
  simp only [Bool.false_eq_true, if_false, if_true, List.length_singleton, Nat.lt_irrefl, load_ok C J hd ha ho, List.headD_cons]
  unfold addText Term.read
  rw [hh, hk]
  simp only [Bool.false_and, Bool.false_eq_true, if_false, recordText, addHotpText, Term.read, e1, e2, typed_b32 U ht, decodeString_b32]
  rw [confirmed T (code := code) (o' := .hotp key (BitVec.ofNat 64 c + 1) d) (w' := { w with term := { w.term with answers := rest } })
    (by simp only [otp, BitVec.ofInt_natCast, hc, Res.ok_bind, Res.pure_eq])]
  rw [← List.append_assoc]
  rfl

/-- A run to which these theorems apply. -/
example : ∃ b w', main C J toyTwoFactor U { store := true, kind := ascii "hotp" } [ascii "mail"] [102]
      (exWorld b [some [112, 119], some (ascii "mzxw 6ytb oi"), some (ascii "41"), some []]) =
        .ok (.exit 0 [toyUrl (.hotp (ascii "foobar") 41 6) []], w') ∧
    mainText C J toyTwoFactor U { store := true, kind := ascii "hotp" } [ascii "mail"] [102]
      (exWorld b [some [112, 119], some (ascii "mzxw 6ytb oi"), some (ascii "41"), some []]) =
        ascii "Initial counter (0): Digits (6 or 8): " ++ line (ascii "Confirmation: " ++ toyUrl (.hotp (ascii "foobar") 41 6) []) := by
  obtain ⟨b, hb⟩ := exFile C J 0 (Or.inl rfl)
  obtain ⟨code, w', e1, e2, -⟩ := C74_hotp_partial C J toyTwoFactor U { store := true, kind := ascii "hotp" } {} (ascii "mail") [102] [112, 119]
    (ascii "mzxw 6ytb oi") (ascii "foobar") (ascii "41") [] 41 6 (exWorld b [some [112, 119], some (ascii "mzxw 6ytb oi"), some (ascii "41"), some []])
    [] (exStore [1, 2, 3] 7) (by decide) rfl rfl (Or.inl rfl) ⟨by decide, by decide⟩ rfl ⟨b, by simp [exWorld], hb⟩ rfl (by simp [exStore])
    (exMap_other (by decide) _ _) (by decide) exTyped (Or.inl ⟨by decide, by decide⟩) (Or.inr ⟨rfl, rfl⟩) (Or.inl rfl) rfl (exRng _ _)
    (exClock 1 (by decide)) ⟨rfl, rfl, rfl⟩ rfl
  have h3 := C179_stored C J toyTwoFactor U { store := true, kind := ascii "hotp" } (ascii "mail") [102] [112, 119] (ascii "mzxw 6ytb oi") (ascii "foobar")
    (ascii "41") [] code 41 6 (exWorld b [some [112, 119], some (ascii "mzxw 6ytb oi"), some (ascii "41"), some []]) [] (exStore [1, 2, 3] 7)
    (by decide) rfl rfl (by decide) rfl ⟨b, by simp [exWorld], hb⟩ (exMap_other (by decide) _ _) exTyped (Or.inl ⟨by decide, by decide⟩)
    (Or.inr ⟨rfl, rfl⟩) e2
  cases e2
  exact ⟨b, w', e1, h3⟩

/-! ### C180: when the next code is due -/

/-- What is printed when a token of type Google is displayed: the code of one moment, and the time left
according to another. -/
theorem google_shown (f : Flags) (label path pass key code : Bytes) (w : World) (rest : List (Option Bytes))
    (hf : f.init = false ∧ f.store = false ∧ f.qr = false) (hd : path ≠ dash) (hpl : Plain label) (hkey : key ≠ [])
    (ha : w.term.answers = some pass :: rest) (hh : Holds C J T w.fs path pass f.mode label (ascii "TOTP-GOOGLE") (.totp key 30 6))
    (hc : T.tcode key 30 6 (w.term.clock 1) = .ok code) :
    mainText C J T U f [label] path w =
      line code ++ line (ascii "Updates in " ++ decimal (30 - second (w.term.clock 0) % 30) ++ ascii " seconds.") := by
  obtain ⟨s, r, md, ho, -, hl, -, hmd, htt, hsec⟩ := hh
  obtain ⟨h1, h2, h3⟩ := hf
  have hus : (Otp.totp key 30 6).Usual := ⟨hkey, by decide, Or.inl rfl⟩
  unfold mainText
  rw [h1, h2, h3]
  simp only [Bool.false_eq_true, if_false, List.length_singleton, Nat.lt_irrefl, load_ok C J hd ha ho, List.headD_cons]
  unfold showText
  rw [has_of_lookup hl, fetch_eq.mpr hl]
  simp only [Bool.not_true, Bool.false_eq_true, if_false, hsec, T.fromURL_url _ _ hus hpl.1 hpl.2, kindOf_type hmd htt]
  rw [show parseOTPKind (ascii "TOTP-GOOGLE") = .google by decide]
  rw [printedG T (code := code) (o' := .totp key 30 6)
    (w' := { w with term := ⟨rest, fun n => w.term.clock (n + 2)⟩ })
    (by simp only [otp, Term.now, Nat.zero_add, hc, Res.ok_bind, Res.pure_eq])]

/-- `otpc label` for a token of type Google prints the code of the moment and, if the period does not end
while it does so, the number of seconds, between 1 and 30, after which the next period begins: the periods
begin at the multiples of 30 seconds. Missing from the property: the end of a period between two looks at the
clock. -/
theorem C180_left_partial (f : Flags) (label path pass key : Bytes) (w : World) (rest : List (Option Bytes))
    (hf : f.init = false ∧ f.store = false ∧ f.qr = false) (hd : path ≠ dash) (hpl : Plain label) (hkey : key ≠ [])
    (ha : w.term.answers = some pass :: rest) (hh : Holds C J T w.fs path pass f.mode label (ascii "TOTP-GOOGLE") (.totp key 30 6))
    (h0 : (w.term.clock 0).toInt ≤ (w.term.clock 1).toInt)
    (h1 : (w.term.clock 1).toInt / 30 = (w.term.clock 0).toInt / 30) :
    ∃ code n, mainText C J T U f [label] path w = line code ++ line (ascii "Updates in " ++ decimal n ++ ascii " seconds.") ∧
      T.tcode key 30 6 (w.term.clock 1) = .ok code ∧ 1 ≤ n ∧ n ≤ 30 ∧
      (w.term.clock 1).toInt < (w.term.clock 0).toInt + n ∧
      ∀ t : Int, (w.term.clock 1).toInt ≤ t → (t / 30 = (w.term.clock 1).toInt / 30 ↔ t < (w.term.clock 0).toInt + n) := by
  obtain ⟨code, hc⟩ := T.tcode_ok key 30 6 (w.term.clock 1) ⟨hkey, by decide, Or.inl rfl⟩
  obtain ⟨e1, e2, e3⟩ := left_spec (w.term.clock 0)
  refine ⟨code, _, google_shown C J T U f label path pass key code w rest hf hd hpl hkey ha hh hc, hc, e1, e2, ?_, ?_⟩
  · omega
  · intro t ht
    omega

/-- There are files with a token of type Google. -/
theorem google_file : ∃ fs : Fs, Holds C J T fs [102] [112, 119] 0 (ascii "mail") (ascii "TOTP-GOOGLE") (.totp (ascii "foobar") 30 6) := by
  obtain ⟨b, hb⟩ := exFile C J 0 (Or.inl rfl)
  obtain ⟨code0, hc0⟩ := T.tcode_ok (ascii "foobar") 30 6 1000 ⟨by decide, by decide, Or.inl rfl⟩
  have hr := addGoogle_eq T (w := exWorld b []) (label := ascii "mail") (key := ascii "foobar") (code := code0) (by decide) hc0
  obtain ⟨out, w', e1, e2, e3⟩ := main_store C J T OtpcText.asciiCase (f := { store := true, kind := ascii "google" }) rfl rfl (label := ascii "mail") (path := [102])
    (pass := [112, 119]) (secret := ascii "mzxw 6ytb oi") (w := exWorld b [some [112, 119], some (ascii "mzxw 6ytb oi")])
    (rest := []) (s := exStore [1, 2, 3] 7) (code := code0) (t := ⟨[], fun n => 1000 + BitVec.ofNat 64 (n + 2)⟩)
    (by decide) rfl ⟨b, by simp [exWorld], hb⟩ rfl (exMap_other (by decide) _ _)
    (by rw [typed_b32 OtpcText.asciiCase exTyped]; exact hr) rfl (exRng _ _) rfl (exClock 2 (by decide))
  refine ⟨w'.fs, ?_⟩
  rw [e2]
  exact saved_holds C J T (exStore_finite _ _) (exStore_clean _ _) rfl rfl (by decide) rfl rfl
    (meta_keys (by decide) (meta_keys (by decide) (meta_keys (by decide) (meta_keys (by decide) meta_empty)))) (googleMeta_type _ _) rfl e3

/-- The world with these files, at second `t0` and then at second `t1`. -/
def atTimes (fs : Fs) (t0 t1 : BitVec 64) : World :=
  { term := { answers := [some [112, 119]], clock := fun n => if n = 0 then t0 else t1 }, rng := [], fs := fs, write := .done, stdin := [], stdout := [] }

/-- At second 17 of a period 13 seconds are left. -/
example : ∃ fs code, T.tcode (ascii "foobar") 30 6 1007 = .ok code ∧
    mainText C J T U {} [ascii "mail"] [102] (atTimes fs 1007 1007) = line code ++ line (ascii "Updates in 13 seconds.") := by
  obtain ⟨fs, hh⟩ := google_file C J T
  obtain ⟨code, hc⟩ := T.tcode_ok (ascii "foobar") 30 6 1007 ⟨by decide, by decide, Or.inl rfl⟩
  refine ⟨fs, code, hc, ?_⟩
  rw [google_shown C J T U {} (ascii "mail") [102] [112, 119] (ascii "foobar") code (atTimes fs 1007 1007) [] ⟨rfl, rfl, rfl⟩ (by decide)
    ⟨by decide, by decide⟩ (by decide) rfl hh hc]
  exact congrArg (line code ++ line ·) (by rw [show 30 - second ((atTimes fs 1007 1007).term.clock 0) % 30 = 13 from (by decide : 30 - second 1007 % 30 = 13)]; decide)

/-- The period ends after the first look at the clock: the code printed is that of the new period, which has
30 seconds left, and is said to have 1. -/
theorem C180_boundary_violated : ∃ (w : World) (code : Bytes),
    (w.term.clock 0).toInt = 1049 ∧ (w.term.clock 1).toInt = 1050 ∧
    Holds C J T w.fs [102] [112, 119] 0 (ascii "mail") (ascii "TOTP-GOOGLE") (.totp (ascii "foobar") 30 6) ∧
    T.tcode (ascii "foobar") 30 6 1050 = .ok code ∧
    mainText C J T U {} [ascii "mail"] [102] w = line code ++ line (ascii "Updates in 1 seconds.") := by
  obtain ⟨fs, hh⟩ := google_file C J T
  obtain ⟨code, hc⟩ := T.tcode_ok (ascii "foobar") 30 6 1050 ⟨by decide, by decide, Or.inl rfl⟩
  refine ⟨atTimes fs 1049 1050, code, (by decide : (1049 : BitVec 64).toInt = 1049), (by decide : (1050 : BitVec 64).toInt = 1050), hh, hc, ?_⟩
  rw [google_shown C J T U {} (ascii "mail") [102] [112, 119] (ascii "foobar") code (atTimes fs 1049 1050) [] ⟨rfl, rfl, rfl⟩ (by decide)
    ⟨by decide, by decide⟩ (by decide) rfl hh hc]
  exact congrArg (line code ++ line ·) (by rw [show 30 - second ((atTimes fs 1049 1050).term.clock 0) % 30 = 1 from (by decide : 30 - second 1049 % 30 = 1)]; decide)

end Verif.Props.OtpcOutput
