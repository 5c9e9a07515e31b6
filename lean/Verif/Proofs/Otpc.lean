import Verif.Proofs.Secrets
import Verif.Props.OtpcText
import Verif.Spec.Otpc
/-! Lemmas about the model of otpc. -/

namespace Verif.Proofs.Otpc
open Verif Verif.Go Verif.Model.Util Verif.Model.SecretStore Verif.Model.Otpc
open Verif.Model.Secrets hiding Config addSecret Flags main showSecret initStore
open Verif.Spec.SecretStore Verif.Spec.Secrets Verif.Spec.Otpc Verif.Proofs.SecretStore
open Verif.Proofs.Secrets hiding fmode

variable (C : Crypto) (J : Json) (T : TwoFactor) (U : Case)

/-! ### Text -/

theorem b32Digit_low (n : Nat) (h : n < 32) : 50 ≤ b32Digit n := by
  have : ∀ n, n < 32 → 50 ≤ b32Digit n := by decide
  exact this n h

theorem b32Digits_low (n x : Nat) : ∀ b ∈ b32Digits n x, 50 ≤ b := by
  intro b hb
  obtain ⟨d, hd, rfl⟩ := List.mem_map.mp hb
  exact b32Digit_low d (digits32_lt n x d hd)

theorem b32_low (key : Bytes) : ∀ b ∈ b32Encode key, 50 ≤ b := by
  suffices ∀ n (key : Bytes), key.length ≤ n → ∀ b ∈ b32Encode key, 50 ≤ b from this _ key (Nat.le_refl _)
  intro n
  induction n with
  | zero =>
    intro key h
    cases key with
    | nil => simp [b32Encode]
    | cons b r => simp at h
  | succ n ih =>
    intro key h
    have short : ∀ g : Bytes, b32Encode g =
        (b32Digits 8 (ofBe (g ++ List.replicate (5 - g.length) 0))).take (b32Chars g.length) ++ List.replicate (8 - b32Chars g.length) 61 →
        ∀ b ∈ b32Encode g, 50 ≤ b := by
      intro g he b hb
      rw [he] at hb
      rcases List.mem_append.mp hb with hb | hb
      · exact b32Digits_low _ _ b (List.mem_of_mem_take hb)
      · rw [(List.mem_replicate.mp hb).2]; decide
    match key with
    | [] => simp [b32Encode]
    | [a] => exact short [a] rfl
    | [a, b] => exact short [a, b] rfl
    | [a, b, c] => exact short [a, b, c] rfl
    | [a, b, c, d] => exact short [a, b, c, d] rfl
    | a :: b :: c :: d :: e :: r =>
      intro x hx
      rw [b32Encode] at hx
      rcases List.mem_append.mp hx with hx | hx
      · exact b32Digits_low _ _ x hx
      · exact ih r (by simp at h; omega) x hx

theorem decodeString_b32 (key : Bytes) : decodeString (b32Encode key) = some key := by
  unfold decodeString
  rw [List.filter_eq_self.mpr, b32Decode_encode]
  intro b hb
  have := b32_low key b hb
  rw [UInt8.le_iff_toNat_le] at this
  change 50 ≤ _ at this
  have h1 : b ≠ 10 := by rintro rfl; revert this; decide
  have h2 : b ≠ 13 := by rintro rfl; revert this; decide
  simp [h1, h2]

theorem digitsVal_decimal (n : Nat) : digitsVal (decimal n) = some n := by
  have hne : decimal n ≠ [] := by
    unfold decimal decimalF
    split <;> simp
  have hall : (decimal n).all (fun b => 48 ≤ b && b ≤ 57) = true := by
    rw [List.all_eq_true]
    intro b hb
    have := decimalF_digits _ _ b hb
    simp only [Bool.and_eq_true, decide_eq_true_eq, UInt8.le_iff_toNat_le]
    exact this
  unfold digitsVal
  rw [if_pos ⟨hne, hall⟩]
  have := decimal_val n
  unfold decVal at this
  simp only [Nat.mul_comm 10, Option.some.injEq]
  exact this

theorem atoi_decimal (n : Nat) (h : n < 2 ^ 63) : atoi (decimal n) = some (n : Int) := by
  have hd := digitsVal_decimal n
  have hdig : ∀ c ∈ decimal n, 48 ≤ c.toNat ∧ c.toNat ≤ 57 := decimalF_digits _ _
  generalize decimal n = s at *
  unfold atoi
  split
  · have := hdig 45 List.mem_cons_self
    simp at this
  · have := hdig 43 List.mem_cons_self
    simp at this
  · rw [hd]
    simp only
    rw [if_pos h]

/-- A number typed, or the default. -/
theorem atoi_typed {d i : Bytes} {n k : Nat} (hd : atoi d = some (k : Int)) (h : (i = decimal n ∧ n < 2 ^ 63) ∨ (i = [] ∧ n = k)) :
    atoi (orDefault d i) = some (n : Int) := by
  rcases h with ⟨rfl, hn⟩ | ⟨rfl, rfl⟩
  · have hne : decimal n ≠ [] := by
      unfold decimal decimalF
      split <;> simp
    unfold orDefault
    rw [if_neg hne]
    exact atoi_decimal n hn
  · exact hd

/-! ### Loading and saving -/

theorem load_ok {w : World} {path pass : Bytes} {mode : Int} {rest : List (Option Bytes)} {s : SecretStore} (hd : path ≠ dash)
    (ha : w.term.answers = some pass :: rest) (ho : Opens C J w.fs path pass mode s) :
    loadStore C J w path mode = .ok (some s, { w with term := ⟨rest, w.term.clock⟩ }) := by
  obtain ⟨b, hb, hu⟩ := ho
  have hex : ({ w with term := { w.term with answers := rest } } : World).exist path = true := by simp [World.exist, hb]
  have hrd : ({ w with term := { w.term with answers := rest } } : World).readFile path = some b := by
    simp [World.readFile, hd, hb]
  unfold loadStore Term.read
  simp only [ha, hex, if_true, hrd, hu, Res.ok_bind, Res.pure_eq]

theorem load_some {w w1 : World} {path : Bytes} {mode : Int} {s : SecretStore} (hd : path ≠ dash)
    (h : loadStore C J w path mode = .ok (some s, w1)) :
    ∃ pass rest, w.term.answers = some pass :: rest ∧ Opens C J w.fs path pass mode s ∧
      w1 = { w with term := ⟨rest, w.term.clock⟩ } := by
  unfold loadStore Term.read at h
  cases ha : w.term.answers with
  | nil => simp [ha] at h
  | cons a rest =>
    cases a with
    | none => simp [ha] at h
    | some pass =>
      simp only [ha] at h
      split at h
      · cases hfs : w.fs path with
        | none => simp [World.readFile, hd, hfs] at h
        | some b =>
          have hr : ({ w with term := { w.term with answers := rest } } : World).readFile path = some b := by
            simp [World.readFile, hd, hfs]
          simp only [hr] at h
          obtain ⟨o, h1, h2⟩ := Res.bind_eq_ok.mp h
          simp only [Res.pure_eq, Res.ok.injEq, Prod.mk.injEq] at h2
          obtain ⟨rfl, rfl⟩ := h2
          exact ⟨pass, rest, rfl, ⟨b, hfs, h1⟩, rfl⟩
      · simp at h

theorem save_ok {w : World} {ps : SecretStore} {path : Bytes} {mode : Int} {codes : List Bytes} {m : Map (Option SecretRecord)}
    {p : Bytes} (hd : path ≠ dash) (hm : mode = 0 ∨ mode = 1) (hw : w.write = .done) (hr : 56 ≤ w.rng.length)
    (h1 : ps.version = 1) (h2 : w.term.clock 0 ≠ 0) (h3 : ps.store = some m) (h4 : ps.passphrase = some p) :
    ∃ out, save C J w ps path mode codes = .ok (.exit 0 codes,
        { w with term := ⟨w.term.answers, fun n => w.term.clock (n + 1)⟩, rng := w.rng.drop 56, fs := w.fs.set path out }) ∧
      IsFile C out p mode (J.enc { ps.toFields with timestamp := w.term.clock 0 }) := by
  have hv : ({ ps with timestamp := w.term.clock 0 } : SecretStore).valid = true :=
    (valid_iff _).mpr ⟨h1, h2, ⟨m, h3⟩, p, h4⟩
  obtain ⟨out, hout⟩ := marshal_ok C J hv hm hr
  obtain ⟨-, -, q, hq, hfile⟩ := marshal_some C J hout
  simp only at hq
  rw [h4] at hq
  cases hq
  refine ⟨out, ?_, hfile⟩
  unfold save writeStore
  simp only [Term.now, hout, Res.ok_bind, Res.pure_eq, World.writeFile, hd, if_false, Go.writeFile, hw, if_true]

theorem save_some {w w' : World} {ps : SecretStore} {path : Bytes} {mode : Int} {codes : List Bytes} {o : Outcome}
    (hd : path ≠ dash) (h : save C J w ps path mode codes = .ok (o, w')) :
    (o = .exit 0 codes ∧ ∃ p out, ps.passphrase = some p ∧ w.write = .done ∧ ps.version = 1 ∧ w.term.clock 0 ≠ 0 ∧
      IsFile C out p mode (J.enc { ps.toFields with timestamp := w.term.clock 0 }) ∧ w'.fs = w.fs.set path out) ∨
    (o = .exit 1 codes ∧ ((∀ k, w.write ≠ .failsAfter k) → w'.fs = w.fs)) := by
  unfold save at h
  simp only [Term.now] at h
  obtain ⟨⟨w3, ok⟩, h1, h2⟩ := Res.bind_eq_ok.mp h
  simp only [Res.pure_eq, Res.ok.injEq, Prod.mk.injEq] at h2
  obtain ⟨rfl, rfl⟩ := h2
  cases ok with
  | false =>
    right
    refine ⟨rfl, fun hw => ?_⟩
    have := writeStore_failed C J h1 hw
    exact this
  | true =>
    left
    refine ⟨rfl, ?_⟩
    unfold writeStore at h1
    obtain ⟨⟨out, s2, rng⟩, h3, h4⟩ := Res.bind_eq_ok.mp h1
    cases out with
    | none => simp at h4
    | some out =>
      obtain ⟨hv, -, p', hp', hfile⟩ := marshal_some C J h3
      obtain ⟨v1, v2, -, -⟩ := (valid_iff _).mp hv
      simp only [Res.pure_eq, World.writeFile, hd, if_false, Res.ok.injEq, Prod.mk.injEq] at h4
      unfold Go.writeFile at h4
      cases hwr : w.write with
      | done =>
        simp only [hwr] at h4
        exact ⟨p', out, hp', rfl, v1, v2, hfile, by rw [← h4.1]⟩
      | openFails => simp [hwr] at h4
      | failsAfter k => simp [hwr] at h4

theorem fmode (f : Flags) : f.mode = 0 ∨ f.mode = 1 := by
  unfold Model.Otpc.Flags.mode
  split
  · exact Or.inr rfl
  · exact Or.inl rfl

/-! ### Storing -/

theorem otp_term {w w2 : World} {o o2 : Otp} {code : Bytes} (h : otp T w o = .ok (code, o2, w2)) :
    ∃ t, w2 = { w with term := t } := by
  unfold otp at h
  split at h
  · obtain ⟨c, -, h2⟩ := Res.bind_eq_ok.mp h
    simp only [Res.pure_eq, Res.ok.injEq, Prod.mk.injEq] at h2
    exact ⟨w.term, h2.2.2.symm⟩
  · obtain ⟨c, -, h2⟩ := Res.bind_eq_ok.mp h
    simp only [Res.pure_eq, Res.ok.injEq, Prod.mk.injEq] at h2
    exact ⟨_, h2.2.2.symm⟩

theorem meta_keys {md : Map Bytes} {k v : Bytes} (hk : ValidUtf8 k) (h : md.Finite ∧ ∀ j x, md j = some x → ValidUtf8 j) :
    (md.set k v).Finite ∧ ∀ j x, (md.set k v) j = some x → ValidUtf8 j := by
  refine ⟨h.1.set _ _, fun j x hj => ?_⟩
  by_cases e : j = k
  · rw [e]; exact hk
  · rw [Map.set_other _ _ e] at hj
    exact h.2 j x hj

theorem meta_empty : (Map.empty : Map Bytes).Finite ∧ ∀ j x, (Map.empty : Map Bytes) j = some x → ValidUtf8 j :=
  ⟨Map.finite_empty, fun _ _ h => nomatch h⟩

/-- What is common to all records made. -/
structure MadeOk (w w2 : World) (k : Kind) (label : Bytes) (r : SecretRecord) : Prop where
  world : ∃ t, w2 = { w with term := t }
  label_eq : r.label = label
  md : ∃ md, r.metadata = some md ∧ (md.Finite ∧ ∀ j x, md j = some x → ValidUtf8 j) ∧ (k = .totp → md kType = some (ascii "TOTP-SHA1"))

theorem read_world (w : World) : ∃ t, ({ w with term := w.term.read.2 } : World) = { w with term := t } := ⟨_, rfl⟩

theorem made_world {w w1 w2 : World} {k : Kind} {label : Bytes} {r : SecretRecord} (h1 : ∃ t, w1 = { w with term := t })
    (h : MadeOk w1 w2 k label r) : MadeOk w w2 k label r := by
  obtain ⟨t, rfl⟩ := h1
  obtain ⟨⟨t2, rfl⟩, h2, h3⟩ := h
  exact ⟨⟨t2, rfl⟩, h2, h3⟩

theorem addHotp_some {w w2 : World} {label secret code : Bytes} {r : SecretRecord} (h : addHotp T w label secret = .ok (some (r, code), w2)) :
    MadeOk w w2 .hotp label r := by
  unfold addHotp at h
  simp only at h
  split at h
  · simp at h
  · split at h
    · simp at h
    · split at h
      · simp at h
      · split at h
        · simp at h
        · split at h
          · simp at h
          · obtain ⟨⟨c, o, w3⟩, h1, h2⟩ := Res.bind_eq_ok.mp h
            obtain ⟨t, rfl⟩ := otp_term T h1
            simp only [Res.pure_eq, Res.ok.injEq, Prod.mk.injEq, Option.some.injEq] at h2
            obtain ⟨⟨rfl, -⟩, rfl⟩ := h2
            refine ⟨⟨_, rfl⟩, rfl, _, rfl, ?_, by simp⟩
            exact meta_keys (by decide) (meta_keys (by decide) (meta_keys (by decide) meta_empty))

theorem addTotp_some {w w2 : World} {label secret code : Bytes} {r : SecretRecord} (h : addTotp T w label secret = .ok (some (r, code), w2)) :
    MadeOk w w2 .totp label r := by
  unfold addTotp at h
  simp only at h
  split at h
  · simp at h
  · split at h
    · simp at h
    · split at h
      · simp at h
      · split at h
        · simp at h
        · split at h
          · simp at h
          · obtain ⟨⟨c, o, w3⟩, h1, h2⟩ := Res.bind_eq_ok.mp h
            obtain ⟨t, rfl⟩ := otp_term T h1
            simp only [Res.pure_eq, Res.ok.injEq, Prod.mk.injEq, Option.some.injEq] at h2
            obtain ⟨⟨rfl, -⟩, rfl⟩ := h2
            refine ⟨⟨_, rfl⟩, rfl, _, rfl, ?_, fun _ => ?_⟩
            · exact meta_keys (by decide) (meta_keys (by decide) (meta_keys (by decide) (meta_keys (by decide) meta_empty)))
            · rw [Map.set_other _ _ (by decide), Map.set_other _ _ (by decide), Map.set_same]

theorem addGoogle_some {w w2 : World} {label secret code : Bytes} {r : SecretRecord} (h : addGoogle T w label secret = .ok (some (r, code), w2)) :
    MadeOk w w2 .google label r := by
  unfold addGoogle at h
  split at h
  · simp at h
  · obtain ⟨⟨c, o, w3⟩, h1, h2⟩ := Res.bind_eq_ok.mp h
    obtain ⟨t, rfl⟩ := otp_term T h1
    simp only [Res.pure_eq, Res.ok.injEq, Prod.mk.injEq, Option.some.injEq] at h2
    obtain ⟨⟨rfl, -⟩, rfl⟩ := h2
    refine ⟨⟨_, rfl⟩, rfl, _, rfl, ?_, by simp⟩
    exact meta_keys (by decide) (meta_keys (by decide) (meta_keys (by decide) (meta_keys (by decide) meta_empty)))

theorem makeRecord_some {w w2 : World} {k : Kind} {label secret code : Bytes} {r : SecretRecord}
    (h : makeRecord T w k label secret = .ok (some (r, code), w2)) : MadeOk w w2 k label r := by
  unfold makeRecord at h
  split at h
  · exact addHotp_some T h
  · exact addTotp_some T h
  · exact addGoogle_some T h
  · simp at h

/-- A failing attempt leaves the world as it is, but for the answers read. -/
theorem makeRecord_none {w w2 : World} {k : Kind} {label secret : Bytes}
    (h : makeRecord T w k label secret = .ok (none, w2)) : ∃ t, w2 = { w with term := t } := by
  unfold makeRecord addHotp addTotp addGoogle at h
  simp only at h
  repeat' split at h
  all_goals first
    | (simp only [Res.ok.injEq, Prod.mk.injEq, true_and] at h; exact ⟨_, h.symm⟩)
    | (obtain ⟨⟨c, o, w3⟩, h1, h2⟩ := Res.bind_eq_ok.mp h; simp at h2)

theorem addSecret_some {w w2 : World} {ps ps' : SecretStore} {cfg : Config} {label code : Bytes} (ho : cfg.overwrite = false)
    (h : addSecret T U w ps cfg label = .ok (some code, ps', w2)) :
    ∃ secret rest r m, w.term.answers = some secret :: rest ∧ ps.has label = false ∧ ps.store = some m ∧
      makeRecord T { w with term := ⟨rest, w.term.clock⟩ } cfg.otpType label (sanitiseSecret U secret) = .ok (some (r, code), w2) ∧
      ps' = { ps with store := some (m.set label (some r)) } := by
  unfold addSecret Term.read at h
  rw [ho] at h
  simp only [Bool.not_false, Bool.and_true] at h
  split at h
  · simp at h
  · rename_i hh
    cases ha : w.term.answers with
    | nil => simp [ha] at h
    | cons a rest =>
      cases a with
      | none => simp [ha] at h
      | some secret =>
        simp only [ha] at h
        obtain ⟨⟨x, w3⟩, h1, h2⟩ := Res.bind_eq_ok.mp h
        cases x with
        | none => simp at h2
        | some x =>
          obtain ⟨r, c⟩ := x
          simp only at h2
          obtain ⟨ps2, h3, h4⟩ := Res.bind_eq_ok.mp h2
          simp only [Res.pure_eq, Res.ok.injEq, Prod.mk.injEq, Option.some.injEq] at h4
          obtain ⟨rfl, rfl, rfl⟩ := h4
          obtain ⟨m, hm, rfl⟩ := assign_eq.mp h3
          exact ⟨secret, rest, r, m, rfl, by simpa using hh, hm, h1, rfl⟩

theorem addSecret_none {w w2 : World} {ps ps' : SecretStore} {cfg : Config} {label : Bytes}
    (h : addSecret T U w ps cfg label = .ok (none, ps', w2)) : ∃ t, w2 = { w with term := t } := by
  unfold addSecret at h
  simp only at h
  split at h
  · simp only [Res.ok.injEq, Prod.mk.injEq, true_and] at h
    exact ⟨w.term, h.2.symm⟩
  · split at h
    · simp only [Res.ok.injEq, Prod.mk.injEq, true_and] at h
      exact ⟨_, h.2.symm⟩
    · obtain ⟨⟨x, w3⟩, h1, h2⟩ := Res.bind_eq_ok.mp h
      cases x with
      | none =>
        simp only [Res.pure_eq, Res.ok.injEq, Prod.mk.injEq, true_and] at h2
        obtain ⟨t, rfl⟩ := makeRecord_none T h1
        exact ⟨t, h2.2.symm⟩
      | some x =>
        obtain ⟨r, c⟩ := x
        simp only at h2
        obtain ⟨ps2, h3, h4⟩ := Res.bind_eq_ok.mp h2
        simp at h4

/-- What a run of `otpc -s` that ends with status 0 did. -/
theorem store_exit {f : Flags} {args : List Bytes} {path : Bytes} {w w' : World} {codes : List Bytes} (hd : path ≠ dash)
    (hi : f.init = false) (hs : f.store = true) (h : main C J T U f args path w = .ok (.exit 0 codes, w')) :
    ∃ pass secret rest s m r code w2 out, w.term.answers = some pass :: some secret :: rest ∧ Opens C J w.fs path pass f.mode s ∧
      s.has (args.headD []) = false ∧ s.store = some m ∧ codes = [code] ∧
      makeRecord T { w with term := ⟨rest, w.term.clock⟩ } (parseOTPKind f.kind) (args.headD []) (sanitiseSecret U secret) = .ok (some (r, code), w2) ∧
      IsFile C out pass f.mode (J.enc { s.toFields with store := some (m.set (args.headD []) (some r)), timestamp := w2.term.clock 0 }) ∧
      w'.fs = w.fs.set path out := by
  unfold main at h
  rw [hi, hs] at h
  simp only [Bool.false_eq_true, if_false, if_true] at h
  split at h
  · simp at h
  · obtain ⟨⟨o, w1⟩, h1, h2⟩ := Res.bind_eq_ok.mp h
    cases o with
    | none => simp at h2
    | some s =>
      obtain ⟨pass, rest, ha, hop, rfl⟩ := load_some C J hd h1
      simp only at h2
      obtain ⟨⟨x, ps, w2⟩, h3, h4⟩ := Res.bind_eq_ok.mp h2
      cases x with
      | none => simp at h4
      | some code =>
        obtain ⟨secret, rest2, r, m, e1, e2, e3, e4, rfl⟩ := addSecret_some T U rfl h3
        simp only at e1 h4
        rcases save_some C J hd h4 with ⟨q1, p, out, q2, -, -, -, q6, q7⟩ | ⟨q1, -⟩
        · obtain ⟨b, hb, hu⟩ := hop
          obtain ⟨-, -, hp⟩ := opens_fields C J hu
          simp only at q2
          rw [hp] at q2
          cases q2
          cases q1
          obtain ⟨t, hw2⟩ := (makeRecord_some T e4).world
          refine ⟨pass, secret, rest2, s, m, r, code, w2, out, by rw [ha, e1], ⟨b, hb, hu⟩, e2, e3, rfl, e4, q6, ?_⟩
          rw [q7, hw2]
        · cases q1

/-- A run of `otpc -s` that succeeds. -/
theorem main_store {f : Flags} (hi : f.init = false) (hs : f.store = true) {label path pass secret : Bytes} {w : World}
    {rest : List (Option Bytes)} {s : SecretStore} {m : Map (Option SecretRecord)} {r : SecretRecord} {code : Bytes} {t : Term}
    (hd : path ≠ dash) (ha : w.term.answers = some pass :: some secret :: rest) (ho : Opens C J w.fs path pass f.mode s)
    (hm : s.store = some m) (hh : s.has label = false)
    (hr : makeRecord T { w with term := ⟨rest, w.term.clock⟩ } (parseOTPKind f.kind) label (sanitiseSecret U secret) =
      .ok (some (r, code), { w with term := t }))
    (hw : w.write = .done) (hrng : 56 ≤ w.rng.length) (hv : s.version = 1) (ht : t.clock 0 ≠ 0) :
    ∃ out w', main C J T U f [label] path w = .ok (.exit 0 [code], w') ∧ w'.fs = w.fs.set path out ∧
      IsFile C out pass f.mode (J.enc { s.toFields with store := some (m.set label (some r)), timestamp := t.clock 0 }) := by
  obtain ⟨b, hb, hu⟩ := ho
  obtain ⟨-, -, hp⟩ := opens_fields C J hu
  obtain ⟨out, e1, e2⟩ := save_ok C J (w := { w with term := t }) (ps := { s with store := some (m.set label (some r)) }) (codes := [code])
    hd (fmode f) hw hrng hv ht rfl hp
  refine ⟨out, { w with term := ⟨t.answers, fun n => t.clock (n + 1)⟩, rng := w.rng.drop 56, fs := w.fs.set path out }, ?_, rfl, e2⟩
  rw [← e1]
  unfold main
  rw [hi, hs]
  simp only [Bool.false_eq_true, if_false, if_true, List.length_singleton, Nat.lt_irrefl, load_ok C J hd ha ⟨b, hb, hu⟩, Res.ok_bind,
    List.headD_cons]
  unfold addSecret Term.read
  rw [hh]
  simp only [Bool.false_and, Bool.false_eq_true, if_false, hr, Res.ok_bind, assign, hm, Res.pure_eq]

/-! ### Showing -/

/-- Flags and arguments that make otpc show a token. -/
def Showing (f : Flags) : Prop := f.init = false ∧ f.store = false ∧ f.qr = false

/-- The end of a run that shows a token. -/
def showEnd (f : Flags) (path : Bytes) : Shown × SecretStore × World → Res (Outcome × World)
  | (.failed, _, w) => .ok (.exit 1 [], w)
  | (.forever first, _, w) => .ok (.forever first, w)
  | (.once code, ps, w) => save C J w ps path f.mode [code]

theorem main_show {f : Flags} (hf : Showing f) {label path pass : Bytes} {w : World} {rest : List (Option Bytes)} {s : SecretStore}
    (hd : path ≠ dash) (ha : w.term.answers = some pass :: rest) (ho : Opens C J w.fs path pass f.mode s) :
    main C J T U f [label] path w = (showSecret T { w with term := ⟨rest, w.term.clock⟩ } s label).bind (showEnd C J f path) := by
  obtain ⟨h1, h2, h3⟩ := hf
  unfold main
  rw [h1, h2, h3]
  simp only [Bool.false_eq_true, if_false, List.length_singleton, Nat.lt_irrefl, load_ok C J hd ha ho, Res.ok_bind, List.headD_cons]
  rfl

theorem kindOf_type {r : SecretRecord} {o : Otp} {md : Map Bytes} {t : Bytes} (hm : r.metadata = some md) (ht : md kType = some t) :
    kindOf r o = parseOTPKind t := by
  unfold kindOf
  rw [hm]
  simp only [Option.bind_some, ht]

theorem has_of_lookup {s : SecretStore} {k : Bytes} {r : SecretRecord} (h : lookup s k = some r) : s.has k = true := by
  obtain ⟨m, hm, hk⟩ := lookup_get h
  rw [has_get hm, hk]
  simp

/-- A token of a type not recognised cannot be shown. -/
theorem show_unknown {w : World} {s : SecretStore} {label t : Bytes} {r : SecretRecord} {md : Map Bytes}
    (hl : lookup s label = some r) (hm : r.metadata = some md) (ht : md kType = some t) (hk : parseOTPKind t = .unknown) :
    showSecret T w s label = .ok (.failed, s, w) := by
  unfold showSecret
  rw [has_of_lookup hl, fetch_eq.mpr hl]
  simp only [Bool.not_true, Bool.false_eq_true, if_false, Res.ok_bind, Res.pure_eq]
  cases hu : T.fromURL r.secret with
  | none => rfl
  | some x =>
    obtain ⟨o, l⟩ := x
    simp only [kindOf_type hm ht, hk]

/-- Neither can one that is not there. -/
theorem show_absent {w : World} {s : SecretStore} {label : Bytes} (h : s.has label = false) :
    showSecret T w s label = .ok (.failed, s, w) := by
  unfold showSecret
  rw [h]
  rfl

/-- A TOTP of type Google is displayed. -/
theorem show_google {w : World} {s : SecretStore} {label label' t key code : Bytes} {r : SecretRecord} {md : Map Bytes} {step : BitVec 64} {d : Int}
    (hl : lookup s label = some r) (hm : r.metadata = some md) (ht : md kType = some t) (hk : parseOTPKind t = .google)
    (hu : T.fromURL r.secret = some (.totp key step d, label')) (hc : T.tcode key step d (w.term.clock 1) = .ok code) :
    showSecret T w s label = .ok (.forever code, s, { w with term := ⟨w.term.answers, fun n => w.term.clock (n + 2)⟩ }) := by
  unfold showSecret
  rw [has_of_lookup hl, fetch_eq.mpr hl]
  simp only [Bool.not_true, Bool.false_eq_true, if_false, Res.ok_bind, hu, kindOf_type hm ht]
  rw [hk]
  simp only [otp, Term.now, Nat.zero_add, hc, Res.ok_bind, Res.pure_eq]

/-- An HOTP is displayed, and its counter incremented. -/
theorem show_hotp {w : World} {s : SecretStore} {m : Map (Option SecretRecord)} {label label' t key code : Bytes} {r : SecretRecord}
    {md : Map Bytes} {c : BitVec 64} {d : Int} (hs : s.store = some m)
    (hl : lookup s label = some r) (hm : r.metadata = some md) (ht : md kType = some t) (hk : parseOTPKind t = .hotp)
    (hu : T.fromURL r.secret = some (.hotp key c d, label')) (hc : T.hcode key c d = .ok code) :
    showSecret T w s label = .ok (.once code,
      { s with store := some ((m.set label (some { r with secret := T.url (.hotp key (c + 1) d) label', timestamp := w.term.clock 0 })).set label'
        (some { r with secret := T.url (.hotp key (c + 1) d) label', timestamp := w.term.clock 0 })) },
      { w with term := ⟨w.term.answers, fun n => w.term.clock (n + 1)⟩ }) := by
  unfold showSecret
  rw [has_of_lookup hl, fetch_eq.mpr hl]
  simp only [Bool.not_true, Bool.false_eq_true, if_false, Res.ok_bind, hu, kindOf_type hm ht, hk]
  simp only [otp, Term.now, hc, Res.ok_bind, Res.pure_eq, assign, hs]

/-! ### Tokens -/

theorem typed_b32 {key text : Bytes} (h : Typed key text) : sanitiseSecret U text = b32Encode key :=
  h.elim (Props.OtpcText.C75_padded U key text) (Props.OtpcText.C75_key U key text)

theorem plain_utf8 {label : Bytes} (h : Plain label) : ValidUtf8 label := by
  refine validUtf8_ascii _ fun b hb => ?_
  have := h.2 b hb
  simp only [plainByte, Bool.or_eq_true, Bool.and_eq_true, decide_eq_true_eq, UInt8.le_iff_toNat_le] at this
  rw [UInt8.lt_iff_toNat_lt]
  change _ < 128
  have a1 : (57 : UInt8).toNat = 57 := rfl
  have a2 : (90 : UInt8).toNat = 90 := rfl
  have a3 : (122 : UInt8).toNat = 122 := rfl
  omega

theorem plain_alias {label k : Bytes} (h : Plain label) : NoAlias [label] k := by
  intro b hb hs
  rw [List.mem_singleton.mp hb] at hs ⊢
  rw [plain_utf8 h] at hs
  exact hs

/-- The metadata of an HOTP token. -/
abbrev hotpMeta (secret code : Bytes) : Map Bytes := ((Map.empty.set kKey secret).set kType (ascii "HOTP")).set kConf code

theorem hotpMeta_type (secret code : Bytes) : hotpMeta secret code kType = some (ascii "HOTP") := by
  rw [hotpMeta, Map.set_other _ _ (by decide), Map.set_same]

theorem addHotp_eq {w : World} {label key i1 i2 code : Bytes} {rest : List (Option Bytes)} {c d : Nat}
    (ha : w.term.answers = some i1 :: some i2 :: rest) (h1 : Number 0 c i1) (h2 : Number 6 d i2)
    (hc : T.hcode key (BitVec.ofNat 64 c) d = .ok code) :
    addHotp T w label (b32Encode key) =
      .ok (some ({ label := label, secret := T.url (.hotp key (BitVec.ofNat 64 c + 1) d) label, timestamp := w.term.clock 0
                   metadata := some (hotpMeta (b32Encode key) code) }, code),
        { w with term := ⟨rest, fun n => w.term.clock (n + 1)⟩ }) := by
  have e1 := atoi_typed (d := ascii "0") (k := 0) (by decide) h1
  have e2 := atoi_typed (d := ascii "6") (k := 6) (by decide) h2
  unfold addHotp Term.read
  simp only [ha, e1, e2, decodeString_b32, otp, BitVec.ofInt_natCast, hc, Res.ok_bind, Res.pure_eq, Term.now]

/-- The metadata of a Google token. -/
abbrev googleMeta (secret code : Bytes) : Map Bytes :=
  (((Map.empty.set kKey secret).set kType (ascii "TOTP-GOOGLE")).set kStep (ascii "30s")).set kConf code

theorem googleMeta_type (secret code : Bytes) : googleMeta secret code kType = some (ascii "TOTP-GOOGLE") := by
  rw [googleMeta, Map.set_other _ _ (by decide), Map.set_other _ _ (by decide), Map.set_same]

theorem addGoogle_eq {w : World} {label key code : Bytes} (hk : key ≠ []) (hc : T.tcode key 30 6 (w.term.clock 0) = .ok code) :
    addGoogle T w label (b32Encode key) =
      .ok (some ({ label := label, secret := T.url (.totp key 30 6) label, timestamp := w.term.clock 1
                   metadata := some (googleMeta (b32Encode key) code) }, code),
        { w with term := ⟨w.term.answers, fun n => w.term.clock (n + 2)⟩ }) := by
  unfold addGoogle
  simp only [T.google_b32 key hk, otp, Term.now, hc, Res.ok_bind, Res.pure_eq]

/-- The metadata of a TOTP token. -/
abbrev totpMeta (secret str code : Bytes) : Map Bytes :=
  (((Map.empty.set kKey secret).set kType (ascii "TOTP-SHA1")).set kStep str).set kConf code

/-- All defaults. -/
theorem addTotp_eq {w : World} {label key code : Bytes} {rest : List (Option Bytes)}
    (ha : w.term.answers = some [] :: some [] :: rest) (hc : T.tcode key 30 6 (w.term.clock 0) = .ok code) :
    ∃ str, addTotp T w label (b32Encode key) =
      .ok (some ({ label := label, secret := T.url (.totp key 30 6) label, timestamp := w.term.clock 1
                   metadata := some (totpMeta (b32Encode key) str code) }, code),
        { w with term := ⟨rest, fun n => w.term.clock (n + 2)⟩ }) := by
  obtain ⟨str, hs⟩ := T.duration_default
  have e2 : atoi (orDefault (ascii "6") []) = some 6 := by decide
  have e1 : orDefault (ascii "30s") [] = ascii "30s" := rfl
  refine ⟨str, ?_⟩
  unfold addTotp Term.read
  simp only [ha, e1, hs, e2, decodeString_b32, otp, Term.now, hc, Res.ok_bind, Res.pure_eq]

/-- A saved token can be found in the file. -/
theorem saved_holds {fs : Fs} {s : SecretStore} {m : Map (Option SecretRecord)} {label pass out path type : Bytes} {mode : Int}
    {t : BitVec 64} {r : SecretRecord} {md : Map Bytes} {o : Otp} (hf : s.toFields.Finite) (hu : s.toFields.Utf8) (hv : s.version = 1)
    (hm : s.store = some m) (hl : ValidUtf8 label) (hr : r.label = label) (hmd : r.metadata = some md)
    (hk : md.Finite ∧ ∀ j x, md j = some x → ValidUtf8 j) (ht : md kType = some type) (ho : r.secret = T.url o label)
    (hfile : IsFile C out pass mode (J.enc { s.toFields with store := some (m.set label (some r)), timestamp := t })) :
    Holds C J T (fs.set path out) path pass mode label type o := by
  have e := saved_exact C J (finite_set hf hm label r (by intro x hx; rw [hmd] at hx; cases hx; exact hk.1) t)
    (utf8_set (r := r) hu hm hl (by rw [hr]; exact hl) (by intro x j y hx hy; rw [hmd] at hx; cases hx; exact hk.2 j y hy) t) hfile
  refine ⟨_, r, md, ⟨out, Fs.set_same _ _ _, e⟩, hv, ?_, hr, hmd, ht, ho⟩
  rw [lookup_eq (m := m.set label (some r)) rfl, Map.set_same]
  rfl

/-- Showing an HOTP token with the right passphrase. -/
theorem show_holds {f : Flags} (hf : Showing f) {w w' : World} {path pass label key : Bytes} {rest : List (Option Bytes)} {c : BitVec 64} {d : Int}
    {o : Outcome} (hd : path ≠ dash) (hpl : Plain label) (hus : (Otp.hotp key c d).Usual)
    (hh : Holds C J T w.fs path pass f.mode label (ascii "HOTP") (.hotp key c d)) (ha : w.term.answers = some pass :: rest)
    (h : main C J T U f [label] path w = .ok (o, w')) :
    ∃ code, T.hcode key c d = .ok code ∧
      ((o = .exit 0 [code] ∧ Holds C J T w'.fs path pass f.mode label (ascii "HOTP") (.hotp key (c + 1) d)) ∨
       (o = .exit 1 [code] ∧ ((∀ k, w.write ≠ .failsAfter k) → w'.fs = w.fs))) := by
  obtain ⟨s, r, md, ho, hv, hl, hrl, hmd, ht, hsec⟩ := hh
  obtain ⟨b, hb, hu⟩ := ho
  obtain ⟨hfin, hutf, hp⟩ := opens_fields C J hu
  obtain ⟨code, hc⟩ := T.hcode_ok key c d hus
  obtain ⟨m, hm, hk⟩ := lookup_get hl
  have hfrom := T.fromURL_url _ _ hus hpl.1 hpl.2
  rw [main_show C J T U hf hd ha ⟨b, hb, hu⟩, show_hotp T hm hl hmd ht (by decide) (by rw [hsec]; exact hfrom) hc] at h
  have hset : ∀ r' : SecretRecord, (m.set label (some r')).set label (some r') = m.set label (some r') := fun r' =>
    Map.set_self _ (Map.set_same _ _ _)
  rw [hset] at h
  have h2 := h
  simp only [Res.bind, showEnd] at h2
  refine ⟨code, hc, ?_⟩
  rcases save_some C J hd h2 with ⟨q1, p, out, q2, -, -, -, q6, q7⟩ | ⟨q1, q2⟩
  · left
    refine ⟨q1, ?_⟩
    simp only at q2
    rw [hp] at q2
    cases q2
    rw [q7]
    have hmfin : md.Finite := record_finite hfin hl md hmd
    have hmutf : ∀ j x, md j = some x → ValidUtf8 j := fun j x hj => (record_utf8 hutf hl).2.2 md j x hmd hj
    exact saved_holds C J T (r := { r with secret := T.url (.hotp key (c + 1) d) label, timestamp := w.term.clock 0 }) hfin hutf hv hm (plain_utf8 hpl) hrl hmd ⟨hmfin, hmutf⟩ ht rfl q6
  · right
    exact ⟨q1, q2⟩

theorem usual_succ {key : Bytes} {c c' : BitVec 64} {d : Int} (h : (Otp.hotp key c d).Usual) : (Otp.hotp key c' d).Usual := h

/-- Showing it when nothing goes wrong. -/
theorem show_works {f : Flags} (hf : Showing f) {w : World} {path pass label key : Bytes} {rest : List (Option Bytes)} {c : BitVec 64} {d : Int}
    (hd : path ≠ dash) (hpl : Plain label) (hus : (Otp.hotp key c d).Usual)
    (hh : Holds C J T w.fs path pass f.mode label (ascii "HOTP") (.hotp key c d)) (ha : w.term.answers = some pass :: rest)
    (hw : w.write = .done) (hrng : 56 ≤ w.rng.length) (ht : w.term.clock 1 ≠ 0) :
    ∃ code w', T.hcode key c d = .ok code ∧ main C J T U f [label] path w = .ok (.exit 0 [code], w') := by
  obtain ⟨s, r, md, ho, hv, hl, hrl, hmd, htt, hsec⟩ := hh
  obtain ⟨b, hb, hu⟩ := ho
  obtain ⟨hfin, hutf, hp⟩ := opens_fields C J hu
  obtain ⟨code, hc⟩ := T.hcode_ok key c d hus
  obtain ⟨m, hm, hk⟩ := lookup_get hl
  have hfrom := T.fromURL_url _ _ hus hpl.1 hpl.2
  rw [main_show C J T U hf hd ha ⟨b, hb, hu⟩, show_hotp T hm hl hmd htt (by decide) (by rw [hsec]; exact hfrom) hc]
  simp only [Res.bind, showEnd]
  obtain ⟨out, e1, -⟩ := save_ok C J (w := { w with term := ⟨rest, fun n => w.term.clock (n + 1)⟩ })
    (ps := { s with store := some ((m.set label (some { r with secret := T.url (.hotp key (c + 1) d) label, timestamp := w.term.clock 0 })).set label
        (some { r with secret := T.url (.hotp key (c + 1) d) label, timestamp := w.term.clock 0 })) }) (codes := [code])
    hd (fmode f) hw hrng hv ht rfl hp
  exact ⟨code, _, hc, e1⟩

/-- Showing it when the file cannot be opened for writing. -/
theorem show_unsaved {f : Flags} (hf : Showing f) {w : World} {path pass label key : Bytes} {rest : List (Option Bytes)} {c : BitVec 64} {d : Int}
    (hd : path ≠ dash) (hpl : Plain label) (hus : (Otp.hotp key c d).Usual)
    (hh : Holds C J T w.fs path pass f.mode label (ascii "HOTP") (.hotp key c d)) (ha : w.term.answers = some pass :: rest)
    (hw : w.write = .openFails) :
    ∃ code w', T.hcode key c d = .ok code ∧ main C J T U f [label] path w = .ok (.exit 1 [code], w') ∧ w'.fs = w.fs := by
  have hx : main C J T U f [label] path w ≠ .panic := by
    obtain ⟨s, r, md, ho, hv, hl, hrl, hmd, htt, hsec⟩ := hh
    obtain ⟨code, hc⟩ := T.hcode_ok key c d hus
    obtain ⟨m, hm, hk⟩ := lookup_get hl
    have hfrom := T.fromURL_url _ _ hus hpl.1 hpl.2
    rw [main_show C J T U hf hd ha ho, show_hotp T hm hl hmd htt (by decide) (by rw [hsec]; exact hfrom) hc]
    simp only [Res.bind, showEnd]
    unfold save writeStore
    intro hp
    simp only at hp
    rcases Res.bind_eq_panic.mp hp with hp | ⟨x, hx, hp⟩
    · rcases Res.bind_eq_panic.mp hp with hp | ⟨x, hx, hp⟩
      · exact marshal_no_panic C J _ _ _ hp
      · obtain ⟨a, b, c⟩ := x
        cases a <;> simp at hp
    · simp at hp
  cases hm : main C J T U f [label] path w with
  | panic => exact absurd hm hx
  | ok x =>
    obtain ⟨o, w'⟩ := x
    obtain ⟨code, hc, h⟩ := show_holds C J T U hf hd hpl hus hh ha hm
    rcases h with ⟨rfl, -⟩ | ⟨rfl, h⟩
    · obtain ⟨s, r, md, ho, hv, hl, hrl, hmd, htt, hsec⟩ := hh
      obtain ⟨m, hm', hk⟩ := lookup_get hl
      have hfrom := T.fromURL_url _ _ hus hpl.1 hpl.2
      rw [main_show C J T U hf hd ha ho, show_hotp T hm' hl hmd htt (by decide) (by rw [hsec]; exact hfrom) hc] at hm
      simp only [Res.bind, showEnd] at hm
      rcases save_some C J hd hm with ⟨-, p, out, -, q, -⟩ | ⟨q1, -⟩
      · simp only [hw] at q
        cases q
      · cases q1
    · exact ⟨code, w', hc, rfl, h (by intro k; rw [hw]; simp)⟩

end Verif.Proofs.Otpc
