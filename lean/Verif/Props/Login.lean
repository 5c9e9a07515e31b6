import Verif.Proofs.Login
import Verif.Props.Totp
import Verif.Props.Auth
/-!
The login program of common/auth/examples. `w.type as` is the world `w` in which the lines `as` will be
typed. A run is given by the file of users it finds, the lines typed, the clock, the PRNG and how its writes
of files go.
-/

namespace Verif.Props.Login
open Verif Verif.Go Verif.Model.Util Verif.Model.Auth Verif.Model.Login
open Verif.Model.SecretStore (MapSan OptRel)
open Verif.Spec.Auth Verif.Proofs.Auth Verif.Proofs.Login Verif.Proofs.Strings

variable (C : Crypto) (J : UserJson) (e : Env) (path : Bytes)

/-- The file holds the users `m`; a missing file holds nobody. -/
def Stored (fs : Fs) (m : Users) : Prop :=
  fs path = none ∧ m = Map.empty ∨ ∃ data, fs path = some data ∧ J.dec data = some (some m)

theorem Stored.load {w : World} {m : Users} (h : Stored J path w.fs m) : loadStore J path w = some (some m) := by
  unfold loadStore
  rcases h with ⟨h1, rfl⟩ | ⟨data, h1, h2⟩
  · rw [h1]
  · rw [h1]; exact h2

theorem Stored.synced {fs : Fs} {m : Users} (h : Stored J path fs m) : Synced J path m fs := by
  rcases h with ⟨h1, rfl⟩ | ⟨data, h1, h2⟩
  · exact ⟨Map.finite_empty, utf8_empty, some Map.empty, by rw [h1], rfl⟩
  · exact ⟨J.dec_finite _ _ h2, J.dec_utf8 _ _ h2, some m, by rw [h1]; exact h2, rfl⟩

/-! ### Registering and logging in -/

/-- C143: after registering with a password, that password is accepted by every later run, and any other line
exactly when bcrypt says so. Missing: blank names, names that are not UTF-8 and passwords with white space at the
ends. -/
theorem C143_password_partial (w : World) (m : Users) (n p salt : Bytes) (fuel : Nat)
    (hst : Stored J path w.fs m) (ha : w.term.answers = [some n, some typePassword, some p])
    (hn : ValidUtf8 n) (hne : trimSpace n ≠ []) (hp : p.length ≤ 72) (hs : w.salts 0 = some salt) (hw : w.writes 0 = .done) :
    ∃ w1, main C J e path [ascii "register"] fuel w = some (.stop, w1) ∧ w1.log = w.log ++ [.registered (trimSpace n)] ∧
      ∀ (e2 : Env) (w2 : World) (q : Bytes) (fuel : Nat), w2.fs path = w1.fs path → w2.term.answers = [some n, some q, some []] →
        ∃ w3, main C J e2 path [ascii "run"] (fuel + 2) w2 = some (.stop, w3) ∧ w3.fs = w2.fs ∧
          w3.log = w2.log ++ [if C.bcryptMatch (C.bcryptHash p salt 14) (trimSpace q) then .successful else .failed] ∧
          (trimSpace q = p → w3.log = w2.log ++ [.successful]) := by
  obtain ⟨w1, h1, h2, h3⟩ := register_password C J e path (m := m) hp hs hw [] ha
  refine ⟨w1, by rw [main_register C J e path hst.load, h1], h2, ?_⟩
  intro e2 w2 q fuel hfs hans
  have hsy := hst.synced
  have hv := valid_trimSpace hn
  have hsy2 : Synced J path (m.set (trimSpace n) (some ⟨trimSpace n, some
      { typ := typePassword, secret := C.bcryptHash p salt 14 }⟩)) w2.fs := by
    refine synced_fs J path hfs ?_
    rw [h3]
    refine synced_set J path (hsy.1.set _ _) (utf8_set hsy.2.1 hv hv ?_) w.fs
    intro a h
    cases h
    exact ⟨valid_typePassword, valid_nil, valid_nil⟩
  obtain ⟨w3, h4, h5, h6⟩ := turn_password C J e2 path (u := ⟨trimSpace n, some { typ := typePassword, secret := C.bcryptHash p salt 14 }⟩) (a := { typ := typePassword, secret := C.bcryptHash p salt 14 })
    (Map.set_same m (trimSpace n) _) rfl rfl (trimSpace q) w2
  refine ⟨_, run_attempt C J e2 path hsy2 hans hne h4 fuel, h5, h6, fun hq => ?_⟩
  rw [type_log, h6, hq, if_pos (C.bcrypt_match _ _ _)]

/-- C143: after registering for codes, the program has shown the key, and the codes of that key are accepted for their
time and the one before, except for the code of the time of registration. Missing: as above. -/
theorem C143_totp_partial (w : World) (m : Users) (n png : Bytes) (fuel : Nat)
    (hst : Stored J path w.fs m) (ha : w.term.answers = [some n, some typeTOTP])
    (hn : ValidUtf8 n) (hne : trimSpace n ≠ []) (hpr : e.provider.length < 2 ^ 31 - 71) (hr : 20 ≤ w.rng.length)
    (hq : e.qr (google e.provider (w.rng.take 20)) (ascii "common-auth example login") = some png)
    (hw : w.writes 0 = .done) (hw1 : w.writes 1 = .done) :
    ∃ w1 shown key, main C J e path [ascii "register"] fuel w = some (.stop, w1) ∧
      w1.log = w.log ++ [.totpKey shown, .registered (trimSpace n)] ∧ b32Decode shown = some key ∧ key.length = 20 ∧
      (path ≠ ascii "qr.png" → w1.fs (ascii "qr.png") = some png) ∧
      ∀ (e2 : Env) (w2 : World) (q : Bytes) (fuel : Nat), w2.fs path = w1.fs path → w2.writes 0 = .done →
        w2.term.answers = [some n, some q, some []] →
        ∃ w3, main C J e2 path [ascii "run"] (fuel + 2) w2 = some (.stop, w3) ∧
          ((∃ msg, w3.log = w2.log ++ [msg] ∧ (msg = .successful ∨ msg = .failed)) ∧
          (w3.log = w2.log ++ [.successful] ↔ ¬ IsCode C (google e.provider key) (w.term.clock 0) (trimSpace q) ∧
            (IsCode C (google e.provider key) (w2.term.clock 0) (trimSpace q) ∨
             IsCode C (google e.provider key) (w2.term.clock 0 - 30) (trimSpace q)))) := by
  obtain ⟨w1, h1, h2, h3⟩ := register_totp C J e path (m := m) hpr hr hq hw hw1 [] ha
  have hlen : (w.rng.take 20).length = 20 := by simp only [List.length_take]; omega
  have hk : w.rng.take 20 ≠ [] := by intro h0; rw [h0] at hlen; simp at hlen
  refine ⟨w1, _, w.rng.take 20, by rw [main_register C J e path hst.load, h1], h2, b32Decode_encode _, hlen, ?_, ?_⟩
  · intro hpath
    rw [h3, Fs.set_other _ _ (Ne.symm hpath), Fs.set_same]
  intro e2 w2 q fuel hfs hw2 hans
  have hsy := hst.synced
  have hv := valid_trimSpace hn
  generalize hm1 : m.set (trimSpace n) _ = m1 at h3
  have hsy2 : Synced J path m1 w2.fs := by
    refine synced_fs J path hfs ?_
    rw [h3, ← hm1]
    refine synced_set J path (hsy.1.set _ _) (utf8_set hsy.2.1 hv hv ?_) _
    intro a h
    cases h
    exact ⟨valid_typeTOTP, valid_nil, validUtf8_ascii _ (decimalPad_ascii _ _)⟩
  have hmn := congrFun hm1 (trimSpace n)
  rw [Map.set_same] at hmn
  have hc : decimalPad 6 (codeValue C (google e.provider (w.rng.take 20)) (w.term.clock 0)) = trimSpace q ↔
      IsCode C (google e.provider (w.rng.take 20)) (w.term.clock 0) (trimSpace q) :=
    (isCode_iff C _ (google_supported _ _) _ _).symm
  obtain ⟨m', w3, h4, h5⟩ := turn_totp C J e2 path hmn.symm rfl rfl (google_parse _ _ _ hk (by omega)) (google_supported _ _)
    (trimSpace q) w2 hw2
  refine ⟨_, run_attempt C J e2 path hsy2 hans hne h4 fuel, ?_⟩
  simp only [type_log]
  rcases h5 with ⟨h5, h6, -⟩ | ⟨h5, h6, -⟩
  · rw [ne_eq, hc] at h5
    exact ⟨⟨_, h6, .inl rfl⟩, iff_of_true h6 h5⟩
  · rw [ne_eq, hc] at h5
    exact ⟨⟨_, h6, .inr rfl⟩, iff_of_false (by simp [h6]) h5⟩

theorem register_password_stop {m : Users} {w w1 : World} {n p : Bytes} (ha : w.term.answers = [some n, some typePassword, some p])
    (h : register C J e path (some m) w = (.stop, w1)) : p.length ≤ 72 ∧ (∃ salt, w.salts 0 = some salt) ∧ w.writes 0 = .done := by
  have hk : method (trimSpace typePassword) = some .password := by decide
  simp only [register, World.readLine, Term.read, ha, Option.map_some, askType, hk, enrol, regPassword, World.readPass,
    newPasswordAuth] at h
  by_cases hp : p.length > 72
  · rw [if_pos hp] at h
    simp at h
  rw [if_neg hp] at h
  cases hs : w.salts 0 with
  | none => rw [hs] at h; simp at h
  | some salt =>
    rw [hs] at h
    refine ⟨by omega, ⟨salt, rfl⟩, ?_⟩
    cases hw : w.writes 0 <;> simp [writeStore, World.save, Go.writeFile, hw] at h ⊢

theorem register_totp_stop {m : Users} {w w1 : World} {n : Bytes} (hpr : e.provider.length < 2 ^ 31 - 71)
    (ha : w.term.answers = [some n, some typeTOTP]) (h : register C J e path (some m) w = (.stop, w1)) :
    20 ≤ w.rng.length ∧ (∃ png, e.qr (google e.provider (w.rng.take 20)) totpLabel = some png) ∧ w.writes 0 = .done ∧
      w.writes 1 = .done := by
  have hk : method (trimSpace typeTOTP) = some .totp := by decide
  simp only [register, World.readLine, Term.read, ha, Option.map_some, askType, hk, enrol, regTOTP, World.now, Term.now] at h
  by_cases hr : 20 ≤ w.rng.length
  · rw [newGoogleTOTP_eq C hpr hr (by decide)] at h
    cases hq : e.qr (google e.provider (w.rng.take 20)) totpLabel with
    | none => rw [hq] at h; simp at h
    | some png =>
      rw [hq] at h
      refine ⟨hr, ⟨png, rfl⟩, ?_⟩
      cases hw : w.writes 0 with
      | openFails => simp [World.save, Go.writeFile, hw] at h
      | failsAfter k => simp [World.save, Go.writeFile, hw] at h
      | done =>
        cases hw1 : w.writes 1 <;> simp [World.save, Go.writeFile, hw, hw1, writeStore, World.say] at h ⊢
  · rw [newGoogleTOTP_short C (by omega)] at h
    simp at h

/-- C143: whoever was told that they are registered can log in, whatever went wrong otherwise: with exit status 0 the
password, or the codes of the key shown, are accepted by every later run. -/
theorem C143_reported_partial (w w1 : World) (m : Users) (n p : Bytes) (fuel : Nat) (hst : Stored J path w.fs m)
    (hn : ValidUtf8 n) (hne : trimSpace n ≠ []) (h : main C J e path [ascii "register"] fuel w = some (.stop, w1)) :
    (w.term.answers = [some n, some typePassword, some p] →
      ∀ (e2 : Env) (w2 : World) (q : Bytes) (fuel : Nat), w2.fs path = w1.fs path → w2.term.answers = [some n, some q, some []] →
        trimSpace q = p → ∃ w3, main C J e2 path [ascii "run"] (fuel + 2) w2 = some (.stop, w3) ∧ w3.log = w2.log ++ [.successful]) ∧
    (w.term.answers = [some n, some typeTOTP] → e.provider.length < 2 ^ 31 - 71 →
      ∃ shown key, w1.log = w.log ++ [.totpKey shown, .registered (trimSpace n)] ∧ b32Decode shown = some key ∧
        ∀ (e2 : Env) (w2 : World) (q : Bytes) (fuel : Nat), w2.fs path = w1.fs path → w2.writes 0 = .done →
          w2.term.answers = [some n, some q, some []] →
          IsCode C (google e.provider key) (w2.term.clock 0) (trimSpace q) → ¬ IsCode C (google e.provider key) (w.term.clock 0) (trimSpace q) →
          ∃ w3, main C J e2 path [ascii "run"] (fuel + 2) w2 = some (.stop, w3) ∧ w3.log = w2.log ++ [.successful]) := by
  have hreg : register C J e path (some m) w = (.stop, w1) := by
    rw [main_register C J e path hst.load] at h
    exact Option.some.inj h
  constructor
  · intro ha e2 w2 q fuel2 hfs hans hq
    obtain ⟨hp, ⟨salt, hs⟩, hw⟩ := register_password_stop C J e path ha hreg
    obtain ⟨w1', h1, -, h2⟩ := C143_password_partial C J e path w m n p salt fuel hst ha hn hne hp hs hw
    rw [h] at h1
    simp only [Option.some.injEq, Prod.mk.injEq, true_and] at h1
    subst h1
    obtain ⟨w3, h3, -, -, h4⟩ := h2 e2 w2 q fuel2 hfs hans
    exact ⟨w3, h3, h4 hq⟩
  · intro ha hpr
    obtain ⟨hr, ⟨png, hq⟩, hw, hw1⟩ := register_totp_stop C J e path hpr ha hreg
    obtain ⟨w1', shown, key, h1, h2, h3, -, -, h4⟩ := C143_totp_partial C J e path w m n png fuel hst ha hn hne hpr hr hq hw hw1
    rw [h] at h1
    simp only [Option.some.injEq, Prod.mk.injEq, true_and] at h1
    subst h1
    refine ⟨shown, key, h2, h3, fun e2 w2 q fuel2 hfs hw2 hans hc hnc => ?_⟩
    obtain ⟨w3, h5, -, h6⟩ := h4 e2 w2 q fuel2 hfs hw2 hans
    exact ⟨w3, h5, h6.mpr ⟨hnc, .inl hc⟩⟩

/-- A world for the examples: no files, ample randomness, and writes that succeed. -/
def exWorld (as : List (Option Bytes)) : World :=
  { term := ⟨as, fun n => BitVec.ofNat 64 (1000 * n)⟩, rng := List.replicate 40 7, salts := fun _ => some [1], fs := fun _ => none
    writes := fun _ => .done, log := [] }

/-- An environment for the examples. -/
def exEnv : Env := ⟨Props.Auth.toyYubi, fun _ _ => some [137, 80], ascii "p", []⟩

/-- Ann registers with the password "pw". -/
example : Stored toyUsers (ascii "s") (exWorld [some (ascii "ann"), some typePassword, some (ascii "pw")]).fs Map.empty ∧
    ValidUtf8 (ascii "ann") ∧ trimSpace (ascii "ann") ≠ [] ∧ (ascii "pw").length ≤ 72 ∧ trimSpace (ascii "pw") = ascii "pw" :=
  ⟨.inl ⟨rfl, rfl⟩, by decide, by decide, by decide, by decide⟩

/-- and is told so. -/
example : ∃ w1, main Toy.crypto toyUsers exEnv (ascii "s") [ascii "register"] 1
    (exWorld [some (ascii "ann"), some typePassword, some (ascii "pw")]) = some (.stop, w1) := by
  obtain ⟨w1, h, -⟩ := C143_password_partial Toy.crypto toyUsers exEnv (ascii "s")
    (exWorld [some (ascii "ann"), some typePassword, some (ascii "pw")]) Map.empty (ascii "ann") (ascii "pw") [1] 1
    (.inl ⟨rfl, rfl⟩) rfl (by decide) (by decide) (by decide) rfl rfl
  exact ⟨w1, h⟩

/-- Ann registers for codes. -/
example : exEnv.provider.length < 2 ^ 31 - 71 ∧ 20 ≤ (exWorld [some (ascii "ann"), some typeTOTP]).rng.length ∧
    exEnv.qr (google exEnv.provider ((exWorld []).rng.take 20)) (ascii "common-auth example login") = some [137, 80] :=
  ⟨by decide, by decide, rfl⟩

/-- C143 is false for a blank name: it is registered, but typing it at the prompt ends the program. -/
theorem C143_blank_name_violated (w : World) (m : Users) (n p salt : Bytes) (fuel : Nat)
    (hst : Stored J path w.fs m) (ha : w.term.answers = [some n, some typePassword, some p])
    (hne : trimSpace n = []) (hp : p.length ≤ 72) (hs : w.salts 0 = some salt) (hw : w.writes 0 = .done) :
    ∃ w1, main C J e path [ascii "register"] fuel w = some (.stop, w1) ∧ w1.log = w.log ++ [.registered (trimSpace n)] ∧
      ∀ (e2 : Env) (w2 : World) (rest : List (Option Bytes)) (fuel : Nat), w2.fs path = w1.fs path →
        w2.term.answers = some n :: rest →
        ∃ w3, main C J e2 path [ascii "run"] (fuel + 1) w2 = some (.stop, w3) ∧ w3.log = w2.log := by
  obtain ⟨w1, h1, h2, h3⟩ := register_password C J e path (m := m) hp hs hw [] ha
  refine ⟨w1, by rw [main_register C J e path hst.load, h1], h2, ?_⟩
  intro e2 w2 rest fuel hfs hans
  have hsy2 : Synced J path (m.set (trimSpace n) (some ⟨trimSpace n, some
      { typ := typePassword, secret := C.bcryptHash p salt 14 }⟩)) w2.fs := by
    refine synced_fs J path hfs ?_
    rw [h3, hne]
    refine synced_set J path (hst.synced.1.set _ _) (utf8_set hst.synced.2.1 valid_nil valid_nil ?_) w.fs
    intro a h
    cases h
    exact ⟨valid_typePassword, valid_nil, valid_nil⟩
  rw [main_run_synced C J e2 path hsy2]
  refine ⟨World.type w2 rest, ?_, rfl⟩
  unfold loop
  have : login C J e2 path (m.set (trimSpace n) (some ⟨trimSpace n, some
      { typ := typePassword, secret := C.bcryptHash p salt 14 }⟩)) w2 = (.stop, m.set (trimSpace n) (some ⟨trimSpace n, some
      { typ := typePassword, secret := C.bcryptHash p salt 14 }⟩), World.type w2 rest) := by
    have := login_empty C J e2 path (m.set (trimSpace n) (some ⟨trimSpace n, some
      { typ := typePassword, secret := C.bcryptHash p salt 14 }⟩)) w2 (rest := rest) hne
    rw [← this, ← hans]
    rfl
  rw [this]

example : trimSpace (ascii " ") = [] := by decide

/-- C143 is false for a name that is not UTF-8: it is registered, but the right password is refused. -/
theorem C143_not_utf8_violated (w : World) (m : Users) (n p salt : Bytes) (fuel : Nat)
    (hst : Stored J path w.fs m) (ha : w.term.answers = [some n, some typePassword, some p])
    (hn : ¬ ValidUtf8 (trimSpace n)) (hp : p.length ≤ 72) (hs : w.salts 0 = some salt) (hw : w.writes 0 = .done) :
    ∃ w1, main C J e path [ascii "register"] fuel w = some (.stop, w1) ∧ w1.log = w.log ++ [.registered (trimSpace n)] ∧
      ∀ (e2 : Env) (w2 : World) (fuel : Nat), w2.fs path = w1.fs path → w2.term.answers = [some n, some p, some []] →
        ∃ w3, main C J e2 path [ascii "run"] (fuel + 2) w2 = some (.stop, w3) ∧ w3.log = w2.log ++ [.failed] := by
  obtain ⟨w1, h1, h2, h3⟩ := register_password C J e path (m := m) hp hs hw [] ha
  refine ⟨w1, by rw [main_register C J e path hst.load, h1], h2, ?_⟩
  intro e2 w2 fuel hfs hans
  obtain ⟨m', h4, -⟩ := J.dec_enc _ (hst.synced.1.set (trimSpace n) (some (⟨trimSpace n, some
      { typ := typePassword, secret := C.bcryptHash p salt 14 }⟩ : User)))
  have hst2 : Stored J path w2.fs m' := .inr ⟨_, by rw [hfs, h3, Fs.set_same], h4⟩
  have hno : m' (trimSpace n) = none := by
    cases hx : m' (trimSpace n) with
    | none => rfl
    | some v => exact absurd (J.dec_utf8 _ _ h4 _ _ hx).1 hn
  refine ⟨_, run_attempt C J e2 path hst2.synced hans (fun h0 => hn (by rw [h0]; exact valid_nil)) (m' := m')
    (w' := w2.say .failed) ?_ fuel, rfl⟩
  simp [turn, hno]

example : ¬ ValidUtf8 (trimSpace [0xFF]) := by decide

/-- C143 is false for a password with white space at an end, if the prompt at which it is chosen keeps that: the one at
which it is asked for does not, and what is left is refused, unless bcrypt takes the one for the other. -/
theorem C143_spaces_violated (w : World) (m : Users) (n p salt : Bytes) (fuel : Nat)
    (hst : Stored J path w.fs m) (ha : w.term.answers = [some n, some typePassword, some p])
    (hn : ValidUtf8 n) (hne : trimSpace n ≠ []) (hp : p.length ≤ 72) (hs : w.salts 0 = some salt) (hw : w.writes 0 = .done)
    (hno : C.bcryptMatch (C.bcryptHash p salt 14) (trimSpace p) = false) :
    ∃ w1, main C J e path [ascii "register"] fuel w = some (.stop, w1) ∧ w1.log = w.log ++ [.registered (trimSpace n)] ∧
      ∀ (e2 : Env) (w2 : World) (fuel : Nat), w2.fs path = w1.fs path → w2.term.answers = [some n, some p, some []] →
        ∃ w3, main C J e2 path [ascii "run"] (fuel + 2) w2 = some (.stop, w3) ∧ w3.log = w2.log ++ [.failed] := by
  obtain ⟨w1, h1, h2, h3⟩ := C143_password_partial C J e path w m n p salt fuel hst ha hn hne hp hs hw
  refine ⟨w1, h1, h2, fun e2 w2 fuel hfs hans => ?_⟩
  obtain ⟨w3, h4, -, h5, -⟩ := h3 e2 w2 p fuel hfs hans
  rw [hno] at h5
  exact ⟨w3, h4, h5⟩

example : trimSpace (ascii "pw ") = ascii "pw" ∧
    Toy.crypto.bcryptMatch (Toy.crypto.bcryptHash (ascii "pw ") [1] 14) (trimSpace (ascii "pw ")) = false := by decide

/-- C143: a name that nobody has registered is refused, whatever the password, and nothing is written. -/
theorem C143_unknown_partial (w : World) (m : Users) (n p : Bytes) (fuel : Nat) (hst : Stored J path w.fs m)
    (ha : w.term.answers = [some n, some p, some []]) (hne : trimSpace n ≠ []) (hn : m (trimSpace n) = none) :
    ∃ w1, main C J e path [ascii "run"] (fuel + 2) w = some (.stop, w1) ∧ w1.log = w.log ++ [.failed] ∧ w1.fs = w.fs := by
  refine ⟨_, run_attempt C J e path hst.synced ha hne (m' := m) (w' := w.say .failed) ?_ fuel, rfl, rfl⟩
  simp [turn, hn]

example : (Map.empty : Users) (trimSpace (ascii "bob")) = none ∧ trimSpace (ascii "bob") ≠ [] := ⟨rfl, by decide⟩

/-! ### One user at a time -/

/-- C144 is false: registering a name that is taken needs no password, and whoever does so is let in afterwards with the
password they chose, which was refused before. -/
theorem C144_takeover_violated (w w0 : World) (m : Users) (n p salt : Bytes) (fuel : Nat) (u : User) (a : Authenticator)
    (hst : Stored J path w.fs m) (ha : w.term.answers = [some n, some typePassword, some p])
    (hn : ValidUtf8 n) (hne : trimSpace n ≠ []) (hp : p.length ≤ 72) (htrim : trimSpace p = p)
    (hs : w.salts 0 = some salt) (hw : w.writes 0 = .done)
    (hu : m (trimSpace n) = some (some u)) (hau : u.auth = some a) (ht : a.typ = typePassword)
    (hno : C.bcryptMatch a.secret p = false)
    (hw0 : w0.fs path = w.fs path) (ha0 : w0.term.answers = [some n, some p, some []]) :
    (∃ w', main C J e path [ascii "run"] (fuel + 2) w0 = some (.stop, w') ∧ w'.log = w0.log ++ [.failed]) ∧
    ∃ w1, main C J e path [ascii "register"] fuel w = some (.stop, w1) ∧
      ∀ (w2 : World), w2.fs path = w1.fs path → w2.term.answers = [some n, some p, some []] →
        ∃ w3, main C J e path [ascii "run"] (fuel + 2) w2 = some (.stop, w3) ∧ w3.log = w2.log ++ [.successful] := by
  constructor
  · obtain ⟨w', h4, h5, h6⟩ := turn_password C J e path hu hau ht (trimSpace p) w0
    refine ⟨_, run_attempt C J e path (synced_fs J path hw0 hst.synced) ha0 hne h4 fuel, ?_⟩
    rw [type_log, h6, htrim, hno]
    rfl
  · obtain ⟨w1, h1, -, h2⟩ := C143_password_partial C J e path w m n p salt fuel hst ha hn hne hp hs hw
    refine ⟨w1, h1, fun w2 hfs hans => ?_⟩
    obtain ⟨w3, h3, -, -, h4⟩ := h2 e w2 p fuel hfs hans
    exact ⟨w3, h3, h4 htrim⟩

/-- Ann has the password "pw"; somebody registers as Ann with the password "xx". -/
example : Toy.crypto.bcryptMatch (Toy.crypto.bcryptHash (ascii "pw") [1] 14) (ascii "xx") = false ∧
    ∃ data m, toyUsers.dec data = some (some m) ∧ m (ascii "ann") = some (some ⟨ascii "ann", some
      { typ := typePassword, secret := Toy.crypto.bcryptHash (ascii "pw") [1] 14 }⟩) := by
  refine ⟨by decide, _, _, dec_enc_eq toyUsers (Map.finite_empty.set (ascii "ann") _) ?_, Map.set_same _ _ _⟩
  refine utf8_set utf8_empty (by decide) ?_ ?_
  · exact (by decide : ValidUtf8 (ascii "ann"))
  · intro a h
    cases h
    exact ⟨valid_typePassword, valid_nil, valid_nil⟩

/-- C144 is false: a name that is not UTF-8 replaces the user whose name is the replacement character. -/
theorem C144_not_utf8_violated (w : World) (m : Users) (p salt : Bytes) (fuel : Nat)
    (hst : Stored J path w.fs m) (ha : w.term.answers = [some [0xFF], some typePassword, some p])
    (hm : ∀ k, m k ≠ none → k = [0xEF, 0xBF, 0xBD])
    (hp : p.length ≤ 72) (htrim : trimSpace p = p) (hs : w.salts 0 = some salt) (hw : w.writes 0 = .done) :
    ∃ w1, main C J e path [ascii "register"] fuel w = some (.stop, w1) ∧
      ∀ (w2 : World), w2.fs path = w1.fs path → w2.term.answers = [some [0xEF, 0xBF, 0xBD], some p, some []] →
        ∃ w3, main C J e path [ascii "run"] (fuel + 2) w2 = some (.stop, w3) ∧ w3.log = w2.log ++ [.successful] := by
  obtain ⟨w1, h1, h2, h3⟩ := register_password C J e path (m := m) hp hs hw [] ha
  refine ⟨w1, by rw [main_register C J e path hst.load, h1], ?_⟩
  intro w2 hfs hans
  rw [show trimSpace [0xFF] = [0xFF] by decide] at h3
  obtain ⟨m', h4, h5⟩ := J.dec_enc _ (hst.synced.1.set [0xFF] (some (⟨[0xFF], some
      { typ := typePassword, secret := C.bcryptHash p salt 14 }⟩ : User)))
  have hst2 : Stored J path w2.fs m' := .inr ⟨_, by rw [hfs, h3, Fs.set_same], h4⟩
  obtain ⟨v, h6, h7⟩ := h5.1 [0xFF] _ (Map.set_same _ _ _) (by
    intro k hk _
    by_cases hkf : k = [0xFF]
    · subst hkf; exact List.lt_irrefl _
    · rw [Map.set_other _ _ hkf] at hk
      rw [hm k hk]
      decide)
  rw [show sanitise [0xFF] = [0xEF, 0xBF, 0xBD] by decide] at h6
  cases v with
  | none => simp [OptRel] at h7
  | some u =>
    obtain ⟨-, h8⟩ : UserSan _ u := by simpa [OptRel] using h7
    cases hua : u.auth with
    | none => rw [hua] at h8; simp [OptRel] at h8
    | some a =>
      rw [hua] at h8
      obtain ⟨h9, -, -, h10⟩ : AuthSan { typ := typePassword, secret := C.bcryptHash p salt 14 } a := by simpa [OptRel] using h8
      have ht : a.typ = typePassword := by rw [h9]; exact valid_typePassword
      have htr : trimSpace [0xEF, 0xBF, 0xBD] = [0xEF, 0xBF, 0xBD] := by decide
      obtain ⟨w3, h11, -, h12⟩ := turn_password C J e path (n := trimSpace [0xEF, 0xBF, 0xBD]) (by rw [htr]; exact h6) hua ht
        (trimSpace p) w2
      refine ⟨_, run_attempt C J e path hst2.synced hans (by rw [htr]; simp) h11 fuel, ?_⟩
      rw [type_log, h12, h10, htrim, if_pos (C.bcrypt_match _ _ _)]

example : ∀ k, (Map.empty.set [0xEF, 0xBF, 0xBD] (none : Option User)) k ≠ none → k = [0xEF, 0xBF, 0xBD] := by
  intro k hk
  by_cases h : k = [0xEF, 0xBF, 0xBD]
  · exact h
  · rw [Map.set_other _ _ h] at hk; exact absurd rfl hk

/-- C144, what holds: a registration changes nobody but the name given, if that is UTF-8. Missing: refusing names that are
taken, and names that are not UTF-8. -/
theorem C144_registration_partial (w w1 : World) (m : Users) (n : Bytes) (as : List (Option Bytes)) (fuel : Nat)
    (hst : Stored J path w.fs m) (ha : w.term.answers = some n :: as) (hn : ValidUtf8 n)
    (h : main C J e path [ascii "register"] fuel w = some (.stop, w1)) :
    ∃ m1, Stored J path w1.fs m1 ∧ (∃ u, m1 (trimSpace n) = some (some u) ∧ u.name = trimSpace n) ∧
      ∀ k, k ≠ trimSpace n → m1 k = m k := by
  rw [main_register C J e path hst.load] at h
  simp only [register, World.readLine, Term.read, ha, Option.map_some, Option.some.injEq] at h
  split at h
  · cases h
  · rename_i k hk
    generalize hen : enrol C e k _ = x at h
    cases x with
    | panic => cases h
    | ok x =>
      obtain ⟨o, w2⟩ := x
      cases o with
      | none => cases h
      | some a =>
        have hau := (enrol_ok C e hen).1
        have hv := valid_trimSpace hn
        simp only [writeStore, World.save] at h
        refine ⟨m.set (trimSpace n) (some ⟨trimSpace n, some a⟩), ?_, ⟨_, Map.set_same _ _ _, rfl⟩,
          fun q hq => Map.set_other _ _ hq⟩
        refine .inr ⟨_, ?_, dec_enc_eq J (hst.synced.1.set _ _) (utf8_set hst.synced.2.1 hv hv (fun a' h' => by
          cases h'; exact hau))⟩
        cases ho : w2.writes 0 with
        | done =>
          rw [ho] at h
          simp only [Go.writeFile] at h
          cases h
          exact Fs.set_same _ _ _
        | openFails => rw [ho] at h; cases h
        | failsAfter k => rw [ho] at h; cases h

theorem turn_stored {m : Users} {name password : Bytes} {w : World} {m' : Users} {w' : World}
    (h : turn C J e path m name password w = (.again, m', w')) (hs : Stored J path w.fs m)
    (hp : ValidUtf8 password ∨ e.yubi.parseOTP password = none) : Stored J path w'.fs m' := by
  have h1 := turn_synced C J e path h rfl hs.synced (hp.imp_right .inl)
  have h2 := turn_cases C J e path m name password w
  rw [h] at h2
  cases h2 with
  | unknown => exact hs
  | refused => exact hs
  | password => exact hs
  | updated u a last secret rng h1' h2 h3 h4 h5 => exact .inr ⟨_, Fs.set_same _ _ _, dec_enc_eq J h1.1 h1.2.1⟩

/-- C144: logging in changes at most the users whose names are typed. -/
theorem C144_login_partial (w w1 : World) (m : Users) (fuel : Nat) (hst : Stored J path w.fs m)
    (hu : ∀ l, some l ∈ w.term.answers → Text e.yubi l)
    (h : main C J e path [ascii "run"] fuel w = some (.stop, w1)) :
    ∃ m1, Stored J path w1.fs m1 ∧ ∀ k, (∀ l, some l ∈ w.term.answers → trimSpace l ≠ k) → m1 k = m k := by
  rw [main_run_synced C J e path hst.synced] at h
  have := loop_invariant C J e path
    (fun m' w' => Stored J path w'.fs m' ∧ ∀ k, (∀ l, some l ∈ w.term.answers → trimSpace l ≠ k) → m' k = m k)
    (Q := fun r w1 => r = .stop → ∃ m1, Stored J path w1.fs m1 ∧ ∀ k, (∀ l, some l ∈ w.term.answers → trimSpace l ≠ k) → m1 k = m k)
    (L := w.term.answers) ?_ ?_ ?_ ?_ ?_ fuel m w .stop w1 (fun x hx => hx) ⟨hst, fun _ _ => rfl⟩ h
  · exact this rfl
  · intro m' w' a b m2 w2 hi ha hb hne ht
    refine ⟨turn_stored C J e path ht hi.1 (hu b hb), fun k hk => ?_⟩
    have hc := turn_cases C J e path m' (trimSpace a) (trimSpace b) w'
    rw [ht] at hc
    cases hc with
    | unknown => exact hi.2 k hk
    | refused => exact hi.2 k hk
    | password => exact hi.2 k hk
    | updated =>
      rw [Map.set_other _ _ (Ne.symm (hk a ha))]
      exact hi.2 k hk
  · intro m' w' a b r m2 w2 hi ha hb hne ht hr hstop
    have hc := turn_cases C J e path m' (trimSpace a) (trimSpace b) w'
    rw [ht, hstop] at hc
    cases hc
  · intro m' w' hi _ _
    exact ⟨m', hi.1, hi.2⟩
  · intro m' w' _ h
    cases h
  · intro m' w' as hi
    exact hi

/-! ### Restarting -/

/-- C145: quitting and starting again makes no difference. If a run ends at a blank line after the lines `as`, then
typing further lines `bs` instead of quitting ends as typing them to a new process does. -/
theorem C145_restart_partial (w w1 : World) (as : List (Option Bytes)) (q : Bytes) (fuel : Nat) (hq : trimSpace q = [])
    (hu : ∀ l, some l ∈ as → Text e.yubi l)
    (h : main C J e path [ascii "run"] fuel (World.type w (as ++ [some q])) = some (.stop, w1)) (h0 : w1.term.answers = [])
    (bs : List (Option Bytes)) (res : Ret × World) :
    (∃ k, main C J e path [ascii "run"] k (World.type w (as ++ bs)) = some res) ↔
      ∃ k, main C J e path [ascii "run"] k (World.type w1 bs) = some res := by
  have mono1 : ∀ (m : Users) (w : World) (r : Ret × World) (k : Nat), loop C J e path k m w = some r →
      ∀ j, loop C J e path (k + j) m w = some r := by
    intro m w r k
    induction k generalizing m w with
    | zero => intro h; cases h
    | succ k ih =>
      intro h j
      rw [show k + 1 + j = (k + j) + 1 by omega]
      unfold loop at h ⊢
      split at h
      · exact ih _ _ h j
      · exact h
  have hload : ∃ o, loadStore J path w = some o := by
    cases hl : loadStore J path w with
    | some o => exact ⟨o, rfl⟩
    | none =>
      have : loadStore J path (World.type w (as ++ [some q])) = none := hl
      simp [main, this] at h
  obtain ⟨o, hload⟩ := hload
  have hs := loadStore_synced J path hload
  rw [main_run_synced C J e path (w := World.type w (as ++ [some q])) hs] at h
  obtain ⟨t, m1, h1, h2⟩ := loop_split C J e path hq fuel as _ w w1 hs hu h h0
  constructor
  · rintro ⟨k, hk⟩
    rw [main_run_synced C J e path (w := World.type w (as ++ bs)) hs] at hk
    refine ⟨k, ?_⟩
    rw [main_run_synced C J e path (w := World.type w1 bs) h1, ← h2, Nat.add_comm]
    exact mono1 _ _ _ _ hk t
  · rintro ⟨k, hk⟩
    rw [main_run_synced C J e path (w := World.type w1 bs) h1, ← h2] at hk
    exact ⟨t + k, by rw [main_run_synced C J e path (w := World.type w (as ++ bs)) hs]; exact hk⟩

/-- A run in which a stranger tries to log in. -/
example : ∃ w1, main Toy.crypto toyUsers exEnv (ascii "s") [ascii "run"] 2
      (World.type (exWorld []) ([some (ascii "bob"), some (ascii "pw")] ++ [some []])) = some (.stop, w1) ∧
    w1.term.answers = [] ∧ w1.log = [.failed] := by
  refine ⟨_, run_attempt Toy.crypto toyUsers exEnv (ascii "s") (m := Map.empty) (Stored.synced _ _ (.inl ⟨rfl, rfl⟩)) rfl
    (by decide) (m' := Map.empty) rfl 0, rfl, rfl⟩

/-- C145 is false if the YubiKey library takes a code that is not UTF-8: typed twice to one process the code is refused the
second time; but if the program is started again in between, it is accepted twice. -/
theorem C145_code_violated (w : World) (m : Users) (n p : Bytes) (u : User) (a : Authenticator) (c : YubiKeyConfig) (t : Token) (fuel : Nat)
    (hst : Stored J path w.fs m) (hne : trimSpace n ≠ []) (hm : m (trimSpace n) = some (some u)) (hu : u.auth = some a)
    (ht : a.typ = typeYubiKey) (hk : c.key.length = 16) (hl : c.pub.length < 2 ^ 31 - 35) (hsec : a.secret = c.bytes)
    (hlast : a.last ≠ trimSpace p) (hg : YkGood e.yubi c (trimSpace p) t) (hbad : ¬ ValidUtf8 (trimSpace p))
    (hw : ∀ i, w.writes i = .done) :
    (∃ w1, main C J e path [ascii "run"] (fuel + 3) (World.type w [some n, some p, some n, some p, some []]) = some (.stop, w1) ∧
      w1.log = w.log ++ [.successful, .failed]) ∧
    ∃ w1 w2, main C J e path [ascii "run"] (fuel + 2) (World.type w [some n, some p, some []]) = some (.stop, w1) ∧
      w1.log = w.log ++ [.successful] ∧
      main C J e path [ascii "run"] (fuel + 2) (World.type w1 [some n, some p, some []]) = some (.stop, w2) ∧
      w2.log = w.log ++ [.successful, .successful] := by
  let c' : YubiKeyConfig := { c with counter := getTokenCounter t }
  have hg' : YkGood e.yubi c' (trimSpace p) t := by
    obtain ⟨box, h1, h2, -⟩ := hg
    exact ⟨box, h1, h2, Nat.le_of_eq (tokenCounter_toNat t)⟩
  -- an attempt with a good code
  have step : ∀ (m : Users) (w : World) (u : User) (a : Authenticator) (c : YubiKeyConfig), m (trimSpace n) = some (some u) → u.auth = some a →
      a.typ = typeYubiKey → parseYubiKeyConfig a.secret e.spare = .ok (some c) → a.last ≠ trimSpace p → YkGood e.yubi c (trimSpace p) t →
      w.writes 0 = .done →
      ∃ w', turn C J e path m (trimSpace n) (trimSpace p) w = (.again, m.set (trimSpace n) (some { u with auth := some { a with
          last := trimSpace p, secret := ({ c with counter := getTokenCounter t } : YubiKeyConfig).bytes } }), w') ∧
        w'.log = w.log ++ [.successful] ∧ (∀ i, w'.writes i = w.writes (i + 1)) ∧
        w'.fs = w.fs.set path (J.enc (m.set (trimSpace n) (some { u with auth := some { a with
          last := trimSpace p, secret := ({ c with counter := getTokenCounter t } : YubiKeyConfig).bytes } }))) := by
    intro m w u a c hm hu ht hp hl hg hw
    have hv : validate C e.yubi u.auth (trimSpace p) (w.term.clock 0) w.rng e.spare = .ok (⟨some { a with
        last := trimSpace p, secret := ({ c with counter := getTokenCounter t } : YubiKeyConfig).bytes }, true, none⟩, w.rng) := by
      unfold validate
      rw [hu]
      simp only
      rw [if_pos ht, validateYk_accepts ht hl hp hg]
      rfl
    unfold turn
    rw [hm]
    simp only [attempt, World.now, Term.now, hv]
    rw [if_neg (by simp), if_pos trivial]
    simp only [writeStore, World.save, hw, Go.writeFile]
    exact ⟨_, rfl, rfl, fun _ => rfl, rfl⟩
  have hpc : parseYubiKeyConfig a.secret e.spare = .ok (some c) := by rw [hsec]; exact parseYk_bytes c _ hk hl
  have hpc' : parseYubiKeyConfig c'.bytes e.spare = .ok (some c') := parseYk_bytes c' _ hk hl
  obtain ⟨w1, h1, l1, d1, f1⟩ := step m w u a c hm hu ht hpc hlast hg (hw 0)
  constructor
  · -- in one process
    have hbad2 : ∃ w2, turn C J e path (m.set (trimSpace n) (some { u with auth := some { a with last := trimSpace p, secret := c'.bytes } }))
        (trimSpace n) (trimSpace p) w1 = (.again, m.set (trimSpace n) (some { u with auth := some { a with last := trimSpace p, secret := c'.bytes } }), w2) ∧
        w2.log = w1.log ++ [.failed] := by
      have hv : validate C e.yubi (some { a with last := trimSpace p, secret := c'.bytes }) (trimSpace p) (w1.term.clock 0) w1.rng e.spare =
          .ok (⟨some { a with last := trimSpace p, secret := c'.bytes }, false, some .fail⟩, w1.rng) := by
        unfold validate
        simp only
        rw [if_pos ht]
        simp [validateYubiKey, ht]
      unfold turn
      rw [Map.set_same]
      simp only [attempt, World.now, Term.now, hv]
      rw [if_pos (by simp), set_same_value (Map.set_same _ _ _)]
      exact ⟨_, rfl, rfl⟩
    obtain ⟨w2, h2, l2⟩ := hbad2
    refine ⟨World.type w2 [], ?_, by rw [type_log, l2, l1]; simp⟩
    rw [main_run_synced C J e path (w := World.type w [some n, some p, some n, some p, some []]) hst.synced, show fuel + 3 = fuel + 1 + 1 + 1 from rfl]
    unfold loop
    rw [login_turn C J e path m w hne, turn_type, h1]
    simp only
    unfold loop
    rw [login_turn C J e path _ w1 hne, turn_type, h2]
    simp only
    unfold loop
    rw [login_empty C J e path _ w2 trimSpace_nil]
  · -- in two
    obtain ⟨mm, hd, hsan⟩ := J.dec_enc _ (hst.synced.1.set (trimSpace n)
      (some { u with auth := some { a with last := trimSpace p, secret := c'.bytes } }))
    have hutf := hst.synced.2.1
    have hkey : ∀ k, (m.set (trimSpace n) (some { u with auth := some { a with last := trimSpace p, secret := c'.bytes } })) k ≠ none → ValidUtf8 k := by
      intro k hk
      by_cases hkn : k = trimSpace n
      · subst hkn; exact (hutf _ _ hm).1
      · rw [Map.set_other _ _ hkn] at hk
        obtain ⟨v, hv⟩ := Option.ne_none_iff_exists'.mp hk
        exact (hutf _ _ hv).1
    obtain ⟨v, hv1, hv2⟩ := hsan.1 (trimSpace n) _ (Map.set_same _ _ _) (fun k hk1 hk2 => by
      rw [show sanitise k = k from hkey k hk1, show sanitise (trimSpace n) = trimSpace n from (hutf _ _ hm).1] at hk2
      subst hk2
      exact List.lt_irrefl _)
    rw [show sanitise (trimSpace n) = trimSpace n from (hutf _ _ hm).1] at hv1
    cases v with
    | none => simp [OptRel] at hv2
    | some u2 =>
      obtain ⟨nm, oa⟩ := u2
      obtain ⟨-, hv3⟩ := (hv2 : UserSan _ _)
      cases oa with
      | none => simp [OptRel] at hv3
      | some a2 =>
        obtain ⟨g1, -, g3, g4⟩ := (hv3 : AuthSan _ _)
        have ht2 : a2.typ = typeYubiKey := by
          rw [g1]
          show sanitise a.typ = _
          rw [ht]
          decide
        have hst1 : Stored J path w1.fs mm := .inr ⟨_, by rw [f1]; exact Fs.set_same _ _ _, hd⟩
        obtain ⟨w2, h2, l2, -, -⟩ := step mm (World.type (World.type w1 []) [some n, some p, some []]) ⟨nm, some a2⟩ a2 c' hv1 rfl ht2 (by rw [g4]; exact hpc')
          (by rw [g3]; exact fun h => hbad h) hg' (by show w1.writes 0 = _; rw [d1]; exact hw 1)
        have h1' : turn C J e path m (trimSpace n) (trimSpace p) (World.type w [some n, some p, some []]) =
            (.again, m.set (trimSpace n) (some { u with auth := some { a with last := trimSpace p, secret := c'.bytes } }),
              World.type w1 [some n, some p, some []]) := by
          rw [turn_type, h1]
        have r1 := run_attempt C J e path (w := World.type w [some n, some p, some []]) hst.synced rfl hne h1' fuel
        have r2 := run_attempt C J e path (w := World.type (World.type w1 []) [some n, some p, some []]) hst1.synced rfl hne h2 fuel
        exact ⟨_, _, r1, l1, r2, by rw [type_log, l2, type_log, type_log, l1, List.append_assoc]; rfl⟩

/-- The hypotheses can be met. -/
example : YkGood Props.Auth.toyYubi ⟨List.replicate 16 1, 7, [1, 2, 3, 0xFF]⟩ (trimSpace [1, 2, 3, 0xFF, 0, 9, 0]) ⟨9, 0⟩ ∧
    ¬ ValidUtf8 (trimSpace [1, 2, 3, 0xFF, 0, 9, 0]) :=
  ⟨⟨[0, 9, 0], by decide, by decide, by decide⟩, by decide⟩

/-! ### Codes are accepted once -/

/-- C146: a TOTP or YubiKey code that was accepted is refused the next time, also after a restart and whatever the time.
Missing: codes accepted before the last one. -/
theorem C146_next_partial (w w1 : World) (m : Users) (n p : Bytes) (u : User) (a : Authenticator) (fuel : Nat)
    (hst : Stored J path w.fs m) (hne : trimSpace n ≠ []) (hm : m (trimSpace n) = some (some u)) (hu : u.auth = some a)
    (ht : a.typ = typeTOTP ∨ a.typ = typeYubiKey ∧ Text e.yubi p) (ha : w.term.answers = [some n, some p, some []])
    (h : main C J e path [ascii "run"] (fuel + 2) w = some (.stop, w1)) (hlog : w1.log = w.log ++ [.successful])
    (e2 : Env) (w2 : World) (hfs : w2.fs path = w1.fs path) (ha2 : w2.term.answers = [some n, some p, some []]) :
    ∃ w3, main C J e2 path [ascii "run"] (fuel + 2) w2 = some (.stop, w3) ∧ w3.log = w2.log ++ [.failed] ∧ w3.fs = w2.fs := by
  have hc := turn_cases C J e path m (trimSpace n) (trimSpace p) w
  generalize hx : turn C J e path m (trimSpace n) (trimSpace p) w = x at hc
  have hpw : a.typ ≠ typePassword := by
    rcases ht with ht | ⟨ht, -⟩ <;> rw [ht] <;> decide
  have hlogin : login C J e path m w = (x.1, x.2.1, World.type x.2.2 [some []]) := by
    rw [← type_self w, ha, login_turn C J e path m w hne, turn_type, hx]
  have hmain := h
  rw [main_run_synced C J e path hst.synced] at hmain
  unfold loop at hmain
  rw [hlogin] at hmain
  cases hc with
  | unknown h' => rw [hm] at h'; cases h'
  | nobody h' => rw [hm] at h'; cases h'
  | panic => cases hmain
  | torn => cases hmain
  | refused u' v rng =>
    rw [run_attempt C J e path hst.synced ha hne hx fuel] at h
    cases h
    simp [World.say, World.now] at hlog
  | password u' a' rng h1 h2 h3 h4 =>
    rw [hm] at h1; cases h1
    rw [hu] at h2; cases h2
    exact absurd h4 hpw
  | updated u' a' last secret rng h1 h2 h3 h4 h5 =>
    rw [hm] at h1; cases h1
    rw [hu] at h2; cases h2
    rw [run_attempt C J e path hst.synced ha hne hx fuel] at h
    cases h
    have hlast : last = trimSpace p := by
      rcases h4 with ⟨-, h, -⟩ | ⟨-, h, -⟩ | ⟨h, -⟩
      · exact h
      · exact h
      · rcases ht with ht | ⟨ht, -⟩ <;> rw [ht] at h <;> exact absurd h (by decide)
    subst hlast
    have hs2 := turn_synced C J e path hx rfl hst.synced (by
      rcases ht with ht | ⟨-, ht⟩
      · refine .inr (.inr fun u' a' h1 h2 => ?_)
        rw [hm] at h1; cases h1
        rw [hu] at h2; cases h2
        rw [ht]; decide
      · exact ht.imp_right .inl)
    have hval : validate C e2.yubi (some { a with last := trimSpace p, secret := secret }) (trimSpace p)
        (w2.term.clock 0) w2.rng e2.spare =
        .ok (⟨some { a with last := trimSpace p, secret := secret }, false, some .fail⟩, w2.rng) := by
      unfold validate
      simp only
      rcases ht with ht | ⟨ht, -⟩
      · rw [if_neg (by rw [ht]; decide), if_pos ht]
        simp [validateTOTP, ht]
      · rw [if_pos ht]
        simp [validateYubiKey, ht]
    have htw : ∃ w3, turn C J e2 path (m.set (trimSpace n) (some { u with auth := some { a with last := trimSpace p, secret := secret } }))
        (trimSpace n) (trimSpace p) w2 = (.again, m.set (trimSpace n) (some { u with auth := some { a with last := trimSpace p, secret := secret } }), w3) ∧
        w3.log = w2.log ++ [.failed] ∧ w3.fs = w2.fs := by
      unfold turn
      rw [Map.set_same]
      simp only [attempt, World.now, Term.now, hval]
      rw [if_pos (by simp), set_same_value (Map.set_same _ _ _)]
      exact ⟨_, rfl, rfl, rfl⟩
    obtain ⟨w3, h6, h7, h8⟩ := htw
    exact ⟨_, run_attempt C J e2 path (synced_fs J path hfs hs2) ha2 hne h6 fuel, h7, h8⟩

/-- C146 is false for older codes: with codes `p` of the step before and `q` of the current step, the program accepts
`p`, then `q`, then `p` again. -/
theorem C146_older_violated (w : World) (m : Users) (n p q : Bytes) (u : User) (a : Authenticator) (c : TOTPConfig)
    (now : BitVec 64) (fuel : Nat)
    (hst : Stored J path w.fs m) (hne : trimSpace n ≠ []) (hm : m (trimSpace n) = some (some u)) (hu : u.auth = some a)
    (ht : a.typ = typeTOTP) (hp : parseTOTPConfig a.secret e.spare = .ok (some c)) (hc : Supported c)
    (hclock : ∀ i, w.term.clock i = now) (hw : ∀ i, w.writes i = .done) (htp : trimSpace p = p) (htq : trimSpace q = q)
    (hpc : IsCode C c (now - c.step) p) (hqc : IsCode C c now q) (hpq : p ≠ q) (hl : a.last ≠ p)
    (ha : w.term.answers = [some n, some p, some n, some q, some n, some p, some []]) :
    ∃ w1, main C J e path [ascii "run"] (fuel + 4) w = some (.stop, w1) ∧
      w1.log = w.log ++ [.successful, .successful, .successful] := by
  have step : ∀ (m : Users) (w : World) (u : User) (a : Authenticator) (x : Bytes) (rest : List (Option Bytes)),
      m (trimSpace n) = some (some u) → u.auth = some a → a.typ = typeTOTP → parseTOTPConfig a.secret e.spare = .ok (some c) →
      (∀ i, w.term.clock i = now) → (∀ i, w.writes i = .done) → trimSpace x = x → a.last ≠ x →
      (IsCode C c now x ∨ IsCode C c (now - c.step) x) → w.term.answers = some n :: some x :: rest →
      ∃ w', login C J e path m w =
          (.again, m.set (trimSpace n) (some { u with auth := some { a with last := x } }), w') ∧
        w'.term.answers = rest ∧ w'.log = w.log ++ [.successful] ∧ (∀ i, w'.term.clock i = now) ∧ (∀ i, w'.writes i = .done) := by
    intro m w u a x rest hm hu ht hp hclock hw htx hl hcode ha
    have hv : validate C e.yubi u.auth x (w.term.clock 0) w.rng e.spare =
        .ok (⟨some { a with last := x }, true, none⟩, w.rng) := by
      unfold validate
      rw [hu]
      simp only
      rw [if_neg (by rw [ht]; decide), if_pos ht, validateTOTP_supported C a c e.spare x _ ht hp hc, if_neg hl, hclock,
        if_pos hcode]
      rfl
    rw [← type_self w, ha, login_turn C J e path m w hne, htx]
    unfold turn
    rw [hm]
    simp only [attempt, World.now, Term.now, World.type, hv]
    rw [if_neg (by simp), if_pos trivial]
    simp only [writeStore, World.save, hw, Go.writeFile]
    exact ⟨_, rfl, rfl, rfl, fun i => hclock (i + 1), fun i => rfl⟩
  rw [main_run_synced C J e path hst.synced]
  obtain ⟨w1, h1, a1, l1, c1, d1⟩ := step m w u a p _ hm hu ht hp hclock hw htp hl (.inr hpc) ha
  obtain ⟨w2, h2, a2, l2, c2, d2⟩ := step _ w1 { u with auth := some { a with last := p } } { a with last := p } q _ (Map.set_same _ _ _) rfl ht hp c1 d1 htq hpq (.inl hqc) a1
  obtain ⟨w3, h3, a3, l3, c3, d3⟩ := step _ w2 { u with auth := some { a with last := q } } { a with last := q } p _ (Map.set_same _ _ _) rfl ht hp c2 d2 htp (Ne.symm hpq) (.inr hpc) a2
  unfold loop
  rw [h1]
  simp only
  unfold loop
  rw [h2]
  simp only
  unfold loop
  rw [h3]
  simp only
  unfold loop
  rw [← type_self w3, a3, login_empty C J e path _ w3 trimSpace_nil]
  exact ⟨_, rfl, by rw [type_log, l3, l2, l1]; simp⟩

/-- Hypotheses of the two theorems about codes, met by a toy HMAC at time 0x10f with a step of one second. -/
example : ∃ (data : Bytes) (m : Users) (u : User) (a : Authenticator) (c : TOTPConfig) (p q : Bytes) (now : BitVec 64),
    toyUsers.dec data = some (some m) ∧ m (ascii "ann") = some (some u) ∧ u.auth = some a ∧ a.typ = typeTOTP ∧
    parseTOTPConfig a.secret = .ok (some c) ∧ Supported c ∧ IsCode Toy.crypto c (now - c.step) p ∧
    IsCode Toy.crypto c now q ∧ p ≠ q ∧ a.last ≠ p ∧ trimSpace p = p ∧ trimSpace q = q :=
  let c : TOTPConfig := { key := List.replicate 12 0, start := 0, step := 1, size := 1, algo := 3, provider := [] }
  ⟨_, Map.empty.set (ascii "ann") (some ⟨ascii "ann", some { typ := typeTOTP, secret := c.bytes }⟩), _, _, c,
    decimalPad 1 (codeValue Toy.crypto c (0x10f - 1)), decimalPad 1 (codeValue Toy.crypto c 0x10f), 0x10f,
    dec_enc_eq toyUsers (Map.finite_empty.set (ascii "ann") _) (utf8_set utf8_empty (by decide)
      (show ValidUtf8 (ascii "ann") by decide) (fun a h => by cases h; exact ⟨valid_typeTOTP, valid_nil, valid_nil⟩)),
    Map.set_same _ _ _, rfl, rfl,
    Props.Totp.C28_roundtrip_partial c [] (by decide) (by decide) (by decide) (by decide),
    ⟨by decide, by decide, by decide, rfl⟩,
    (isCode_iff Toy.crypto c ⟨by decide, by decide, by decide, rfl⟩ _ _).mpr rfl,
    (isCode_iff Toy.crypto c ⟨by decide, by decide, by decide, rfl⟩ _ _).mpr rfl,
    by decide, by decide, by decide, by decide⟩

/-! ### Types of authentication -/

/-- C147 is false: "yubikey" is among the types the program lists, but answering it is as good as not answering. -/
theorem C147_listed_violated : typeYubiKey ∈ supported ∧
    ∀ (w : World) (m : Users) (n : Bytes) (rest : List (Option Bytes)) (fuel : Nat), Stored J path w.fs m →
      main C J e path [ascii "register"] fuel (World.type w (some n :: some typeYubiKey :: rest)) =
        main C J e path [ascii "register"] fuel (World.type w (some n :: rest)) := by
  refine ⟨by decide, fun w m n rest fuel hst => ?_⟩
  have hk : method (trimSpace typeYubiKey) = none := by decide
  have hmain : ∀ as, main C J e path [ascii "register"] fuel (World.type w as) = some (register C J e path (some m) (World.type w as)) :=
    fun as => main_register C J e path (Stored.load (w := World.type w as) J path hst) fuel
  rw [hmain, hmain]
  unfold register
  simp [World.readLine, Term.read, World.type, askType, hk]

/-- C147: every registration ends with an authenticator of one of the types listed, whose type was answered; answers that
are not listed are ignored. Missing: YubiKeys. -/
theorem C147_type_partial (w : World) (m : Users) (n p salt png : Bytes) (junk : List Bytes) (fuel : Nat)
    (hst : Stored J path w.fs m) (hn : ValidUtf8 n)
    (hjunk : ∀ t ∈ junk, trimSpace t ≠ ascii "password" ∧ trimSpace t ≠ ascii "TOTP")
    (hp : p.length ≤ 72) (hs : w.salts 0 = some salt) (hpr : e.provider.length < 2 ^ 31 - 71) (hr : 20 ≤ w.rng.length)
    (hq : e.qr (google e.provider (w.rng.take 20)) (ascii "common-auth example login") = some png)
    (hw : w.writes 0 = .done) (hw1 : w.writes 1 = .done) :
    ∀ t, t = ascii "password" ∨ t = ascii "TOTP" →
      ∃ w1 m1 u a, main C J e path [ascii "register"] fuel (World.type w (some n :: (junk.map some ++ [some t, some p]))) =
          some (.stop, w1) ∧ Stored J path w1.fs m1 ∧ m1 (trimSpace n) = some (some u) ∧ u.auth = some a ∧ a.typ = t := by
  intro t ht
  have hv := valid_trimSpace hn
  have hask : ∀ t k, method (trimSpace t) = some k → askType (junk.map some ++ [some t, some p]) = (some k, [some p]) := by
    intro t k hk
    induction junk with
    | nil => simp [askType, hk]
    | cons j js ih =>
      have hj : method (trimSpace j) = none := by
        obtain ⟨h1, h2⟩ := hjunk j (by simp)
        unfold method
        rw [if_neg (by rw [show typePassword = ascii "password" by decide]; exact h1),
          if_neg (by rw [show typeTOTP = ascii "TOTP" by decide]; exact h2)]
      simp only [List.map_cons, List.cons_append, askType, hj]
      exact ih (fun t ht => hjunk t (by simp [ht]))
  have skip : ∀ t k, method (trimSpace t) = some k →
      register C J e path (some m) (World.type w (some n :: (junk.map some ++ [some t, some p]))) =
      register C J e path (some m) (World.type w (some n :: ([some t, some p]))) := by
    intro t k hk
    simp only [register, World.readLine, Term.read, World.type, Option.map_some, hask t k hk, askType, hk]
  have hmain : ∀ as, main C J e path [ascii "register"] fuel (World.type w as) = some (register C J e path (some m) (World.type w as)) :=
    fun as => main_register C J e path (Stored.load (w := World.type w as) J path hst) fuel
  rw [hmain]
  rcases ht with rfl | rfl
  · rw [skip _ .password (by decide), show ascii "password" = typePassword by decide]
    obtain ⟨w1, h1, -, h3⟩ := register_password C J e path (m := m) (w := World.type w [some n, some typePassword, some p])
      hp hs hw [] rfl
    refine ⟨w1, _, _, _, by rw [h1], .inr ⟨_, by rw [h3, Fs.set_same], dec_enc_eq J (hst.synced.1.set _ _)
      (utf8_set hst.synced.2.1 hv hv ?_)⟩, Map.set_same _ _ _, rfl, rfl⟩
    intro a h
    cases h
    exact ⟨valid_typePassword, valid_nil, valid_nil⟩
  · rw [skip _ .totp (by decide), show ascii "TOTP" = typeTOTP by decide]
    obtain ⟨w1, h1, -, h3⟩ := register_totp C J e path (m := m) (w := World.type w [some n, some typeTOTP, some p])
      hpr hr hq hw hw1 [some p] rfl
    refine ⟨w1, _, _, _, by rw [h1], .inr ⟨_, by rw [h3, Fs.set_same], dec_enc_eq J (hst.synced.1.set _ _)
      (utf8_set hst.synced.2.1 hv hv ?_)⟩, Map.set_same _ _ _, rfl, rfl⟩
    intro a h
    cases h
    exact ⟨valid_typeTOTP, valid_nil, validUtf8_ascii _ (decimalPad_ascii _ _)⟩

example : ∀ t ∈ [ascii "yubikey", ascii "totp"], trimSpace t ≠ ascii "password" ∧ trimSpace t ≠ ascii "TOTP" := by decide

/-! ### Panics -/

/-- C148 is false: with the file "null" every registration that gets as far as storing the user panics. -/
theorem C148_null_violated (w : World) (n p salt : Bytes) (fuel : Nat) (hfs : w.fs path = some (ascii "null"))
    (ha : w.term.answers = [some n, some typePassword, some p]) (hp : p.length ≤ 72) (hs : w.salts 0 = some salt) :
    ∃ w1, main C J e path [ascii "register"] fuel w = some (.panic, w1) := by
  have hl : loadStore J path w = some none := by unfold loadStore; rw [hfs]; exact J.dec_null
  have hk : method (trimSpace typePassword) = some .password := by decide
  simp only [main, hl, if_true, register, World.readLine, Term.read, ha, Option.map_some, askType, hk, enrol, regPassword,
    World.readPass, hs, newPasswordAuth]
  rw [if_neg (by omega)]
  exact ⟨_, rfl⟩

example : (exWorld [some (ascii "ann"), some typePassword, some (ascii "pw")]).salts 0 = some [1] := rfl

/-- C148 is false: there is a file, the JSON {"u":null}, with which typing the name u panics. -/
theorem C148_nobody_violated : ∃ data, ∀ (w : World) (p : Bytes) (rest : List (Option Bytes)) (fuel : Nat),
    w.fs path = some data → w.term.answers = some (ascii "u") :: some p :: rest →
    ∃ w1, main C J e path [ascii "run"] (fuel + 1) w = some (.panic, w1) := by
  obtain ⟨data, hd⟩ := J.dec_nobody
  refine ⟨data, fun w p rest fuel hfs ha => ?_⟩
  have hst : Stored J path w.fs (Map.empty.set (ascii "u") none) := .inr ⟨data, hfs, hd⟩
  rw [main_run_synced C J e path hst.synced]
  have hu : trimSpace (ascii "u") = ascii "u" := by decide
  have : login C J e path (Map.empty.set (ascii "u") none) w =
      (.panic, Map.empty.set (ascii "u") none, World.type w rest) := by
    rw [← type_self w, ha, login_turn C J e path _ w (by rw [hu]; decide), hu]
    unfold turn
    rw [Map.set_same]
    rfl
  unfold loop
  rw [this]
  exact ⟨_, rfl⟩

/-- The files that running the program any number of times can leave, starting without a user file: any arguments, any
input, any clock, any PRNG, and writes that fail anywhere. -/
inductive Reach : Fs → Prop
  | start (fs : Fs) : fs path = none → Reach fs
  | other (fs fs' : Fs) : Reach fs → fs' path = fs path → Reach fs'
  | run (e : Env) (args : List Bytes) (fuel : Nat) (w w' : World) (r : Ret) : Reach w.fs →
      e.provider.length < 2 ^ 31 - 71 → main C J e path args fuel w = some (r, w') → Reach w'.fs

/-- C148, what holds: with the files the program itself has written, it does not panic. Missing: files made otherwise. -/
theorem C148_own_files_partial (hq : path ≠ ascii "qr.png") (w w' : World) (hr : Reach C J path w.fs)
    (hp : e.provider.length < 2 ^ 31 - 71) (args : List Bytes) (fuel : Nat) (r : Ret)
    (h : main C J e path args fuel w = some (r, w')) : r ≠ .panic := by
  have hs : ∀ fs, Reach C J path fs → SafeFile J path fs := by
    intro fs h
    induction h with
    | start fs h => exact .inl h
    | other fs fs' _ h ih => exact safeFile_fs J path h ih
    | run e args fuel w w' r _ hp h ih => exact (main_safe C J e path hq hp ih h).2
  exact (main_safe C J e path hq hp (hs _ hr) h).1

example : Reach Toy.crypto toyUsers (ascii "s") (exWorld []).fs ∧ ascii "s" ≠ ascii "qr.png" := ⟨.start _ rfl, by decide⟩

/-! ### Files -/

/-- C149: nothing but the user file and, when registering, the QR code is written. -/
theorem C149_only_partial (args : List Bytes) (fuel : Nat) (w w' : World) (r : Ret)
    (h : main C J e path args fuel w = some (r, w')) (q : Bytes) (hq : q ≠ path)
    (hqr : q ≠ ascii "qr.png" ∨ args.head? ≠ some (ascii "register")) : w'.fs q = w.fs q := by
  unfold main at h
  cases args with
  | nil => cases h; rfl
  | cons cmd rest =>
    simp only at h
    cases hl : loadStore J path w with
    | none => rw [hl] at h; cases h; rfl
    | some o =>
      rw [hl] at h
      simp only at h
      split at h
      · rename_i hc
        have hqr : q ≠ ascii "qr.png" := by
          rcases hqr with hqr | hqr
          · exact hqr
          · exact absurd (by rw [hc]; rfl) hqr
        simp only [Option.some.injEq] at h
        rcases register_cases C J e path o w with ⟨w1, h1, h2, -⟩ | ⟨n, k, as, -, -, -, h1⟩ | ⟨n, k, as, o', w2, -, h1, h2⟩
        · rw [h1] at h; cases h; rw [h2]
        · rw [h] at h1; simp only at h1; rw [h1]
        · have hw2 : w2.fs q = w.fs q := enrol_fs C e h1 q hqr
          rcases h2 with ⟨-, h2⟩ | ⟨a, rfl, ⟨-, h2⟩ | ⟨m', -, w3, h3, h4⟩⟩
          · rw [h2] at h; cases h; exact hw2
          · rw [h2] at h; cases h; exact hw2
          · have hw3 : w3.fs q = w.fs q := by rw [h3, writeFile_other _ _ _ hq, hw2]
            rcases h4 with ⟨-, h4, -⟩ | ⟨-, h4, -⟩ <;> rw [h4] at h <;> cases h <;> exact hw3
      · split at h
        · refine loop_invariant C J e path (fun _ w1 => w1.fs q = w.fs q) (Q := fun _ w1 => w1.fs q = w.fs q) (L := w.term.answers)
            ?_ ?_ ?_ ?_ ?_ fuel _ w r w' (fun x hx => hx) rfl h
          · intro m w1 a b m' w2 hi _ _ _ ht
            have hc := turn_cases C J e path m (trimSpace a) (trimSpace b) w1
            rw [ht] at hc
            cases hc with
            | unknown => exact hi
            | refused => exact hi
            | password => exact hi
            | updated => exact (Fs.set_other _ _ hq).trans hi
          · intro m w1 a b r m' w2 hi _ _ _ ht hr
            have hc := turn_cases C J e path m (trimSpace a) (trimSpace b) w1
            rw [ht] at hc
            cases hc with
            | unknown => exact hi
            | nobody => exact hi
            | panic => exact hi
            | refused => exact hi
            | password => exact hi
            | updated => exact absurd rfl hr
            | torn => exact (writeFile_other _ _ _ hq).trans hi
          · intro m w1 hi _; exact hi
          · intro m w1 hi; exact hi
          · intro m w1 as hi; exact hi
        · cases h; rfl

example : ascii "other" ≠ ascii "s" ∧ ascii "other" ≠ ascii "qr.png" := by decide

/-- C149: if no attempt succeeds, `run` leaves every file as it was. -/
theorem C149_refused_partial (fuel : Nat) (w w' : World) (r : Ret)
    (h : main C J e path [ascii "run"] fuel w = some (r, w')) (hr : r ≠ .fatal ∨ ∀ n, w.writes n = .done)
    (hlog : w'.log.count .successful = w.log.count .successful) : w'.fs = w.fs := by
  cases hl : loadStore J path w with
  | none => simp only [main, hl] at h; cases h; rfl
  | some o =>
    rw [main_run_synced C J e path (loadStore_synced J path hl)] at h
    have key := loop_invariant C J e path
      (fun _ w1 => w.log.count .successful ≤ w1.log.count .successful ∧ ((∀ n, w.writes n = .done) → ∀ n, w1.writes n = .done) ∧
        (w1.log.count .successful = w.log.count .successful → w1.fs = w.fs))
      (Q := fun r w1 => (r ≠ .fatal ∨ ∀ n, w.writes n = .done) → w1.log.count .successful = w.log.count .successful → w1.fs = w.fs)
      (L := w.term.answers) ?_ ?_ ?_ ?_ ?_ fuel _ w r w' (fun x hx => hx) ⟨Nat.le_refl _, fun h => h, fun _ => rfl⟩ h
    · exact key hr hlog
    · intro m w1 a b m' w2 hi _ _ _ ht
      have hc := turn_cases C J e path m (trimSpace a) (trimSpace b) w1
      rw [ht] at hc
      obtain ⟨i1, i2, i3⟩ := hi
      cases hc with
      | unknown => simpa [World.say] using ⟨i1, i2, i3⟩
      | refused => simpa [World.say, World.now] using ⟨i1, i2, i3⟩
      | password =>
        refine ⟨?_, i2, ?_⟩
        · simp [World.say, World.now]; omega
        · intro hcount
          exact i3 (by simp [World.say, World.now] at hcount; omega)
      | updated =>
        refine ⟨?_, fun h n => i2 h (n + 1), ?_⟩
        · simp [World.say, World.now]; omega
        · intro hcount
          simp [World.say, World.now] at hcount
          omega
    · intro m w1 a b r m' w2 hi _ _ _ ht hr hr2 hcount
      have hc := turn_cases C J e path m (trimSpace a) (trimSpace b) w1
      rw [ht] at hc
      obtain ⟨i1, i2, i3⟩ := hi
      cases hc with
      | unknown => exact absurd rfl hr
      | nobody => exact i3 hcount
      | panic => exact i3 hcount
      | refused => exact absurd rfl hr
      | password => exact absurd rfl hr
      | updated => exact absurd rfl hr
      | torn u a last secret rng h1 h2 h3 h4 =>
        rcases hr2 with hr2 | hr2
        · exact absurd rfl hr2
        · exact absurd (i2 hr2 0) h4
    · intro m w1 hi _ _ hcount; exact hi.2.2 hcount
    · intro m w1 hi _ hcount; exact hi.2.2 hcount
    · intro m w1 as hi; exact hi

/-- C149 is false when a write breaks off: all users are lost, and the program does not start any more. -/
theorem C149_torn_violated (w : World) (m : Users) (n p salt : Bytes) (fuel : Nat)
    (hst : Stored J path w.fs m) (ha : w.term.answers = [some n, some typePassword, some p])
    (hp : p.length ≤ 72) (hs : w.salts 0 = some salt) (hw : w.writes 0 = .failsAfter 0) :
    ∃ w1, main C J e path [ascii "register"] fuel w = some (.fatal, w1) ∧ w1.fs path = some [] ∧
      ∀ (e2 : Env) (w2 : World) (args : List Bytes) (fuel : Nat), w2.fs path = w1.fs path →
        main C J e2 path args fuel w2 = some (.fatal, w2) := by
  have hk : method (trimSpace typePassword) = some .password := by decide
  have : ∃ w1, register C J e path (some m) w = (.fatal, w1) ∧ w1.fs path = some [] := by
    simp only [register, World.readLine, Term.read, ha, Option.map_some, askType, hk, enrol, regPassword, World.readPass,
      hs, newPasswordAuth]
    rw [if_neg (by omega)]
    simp only [writeStore, World.save, hw, Go.writeFile]
    exact ⟨_, rfl, by simp⟩
  obtain ⟨w1, h1, h2⟩ := this
  refine ⟨w1, by rw [main_register C J e path hst.load, h1], h2, ?_⟩
  intro e2 w2 args fuel hfs
  have hl : loadStore J path w2 = none := by
    unfold loadStore
    rw [hfs, h2]
    exact J.dec_nil
  cases args with
  | nil => rfl
  | cons cmd rest => simp [main, hl]

/-! ### How it ends -/

/-- C150: every run ends, at the latest when the input does. -/
theorem C150_ends (args : List Bytes) (fuel : Nat) (w : World) (h : w.term.answers.length < fuel) :
    ∃ r w', main C J e path args fuel w = some (r, w') := by
  have : (main C J e path args fuel w).isSome := by
    unfold main
    cases args with
    | nil => rfl
    | cons cmd rest =>
      simp only
      cases loadStore J path w with
      | none => rfl
      | some o =>
        simp only
        split
        · rfl
        · split
          · exact loop_ends C J e path fuel _ w h
          · rfl
  obtain ⟨⟨r, w'⟩, h⟩ := Option.isSome_iff_exists.mp this
  exact ⟨r, w', h⟩

example : (exWorld [some (ascii "ann"), none]).term.answers.length < 3 := by decide

/-- C150: exit status 0 means that somebody was registered or that a blank name was typed. -/
theorem C150_status (args : List Bytes) (fuel : Nat) (w w' : World) (h : main C J e path args fuel w = some (.stop, w')) :
    (args.head? = some (ascii "register") ∧ ∃ n, w.term.answers.head? = some (some n) ∧
      w'.log.getLast? = some (.registered (trimSpace n))) ∨
    (args.head? = some (ascii "run") ∧ ∃ n, some n ∈ w.term.answers ∧ trimSpace n = []) := by
  unfold main at h
  cases args with
  | nil => cases h
  | cons cmd rest =>
    simp only at h
    cases hl : loadStore J path w with
    | none => rw [hl] at h; cases h
    | some o =>
      rw [hl] at h
      simp only at h
      split at h
      · rename_i hc
        refine .inl ⟨by rw [hc]; rfl, ?_⟩
        simp only [Option.some.injEq] at h
        rcases register_cases C J e path o w with ⟨w1, h1, -⟩ | ⟨n, k, as, -, -, h1, -⟩ | ⟨n, k, as, o', w2, h0, h1, h2⟩
        · rw [h1] at h; cases h
        · rw [h] at h1; cases h1
        · rcases h2 with ⟨-, h2⟩ | ⟨a, rfl, ⟨-, h2⟩ | ⟨m', -, w3, h3, h4⟩⟩
          · rw [h2] at h; cases h
          · rw [h2] at h; cases h
          · rcases h4 with ⟨-, h4, h5⟩ | ⟨-, h4, -⟩
            · rw [h4] at h; cases h; exact ⟨n, h0, by rw [h5]; simp⟩
            · rw [h4] at h; cases h
      · split at h
        · rename_i hc
          refine .inr ⟨by rw [hc]; rfl, ?_⟩
          have := loop_invariant C J e path (fun _ _ => True)
            (Q := fun r _ => r = .stop → ∃ n, some n ∈ w.term.answers ∧ trimSpace n = []) (L := w.term.answers)
            (fun _ _ _ _ _ _ _ _ _ _ _ => trivial) ?_ ?_ ?_ (fun _ _ _ _ => trivial) fuel _ w .stop w' (fun x hx => hx) trivial h
          · exact this rfl
          · intro m w1 a b r m' w2 _ _ _ _ ht hr hstop
            have hc := turn_cases C J e path m (trimSpace a) (trimSpace b) w1
            rw [ht, hstop] at hc
            cases hc
          · intro m w1 _ h _; exact h
          · intro m w1 _ h; cases h
        · cases h

/-! Nothing is read after an error. -/

theorem read_suffix {t : Term} {rest : List (Option Bytes)} (h : none :: rest <:+ t.answers) :
    (t.read.1 = none ∧ rest <:+ t.read.2.answers) ∨ none :: rest <:+ t.read.2.answers := by
  unfold Term.read
  cases ha : t.answers with
  | nil => rw [ha] at h; simp at h
  | cons a as =>
    rw [ha] at h
    rcases List.suffix_cons_iff.mp h with e | e
    · simp only [List.cons.injEq] at e
      exact .inl ⟨e.1.symm, by simp [e.2]⟩
    · exact .inr e

theorem readLine_suffix {w : World} {rest : List (Option Bytes)} (h : none :: rest <:+ w.term.answers) :
    (w.readLine.1 = none ∧ rest <:+ w.readLine.2.term.answers) ∨ none :: rest <:+ w.readLine.2.term.answers := by
  rcases read_suffix h with ⟨h1, h2⟩ | h1
  · exact .inl ⟨by simp [World.readLine, h1], h2⟩
  · exact .inr h1

theorem askType_suffix {as rest : List (Option Bytes)} (h : none :: rest <:+ as) :
    ((askType as).1 = none ∧ rest <:+ (askType as).2) ∨ none :: rest <:+ (askType as).2 := by
  induction as with
  | nil => simp at h
  | cons a as ih =>
    rcases List.suffix_cons_iff.mp h with e | e
    · simp only [List.cons.injEq] at e
      obtain ⟨rfl, rfl⟩ := e
      exact .inl ⟨rfl, List.suffix_refl _⟩
    · cases a with
      | none => exact .inr e
      | some l =>
        rw [askType]
        cases method (trimSpace l) with
        | some k => exact .inr e
        | none => exact ih e

theorem weaken_suffix {rest as : List (Option Bytes)} (h : none :: rest <:+ as) : rest <:+ as :=
  (List.suffix_cons _ _).trans h

theorem save_answers (w : World) (p d : Bytes) : (w.save p d).2.term = w.term := rfl

theorem attempt_answers (m : Users) (name : Bytes) (u : User) (password : Bytes) (w : World) :
    (attempt C J e path m name u password w).2.2.term.answers = w.term.answers := by
  unfold attempt
  simp only [World.now, Term.now]
  split
  · rfl
  · rename_i v rng _
    split
    · rfl
    · split
      · simp only [writeStore, World.save]
        split
        · rename_i h; simp only [Prod.mk.injEq] at h; rw [← h.2]
        · rename_i h; simp only [Prod.mk.injEq] at h; rw [← h.2]; rfl
      · rfl

theorem login_suffix {m : Users} {w : World} {rest : List (Option Bytes)} (h : none :: rest <:+ w.term.answers) :
    ((login C J e path m w).1 ≠ .again ∧ rest <:+ (login C J e path m w).2.2.term.answers) ∨
      none :: rest <:+ (login C J e path m w).2.2.term.answers := by
  unfold login
  have h1 := readLine_suffix h
  generalize w.readLine = x at h1 ⊢
  obtain ⟨a, w1⟩ := x
  cases a with
  | none => exact h1.elim (fun h => .inl ⟨by simp, h.2⟩) .inr
  | some name =>
    simp only [reduceCtorEq, false_and, false_or] at h1 ⊢
    split
    · exact .inr h1
    · have h2 := readLine_suffix h1
      generalize w1.readLine = x at h2 ⊢
      obtain ⟨a, w2⟩ := x
      cases a with
      | none => exact h2.elim (fun h => .inl ⟨by simp, h.2⟩) .inr
      | some password =>
        simp only [reduceCtorEq, false_and, false_or] at h2 ⊢
        right
        split
        · exact h2
        · exact h2
        · rw [attempt_answers]; exact h2

theorem loop_suffix {rest : List (Option Bytes)} : ∀ (fuel : Nat) (m : Users) (w : World) (r : Ret) (w' : World),
    none :: rest <:+ w.term.answers → loop C J e path fuel m w = some (r, w') → rest <:+ w'.term.answers
  | 0, _, _, _, _, _, h => by cases h
  | n + 1, m, w, r, w', hs, h => by
    rw [loop] at h
    have h1 := login_suffix C J e path (m := m) hs
    generalize login C J e path m w = x at h h1
    obtain ⟨r1, m1, w1⟩ := x
    simp only at h1
    cases r1 with
    | again =>
      simp only [ne_eq, not_true_eq_false, false_and, false_or] at h1
      exact loop_suffix n m1 w1 r w' h1 h
    | stop => cases h; exact h1.elim And.right weaken_suffix
    | fatal => cases h; exact h1.elim And.right weaken_suffix
    | panic => cases h; exact h1.elim And.right weaken_suffix

theorem enrol_suffix {k : Method} {w : World} {rest : List (Option Bytes)} {o : Option Authenticator} {w' : World}
    (h : none :: rest <:+ w.term.answers) (he : enrol C e k w = .ok (o, w')) : rest <:+ w'.term.answers := by
  cases k with
  | password =>
    simp only [enrol, Res.ok.injEq] at he
    unfold regPassword World.readPass at he
    have h1 := read_suffix h
    generalize w.term.read = x at h1 he
    obtain ⟨a, t⟩ := x
    have h2 : rest <:+ t.answers := h1.elim And.right weaken_suffix
    cases a with
    | none => cases he; exact h2
    | some p =>
      simp only at he
      split at he
      · cases he; exact h2
      · cases he; exact h2
  | totp =>
    have h2 : rest <:+ w.now.2.term.answers := weaken_suffix h
    unfold enrol regTOTP at he
    dsimp only at he
    generalize w.now = wn at h2 he
    generalize newGoogleTOTP C e.qr e.provider _ totpLabel _ = x at he
    cases x with
    | panic => cases he
    | ok x =>
      obtain ⟨r, rng⟩ := x
      rw [Res.ok_bind] at he
      dsimp only at he
      cases r with
      | error _ => simp only [Res.pure_eq, Res.ok.injEq, Prod.mk.injEq] at he; rw [← he.2]; exact h2
      | ok x =>
        dsimp only at he
        split at he
        · simp only [Res.pure_eq, Res.ok.injEq, Prod.mk.injEq] at he; rw [← he.2]; exact h2
        · simp only [Res.pure_eq, Res.ok.injEq, Prod.mk.injEq] at he; rw [← he.2]; exact h2

theorem register_suffix {m : Option Users} {w : World} {rest : List (Option Bytes)} (h : none :: rest <:+ w.term.answers) :
    rest <:+ (register C J e path m w).2.term.answers := by
  unfold register
  have h1 := readLine_suffix h
  generalize w.readLine = x at h1 ⊢
  obtain ⟨a, w1⟩ := x
  cases a with
  | none => exact h1.elim And.right weaken_suffix
  | some name =>
    simp only [reduceCtorEq, false_and, false_or] at h1 ⊢
    have h2 := askType_suffix h1
    generalize askType w1.term.answers = x at h2 ⊢
    obtain ⟨k, as⟩ := x
    cases k with
    | none => exact h2.elim And.right weaken_suffix
    | some k =>
      simp only [reduceCtorEq, false_and, false_or] at h2 ⊢
      generalize hw2 : ({ w1 with term := { w1.term with answers := as } } : World) = w2
      have h3 : none :: rest <:+ w2.term.answers := by rw [← hw2]; exact h2
      cases hen : enrol C e k w2 with
      | panic => exact weaken_suffix h3
      | ok x =>
        obtain ⟨o, w3⟩ := x
        have h4 := enrol_suffix C e h3 hen
        cases o with
        | none => exact h4
        | some a =>
          cases m with
          | none => exact h4
          | some m =>
            simp only [writeStore, World.save]
            split
            · rename_i hx; simp only [Prod.mk.injEq] at hx; rw [← hx.2]; exact h4
            · rename_i hx; simp only [Prod.mk.injEq] at hx; rw [← hx.2]; exact h4

/-- C150: the first read that fails is the last; whatever could have been read after it is not. -/
theorem C150_error (args : List Bytes) (fuel : Nat) (before after : List (Option Bytes)) (w w' : World) (r : Ret)
    (h : w.term.answers = before ++ none :: after) (hm : main C J e path args fuel w = some (r, w')) :
    after <:+ w'.term.answers := by
  have hs : none :: after <:+ w.term.answers := ⟨before, h.symm⟩
  have hw := weaken_suffix hs
  unfold main at hm
  cases args with
  | nil => cases hm; exact hw
  | cons cmd rest =>
    simp only at hm
    cases hl : loadStore J path w with
    | none => rw [hl] at hm; cases hm; exact hw
    | some o =>
      rw [hl] at hm
      simp only at hm
      split at hm
      · simp only [Option.some.injEq] at hm
        have := register_suffix C J e path (m := o) hs
        rw [hm] at this
        exact this
      · split at hm
        · exact loop_suffix C J e path fuel _ w r w' hs hm
        · cases hm; exact hw

/-- The input breaks off at the prompt for the type: "password" is never read. -/
example : ∃ r w', main Toy.crypto toyUsers exEnv (ascii "users.json") [ascii "register"] 9
      (exWorld [some (ascii "ann"), none, some (ascii "password"), some (ascii "pw")]) = some (r, w') ∧
    [some (ascii "password"), some (ascii "pw")] <:+ w'.term.answers := by
  obtain ⟨r, w', h⟩ := C150_ends Toy.crypto toyUsers exEnv (ascii "users.json") [ascii "register"] 9
    (exWorld [some (ascii "ann"), none, some (ascii "password"), some (ascii "pw")]) (by decide)
  exact ⟨r, w', h, C150_error Toy.crypto toyUsers exEnv (ascii "users.json") [ascii "register"] 9
    [some (ascii "ann")] [some (ascii "password"), some (ascii "pw")] _ w' r rfl h⟩

end Verif.Props.Login
