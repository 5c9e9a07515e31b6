import Verif.Props.Login
/-! C246: what the login program keeps of a password. -/

namespace Verif.Props.LoginHash
open Verif Verif.Go Verif.Model.Util Verif.Model.Auth Verif.Model.Login
open Verif.Spec.Auth Verif.Proofs.Auth Verif.Proofs.Login Verif.Proofs.Strings Verif.Props.Login

variable (C : Crypto) (J : UserJson) (e : Env) (path : Bytes)

theorem askType_junk {junk : List Bytes} (hj : ∀ x ∈ junk, trimSpace x ≠ ascii "password" ∧ trimSpace x ≠ ascii "TOTP") {t : Bytes}
    (ht : trimSpace t = ascii "password") (as : List (Option Bytes)) : askType (junk.map some ++ some t :: as) = (some .password, as) := by
  induction junk with
  | nil => simp [askType, ht, show method (ascii "password") = some .password by decide]
  | cons j js ih =>
    have h : method (trimSpace j) = none := by
      obtain ⟨h1, h2⟩ := hj j (by simp)
      unfold method
      rw [if_neg (by rw [show typePassword = ascii "password" by decide]; exact h1),
        if_neg (by rw [show typeTOTP = ascii "TOTP" by decide]; exact h2)]
    simp only [List.map_cons, List.cons_append, askType, h]
    exact ih (fun x hx => hj x (by simp [hx]))

/-- C246: nothing that comes of a registration, in files, messages and status, depends on the password
but by its hash and by whether it is too long for bcrypt. -/
theorem C246_registered (w : World) (args : List Bytes) (fuel : Nat) (n t p q : Bytes) (junk : List Bytes) (rest : List (Option Bytes))
    (hj : ∀ x ∈ junk, trimSpace x ≠ ascii "password" ∧ trimSpace x ≠ ascii "TOTP") (ht : trimSpace t = ascii "password")
    (hl : p.length ≤ 72 ↔ q.length ≤ 72) (hh : ∀ salt, w.salts 0 = some salt → C.bcryptHash p salt 14 = C.bcryptHash q salt 14) :
    (main C J e path (ascii "register" :: args) fuel (World.type w (some n :: (junk.map some ++ some t :: some p :: rest)))).map
      (fun x => (x.1, x.2.fs, x.2.log)) =
    (main C J e path (ascii "register" :: args) fuel (World.type w (some n :: (junk.map some ++ some t :: some q :: rest)))).map
      (fun x => (x.1, x.2.fs, x.2.log)) := by
  have hpw : newPasswordAuth C p 0 (w.salts 0) = newPasswordAuth C q 0 (w.salts 0) := by
    unfold newPasswordAuth
    simp only [true_or, if_true, show (14 : Int).toNat = 14 from rfl]
    by_cases hp : p.length > 72
    · rw [if_pos hp, if_pos (by have := mt hl.mpr (by omega); omega)]
    · rw [if_neg hp, if_neg (by have := hl.mp (by omega); omega)]
      cases hs : w.salts 0 with
      | none => rfl
      | some salt => simp only [hh salt hs]
  have key : ∀ m, register C J e path m (World.type w (some n :: (junk.map some ++ some t :: some p :: rest))) =
      register C J e path m (World.type w (some n :: (junk.map some ++ some t :: some q :: rest))) := by
    intro m
    simp only [register, World.readLine, Term.read, World.type, Option.map_some, askType_junk hj ht, enrol, regPassword, World.readPass, hpw]
    cases newPasswordAuth C q 0 (w.salts 0) <;> rfl
  simp only [main, if_true]
  rw [show loadStore J path (World.type w (some n :: (junk.map some ++ some t :: some p :: rest))) =
    loadStore J path (World.type w (some n :: (junk.map some ++ some t :: some q :: rest))) from rfl]
  cases loadStore J path (World.type w (some n :: (junk.map some ++ some t :: some q :: rest))) with
  | none => rfl
  | some m => simp only [key]

/-- C246: a user who registers with a password has, in the file, its hash by bcrypt with cost 14 and
the salt that bcrypt has drawn for it, and nothing else. -/
theorem C246_hash (w w1 : World) (m : Users) (args : List Bytes) (n t p : Bytes) (junk : List Bytes) (rest : List (Option Bytes)) (fuel : Nat)
    (hst : Stored J path w.fs m) (hn : ValidUtf8 n)
    (hj : ∀ x ∈ junk, trimSpace x ≠ ascii "password" ∧ trimSpace x ≠ ascii "TOTP") (ht : trimSpace t = ascii "password")
    (h : main C J e path (ascii "register" :: args) fuel (World.type w (some n :: (junk.map some ++ some t :: some p :: rest))) = some (.stop, w1)) :
    ∃ salt m1, w.salts 0 = some salt ∧ Stored J path w1.fs m1 ∧ (∀ k, k ≠ trimSpace n → m1 k = m k) ∧
      m1 (trimSpace n) = some (some { name := trimSpace n, auth := some { typ := ascii "password", secret := C.bcryptHash p salt 14 } }) := by
  have e0 : ascii "password" = typePassword := by decide
  have hv := valid_trimSpace hn
  simp only [main, if_true, Stored.load (w := World.type w (some n :: (junk.map some ++ some t :: some p :: rest))) J path hst, Option.some.injEq] at h
  simp only [register, World.readLine, Term.read, World.type, Option.map_some, askType_junk hj ht, enrol, regPassword, World.readPass, newPasswordAuth,
    true_or, if_true, show (14 : Int).toNat = 14 from rfl] at h
  by_cases hp : p.length > 72
  · rw [if_pos hp] at h; simp at h
  rw [if_neg hp] at h
  cases hs : w.salts 0 with
  | none => rw [hs] at h; simp at h
  | some salt =>
    rw [hs] at h
    cases hw : w.writes 0 with
    | openFails => simp [writeStore, World.save, Go.writeFile, hw] at h
    | failsAfter k => simp [writeStore, World.save, Go.writeFile, hw] at h
    | done =>
      simp [writeStore, World.save, Go.writeFile, hw, World.say] at h
      refine ⟨salt, _, rfl, .inr ⟨_, by rw [← h]; exact Fs.set_same _ _ _, dec_enc_eq J (hst.synced.1.set _ _) (utf8_set hst.synced.2.1 hv hv ?_)⟩,
        fun k hk => Map.set_other _ _ hk, by rw [Map.set_same, e0]⟩
      intro a h
      cases h
      exact ⟨valid_typePassword, valid_nil, valid_nil⟩

/-- Validating the password of somebody who has one. -/
theorem validate_pass {a : Authenticator} (h : a.typ = typePassword) (Y : Yubi) (p : Bytes) (now : BitVec 64) (rng : Rng) (spare : Bytes) :
    validate C Y (some a) p now rng spare = .ok (⟨some a, false, if C.bcryptMatch a.secret p then none else some .fail⟩, rng) := by
  unfold validate
  simp only [h]
  rw [if_neg (by decide), if_neg (by decide), if_neg (by decide), if_pos trivial]
  simp only [validatePassword, h]
  cases C.bcryptMatch a.secret p <;> simp

/-- C246: of what is typed to log in with a password, the program uses only whether bcrypt accepts it
for the hash. -/
theorem C246_tried (w : World) (m : Users) (args : List Bytes) (fuel : Nat) (n p q : Bytes) (rest : List (Option Bytes)) (u : User) (a : Authenticator)
    (hst : Stored J path w.fs m) (hn : trimSpace n ≠ []) (hu : m (trimSpace n) = some (some u)) (ha : u.auth = some a) (hty : a.typ = ascii "password")
    (hb : C.bcryptMatch a.secret (trimSpace p) = C.bcryptMatch a.secret (trimSpace q)) :
    main C J e path (ascii "run" :: args) fuel (World.type w (some n :: some p :: rest)) =
    main C J e path (ascii "run" :: args) fuel (World.type w (some n :: some q :: rest)) := by
  have hty' : a.typ = typePassword := hty.trans (by decide)
  have key : login C J e path m (World.type w (some n :: some p :: rest)) = login C J e path m (World.type w (some n :: some q :: rest)) := by
    simp only [login, World.readLine, Term.read, World.type, Option.map_some, if_neg hn, hu, attempt, World.now, Term.now, ha, validate_pass C hty', hb]
  simp only [main, Stored.load (w := World.type w (some n :: some p :: rest)) J path hst, Stored.load (w := World.type w (some n :: some q :: rest)) J path hst]
  rw [if_neg (by decide), if_pos trivial]
  cases fuel with
  | zero => rfl
  | succ k => simp only [Option.getD_some, loop, key]; rw [if_neg (by decide), if_pos trivial]

/-- Everybody logs in with a password. -/
def AllPasswords (m : Users) : Prop := ∀ n u, m n = some (some u) → ∃ a, u.auth = some a ∧ a.typ = ascii "password"

theorem login_files {m : Users} {w : World} (hm : AllPasswords m) {r : Ret} {m' : Users} {w' : World} (h : login C J e path m w = (r, m', w')) :
    w'.fs = w.fs ∧ w'.rng = w.rng ∧ AllPasswords m' := by
  unfold login at h
  simp only [World.readLine, Term.read] at h
  cases hans : w.term.answers with
  | nil => simp only [hans] at h; cases h; exact ⟨rfl, rfl, hm⟩
  | cons x as =>
    simp only [hans] at h
    cases x with
    | none => cases h; exact ⟨rfl, rfl, hm⟩
    | some n =>
      simp only [Option.map_some] at h
      by_cases hn : trimSpace n = []
      · rw [if_pos hn] at h; cases h; exact ⟨rfl, rfl, hm⟩
      rw [if_neg hn] at h
      cases as with
      | nil => cases h; exact ⟨rfl, rfl, hm⟩
      | cons y as =>
        cases y with
        | none => cases h; exact ⟨rfl, rfl, hm⟩
        | some p =>
          simp only [Option.map_some] at h
          cases hu : m (trimSpace n) with
          | none => rw [hu] at h; cases h; exact ⟨rfl, rfl, hm⟩
          | some o =>
            cases o with
            | none => rw [hu] at h; cases h; exact ⟨rfl, rfl, hm⟩
            | some u =>
              rw [hu] at h
              obtain ⟨a, ha, hty⟩ := hm _ _ hu
              have hty' : a.typ = typePassword := hty.trans (by decide)
              have hset : AllPasswords (m.set (trimSpace n) (some { u with auth := some a })) := by
                intro k v hk
                by_cases hkn : k = trimSpace n
                · subst hkn; rw [Map.set_same] at hk; cases hk; exact ⟨a, rfl, hty⟩
                · rw [Map.set_other _ _ hkn] at hk; exact hm k v hk
              simp only [attempt, World.now, Term.now, ha, validate_pass C hty'] at h
              cases hb : C.bcryptMatch a.secret (trimSpace p) <;> simp [hb, World.say] at h <;> obtain ⟨-, rfl, rfl⟩ := h <;> exact ⟨rfl, rfl, hset⟩

/-- C246: where everybody has a password, logging in, whether it succeeds or not, writes no file. -/
theorem C246_unwritten (w w' : World) (m : Users) (args : List Bytes) (fuel : Nat) (r : Ret) (hst : Stored J path w.fs m)
    (hm : ∀ n u, m n = some (some u) → ∃ a, u.auth = some a ∧ a.typ = ascii "password")
    (h : main C J e path (ascii "run" :: args) fuel w = some (r, w')) : w'.fs = w.fs := by
  simp only [main, Stored.load J path hst] at h
  rw [if_neg (by decide), if_pos trivial] at h
  simp only [Option.getD_some] at h
  clear hst
  induction fuel generalizing m w with
  | zero => cases h
  | succ k ih =>
    simp only [loop] at h
    cases hl : login C J e path m w with
    | mk r1 x =>
      obtain ⟨m1, w1⟩ := x
      obtain ⟨g1, -, g2⟩ := login_files C J e path hm hl
      rw [hl] at h
      cases r1 with
      | again => exact (ih w1 m1 g2 h).trans g1
      | stop => cases h; exact g1
      | fatal => cases h; exact g1
      | panic => cases h; exact g1

/-- A bcrypt that looks at a password up to its first zero only. -/
def cut : Crypto :=
  { Toy.crypto with
    bcryptHash := fun pw s c => UInt8.ofNat c :: (Toy.pad 16 s ++ pw.takeWhile (· != 0))
    bcryptMatch := fun h pw => h.drop 17 == pw.takeWhile (· != 0)
    bcrypt_match := by intro pw s c; simp [List.drop_left' (Toy.pad_length 16 s)] }

/-- With it, all that is stored when ann registers with "pw", after asking for a YubiKey, is stored
when they register with "pw", a zero and more. -/
example : (main cut toyUsers exEnv (ascii "s") [ascii "register"] 1
      (exWorld [some (ascii "ann"), some (ascii "yubikey"), some (ascii "password"), some (ascii "pw")])).map (fun x => (x.1, x.2.fs, x.2.log)) =
    (main cut toyUsers exEnv (ascii "s") [ascii "register"] 1
      (exWorld [some (ascii "ann"), some (ascii "yubikey"), some (ascii "password"), some (ascii "pw" ++ [0, 55])])).map (fun x => (x.1, x.2.fs, x.2.log)) :=
  C246_registered cut toyUsers exEnv (ascii "s") (exWorld []) [] 1 (ascii "ann") (ascii "password") (ascii "pw") (ascii "pw" ++ [0, 55]) [ascii "yubikey"] []
    (by decide) (by decide) (by decide) (fun salt h => by
      have : (ascii "pw").takeWhile (· != 0) = (ascii "pw" ++ [0, 55]).takeWhile (· != 0) := by decide
      show _ :: (Toy.pad 16 salt ++ (ascii "pw").takeWhile (· != 0)) = _
      rw [this]; rfl)

/-- Ann registers, and their hash is in the file; then they log in with one wrong password or
another, and the file is as it was. -/
example : ∃ w1 m1 u a, main Toy.crypto toyUsers exEnv (ascii "s") [ascii "register"] 1
      (exWorld [some (ascii "ann"), some (ascii "password"), some (ascii "pw")]) = some (.stop, w1) ∧
    Stored toyUsers (ascii "s") w1.fs m1 ∧ m1 (ascii "ann") = some (some u) ∧ u.auth = some a ∧ a.typ = ascii "password" ∧
    Toy.crypto.bcryptMatch a.secret (trimSpace (ascii "x")) = Toy.crypto.bcryptMatch a.secret (trimSpace (ascii "y")) := by
  obtain ⟨w1, h, -⟩ := C143_password_partial Toy.crypto toyUsers exEnv (ascii "s")
    (exWorld [some (ascii "ann"), some typePassword, some (ascii "pw")]) Map.empty (ascii "ann") (ascii "pw") [1] 1
    (.inl ⟨rfl, rfl⟩) rfl (by decide) (by decide) (by decide) rfl rfl
  have e0 : ascii "password" = typePassword := by decide
  rw [← e0] at h
  obtain ⟨salt, m1, h1, h2, -, h3⟩ := C246_hash Toy.crypto toyUsers exEnv (ascii "s") (exWorld []) w1 Map.empty [] (ascii "ann") (ascii "password") (ascii "pw") [] [] 1
    (.inl ⟨rfl, rfl⟩) (by decide) (by simp) (by decide) h
  have e1 : trimSpace (ascii "ann") = ascii "ann" := by decide
  rw [e1] at h3
  have e2 : salt = [1] := by cases h1; rfl
  subst e2
  exact ⟨w1, m1, _, _, h, h2, h3, rfl, rfl, by decide⟩

/-- Ann, who has a password, tries a wrong one, then the right one, and leaves. -/
example : ∃ m u, Stored toyUsers (ascii "s") (Fs.set (fun _ => none) (ascii "s") (toyUsers.enc m)) m ∧ m (ascii "ann") = some (some u) ∧
    (∀ n u, m n = some (some u) → ∃ a, u.auth = some a ∧ a.typ = ascii "password") ∧
    ∃ w', main Toy.crypto toyUsers exEnv (ascii "s") [ascii "run"] 3
        { exWorld [some (ascii "ann"), some (ascii "x"), some (ascii "ann"), some (ascii "pw"), some []] with
          fs := Fs.set (fun _ => none) (ascii "s") (toyUsers.enc m) } = some (.stop, w') ∧
      w'.log = [.failed, .successful] ∧ w'.fs = Fs.set (fun _ => none) (ascii "s") (toyUsers.enc m) := by
  have hu : Users.Utf8 (Map.set Map.empty (ascii "ann") (some { name := ascii "ann", auth := some { typ := typePassword, secret := Toy.crypto.bcryptHash (ascii "pw") [1] 14 } })) :=
    utf8_set (fun k v h => by cases h) (by decide) (by decide) (fun a h => by cases h; exact ⟨valid_typePassword, valid_nil, valid_nil⟩)
  have hf : Map.Finite (Map.set Map.empty (ascii "ann") (some ({ name := ascii "ann", auth := some { typ := typePassword, secret := Toy.crypto.bcryptHash (ascii "pw") [1] 14 } } : User))) :=
    Map.Finite.set ⟨[], fun k h => absurd rfl h⟩ _ _
  have hst : Stored toyUsers (ascii "s") (Fs.set (fun _ => none) (ascii "s") (toyUsers.enc (Map.set Map.empty (ascii "ann") (some { name := ascii "ann", auth := some { typ := typePassword, secret := Toy.crypto.bcryptHash (ascii "pw") [1] 14 } })))) _ :=
    .inr ⟨_, Fs.set_same _ _ _, dec_enc_eq toyUsers hf hu⟩
  have hall : AllPasswords (Map.set Map.empty (ascii "ann") (some ({ name := ascii "ann", auth := some { typ := typePassword, secret := Toy.crypto.bcryptHash (ascii "pw") [1] 14 } } : User))) := by
    intro k v hk
    by_cases hkn : k = ascii "ann"
    · subst hkn; rw [Map.set_same] at hk; cases hk; exact ⟨_, rfl, by decide⟩
    · rw [Map.set_other _ _ hkn] at hk; cases hk
  refine ⟨_, _, hst, Map.set_same _ _ _, hall, ?_⟩
  have e1 : trimSpace (ascii "ann") = ascii "ann" := by decide
  have e2 : trimSpace (ascii "x") = ascii "x" := by decide
  have e3 : trimSpace (ascii "pw") = ascii "pw" := by decide
  have e4 : ascii "ann" ≠ [] := by decide
  have b1 : Toy.crypto.bcryptMatch (Toy.crypto.bcryptHash (ascii "pw") [1] 14) (ascii "x") = false := by decide
  have b2 : Toy.crypto.bcryptMatch (Toy.crypto.bcryptHash (ascii "pw") [1] 14) (ascii "pw") = true := by decide
  have e5 : trimSpace [] = [] := by decide
  have key : ∃ w', main Toy.crypto toyUsers exEnv (ascii "s") [ascii "run"] 3
        { exWorld [some (ascii "ann"), some (ascii "x"), some (ascii "ann"), some (ascii "pw"), some []] with
          fs := Fs.set (fun _ => none) (ascii "s") (toyUsers.enc (Map.set Map.empty (ascii "ann") (some { name := ascii "ann", auth := some { typ := typePassword, secret := Toy.crypto.bcryptHash (ascii "pw") [1] 14 } }))) } = some (.stop, w') ∧
      w'.log = [.failed, .successful] := by
    simp only [main, Stored.load (w := { exWorld [some (ascii "ann"), some (ascii "x"), some (ascii "ann"), some (ascii "pw"), some []] with
          fs := Fs.set (fun _ => none) (ascii "s") (toyUsers.enc (Map.set Map.empty (ascii "ann") (some { name := ascii "ann", auth := some { typ := typePassword, secret := Toy.crypto.bcryptHash (ascii "pw") [1] 14 } }))) }) toyUsers (ascii "s") hst]
    rw [if_neg (by decide), if_pos trivial]
    simp [loop, login, World.readLine, Term.read, exWorld, World.type, e1, e2, e3, e4, e5, Map.set_same, attempt, World.now, Term.now, validate_pass Toy.crypto, b1, b2, World.say]
  obtain ⟨w', h1, h2⟩ := key
  exact ⟨w', h1, h2, C246_unwritten Toy.crypto toyUsers exEnv (ascii "s") _ w' _ [] 3 .stop hst hall h1⟩

end Verif.Props.LoginHash
