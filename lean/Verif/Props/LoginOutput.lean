import Verif.Model.LoginOutput
import Verif.Props.Login
/-! C189, C190: what the login example prints and logs. -/

namespace Verif.Props.LoginOutput
open Verif Verif.Go Verif.Model.Util Verif.Model.Auth Verif.Model.Login Verif.Model.LoginOutput
open Verif.Spec.Auth Verif.Proofs.Auth Verif.Proofs.Login Verif.Props.Login

variable (T : Texts) (C : Crypto) (J : UserJson) (e : Env) (path : Bytes)

/-! ### Which errors there are -/

theorem password_errors {a : Option Authenticator} {p : Bytes} {err : AErr}
    (he : (validatePassword C a p).err = some err) : err = .fail ∨ err = .invalidAuth := by
  unfold validatePassword at he
  repeat' split at he
  all_goals (simp only [Option.some.injEq] at he; first | (subst he; simp) | (cases he))

theorem totp_errors {a : Option Authenticator} {p : Bytes} {now : BitVec 64} {spare : Bytes} {v : VRes} {err : AErr}
    (h : validateTOTP C a p now spare = .ok v) (he : v.err = some err) :
    err = .fail ∨ err = .invalidAuth ∨ err = .badConfig := by
  unfold validateTOTP at h
  split at h
  · cases h; cases he; simp
  · split at h
    · cases h; cases he; simp
    · split at h
      · cases h; cases he; simp
      · obtain ⟨c, -, h⟩ := Res.bind_eq_ok.mp h
        cases c with
        | none => cases h; cases he; simp
        | some c =>
          obtain ⟨st, -, h⟩ := Res.bind_eq_ok.mp h
          obtain ⟨st2, -, h⟩ := Res.bind_eq_ok.mp h
          simp only at h
          split at h
          · cases h; cases he; simp
          · cases h; cases he

theorem yubi_errors {Y : Yubi} {a : Option Authenticator} {p : Bytes} {spare : Bytes} {v : VRes} {err : AErr}
    (h : validateYubiKey Y a p spare = .ok v) (he : v.err = some err) : err = .fail ∨ err = .invalidAuth := by
  unfold validateYubiKey at h
  split at h
  · cases h; cases he; simp
  · split at h
    · cases h; cases he; simp
    · split at h
      · cases h; cases he; simp
      · obtain ⟨c, -, h⟩ := Res.bind_eq_ok.mp h
        cases c with
        | none => cases h; cases he; simp
        | some c =>
          simp only at h
          split at h
          · cases h; cases he; simp
          · split at h
            · cases h; cases he; simp
            · split at h
              · cases h; cases he; simp
              · split at h
                · cases h; cases he; simp
                · cases h; cases he

theorem validate_errors {Y : Yubi} {a : Option Authenticator} {p : Bytes} {now : BitVec 64} {rng rng' : Rng} {spare : Bytes} {v : VRes}
    {err : AErr} (ha : ∀ x, a = some x → x.typ ≠ typeSession) (h : validate C Y a p now rng spare = .ok (v, rng')) (he : v.err = some err) :
    err = .fail ∨ err = .invalidAuth ∨ err = .badConfig := by
  unfold validate at h
  split at h
  · cases h; cases he; simp
  · rename_i x
    split at h
    · obtain ⟨v1, h1, h2⟩ := Res.bind_eq_ok.mp h
      cases h2
      rcases yubi_errors h1 he with h | h <;> simp [h]
    · split at h
      · obtain ⟨v1, h1, h2⟩ := Res.bind_eq_ok.mp h
        cases h2
        exact totp_errors C h1 he
      · split at h
        · exact absurd ‹_› (ha x rfl)
        · split at h
          · cases h
            rcases password_errors C he with h | h <;> simp [h]
          · cases h; cases he; simp

/-! ### C189: refusals -/

/-- What is shown of one attempt to log in and the end of the program. -/
def Attempt (text : List Piece) (message : Bytes) : Prop :=
  text = [.out (ascii "User name: "), .out (ascii "Password: "), .log message, .out (ascii "User name: ")]

theorem load_getD {w : World} {m : Users} (hs : Stored J path w.fs m) : loadStore J path w = some (some m) := hs.load

theorem text_attempt {w : World} {m : Users} (hs : Stored J path w.fs m) {a b : Bytes}
    (ha : w.term.answers = [some a, some b, some []]) (hne : trimSpace a ≠ []) {m' : Users} {w' : World}
    (ht : turn C J e path m (trimSpace a) (trimSpace b) w = (.again, m', w')) (fuel : Nat) :
    mainText T C J e path [ascii "run"] (fuel + 2) w = loginText T C J e path m w ++ [.out (ascii "User name: ")] := by
  have h1 : login C J e path m w = (.again, m', World.type w' [some []]) := by
    rw [← type_self w, ha, login_turn C J e path m w hne, turn_type, ht]
  simp only [mainText, hs.load]
  rw [if_neg (by decide), if_pos trivial, Option.getD_some, loopText, h1]
  simp only [loopText]
  rw [login_empty C J e path m' w' trimSpace_nil]
  simp only [loginText, World.readLine, World.type, Term.read, Option.map_some, trimSpace_nil, if_true, List.append_nil]

theorem text_user {w : World} {m : Users} {a b : Bytes} {rest : List (Option Bytes)} (ha : w.term.answers = some a :: some b :: rest)
    (hne : trimSpace a ≠ []) {u : User} (hm : m (trimSpace a) = some (some u)) {v : VRes} {rng : Rng} {err : AErr}
    (hv : validate C e.yubi u.auth (trimSpace b) (w.term.clock 0) w.rng e.spare = .ok (v, rng)) (he : v.err = some err) :
    loginText T C J e path m w = [.out (ascii "User name: "), .out (ascii "Password: "),
      .log (ascii "authentication failed (" ++ T.auth err (trimSpace b) ++ ascii ")")] := by
  simp only [loginText, World.readLine, Term.read, ha, Option.map_some]
  rw [if_neg hne]
  simp only [hm, attemptText, World.now, Term.now, hv, he]

/-- A user of the given kind, with an authenticator that can be read. -/
def Regular (a : Authenticator) : Prop :=
  a.typ = typePassword ∨ a.typ = typeTOTP ∧ (∃ c, parseTOTPConfig a.secret e.spare = .ok (some c)) ∨
    a.typ = typeYubiKey ∧ ∃ c, parseYubiKeyConfig a.secret e.spare = .ok (some c)

theorem regular_fails {a : Authenticator} (hr : Regular e a) {p : Bytes} {now : BitVec 64} {rng rng' : Rng} {v : VRes}
    (h : validate C e.yubi (some a) p now rng e.spare = .ok (v, rng')) (hv : v.err ≠ none) : v.err = some .fail := by
  unfold validate at h
  simp only at h
  rcases hr with ht | ⟨ht, c, hc⟩ | ⟨ht, c, hc⟩
  · rw [if_neg (by rw [ht]; decide), if_neg (by rw [ht]; decide), if_neg (by rw [ht]; decide), if_pos ht] at h
    cases h
    unfold validatePassword at hv ⊢
    simp only [ne_eq, ht, not_true_eq_false, if_false] at hv ⊢
    split at hv
    · exact absurd rfl hv
    · rw [if_neg ‹_›]
  · rw [if_neg (by rw [ht]; decide), if_pos ht] at h
    obtain ⟨v1, h1, h2⟩ := Res.bind_eq_ok.mp h
    cases h2
    unfold validateTOTP at h1
    simp only [ne_eq, ht, not_true_eq_false, if_false] at h1
    split at h1
    · cases h1; rfl
    · rw [hc, Res.ok_bind] at h1
      obtain ⟨st, -, h1⟩ := Res.bind_eq_ok.mp h1
      obtain ⟨st2, -, h1⟩ := Res.bind_eq_ok.mp h1
      split at h1
      · cases h1; rfl
      · cases h1; exact absurd rfl hv
  · rw [if_pos ht] at h
    obtain ⟨v1, h1, h2⟩ := Res.bind_eq_ok.mp h
    cases h2
    unfold validateYubiKey at h1
    simp only [ne_eq, ht, not_true_eq_false, if_false] at h1
    split at h1
    · cases h1; rfl
    · rw [hc] at h1
      simp only [Res.ok_bind] at h1
      split at h1
      · cases h1; rfl
      · split at h1
        · cases h1; rfl
        · split at h1
          · cases h1; rfl
          · split at h1
            · cases h1; rfl
            · cases h1; exact absurd rfl hv

/-- C189, what holds: users whose authenticators can be read are refused with one message, whoever they are, whatever kind of
authenticator they have and whatever was wrong. Missing: names that are not registered. -/
theorem C189_users_partial (w : World) (m : Users) (n p : Bytes) (u : User) (a : Authenticator) (v : VRes) (rng : Rng) (fuel : Nat)
    (hs : Stored J path w.fs m) (ha : w.term.answers = [some n, some p, some []]) (hne : trimSpace n ≠ [])
    (hm : m (trimSpace n) = some (some u)) (hu : u.auth = some a) (hr : Regular e a)
    (hv : validate C e.yubi u.auth (trimSpace p) (w.term.clock 0) w.rng e.spare = .ok (v, rng)) (herr : v.err ≠ none) :
    Attempt (mainText T C J e path [ascii "run"] (fuel + 2) w) (ascii "authentication failed (auth: authentication failed)") := by
  have hf : v.err = some .fail := regular_fails C e hr (by rw [← hu]; exact hv) herr
  have hc := turn_cases C J e path m (trimSpace n) (trimSpace p) w
  have ht : ∃ m' w', turn C J e path m (trimSpace n) (trimSpace p) w = (.again, m', w') := by
    unfold turn
    simp only [hm, attempt, World.now, Term.now, hv]
    rw [if_pos herr]
    exact ⟨_, _, rfl⟩
  obtain ⟨m', w', ht⟩ := ht
  unfold Attempt
  rw [text_attempt T C J e path hs ha hne ht fuel, text_user T C J e path ha hne hm hv hf, T.fail]
  rfl

/-- C189 is false: the message for a name that is not registered is another one, so that anybody can find out who is. -/
theorem C189_unknown_violated (w : World) (m : Users) (n p : Bytes) (fuel : Nat) (hs : Stored J path w.fs m)
    (ha : w.term.answers = [some n, some p, some []]) (hne : trimSpace n ≠ []) (hm : m (trimSpace n) = none) :
    Attempt (mainText T C J e path [ascii "run"] (fuel + 2) w) (ascii "authentication failed (no such user)") ∧
    ¬ Attempt (mainText T C J e path [ascii "run"] (fuel + 2) w) (ascii "authentication failed (auth: authentication failed)") := by
  have h : Attempt (mainText T C J e path [ascii "run"] (fuel + 2) w) (ascii "authentication failed (no such user)") := by
    unfold Attempt
    rw [text_attempt T C J e path hs ha hne (m' := m) (w' := w.say .failed) (by simp [turn, hm]) fuel]
    simp only [loginText, World.readLine, Term.read, ha, Option.map_some]
    rw [if_neg hne]
    simp only [hm]
    rfl
  refine ⟨h, fun h' => ?_⟩
  have := h.symm.trans h'
  simp only [List.cons.injEq, Piece.log.injEq, true_and, and_true] at this
  revert this; decide

/-- Bob is not registered; Ann is, and mistypes the password. -/
example : (Map.empty : Users) (trimSpace (ascii "bob")) = none ∧ Regular exEnv { typ := typePassword, secret := [1] } ∧
    Stored toyUsers (ascii "s") (exWorld [some (ascii "bob"), some [1], some []]).fs Map.empty :=
  ⟨rfl, .inl rfl, .inl ⟨rfl, rfl⟩⟩

/-! ### C190: no passwords -/

/-- All that is ever printed or logged while users log in. -/
def runTexts : List Piece :=
  [.out (ascii "User name: "), .out (ascii "Password: "), .log (ascii "authentication successful"),
   .log (ascii "authentication failed (no such user)"), .log (ascii "authentication failed (auth: authentication failed)"),
   .log (ascii "authentication failed (auth: invalid authenticator)"),
   .log (ascii "authentication failed (auth: invalid TOTP configuration)"), .log T.error]

def NoSessions (m : Users) : Prop := ∀ k u a, m k = some (some u) → u.auth = some a → a.typ ≠ typeSession

theorem attempt_texts {m : Users} {n p : Bytes} {u : User} (hu : ∀ a, u.auth = some a → a.typ ≠ typeSession) (w : World) :
    ∀ x ∈ attemptText T C J e path m n u p w, x ∈ runTexts T := by
  intro x hx
  unfold attemptText at hx
  simp only at hx
  split at hx
  · cases hx
  · rename_i v rng hv
    split at hx
    · rename_i err he
      rw [List.mem_singleton] at hx
      rcases validate_errors C hu hv he with h | h | h <;> subst h hx
      · rw [T.fail]; simp [runTexts, ascii]
      · rw [T.invalid]; simp [runTexts, ascii]
      · rw [T.config]; simp [runTexts, ascii]
    · split at hx
      · split at hx <;> (rw [List.mem_singleton] at hx; subst hx; simp [runTexts])
      · rw [List.mem_singleton] at hx; subst hx; simp [runTexts]

theorem login_texts {m : Users} (hm : NoSessions m) (w : World) : ∀ x ∈ loginText T C J e path m w, x ∈ runTexts T := by
  intro x hx
  unfold loginText at hx
  rcases List.mem_cons.1 hx with rfl | hx
  · simp [runTexts]
  split at hx
  · rw [List.mem_singleton] at hx; subst hx; simp [runTexts]
  · split at hx
    · cases hx
    · rcases List.mem_cons.1 hx with rfl | hx
      · simp [runTexts]
      · split at hx
        · rw [List.mem_singleton] at hx; subst hx; simp [runTexts]
        · split at hx
          · rw [List.mem_singleton] at hx; subst hx; simp [runTexts]
          · cases hx
          · exact attempt_texts T C J e path (fun a => hm _ _ a ‹_›) _ x hx

theorem turn_sessions {m : Users} (hm : NoSessions m) {n p : Bytes} {w : World} {r : Ret} {m' : Users} {w' : World}
    (h : turn C J e path m n p w = (r, m', w')) : NoSessions m' := by
  have hset : ∀ (u : User) (a : Authenticator) (l s : Bytes), m n = some (some u) → u.auth = some a →
      NoSessions (m.set n (some { u with auth := some { a with last := l, secret := s } })) := by
    intro u a l s h1 h2 k u' a' hk ha'
    by_cases hkn : k = n
    · subst hkn
      rw [Map.set_same] at hk
      cases hk
      cases ha'
      exact hm k u a h1 h2
    · rw [Map.set_other _ _ hkn] at hk
      exact hm k u' a' hk ha'
  have hc := turn_cases C J e path m n p w
  rw [h] at hc
  cases hc with
  | unknown => exact hm
  | nobody => exact hm
  | panic => exact hm
  | refused => exact hm
  | password => exact hm
  | updated u a l s rng h1 h2 => exact hset u a l s h1 h2
  | torn u a l s rng h1 h2 => exact hset u a l s h1 h2

theorem loop_texts : ∀ (fuel : Nat) (m : Users) (w : World), NoSessions m → ∀ x ∈ loopText T C J e path fuel m w, x ∈ runTexts T := by
  intro fuel
  induction fuel with
  | zero => intro m w _ x hx; cases hx
  | succ n ih =>
    intro m w hm x hx
    unfold loopText at hx
    rcases List.mem_append.1 hx with hx | hx
    · exact login_texts T C J e path hm w x hx
    · split at hx
      · rename_i m1 w1 hl
        refine ih m1 w1 ?_ x hx
        rcases login_cases C J e path m w with ⟨a, rest, -, -, h3⟩ | ⟨a, b, rest, -, -, h3⟩ | ⟨rest, h3⟩
        · rw [h3] at hl; cases hl
        · rw [h3] at hl
          exact turn_sessions C J e path hm hl
        · rw [h3] at hl; cases hl
      · cases hx

/-- While users log in, nothing but fixed texts is printed or logged: no name, password, code or key. -/
theorem C190_run (w : World) (fuel : Nat)
    (hm : ∀ b m, w.fs path = some b → J.dec b = some (some m) → NoSessions m) :
    ∀ x ∈ mainText T C J e path [ascii "run"] fuel w, x ∈ runTexts T := by
  intro x hx
  unfold mainText at hx
  simp only at hx
  split at hx
  · rw [List.mem_singleton] at hx; subst hx; simp [runTexts]
  · rename_i o ho
    rw [if_neg (by decide), if_pos trivial] at hx
    refine loop_texts T C J e path fuel _ w ?_ x hx
    unfold loadStore at ho
    cases hf : w.fs path with
    | none =>
      rw [hf] at ho
      cases ho
      intro k u a h; cases h
    | some b =>
      rw [hf] at ho
      cases o with
      | none => intro k u a h; cases h
      | some m => exact hm b m hf ho

theorem ask_text {junk : List Bytes} {t : Bytes} {k : Method} (hk : method (trimSpace t) = some k) (rest : List (Option Bytes))
    (hj : ∀ j ∈ junk, method (trimSpace j) = none) :
    askType (junk.map some ++ some t :: rest) = (some k, rest) ∧
    askTypeText T (junk.map some ++ some t :: rest) =
      (junk.map fun j => [Piece.out (ascii "Authentication type: "),
        Piece.out (trimSpace j ++ ascii " isn't a supported authentication type." ++ [10])]).flatten ++ [.out (ascii "Authentication type: ")] := by
  induction junk with
  | nil => simp [askType, askTypeText, hk]
  | cons j js ih =>
    obtain ⟨h1, h2⟩ := ih (fun x hx => hj x (List.mem_cons_of_mem _ hx))
    have hj := hj j (List.mem_cons_self ..)
    constructor
    · simp only [List.map_cons, List.cons_append, askType, hj, h1]
    · simp only [List.map_cons, List.cons_append, askTypeText, hj, h2, List.flatten_cons, List.nil_append]

theorem method_none {t : Bytes} (h : trimSpace t ≠ ascii "password" ∧ trimSpace t ≠ ascii "TOTP") : method (trimSpace t) = none := by
  unfold method
  rw [if_neg (by rw [show typePassword = ascii "password" by decide]; exact h.1),
    if_neg (by rw [show typeTOTP = ascii "TOTP" by decide]; exact h.2)]

/-- What is printed and logged when a password is registered: the name and answers that are no types, but not the password. -/
theorem C190_password (w : World) (m : Users) (n t p salt : Bytes) (junk : List Bytes) (fuel : Nat) (rest : List (Option Bytes))
    (hs : Stored J path w.fs m) (ha : w.term.answers = some n :: (junk.map some ++ some t :: some p :: rest))
    (hj : ∀ j ∈ junk, trimSpace j ≠ ascii "password" ∧ trimSpace j ≠ ascii "TOTP") (ht : trimSpace t = ascii "password")
    (hp : p.length ≤ 72) (hsalt : w.salts 0 = some salt) :
    mainText T C J e path [ascii "register"] fuel w =
      [.out (ascii "Login name: "), .out (ascii "Supported authentication types:\n"), .out (ascii "\tpassword\n"),
       .out (ascii "\tyubikey\n"), .out (ascii "\tTOTP\n")] ++
      (junk.map fun j => [Piece.out (ascii "Authentication type: "),
        Piece.out (trimSpace j ++ ascii " isn't a supported authentication type.\n")]).flatten ++
      [.out (ascii "Authentication type: "),
       .log (if w.writes 0 = .done then ascii "registered " ++ trimSpace n else T.error)] := by
  obtain ⟨h1, h2⟩ := ask_text T (k := .password) (by rw [ht]; decide) (some p :: rest) (fun j h => method_none (hj j h))
  simp only [mainText, hs.load]
  rw [if_pos trivial, registerText]
  simp only [World.readLine, Term.read, ha, Option.map_some, h1, h2, regPasswordText, enrol, regPassword, World.readPass,
    hsalt, newPasswordAuth]
  rw [if_neg (by omega)]
  simp only [writeStore, World.save]
  have e1 : ascii " isn't a supported authentication type." ++ [10] = ascii " isn't a supported authentication type.\n" := by decide
  have e2 : ascii "Supported authentication types:" ++ [10] = ascii "Supported authentication types:\n" := by decide
  have e3 : (supported.map fun t => Piece.out ([9] ++ t ++ [10])) =
    [.out (ascii "\tpassword\n"), .out (ascii "\tyubikey\n"), .out (ascii "\tTOTP\n")] := by decide
  rw [e3]
  simp only [List.append_assoc, e1, e2]
  cases hw : w.writes 0 <;> simp [Go.writeFile]

/-- When a TOTP key is registered, it is shown once, and nothing else about the user but the name. -/
theorem C190_totp (w : World) (m : Users) (n t png : Bytes) (fuel : Nat) (rest : List (Option Bytes))
    (hs : Stored J path w.fs m) (ha : w.term.answers = some n :: some t :: rest) (ht : trimSpace t = ascii "TOTP")
    (hl : e.provider.length < 2 ^ 31 - 71) (hr : 20 ≤ w.rng.length)
    (hq : e.qr (google e.provider (w.rng.take 20)) (ascii "common-auth example login") = some png)
    (hw : w.writes 0 = .done) (hw1 : w.writes 1 = .done) :
    mainText T C J e path [ascii "register"] fuel w =
      [.out (ascii "Login name: "), .out (ascii "Supported authentication types:\n"), .out (ascii "\tpassword\n"),
       .out (ascii "\tyubikey\n"), .out (ascii "\tTOTP\n"), .out (ascii "Authentication type: "),
       .log (ascii "Google Authenticator TOTP key: " ++ b32Encode (w.rng.take 20)),
       .log (ascii "wrote Google Authenticator PNG QR code to qr.png"), .log (ascii "registered " ++ trimSpace n)] := by
  obtain ⟨h1, h2⟩ := ask_text T (junk := []) (k := .totp) (t := t) (by rw [ht]; decide) rest (fun j h => by cases h)
  simp only [List.map_nil, List.nil_append, List.flatten_nil] at h1 h2
  simp only [mainText, hs.load]
  rw [if_pos trivial, registerText]
  simp only [World.readLine, Term.read, ha, Option.map_some, h1, h2, regTOTPText, enrol, regTOTP, World.now, Term.now]
  rw [newGoogleTOTP_eq C hl hr (by decide), show totpLabel = ascii "common-auth example login" by rfl, hq]
  simp only [Res.ok_bind, World.save, hw, Go.writeFile, World.say, writeStore, Nat.zero_add, Res.pure_eq, Bool.not_true,
    Bool.false_eq_true, if_false, hw1]
  have e3 : (supported.map fun t => Piece.out ([9] ++ t ++ [10])) =
    [.out (ascii "\tpassword\n"), .out (ascii "\tyubikey\n"), .out (ascii "\tTOTP\n")] := by decide
  rw [e3]
  rfl

/-- Ann registers with a password, after asking for something else; and for codes. -/
example : (exWorld [some (ascii "ann"), some (ascii "none"), some (ascii "password"), some [112]]).term.answers =
    some (ascii "ann") :: ([ascii "none"].map some ++ some (ascii "password") :: some [112] :: []) ∧
    (∀ j ∈ [ascii "none"], trimSpace j ≠ ascii "password" ∧ trimSpace j ≠ ascii "TOTP") ∧
    trimSpace (ascii "password") = ascii "password" ∧ trimSpace (ascii "TOTP") = ascii "TOTP" ∧ exEnv.provider.length < 2 ^ 31 - 71 :=
  ⟨rfl, by decide, by decide, by decide, by decide⟩

/-- A file that is missing has no users of type session. -/
example : ∀ b m, (exWorld []).fs [115] = some b → toyUsers.dec b = some (some m) → NoSessions m := fun b m h => by cases h

/-- Texts as they are, those of encoding/hex apart. -/
def exTexts : Texts where
  auth
    | .fail, _ => ascii "auth: authentication failed"
    | .invalidAuth, _ => ascii "auth: invalid authenticator"
    | .badConfig, _ => ascii "auth: invalid TOTP configuration"
    | .prng, _ => ascii "auth: PRNG failure"
    | _, p => p
  fail _ := rfl
  invalid _ := rfl
  config _ := rfl
  prng _ := rfl
  error := ascii "EOF"

end Verif.Props.LoginOutput
