import Verif.Model.Login
import Verif.Proofs.Auth
import Verif.Proofs.Strings
import Verif.Proofs.ToyJson
/-! Lemmas about common/auth/examples/login. -/

namespace Verif.Proofs.Login
open Verif Verif.Go Verif.Model.Util Verif.Model.Auth Verif.Model.Login
open Verif.Model.SecretStore (MapSan OptRel)
open Verif.Spec.Auth Verif.Proofs.Auth

/-! ### JSON -/

theorem authSan_eq {a a' : Authenticator} (h : AuthSan a a') (h1 : ValidUtf8 a.typ) (h2 : ValidUtf8 a.label)
    (h3 : ValidUtf8 a.last) : a' = a := by
  obtain ⟨e1, e2, e3, e4⟩ := h
  obtain ⟨t, l, x, s⟩ := a
  obtain ⟨t', l', x', s'⟩ := a'
  simp only at e1 e2 e3 e4 h1 h2 h3
  subst e1 e2 e3 e4
  rw [h1, h2, h3]

theorem userSan_eq {u u' : User} (h : UserSan u u') (hn : ValidUtf8 u.name)
    (ha : ∀ a, u.auth = some a → ValidUtf8 a.typ ∧ ValidUtf8 a.label ∧ ValidUtf8 a.last) : u' = u := by
  obtain ⟨e1, e2⟩ := h
  obtain ⟨n, a⟩ := u
  obtain ⟨n', a'⟩ := u'
  simp only at e1 e2 hn ha
  subst e1
  rw [hn]
  cases a with
  | none => cases a' with
    | none => rfl
    | some => simp [OptRel] at e2
  | some a => cases a' with
    | none => simp [OptRel] at e2
    | some a' =>
      obtain ⟨h1, h2, h3⟩ := ha a rfl
      rw [authSan_eq (a := a) (a' := a') (by simpa [OptRel] using e2) h1 h2 h3]

/-- A store whose strings are UTF-8 comes back as it was. -/
theorem mapSan_eq {m m' : Users} (h : MapSan (OptRel UserSan) m m') (hu : Users.Utf8 m) : m' = m := by
  funext k
  cases hk : m k with
  | none =>
    cases hk' : m' k with
    | none => rfl
    | some v =>
      obtain ⟨q, h1, h2⟩ := h.2 k (by simp [hk'])
      obtain ⟨v, hv⟩ := Option.ne_none_iff_exists'.mp h1
      rw [show sanitise q = q from (hu q v hv).1] at h2
      subst h2
      rw [hk] at hv; cases hv
  | some v =>
    obtain ⟨h1, h2⟩ := hu k v hk
    obtain ⟨v', h3, h4⟩ := h.1 k v hk (fun q hq he => by
      obtain ⟨x, hx⟩ := Option.ne_none_iff_exists'.mp hq
      rw [show sanitise q = q from (hu q x hx).1, show sanitise k = k from h1] at he
      subst he
      exact List.lt_irrefl q)
    rw [show sanitise k = k from h1] at h3
    rw [h3]
    cases v with
    | none => cases v' with
      | none => rfl
      | some => simp [OptRel] at h4
    | some u => cases v' with
      | none => simp [OptRel] at h4
      | some u' =>
        obtain ⟨h5, h6⟩ := h2 u rfl
        rw [userSan_eq (u := u) (u' := u') (by simpa [OptRel] using h4) h5 h6]

theorem dec_enc_eq (J : UserJson) {m : Users} (hf : m.Finite) (hu : Users.Utf8 m) : J.dec (J.enc m) = some (some m) := by
  obtain ⟨m', h1, h2⟩ := J.dec_enc m hf
  rw [h1, mapSan_eq h2 hu]

theorem utf8_set {m : Users} (hm : Users.Utf8 m) {n : Bytes} {u : User} (hn : ValidUtf8 n) (hu : ValidUtf8 u.name)
    (ha : ∀ a, u.auth = some a → ValidUtf8 a.typ ∧ ValidUtf8 a.label ∧ ValidUtf8 a.last) : Users.Utf8 (m.set n (some u)) := by
  intro k v hk
  by_cases h : k = n
  · subst h
    rw [Map.set_same] at hk
    cases hk
    exact ⟨hn, fun u' h => by cases h; exact ⟨hu, ha⟩⟩
  · rw [Map.set_other m _ h] at hk
    exact hm k v hk

theorem utf8_empty : Users.Utf8 Map.empty := fun k v h => by cases h

/-! An instance of `UserJson`, so that the theorems are not vacuous. -/

open Verif.Proofs.ToyJson (entries assoc assoc_san assoc_finite entries_utf8)

abbrev UserRepr := Bytes × Option (Bytes × Bytes × Bytes × Bytes)

def userRepr (u : User) : UserRepr :=
  (sanitise u.name, u.auth.map fun a => (sanitise a.typ, sanitise a.label, sanitise a.last, a.secret))

def userOf (r : UserRepr) : User := ⟨r.1, r.2.map fun a => ⟨a.1, a.2.1, a.2.2.1, a.2.2.2⟩⟩

noncomputable def usersRepr (m : Users) : List (Bytes × Option UserRepr) := entries m (Option.map userRepr)

def usersOf (l : List (Bytes × Option UserRepr)) : Users := assoc l (Option.map userOf)

theorem users_san (m : Users) (h : m.Finite) : MapSan (OptRel UserSan) m (usersOf (usersRepr m)) := by
  refine assoc_san m h _ _ ?_
  intro k v _
  cases v with
  | none => simp [OptRel]
  | some u =>
    simp only [Option.map_some, OptRel]
    refine ⟨rfl, ?_⟩
    obtain ⟨n, a⟩ := u
    cases a with
    | none => simp [userOf, userRepr, OptRel]
    | some a => exact ⟨rfl, rfl, rfl, rfl⟩

theorem users_utf8 (m : Users) : Users.Utf8 (usersOf (usersRepr m)) := by
  intro k v hk
  obtain ⟨h1, q, v0, h2, rfl⟩ := entries_utf8 m _ _ hk
  refine ⟨h1, fun u hu => ?_⟩
  cases v0 with
  | none => simp at hu
  | some u0 =>
    simp only [Option.map_some, Option.some.injEq] at hu
    subst hu
    refine ⟨validUtf8_sanitise _, fun a ha => ?_⟩
    obtain ⟨n, a0⟩ := u0
    cases a0 with
    | none => simp [userOf, userRepr] at ha
    | some a0 =>
      simp only [userOf, userRepr, Option.map_some, Option.some.injEq] at ha
      subst ha
      exact ⟨validUtf8_sanitise _, validUtf8_sanitise _, validUtf8_sanitise _⟩

/-- A number in unary, with an end mark. -/
def unary (n : Nat) : Bytes := List.replicate n 0 ++ [1]

noncomputable def toyDec (b : Bytes) : Option (Option Users) := open Classical in
  if b = ascii "null" then some none
  else if b = unary (b.length - 1) then
    (((Encodable.decode (α := List (Bytes × Option UserRepr)) (b.length - 1)).map usersOf).filter
      (fun m => decide (Users.Utf8 m))).map some
  else none

theorem unary_ne_null (n : Nat) : unary n ≠ ascii "null" := by
  cases n with
  | zero => decide
  | succ n =>
    intro h
    have := congrArg List.head? h
    simp [unary, List.replicate_succ, ascii] at this

theorem toyDec_enc (m : Users) : toyDec (unary (Encodable.encode (usersRepr m))) = some (some (usersOf (usersRepr m))) := by
  unfold toyDec
  rw [if_neg (unary_ne_null _), if_pos (by simp [unary])]
  simp [unary, Option.filter, users_utf8]

/-- The instance. -/
noncomputable def toyUsers : UserJson where
  enc m := unary (Encodable.encode (usersRepr m))
  dec := toyDec
  dec_enc m h := ⟨_, toyDec_enc m, users_san m h⟩
  dec_finite b m h := by
    unfold toyDec at h
    split at h
    · simp at h
    · split at h
      · obtain ⟨m', h1, h2⟩ := Option.map_eq_some_iff.mp h
        cases h2
        obtain ⟨l, -, rfl⟩ := Option.map_eq_some_iff.mp (Option.filter_eq_some_iff.mp h1).1
        exact assoc_finite _ _
      · simp at h
  dec_utf8 b m h := by
    unfold toyDec at h
    split at h
    · simp at h
    · split at h
      · obtain ⟨m', h1, h2⟩ := Option.map_eq_some_iff.mp h
        cases h2
        simpa using (Option.filter_eq_some_iff.mp h1).2
      · simp at h
  dec_prefix m k h := by
    have h : k < (unary (Encodable.encode (usersRepr m))).length := h
    generalize Encodable.encode (usersRepr m) = n at h
    have hk : k ≤ n := by simp [unary] at h; omega
    have e : (unary n).take k = List.replicate k 0 := by
      unfold unary
      rw [List.take_append_of_le_length (by simpa using hk), List.take_replicate, Nat.min_eq_left hk]
    rw [e]
    unfold toyDec
    rw [if_neg, if_neg]
    · intro h
      have := congrArg (fun l => (1 : UInt8) ∈ l) h
      simp [unary] at this
    · intro h
      cases k with
      | zero => simp [ascii] at h
      | succ k =>
        have := congrArg List.head? h
        simp [List.replicate_succ, ascii] at this
  dec_nil := by simp [toyDec, unary, ascii]
  dec_null := by simp [toyDec]
  dec_nobody := by
    refine ⟨unary (Encodable.encode (usersRepr (Map.empty.set (ascii "u") none))), ?_⟩
    rw [toyDec_enc]
    congr 2
    refine mapSan_eq (users_san _ (Map.finite_empty.set _ _)) ?_
    intro k v hk
    by_cases h : k = ascii "u"
    · subst h
      rw [Map.set_same] at hk
      cases hk
      exact ⟨by decide, fun u h => by cases h⟩
    · rw [Map.set_other _ _ h] at hk; cases hk

/-! ### Validation -/

theorem hexEncode_ascii (b : Bytes) : ∀ x ∈ hexEncode b, x < 0x80 := by
  induction b with
  | nil => simp [hexEncode]
  | cons x b ih =>
    intro y hy
    have hd : ∀ n : Nat, n < 16 → hexDigit n < 0x80 := by decide
    have hx : x.toNat < 256 := x.toNat_lt
    simp only [hexEncode, List.mem_cons] at hy
    rcases hy with rfl | rfl | hy
    · exact hd _ (by omega)
    · exact hd _ (by omega)
    · exact ih y hy

theorem hexEncode_valid (b : Bytes) : ValidUtf8 (hexEncode b) := validUtf8_ascii _ (hexEncode_ascii b)

variable (C : Crypto)

theorem decimalPad_ascii (w n : Nat) : ∀ x ∈ decimalPad w n, x < 0x80 := by
  intro x hx
  unfold decimalPad at hx
  rcases List.mem_append.mp hx with h | h
  · rw [List.eq_of_mem_replicate h]; decide
  · have := (decimalF_digits _ _ x h).2
    rw [UInt8.lt_iff_toNat_lt]
    have h2 : (0x80 : UInt8).toNat = 128 := rfl
    omega

theorem generate_ascii {c : TOTPConfig} {t : BitVec 64} {s : Bytes} (h : generateOTPAt C c t = .ok (some s)) :
    ∀ x ∈ s, x < 0x80 := by
  unfold generateOTPAt at h
  simp only at h
  split at h
  · cases h
  · obtain ⟨md, -, h⟩ := Res.bind_eq_ok.mp h
    split at h
    · cases h
    · obtain ⟨dt, -, h⟩ := Res.bind_eq_ok.mp h
      cases h
      exact decimalPad_ascii _ _

theorem totpTry_ascii {c : TOTPConfig} {otp : Bytes} {st st' : Authenticator × Bool} {t : BitVec 64}
    (h : totpTry C c otp st t = .ok st') : st' = st ∨ ∀ x ∈ otp, x < 0x80 := by
  unfold totpTry at h
  obtain ⟨o, h1, h2⟩ := Res.bind_eq_ok.mp h
  cases o with
  | none => cases h2; exact .inl rfl
  | some s =>
    simp only at h2
    split at h2
    · rename_i hs
      subst hs
      exact .inr (generate_ascii C h1)
    · cases h2; exact .inl rfl

/-- A code that is accepted is ASCII. -/
theorem validateTOTP_ascii {a : Authenticator} {otp : Bytes} {now : BitVec 64} {spare : Bytes} {v : VRes}
    (h : validateTOTP C (some a) otp now spare = .ok v) (hv : v.err = none) : ∀ x ∈ otp, x < 0x80 := by
  unfold validateTOTP at h
  simp only at h
  split at h
  · cases h; cases hv
  split at h
  · cases h; cases hv
  obtain ⟨o, -, h⟩ := Res.bind_eq_ok.mp h
  cases o with
  | none => cases h; cases hv
  | some c =>
    simp only [Res.bind_eq_ok] at h
    obtain ⟨st1, h1, st2, h2, h⟩ := h
    rcases totpTry_ascii C h1 with rfl | h3
    · rcases totpTry_ascii C h2 with rfl | h3
      · simp only [Bool.not_false, if_true] at h
        cases h; cases hv
      · exact h3
    · exact h3

/-- The three outcomes of a validation: refused, accepted as it is (passwords), accepted with a new
state. -/
theorem validate_result {Y : Yubi} {a : Authenticator} {pw : Bytes} {now : BitVec 64} {rng rng' : Rng} {spare : Bytes}
    {v : VRes} (h : validate C Y (some a) pw now rng spare = .ok (v, rng')) :
    (∃ er, v = ⟨some a, false, some er⟩) ∨ (v = ⟨some a, false, none⟩ ∧ a.typ = typePassword ∧ C.bcryptMatch a.secret pw = true) ∨
    ∃ last secret, v = ⟨some { a with last := last, secret := secret }, true, none⟩ ∧
      (a.typ = typeTOTP ∧ last = pw ∧ ValidUtf8 pw ∨ a.typ = typeYubiKey ∧ last = pw ∧ Y.parseOTP pw ≠ none ∨
        a.typ = typeSession ∧ ValidUtf8 last) := by
  unfold validate at h
  simp only at h
  split at h
  · rename_i ht
    obtain ⟨v', h1, h2⟩ := Res.bind_eq_ok.mp h
    cases h2
    rcases validateYk_result h1 with ⟨c, t, -, -, -, ⟨box, hg, -⟩, rfl⟩ | ⟨er, rfl⟩
    · exact .inr (.inr ⟨_, _, rfl, .inr (.inl ⟨ht, rfl, by simp [hg]⟩)⟩)
    · exact .inl ⟨er, rfl⟩
  split at h
  · rename_i ht
    obtain ⟨v', h1, h2⟩ := Res.bind_eq_ok.mp h
    cases h2
    rcases validateTOTP_result C h1 with ⟨rfl, -, -⟩ | ⟨er, rfl⟩
    · exact .inr (.inr ⟨_, a.secret, rfl, .inl ⟨ht, rfl, validUtf8_ascii _ (validateTOTP_ascii C h1 rfl)⟩⟩)
    · exact .inl ⟨er, rfl⟩
  split at h
  · rename_i ht
    by_cases hg : SessionGood C a pw
    · rw [validateSession_good C ht hg] at h
      split at h
      · cases h; exact .inr (.inr ⟨_, a.secret, rfl, .inr (.inr ⟨ht, hexEncode_valid _⟩)⟩)
      · cases h; exact .inl ⟨_, rfl⟩
    · obtain ⟨er, he⟩ := validateSession_bad C (rng := rng) (fun h => hg h.2 : ¬ (a.typ = typeSession ∧ SessionGood C a pw))
      rw [he] at h
      cases h; exact .inl ⟨_, rfl⟩
  split at h
  · rename_i ht
    unfold validatePassword at h
    simp only at h
    rw [if_neg (by simpa using ht)] at h
    split at h
    · cases h; exact .inr (.inl ⟨rfl, ht, by assumption⟩)
    · cases h; exact .inl ⟨_, rfl⟩
  · cases h; exact .inl ⟨_, rfl⟩

/-! ### One turn of the login loop -/

variable (J : UserJson) (e : Env) (path : Bytes)

/-- What will be typed. -/
def World.type (w : World) (as : List (Option Bytes)) : World := { w with term := { w.term with answers := as } }

@[simp] theorem type_fs (w : World) (as) : (World.type w as).fs = w.fs := rfl
@[simp] theorem type_log (w : World) (as) : (World.type w as).log = w.log := rfl
@[simp] theorem type_answers (w : World) (as) : (World.type w as).term.answers = as := rfl
@[simp] theorem type_type (w : World) (as bs) : World.type (World.type w as) bs = World.type w bs := rfl

theorem type_self (w : World) : World.type w w.term.answers = w := rfl

/-- A turn of the loop once the name and the password are read. -/
def turn (m : Users) (name password : Bytes) (w : World) : Ret × Users × World :=
  match m name with
  | none => (.again, m, w.say .failed)
  | some none => (.panic, m, w)
  | some (some u) => attempt C J e path m name u password w

theorem login_turn (m : Users) (w : World) {a b : Bytes} {rest : List (Option Bytes)} (h : trimSpace a ≠ []) :
    login C J e path m (World.type w (some a :: some b :: rest)) =
      turn C J e path m (trimSpace a) (trimSpace b) (World.type w rest) := by
  simp [login, World.readLine, Term.read, World.type, h, turn]
  cases m (trimSpace a) with
  | none => rfl
  | some u => cases u <;> rfl

theorem login_empty (m : Users) (w : World) {a : Bytes} {rest : List (Option Bytes)} (h : trimSpace a = []) :
    login C J e path m (World.type w (some a :: rest)) = (.stop, m, World.type w rest) := by
  simp [login, World.readLine, Term.read, World.type, h]

/-- The other ways a login can go: the input has ended or cannot be read. -/
theorem login_short (m : Users) (w : World) :
    (∃ a rest, w.term.answers = some a :: rest ∧ trimSpace a = []) ∨
    (∃ a b rest, w.term.answers = some a :: some b :: rest ∧ trimSpace a ≠ []) ∨
    ∃ rest, login C J e path m w = (.fatal, m, World.type w rest) := by
  cases h : w.term.answers with
  | nil =>
    refine .inr (.inr ⟨[], ?_⟩)
    rw [← h, type_self]
    simp [login, World.readLine, Term.read, h]
  | cons x xs =>
    cases x with
    | none => exact .inr (.inr ⟨xs, by simp [login, World.readLine, Term.read, World.type, h]⟩)
    | some a =>
      by_cases ha : trimSpace a = []
      · exact .inl ⟨a, xs, rfl, ha⟩
      · cases xs with
        | nil => exact .inr (.inr ⟨[], by simp [login, World.readLine, Term.read, World.type, h, ha]⟩)
        | cons y ys =>
          cases y with
          | none => exact .inr (.inr ⟨ys, by simp [login, World.readLine, Term.read, World.type, h, ha]⟩)
          | some b => exact .inr (.inl ⟨a, b, ys, rfl, ha⟩)

theorem turn_type (m : Users) (name password : Bytes) (w : World) (bs : List (Option Bytes)) :
    turn C J e path m name password (World.type w bs) =
      ((turn C J e path m name password w).1, (turn C J e path m name password w).2.1,
        World.type (turn C J e path m name password w).2.2 bs) := by
  unfold turn
  split
  · rfl
  · rfl
  · unfold attempt
    simp only [World.now, Term.now, World.type]
    split
    · rfl
    · split
      · rfl
      · split
        · simp only [writeStore, World.save]
          generalize Go.writeFile _ _ _ _ = x
          obtain ⟨fs, ok⟩ := x
          cases ok <;> rfl
        · rfl

/-- What a turn can do. -/
inductive Turn (m : Users) (name password : Bytes) (w : World) : Ret × Users × World → Prop
  | unknown : m name = none → Turn m name password w (.again, m, w.say .failed)
  | nobody : m name = some none → Turn m name password w (.panic, m, w)
  | panic (u : User) : m name = some (some u) → validate C e.yubi u.auth password (w.term.clock 0) w.rng e.spare = .panic →
      Turn m name password w (.panic, m, w.now.2)
  | refused (u : User) (v : VRes) (rng : Rng) : m name = some (some u) →
      validate C e.yubi u.auth password (w.term.clock 0) w.rng e.spare = .ok (v, rng) → v.err ≠ none →
      Turn m name password w (.again, m, ({ w.now.2 with rng := rng } : World).say .failed)
  | password (u : User) (a : Authenticator) (rng : Rng) : m name = some (some u) → u.auth = some a →
      validate C e.yubi u.auth password (w.term.clock 0) w.rng e.spare = .ok (⟨some a, false, none⟩, rng) →
      a.typ = typePassword → C.bcryptMatch a.secret password = true →
      Turn m name password w (.again, m, ({ w.now.2 with rng := rng } : World).say .successful)
  | updated (u : User) (a : Authenticator) (last secret : Bytes) (rng : Rng) : m name = some (some u) → u.auth = some a →
      validate C e.yubi u.auth password (w.term.clock 0) w.rng e.spare =
        .ok (⟨some { a with last := last, secret := secret }, true, none⟩, rng) →
      (a.typ = typeTOTP ∧ last = password ∧ ValidUtf8 password ∨ a.typ = typeYubiKey ∧ last = password ∧ e.yubi.parseOTP password ≠ none ∨
        a.typ = typeSession ∧ ValidUtf8 last) →
      w.writes 0 = .done →
      Turn m name password w (.again, m.set name (some { u with auth := some { a with last := last, secret := secret } }),
        ({ w.now.2 with
          rng := rng
          writes := fun n => w.writes (n + 1)
          fs := w.fs.set path (J.enc (m.set name (some { u with auth := some { a with last := last, secret := secret } }))) } :
            World).say .successful)
  | torn (u : User) (a : Authenticator) (last secret : Bytes) (rng : Rng) : m name = some (some u) → u.auth = some a →
      validate C e.yubi u.auth password (w.term.clock 0) w.rng e.spare =
        .ok (⟨some { a with last := last, secret := secret }, true, none⟩, rng) →
      w.writes 0 ≠ .done →
      Turn m name password w (.fatal, m.set name (some { u with auth := some { a with last := last, secret := secret } }),
        { w.now.2 with
          rng := rng
          writes := fun n => w.writes (n + 1)
          fs := (Go.writeFile (w.writes 0) w.fs path
            (J.enc (m.set name (some { u with auth := some { a with last := last, secret := secret } })))).1 })

theorem set_same_value {m : Users} {n : Bytes} {v : Option User} (h : m n = some v) : m.set n v = m := by
  funext k
  by_cases hk : k = n
  · subst hk; rw [Map.set_same, h]
  · rw [Map.set_other m _ hk]

theorem turn_cases (m : Users) (name password : Bytes) (w : World) :
    Turn C J e path m name password w (turn C J e path m name password w) := by
  unfold turn
  split
  · exact .unknown ‹_›
  · exact .nobody ‹_›
  · rename_i u hm
    unfold attempt
    simp only [World.now, Term.now]
    split
    · exact .panic u hm ‹_›
    · rename_i v rng hv
      cases hu : u.auth with
      | none =>
        rw [hu] at hv
        cases hv
        rw [if_pos (by simp)]
        rw [show ({ u with auth := none } : User) = u by obtain ⟨x, y⟩ := u; cases hu; rfl, set_same_value hm]
        exact .refused u _ _ hm (by rw [hu]; rfl) (by simp)
      | some a =>
        have hv' := hv
        rw [hu] at hv
        have same : ({ u with auth := some a } : User) = u := by obtain ⟨x, y⟩ := u; cases hu; rfl
        rcases validate_result C hv with ⟨er, rfl⟩ | ⟨rfl, h1, h2⟩ | ⟨last, secret, rfl, h1⟩
        · simp only
          rw [if_pos (by simp), same, set_same_value hm]
          exact .refused u _ _ hm hv' (by simp)
        · simp only
          rw [if_neg (by simp), if_neg (by simp), same, set_same_value hm]
          exact .password u a _ hm hu hv' h1 h2
        · simp only
          rw [if_neg (by simp), if_pos trivial]
          simp only [writeStore, World.save]
          by_cases hw : w.writes 0 = .done
          · rw [hw]
            exact .updated u a last secret rng hm hu hv' h1 hw
          · have := Turn.torn (C := C) (J := J) (e := e) (path := path) u a last secret rng hm hu hv' hw
            cases ho : w.writes 0 with
            | done => exact absurd ho hw
            | openFails => rw [ho] at this; exact this
            | failsAfter k => rw [ho] at this; exact this

/-- The line typed is UTF-8, or at least no YubiKey code. -/
def Text (Y : Yubi) (l : Bytes) : Prop := ValidUtf8 (trimSpace l) ∨ Y.parseOTP (trimSpace l) = none

/-- The store in memory is the one in the file. -/
def Synced (m : Users) (fs : Fs) : Prop :=
  m.Finite ∧ Users.Utf8 m ∧ ∃ o, (match fs path with | none => some (some Map.empty) | some data => J.dec data) = some o ∧
    o.getD Map.empty = m

theorem loadStore_synced {w : World} {o : Option Users} (h : loadStore J path w = some o) :
    Synced J path (o.getD Map.empty) w.fs := by
  have key : (o.getD Map.empty).Finite ∧ Users.Utf8 (o.getD Map.empty) := by
    unfold loadStore at h
    cases o with
    | none => exact ⟨Map.finite_empty, utf8_empty⟩
    | some m =>
      split at h
      · cases h; exact ⟨Map.finite_empty, utf8_empty⟩
      · exact ⟨J.dec_finite _ _ h, J.dec_utf8 _ _ h⟩
  exact ⟨key.1, key.2, o, h, rfl⟩

theorem synced_set {m : Users} (hf : m.Finite) (hu : Users.Utf8 m) (fs : Fs) : Synced J path m (fs.set path (J.enc m)) :=
  ⟨hf, hu, some m, by simp [dec_enc_eq J hf hu], rfl⟩

theorem main_run_synced {w : World} {m : Users} (h : Synced J path m w.fs) (fuel : Nat) :
    main C J e path [ascii "run"] fuel w = loop C J e path fuel m w := by
  obtain ⟨-, -, o, h1, rfl⟩ := h
  have : loadStore J path w = some o := h1
  simp only [main, this]
  rw [if_neg (by decide), if_pos trivial]

/-- A turn keeps them the same, unless the write fails. -/
theorem turn_synced {m : Users} {name password : Bytes} {w : World} {r : Ret} {m' : Users} {w' : World}
    (h : turn C J e path m name password w = (r, m', w')) (hr : r = .again) (hs : Synced J path m w.fs)
    (hp : ValidUtf8 password ∨ e.yubi.parseOTP password = none ∨ ∀ u a, m name = some (some u) → u.auth = some a → a.typ ≠ typeYubiKey) :
    Synced J path m' w'.fs := by
  have := turn_cases C J e path m name password w
  rw [h] at this
  cases this with
  | unknown => exact hs
  | nobody => cases hr
  | panic => cases hr
  | refused => exact hs
  | password => exact hs
  | torn => cases hr
  | updated u a last secret rng h1 h2 h3 h4 h5 =>
    obtain ⟨k1, k2⟩ := hs.2.1 _ _ h1
    obtain ⟨k3, k4⟩ := k2 u rfl
    obtain ⟨k5, k6, k7⟩ := k4 a h2
    refine synced_set J path (hs.1.set _ _) (utf8_set (u := { u with auth := some { a with last := last, secret := secret } }) hs.2.1 k1 k3 ?_) w.fs
    intro a' ha'
    cases ha'
    refine ⟨k5, k6, ?_⟩
    rcases h4 with ⟨-, rfl, h⟩ | ⟨ht, rfl, hy⟩ | ⟨-, h⟩
    · exact h
    · rcases hp with hp | hp | hp
      · exact hp
      · exact absurd hp hy
      · exact absurd ht (hp u a h1 h2)
    · exact h

theorem trimSpace_nil : trimSpace [] = [] := by decide

/-- Somebody tries to log in once. -/
theorem run_attempt {w : World} {m : Users} (hs : Synced J path m w.fs) {a b : Bytes}
    (ha : w.term.answers = [some a, some b, some []]) (hne : trimSpace a ≠ []) {m' : Users} {w' : World}
    (ht : turn C J e path m (trimSpace a) (trimSpace b) w = (.again, m', w')) (fuel : Nat) :
    main C J e path [ascii "run"] (fuel + 2) w = some (.stop, World.type w' []) := by
  rw [main_run_synced C J e path hs]
  have h1 : login C J e path m w = (.again, m', World.type w' [some []]) := by
    rw [← type_self w, ha, login_turn C J e path m w hne, turn_type, ht]
  unfold loop
  simp only [h1]
  unfold loop
  rw [login_empty C J e path m' w' trimSpace_nil]

/-- What `register` does with a password. -/
theorem register_password {m : Users} {w : World} {n p salt : Bytes} (hp : p.length ≤ 72) (hs : w.salts 0 = some salt)
    (hw : w.writes 0 = .done) (rest : List (Option Bytes)) (ha : w.term.answers = some n :: some typePassword :: some p :: rest) :
    ∃ w1, register C J e path (some m) w = (.stop, w1) ∧ w1.log = w.log ++ [.registered (trimSpace n)] ∧
      w1.fs = w.fs.set path (J.enc (m.set (trimSpace n) (some ⟨trimSpace n, some
        { typ := typePassword, secret := C.bcryptHash p salt 14 }⟩))) := by
  have hk : method (trimSpace typePassword) = some .password := by decide
  simp only [register, World.readLine, Term.read, ha, Option.map_some, askType, hk, enrol, regPassword, World.readPass,
    hs, newPasswordAuth]
  rw [if_neg (by omega)]
  simp only [writeStore, World.save, hw, Go.writeFile]
  exact ⟨_, rfl, rfl, rfl⟩

theorem newGoogleTOTP_eq {qr : TOTPConfig → Bytes → Option Bytes} {provider : Bytes} {now : BitVec 64} {label : Bytes}
    {rng : Rng} (hl : provider.length < 2 ^ 31 - 71) (hr : 20 ≤ rng.length) (hne : label ≠ []) :
    newGoogleTOTP C qr provider now label rng =
      .ok (match qr (google provider (rng.take 20)) label with
        | none => .error .foreign
        | some png => .ok ({
            typ := typeTOTP, last := decimalPad 6 (codeValue C (google provider (rng.take 20)) now)
            secret := (google provider (rng.take 20)).bytes }, ⟨b32Encode (rng.take 20), png⟩), rng.drop 20) := by
  have hlen : (rng.take 20).length = 20 := by simp only [List.length_take]; omega
  have hk : rng.take 20 ≠ [] := by intro h0; rw [h0] at hlen; simp at hlen
  unfold newGoogleTOTP randBytes readFull
  rw [if_pos hr]
  simp only [import_eq, Res.ok_bind, exportUserTOTP]
  rw [if_neg (by simp), google_parse provider (rng.take 20) [] hk (by omega)]
  simp only [Res.ok_bind]
  rw [if_pos hne]
  cases qr (google provider (rng.take 20)) label with
  | none => rfl
  | some png => rfl

theorem newGoogleTOTP_short {qr : TOTPConfig → Bytes → Option Bytes} {provider : Bytes} {now : BitVec 64} {label : Bytes}
    {rng : Rng} (hr : rng.length < 20) : newGoogleTOTP C qr provider now label rng = .ok (.error .prng, []) := by
  unfold newGoogleTOTP randBytes
  rw [readFull_none hr]

/-- What `register` does for a TOTP. -/
theorem register_totp {m : Users} {w : World} {n png : Bytes} (hl : e.provider.length < 2 ^ 31 - 71) (hr : 20 ≤ w.rng.length)
    (hq : e.qr (google e.provider (w.rng.take 20)) totpLabel = some png) (hw : w.writes 0 = .done) (hw1 : w.writes 1 = .done)
    (rest : List (Option Bytes)) (ha : w.term.answers = some n :: some typeTOTP :: rest) :
    ∃ w1, register C J e path (some m) w = (.stop, w1) ∧
      w1.log = w.log ++ [.totpKey (b32Encode (w.rng.take 20)), .registered (trimSpace n)] ∧
      w1.fs = (w.fs.set (ascii "qr.png") png).set path (J.enc (m.set (trimSpace n) (some ⟨trimSpace n, some
        { typ := typeTOTP, last := decimalPad 6 (codeValue C (google e.provider (w.rng.take 20)) (w.term.clock 0)),
          secret := (google e.provider (w.rng.take 20)).bytes }⟩))) := by
  have hk : method (trimSpace typeTOTP) = some .totp := by decide
  simp only [register, World.readLine, Term.read, ha, Option.map_some, askType, hk, enrol, regTOTP, World.now, Term.now]
  rw [newGoogleTOTP_eq C hl hr (by decide), hq]
  simp only [Res.ok_bind, World.save, hw, Go.writeFile, World.say, writeStore, Nat.zero_add, Res.pure_eq, Bool.not_true,
    Bool.false_eq_true, if_false, hw1]
  refine ⟨_, rfl, ?_, rfl⟩
  simp

theorem main_register {w : World} {m : Users} (h : loadStore J path w = some (some m)) (fuel : Nat) :
    main C J e path [ascii "register"] fuel w = some (register C J e path (some m) w) := by
  simp [main, h]

theorem loadStore_fs {w w' : World} (h : w'.fs path = w.fs path) : loadStore J path w' = loadStore J path w := by
  unfold loadStore; rw [h]

theorem synced_fs {m : Users} {fs fs' : Fs} (h : fs' path = fs path) (hs : Synced J path m fs) : Synced J path m fs' := by
  unfold Synced at *; rw [h]; exact hs

/-! ### Verdicts -/

theorem turn_password {m : Users} {n : Bytes} {u : User} {a : Authenticator} (hm : m n = some (some u)) (hu : u.auth = some a)
    (ht : a.typ = typePassword) (q : Bytes) (w : World) :
    ∃ w', turn C J e path m n q w = (.again, m, w') ∧ w'.fs = w.fs ∧
      w'.log = w.log ++ [if C.bcryptMatch a.secret q then .successful else .failed] := by
  have hv : validate C e.yubi u.auth q (w.term.clock 0) w.rng e.spare =
      .ok (⟨some a, false, if C.bcryptMatch a.secret q then none else some .fail⟩, w.rng) := by
    unfold validate
    rw [hu]
    simp only
    rw [if_neg (by rw [ht]; decide), if_neg (by rw [ht]; decide), if_neg (by rw [ht]; decide), if_pos ht]
    unfold validatePassword
    simp only
    rw [if_neg (by simpa using ht)]
    split <;> rfl
  have same : ({ u with auth := some a } : User) = u := by obtain ⟨x, y⟩ := u; cases hu; rfl
  unfold turn
  rw [hm]
  simp only [attempt, World.now, Term.now, hv, same, set_same_value hm]
  by_cases hb : C.bcryptMatch a.secret q = true
  · rw [if_pos hb, if_pos hb, if_neg (by simp), if_neg (by simp)]
    exact ⟨_, rfl, rfl, rfl⟩
  · rw [if_neg hb, if_neg hb, if_pos (by simp)]
    exact ⟨_, rfl, rfl, rfl⟩

theorem valid_typePassword : ValidUtf8 typePassword := by decide
theorem valid_typeTOTP : ValidUtf8 typeTOTP := by decide
theorem valid_nil : ValidUtf8 [] := by decide

theorem turn_totp {m : Users} {n : Bytes} {u : User} {a : Authenticator} {c : TOTPConfig} (hm : m n = some (some u))
    (hu : u.auth = some a) (ht : a.typ = typeTOTP) (hp : parseTOTPConfig a.secret e.spare = .ok (some c)) (hc : Supported c)
    (q : Bytes) (w : World) (hw : w.writes 0 = .done) :
    ∃ m' w', turn C J e path m n q w = (.again, m', w') ∧
      ((a.last ≠ q ∧ (IsCode C c (w.term.clock 0) q ∨ IsCode C c (w.term.clock 0 - c.step) q)) ∧
          w'.log = w.log ++ [.successful] ∧ m' = m.set n (some { u with auth := some { a with last := q } }) ∧
          w'.fs = w.fs.set path (J.enc m') ∨
        ¬ (a.last ≠ q ∧ (IsCode C c (w.term.clock 0) q ∨ IsCode C c (w.term.clock 0 - c.step) q)) ∧
          w'.log = w.log ++ [.failed] ∧ m' = m ∧ w'.fs = w.fs) := by
  have h0 : ∀ v, validateTOTP C (some a) q (w.term.clock 0) e.spare = .ok v →
      validate C e.yubi u.auth q (w.term.clock 0) w.rng e.spare = .ok (v, w.rng) := by
    intro v hv
    unfold validate
    rw [hu]
    simp only
    rw [if_neg (by rw [ht]; decide), if_pos ht, hv]
    rfl
  have same : ({ u with auth := some a } : User) = u := by obtain ⟨x, y⟩ := u; cases hu; rfl
  have h1 := validateTOTP_supported C a c e.spare q (w.term.clock 0) ht hp hc
  unfold turn
  rw [hm]
  simp only [attempt, World.now, Term.now]
  by_cases h2 : a.last = q
  · rw [if_pos h2] at h1
    rw [h0 _ h1]
    simp only [same, set_same_value hm]
    rw [if_pos (by simp)]
    exact ⟨_, _, rfl, .inr ⟨fun h => h.1 h2, rfl, rfl, rfl⟩⟩
  · rw [if_neg h2] at h1
    by_cases h3 : IsCode C c (w.term.clock 0) q ∨ IsCode C c (w.term.clock 0 - c.step) q
    · rw [if_pos h3] at h1
      rw [h0 _ h1]
      simp only
      rw [if_neg (by simp), if_pos trivial]
      simp only [writeStore, World.save, hw, Go.writeFile]
      exact ⟨_, _, rfl, .inl ⟨⟨h2, h3⟩, rfl, rfl, rfl⟩⟩
    · rw [if_neg h3] at h1
      rw [h0 _ h1]
      simp only [same, set_same_value hm]
      rw [if_pos (by simp)]
      exact ⟨_, _, rfl, .inr ⟨fun h => h3 h.2, rfl, rfl, rfl⟩⟩

/-! ### Maps after a trip through JSON -/

theorem exists_max (l : List Bytes) (h : l ≠ []) : ∃ x ∈ l, ∀ y ∈ l, ¬ x < y := by
  induction l with
  | nil => exact absurd rfl h
  | cons a l ih =>
    by_cases hl : l = []
    · subst hl
      exact ⟨a, by simp, fun y hy => by simp only [List.mem_singleton] at hy; subst hy; exact List.lt_irrefl y⟩
    · obtain ⟨x, hx, hmax⟩ := ih hl
      by_cases hxa : x < a
      · refine ⟨a, by simp, fun y hy => ?_⟩
        rcases List.mem_cons.mp hy with rfl | hy
        · exact List.lt_irrefl y
        · exact fun hay => hmax y hy (List.lt_trans hxa hay)
      · refine ⟨x, by simp [hx], fun y hy => ?_⟩
        rcases List.mem_cons.mp hy with rfl | hy
        · exact hxa
        · exact hmax y hy

/-- Every value that is read back comes from one that was written. -/
theorem mapSan_inv {V : Type} {R : V → V → Prop} {m m' : Map V} (hf : m.Finite) (h : MapSan R m m') {k' : Bytes} {v' : V}
    (hk : m' k' = some v') : ∃ k v, m k = some v ∧ sanitise k = k' ∧ R v v' := by
  obtain ⟨o, -, ho⟩ := hf.enumerates
  obtain ⟨k0, h1, h2⟩ := h.2 k' (by simp [hk])
  obtain ⟨x, hx, hmax⟩ := exists_max (o.filter (fun k => decide (sanitise k = k'))) (by
    intro h0
    have : k0 ∈ o.filter (fun k => decide (sanitise k = k')) := List.mem_filter.mpr ⟨(ho k0).mpr h1, by simpa using h2⟩
    rw [h0] at this; cases this)
  obtain ⟨hx1, hx2⟩ := List.mem_filter.mp hx
  have hx2 : sanitise x = k' := by simpa using hx2
  obtain ⟨v, hv⟩ := Option.ne_none_iff_exists'.mp ((ho x).mp hx1)
  obtain ⟨v2, h3, h4⟩ := h.1 x v hv (fun k2 hk2 hs => hmax k2 (List.mem_filter.mpr ⟨(ho k2).mpr hk2, by simp [hs, hx2]⟩))
  rw [hx2, hk] at h3
  cases h3
  exact ⟨x, v, hv, hx2, h4⟩

/-! ### Whole runs -/

theorem writeFile_other (o : WriteOutcome) (fs : Fs) {p q : Bytes} (data : Bytes) (h : q ≠ p) :
    (Go.writeFile o fs p data).1 q = fs q := by
  cases o with
  | done => exact Fs.set_other _ _ h
  | openFails => rfl
  | failsAfter k => exact Fs.set_other _ _ h

/-- The ways a call of `login` can go. -/
theorem login_cases (m : Users) (w : World) :
    (∃ a rest, w.term.answers = some a :: rest ∧ trimSpace a = [] ∧ login C J e path m w = (.stop, m, World.type w rest)) ∨
    (∃ a b rest, w.term.answers = some a :: some b :: rest ∧ trimSpace a ≠ [] ∧
      login C J e path m w = turn C J e path m (trimSpace a) (trimSpace b) (World.type w rest)) ∨
    ∃ rest, login C J e path m w = (.fatal, m, World.type w rest) := by
  rcases login_short C J e path m w with ⟨a, rest, h1, h2⟩ | ⟨a, b, rest, h1, h2⟩ | h
  · refine .inl ⟨a, rest, h1, h2, ?_⟩
    rw [← login_empty C J e path m w h2, ← h1, type_self]
  · refine .inr (.inl ⟨a, b, rest, h1, h2, ?_⟩)
    rw [← login_turn C J e path m w h2, ← h1, type_self]
  · exact .inr (.inr h)

/-- What all turns preserve holds at the end of a run. -/
theorem loop_invariant (I : Users → World → Prop) {Q : Ret → World → Prop} {L : List (Option Bytes)}
    (hagain : ∀ m w a b m' w', I m w → some a ∈ L → some b ∈ L → trimSpace a ≠ [] →
      turn C J e path m (trimSpace a) (trimSpace b) w = (.again, m', w') → I m' w')
    (hend : ∀ m w a b r m' w', I m w → some a ∈ L → some b ∈ L → trimSpace a ≠ [] →
      turn C J e path m (trimSpace a) (trimSpace b) w = (r, m', w') → r ≠ .again → Q r w')
    (hstop : ∀ m w, I m w → (∃ a, some a ∈ L ∧ trimSpace a = []) → Q .stop w) (hfatal : ∀ m w, I m w → Q .fatal w)
    (htype : ∀ m w as, I m w → I m (World.type w as)) :
    ∀ (fuel : Nat) (m : Users) (w : World) (r : Ret) (w' : World), (∀ x ∈ w.term.answers, x ∈ L) → I m w →
      loop C J e path fuel m w = some (r, w') → Q r w' := by
  intro fuel
  induction fuel with
  | zero => intro m w r w' _ _ h; cases h
  | succ n ih =>
    intro m w r w' hL hi h
    unfold loop at h
    rcases login_cases C J e path m w with ⟨a, rest, h1, h2, h3⟩ | ⟨a, b, rest, h1, h2, h3⟩ | ⟨rest, h3⟩
    · rw [h3] at h
      cases h
      exact hstop m _ (htype _ _ _ hi) ⟨a, hL _ (by simp [h1]), h2⟩
    · rw [h3] at h
      have ha := hL (some a) (by simp [h1])
      have hb := hL (some b) (by simp [h1])
      generalize hx : turn C J e path m (trimSpace a) (trimSpace b) (World.type w rest) = x at h
      obtain ⟨r1, m1, w1⟩ := x
      have hans : w1.term.answers = rest := by
        have := turn_type C J e path m (trimSpace a) (trimSpace b) (World.type w rest) rest
        rw [type_type, hx] at this
        have := congrArg (fun x : Ret × Users × World => x.2.2.term.answers) this
        simpa using this
      cases r1 with
      | again =>
        refine ih m1 w1 r w' ?_ (hagain _ _ _ _ _ _ (htype _ _ _ hi) ha hb h2 hx) h
        intro x hx
        rw [hans] at hx
        exact hL x (by rw [h1]; exact List.mem_cons_of_mem _ (List.mem_cons_of_mem _ hx))
      | stop => cases h; exact hend _ _ _ _ _ _ _ (htype _ _ _ hi) ha hb h2 hx (by simp)
      | fatal => cases h; exact hend _ _ _ _ _ _ _ (htype _ _ _ hi) ha hb h2 hx (by simp)
      | panic => cases h; exact hend _ _ _ _ _ _ _ (htype _ _ _ hi) ha hb h2 hx (by simp)
    · rw [h3] at h
      cases h
      exact hfatal _ _ (htype _ _ _ hi)

/-- `loop` ends when the input does. -/
theorem loop_ends : ∀ (fuel : Nat) (m : Users) (w : World), w.term.answers.length < fuel → (loop C J e path fuel m w).isSome := by
  intro fuel
  induction fuel with
  | zero => intro m w h; omega
  | succ n ih =>
    intro m w hlt
    unfold loop
    rcases login_cases C J e path m w with ⟨a, rest, h1, h2, h3⟩ | ⟨a, b, rest, h1, h2, h3⟩ | ⟨rest, h3⟩
    · rw [h3]; rfl
    · rw [h3]
      generalize hx : turn C J e path m (trimSpace a) (trimSpace b) (World.type w rest) = x
      obtain ⟨r1, m1, w1⟩ := x
      have hans : w1.term.answers = rest := by
        have := turn_type C J e path m (trimSpace a) (trimSpace b) (World.type w rest) rest
        rw [type_type, hx] at this
        have := congrArg (fun x : Ret × Users × World => x.2.2.term.answers) this
        simpa using this
      cases r1 with
      | again => exact ih m1 w1 (by rw [hans]; rw [h1] at hlt; simp at hlt; omega)
      | stop => rfl
      | fatal => rfl
      | panic => rfl
    · rw [h3]; rfl

/-- A run that consumes its input up to a blank line can be cut in two there. -/
theorem loop_split {q : Bytes} (hq : trimSpace q = []) :
    ∀ (fuel : Nat) (as : List (Option Bytes)) (m : Users) (w w1 : World), Synced J path m w.fs →
      (∀ l, some l ∈ as → Text e.yubi l) →
      loop C J e path fuel m (World.type w (as ++ [some q])) = some (.stop, w1) → w1.term.answers = [] →
      ∃ t m1, Synced J path m1 w1.fs ∧
        ∀ k bs, loop C J e path (t + k) m (World.type w (as ++ bs)) = loop C J e path k m1 (World.type w1 bs) := by
  intro fuel
  induction fuel with
  | zero => intro as m w w1 _ _ h; cases h
  | succ n ih =>
    intro as m w w1 hs hu h h0
    cases as with
    | nil =>
      unfold loop at h
      rw [List.nil_append, login_empty C J e path m w hq] at h
      cases h
      exact ⟨0, m, hs, fun k bs => by rw [Nat.zero_add]; rfl⟩
    | cons x xs =>
      unfold loop at h
      cases x with
      | none =>
        exfalso
        simp [login, World.readLine, Term.read, World.type] at h
      | some a =>
        by_cases ha : trimSpace a = []
        · exfalso
          rw [List.cons_append, login_empty C J e path m w ha] at h
          cases h
          simp at h0
        · cases xs with
          | nil =>
            exfalso
            rw [show [some a] ++ [some q] = some a :: some q :: [] from rfl, login_turn C J e path m w ha] at h
            generalize hx : turn C J e path m (trimSpace a) (trimSpace q) (World.type w []) = x at h
            obtain ⟨r1, m1, w2⟩ := x
            have hans : w2.term.answers = [] := by
              have := turn_type C J e path m (trimSpace a) (trimSpace q) (World.type w []) []
              rw [type_type, hx] at this
              have := congrArg (fun x : Ret × Users × World => x.2.2.term.answers) this
              simpa using this
            have hc := turn_cases C J e path m (trimSpace a) (trimSpace q) (World.type w [])
            rw [hx] at hc
            cases r1 with
            | again =>
              simp only at h
              cases n with
              | zero => cases h
              | succ n =>
                unfold loop at h
                simp [login, World.readLine, Term.read, hans] at h
            | stop => cases hc
            | fatal => cases h
            | panic => cases h
          | cons y ys =>
            cases y with
            | none =>
              exfalso
              simp [login, World.readLine, Term.read, World.type, ha] at h
            | some b =>
              rw [show some a :: some b :: ys ++ [some q] = some a :: some b :: (ys ++ [some q]) from rfl,
                login_turn C J e path m w ha, turn_type] at h
              generalize hx : turn C J e path m (trimSpace a) (trimSpace b) w = x at h
              obtain ⟨r1, m1, w2⟩ := x
              have hc := turn_cases C J e path m (trimSpace a) (trimSpace b) w
              rw [hx] at hc
              cases r1 with
              | again =>
                simp only at h
                obtain ⟨t, m2, h3, h4⟩ := ih ys m1 w2 w1
                  (turn_synced C J e path hx rfl hs ((hu b (by simp)).imp_right .inl))
                  (fun l hl => hu l (by simp [hl])) h h0
                refine ⟨t + 1, m2, h3, fun k bs => ?_⟩
                rw [show t + 1 + k = (t + k) + 1 by omega, ← h4 k bs]
                conv => lhs; unfold loop
                rw [show some a :: some b :: ys ++ bs = some a :: some b :: (ys ++ bs) from rfl, login_turn C J e path m w ha,
                  turn_type, hx]
              | stop => cases hc
              | fatal => cases h
              | panic => cases h

/-! ### Registering -/

theorem enrol_ok {k : Method} {w w2 : World} {a : Authenticator} (h : enrol C e k w = .ok (some a, w2)) :
    (ValidUtf8 a.typ ∧ ValidUtf8 a.label ∧ ValidUtf8 a.last) ∧
    (a.typ = typePassword ∨ a.typ = typeTOTP ∧ ∃ key : Bytes, key.length = 20 ∧ a.secret = (google e.provider key).bytes) := by
  unfold enrol at h
  cases k with
  | password =>
    simp only [regPassword, Res.ok.injEq] at h
    split at h
    · cases h
    · simp only [newPasswordAuth] at h
      split at h
      · cases h
      · rename_i hb
        split at hb
        · cases hb
        · split at hb
          · cases hb
          · cases hb
            cases h
            exact ⟨⟨valid_typePassword, valid_nil, valid_nil⟩, .inl rfl⟩
  | totp =>
    simp only [regTOTP, World.now, Term.now, Res.bind_eq_ok] at h
    obtain ⟨⟨r, rng⟩, hg, h⟩ := h
    cases r with
    | error er => cases h
    | ok x =>
      obtain ⟨a', ud⟩ := x
      have ha' : a' = a := by
        simp only [World.save] at h
        cases hb : (Go.writeFile (w.writes 0) w.fs (ascii "qr.png") ud.qr).2 with
        | false => simp [hb] at h
        | true => simp [hb] at h; exact h.1
      subst ha'
      unfold newGoogleTOTP at hg
      split at hg
      · cases hg
      · rename_i key rng' hrand
        rw [import_eq] at hg
        simp only [Res.ok_bind, Res.bind_eq_ok] at hg
        obtain ⟨y, -, hg⟩ := hg
        cases y with
        | error => cases hg
        | ok ud =>
          cases hg
          exact ⟨⟨valid_typeTOTP, valid_nil, validUtf8_ascii _ (decimalPad_ascii _ _)⟩, .inr ⟨rfl, key, (readFull_some hrand).2, rfl⟩⟩

/-- Enrolling touches at most the file with the QR code. -/
theorem enrol_fs {k : Method} {w w2 : World} {o : Option Authenticator} (h : enrol C e k w = .ok (o, w2)) (q : Bytes)
    (hq : q ≠ ascii "qr.png") : w2.fs q = w.fs q := by
  unfold enrol at h
  cases k with
  | password =>
    simp only [regPassword, Res.ok.injEq] at h
    unfold World.readPass at h
    generalize w.term.read = t at h
    obtain ⟨x, t⟩ := t
    cases x with
    | none => cases h; rfl
    | some x =>
      simp only at h
      split at h <;> cases h <;> rfl
  | totp =>
    simp only [regTOTP, World.now, Term.now, Res.bind_eq_ok] at h
    obtain ⟨⟨r, rng⟩, hg, h⟩ := h
    cases r with
    | error er => cases h; rfl
    | ok x =>
      obtain ⟨a', ud⟩ := x
      simp only [World.save] at h
      cases hb : (Go.writeFile (w.writes 0) w.fs (ascii "qr.png") ud.qr).2 with
      | false => simp [hb] at h; rw [← h.2]; exact writeFile_other _ _ _ hq
      | true => simp [hb] at h; rw [← h.2]; exact writeFile_other _ _ _ hq

theorem enrol_log {k : Method} {w w2 : World} {o : Option Authenticator} (h : enrol C e k w = .ok (o, w2)) :
    w2.log = w.log ∨ ∃ key, w2.log = w.log ++ [.totpKey key] := by
  unfold enrol at h
  cases k with
  | password =>
    simp only [regPassword, Res.ok.injEq] at h
    unfold World.readPass at h
    generalize w.term.read = t at h
    obtain ⟨x, t⟩ := t
    cases x with
    | none => cases h; exact .inl rfl
    | some x =>
      simp only at h
      split at h <;> cases h <;> exact .inl rfl
  | totp =>
    simp only [regTOTP, World.now, Term.now, Res.bind_eq_ok] at h
    obtain ⟨⟨r, rng⟩, hg, h⟩ := h
    cases r with
    | error er => cases h; exact .inl rfl
    | ok x =>
      obtain ⟨a', ud⟩ := x
      simp only [World.save] at h
      cases hb : (Go.writeFile (w.writes 0) w.fs (ascii "qr.png") ud.qr).2 with
      | false => simp [hb] at h; rw [← h.2]; exact .inl rfl
      | true => simp [hb] at h; rw [← h.2]; exact .inr ⟨_, rfl⟩

theorem enrol_no_panic (hp : e.provider.length < 2 ^ 31 - 71) (k : Method) (w : World) : enrol C e k w ≠ .panic := by
  unfold enrol
  cases k with
  | password => simp
  | totp =>
    simp only [regTOTP, World.now, Term.now]
    by_cases hr : 20 ≤ w.rng.length
    · rw [newGoogleTOTP_eq C hp hr (by decide)]
      cases e.qr (google e.provider (w.rng.take 20)) totpLabel with
      | none => simp
      | some png =>
        simp only [Res.ok_bind, World.save]
        by_cases hb : (Go.writeFile (w.writes 0) w.fs (ascii "qr.png") png).2 = true <;> simp [hb]
    · rw [newGoogleTOTP_short C (by omega)]
      simp

/-- How `register` can go. -/
theorem register_cases (m : Option Users) (w : World) :
    (∃ w', register C J e path m w = (.fatal, w') ∧ w'.fs = w.fs ∧ w'.log = w.log) ∨
    (∃ n k as, w.term.answers.head? = some (some n) ∧ enrol C e k (World.type w as) = .panic ∧
      (register C J e path m w).1 = .panic ∧ (register C J e path m w).2.fs = w.fs) ∨
    ∃ n k as o w2, w.term.answers.head? = some (some n) ∧ enrol C e k (World.type w as) = .ok (o, w2) ∧
      (o = none ∧ register C J e path m w = (.fatal, w2) ∨
       ∃ a, o = some a ∧ (m = none ∧ register C J e path m w = (.panic, w2) ∨
        ∃ m', m = some m' ∧ ∃ w3, w3.fs = (Go.writeFile (w2.writes 0) w2.fs path
            (J.enc (m'.set (trimSpace n) (some ⟨trimSpace n, some a⟩)))).1 ∧
          (w2.writes 0 = .done ∧ register C J e path m w = (.stop, w3) ∧ w3.log = w2.log ++ [.registered (trimSpace n)] ∨
           w2.writes 0 ≠ .done ∧ register C J e path m w = (.fatal, w3) ∧ w3.log = w2.log))) := by
  unfold register
  cases hans : w.term.answers with
  | nil =>
    refine .inl ⟨_, ?_, rfl, rfl⟩
    simp [World.readLine, Term.read, hans]
  | cons x xs =>
    cases x with
    | none =>
      refine .inl ⟨World.type w xs, ?_, rfl, rfl⟩
      simp [World.readLine, Term.read, hans, World.type]
    | some n =>
      simp only [World.readLine, Term.read, hans, Option.map_some]
      cases hk : (askType xs).1 with
      | none => exact .inl ⟨_, rfl, rfl, rfl⟩
      | some k =>
        refine .inr ?_
        simp only [List.head?_cons]
        cases hen : enrol C e k (World.type w (askType xs).2) with
        | panic => exact .inl ⟨n, k, _, rfl, hen, by simp only [World.type] at hen; rw [hen], by simp only [World.type] at hen; rw [hen]⟩
        | ok x =>
          obtain ⟨o, w2⟩ := x
          refine .inr ⟨n, k, _, o, w2, rfl, hen, ?_⟩
          simp only [World.type] at hen
          rw [hen]
          cases o with
          | none => exact .inl ⟨rfl, rfl⟩
          | some a =>
            refine .inr ⟨a, rfl, ?_⟩
            cases m with
            | none => exact .inl ⟨rfl, rfl⟩
            | some m' =>
              refine .inr ⟨m', rfl, ?_⟩
              simp only [writeStore, World.save]
              cases ho : w2.writes 0 with
              | done => exact ⟨_, by rfl, .inl ⟨rfl, rfl, rfl⟩⟩
              | openFails => exact ⟨_, by rfl, .inr ⟨by simp, rfl, rfl⟩⟩
              | failsAfter j => exact ⟨_, by rfl, .inr ⟨by simp, rfl, rfl⟩⟩

/-! ### Stores the program makes -/

/-- Users of which none makes the program panic. -/
def Safe (m : Users) : Prop :=
  ∀ k v, m k = some v → ∃ u a, v = some u ∧ u.auth = some a ∧ (a.typ = typePassword ∨ a.typ = typeTOTP ∧
    ∃ pr key : Bytes, key.length = 20 ∧ pr.length < 2 ^ 31 - 71 ∧ a.secret = (google pr key).bytes)

theorem safe_empty : Safe Map.empty := fun k v h => by cases h

theorem safe_set {m : Users} (hm : Safe m) {n : Bytes} {u : User} {a : Authenticator} (hu : u.auth = some a)
    (ha : a.typ = typePassword ∨ a.typ = typeTOTP ∧
      ∃ pr key : Bytes, key.length = 20 ∧ pr.length < 2 ^ 31 - 71 ∧ a.secret = (google pr key).bytes) : Safe (m.set n (some u)) := by
  intro k v hk
  by_cases h : k = n
  · subst h
    rw [Map.set_same] at hk
    cases hk
    exact ⟨u, a, rfl, hu, ha⟩
  · rw [Map.set_other m _ h] at hk
    exact hm k v hk

theorem safe_san {m m' : Users} (hf : m.Finite) (h : MapSan (OptRel UserSan) m m') (hm : Safe m) : Safe m' := by
  intro k v hk
  obtain ⟨k0, v0, h1, -, h2⟩ := mapSan_inv hf h hk
  obtain ⟨u0, a0, rfl, h3, h4⟩ := hm k0 v0 h1
  cases v with
  | none => simp [OptRel] at h2
  | some u =>
    obtain ⟨-, h5⟩ : UserSan u0 u := by simpa [OptRel] using h2
    rw [h3] at h5
    cases hu : u.auth with
    | none => rw [hu] at h5; simp [OptRel] at h5
    | some a =>
      rw [hu] at h5
      obtain ⟨h6, -, -, h7⟩ : AuthSan a0 a := by simpa [OptRel] using h5
      refine ⟨u, a, rfl, hu, ?_⟩
      rcases h4 with h4 | ⟨h4, pr, key, h8, h9, h10⟩
      · exact .inl (by rw [h6, h4]; exact valid_typePassword)
      · exact .inr ⟨by rw [h6, h4]; exact valid_typeTOTP, pr, key, h8, h9, by rw [h7, h10]⟩

/-- A turn with such users does not panic and leaves such users. -/
theorem turn_safe {m : Users} (hm : Safe m) {name password : Bytes} {w : World} {r : Ret} {m' : Users} {w' : World}
    (h : turn C J e path m name password w = (r, m', w')) : r ≠ .panic ∧ Safe m' := by
  have hc := turn_cases C J e path m name password w
  rw [h] at hc
  have hno : ∀ u, m name = some (some u) → validate C e.yubi u.auth password (w.term.clock 0) w.rng e.spare ≠ .panic := by
    intro u hu
    obtain ⟨u', a, h1, h2, h3⟩ := hm name _ hu
    cases h1
    unfold validate
    rw [h2]
    simp only
    rcases h3 with h3 | ⟨h3, pr, key, h4, h5, h6⟩
    · rw [if_neg (by rw [h3]; decide), if_neg (by rw [h3]; decide), if_neg (by rw [h3]; decide), if_pos h3]
      simp
    · have hk : key ≠ [] := by rintro rfl; simp at h4
      rw [if_neg (by rw [h3]; decide), if_pos h3,
        validateTOTP_supported C a (google pr key) e.spare _ _ h3 (by rw [h6]; exact google_parse _ _ _ hk (by omega)) (google_supported _ _)]
      split
      · simp
      · split <;> simp
  have hupd : ∀ (u : User) (a : Authenticator) (last secret : Bytes) (rng : Rng), m name = some (some u) → u.auth = some a →
      validate C e.yubi u.auth password (w.term.clock 0) w.rng e.spare =
        .ok (⟨some { a with last := last, secret := secret }, true, none⟩, rng) →
      Safe (m.set name (some { u with auth := some { a with last := last, secret := secret } })) := by
    intro u a last secret rng hu ha hv
    obtain ⟨u', a', h1, h2, h3⟩ := hm name _ hu
    cases h1
    rw [ha] at h2
    cases h2
    refine safe_set hm rfl ?_
    rcases h3 with h3 | ⟨h3, pr, key, h4, h5, h6⟩
    · exact .inl h3
    · refine .inr ⟨h3, pr, key, h4, h5, ?_⟩
      have hk : key ≠ [] := by rintro rfl; simp at h4
      unfold validate at hv
      rw [ha] at hv
      simp only at hv
      rw [if_neg (by rw [h3]; decide), if_pos h3,
        validateTOTP_supported C a (google pr key) e.spare _ _ h3 (by rw [h6]; exact google_parse _ _ _ hk (by omega)) (google_supported _ _)] at hv
      split at hv
      · simp at hv
      · split at hv
        · simp only [Res.ok_bind, Res.pure_eq, Res.ok.injEq, Prod.mk.injEq, VRes.mk.injEq, Option.some.injEq,
            Authenticator.mk.injEq] at hv
          simp only
          rw [← hv.1.1.2.2.2, h6]
        · simp at hv
  cases hc with
  | unknown => exact ⟨by simp, hm⟩
  | nobody h1 => obtain ⟨u, a, h2, -⟩ := hm name _ h1; cases h2
  | panic u h1 h2 => exact absurd h2 (hno u h1)
  | refused => exact ⟨by simp, hm⟩
  | password => exact ⟨by simp, hm⟩
  | updated u a last secret rng h1 h2 h3 => exact ⟨by simp, hupd u a last secret rng h1 h2 h3⟩
  | torn u a last secret rng h1 h2 h3 => exact ⟨by simp, hupd u a last secret rng h1 h2 h3⟩

/-- The file is missing, cannot be parsed, or holds such users. -/
def SafeFile (fs : Fs) : Prop :=
  fs path = none ∨ ∃ data, fs path = some data ∧ (J.dec data = none ∨ ∃ m, J.dec data = some (some m) ∧ Safe m)

theorem safeFile_write {m : Users} (hf : m.Finite) (hm : Safe m) (o : WriteOutcome) {fs : Fs} (h : SafeFile J path fs) :
    SafeFile J path (Go.writeFile o fs path (J.enc m)).1 := by
  have good : SafeFile J path (fs.set path (J.enc m)) := by
    obtain ⟨m', h1, h2⟩ := J.dec_enc m hf
    exact .inr ⟨_, Fs.set_same _ _ _, .inr ⟨m', h1, safe_san hf h2 hm⟩⟩
  cases o with
  | done => exact good
  | openFails => exact h
  | failsAfter k =>
    by_cases hk : k < (J.enc m).length
    · exact .inr ⟨_, Fs.set_same _ _ _, .inl (J.dec_prefix m k hk)⟩
    · simp only [Go.writeFile]
      rw [List.take_of_length_le (by omega)]
      exact good

theorem safeFile_fs {fs fs' : Fs} (h : fs' path = fs path) (hs : SafeFile J path fs) : SafeFile J path fs' := by
  unfold SafeFile at *; rw [h]; exact hs

/-- Running the program on such a file does not panic and leaves such a file. -/
theorem main_safe (hq : path ≠ ascii "qr.png") (hp : e.provider.length < 2 ^ 31 - 71) {args : List Bytes} {fuel : Nat}
    {w w' : World} {r : Ret} (hs : SafeFile J path w.fs) (h : main C J e path args fuel w = some (r, w')) :
    r ≠ .panic ∧ SafeFile J path w'.fs := by
  unfold main at h
  cases args with
  | nil => cases h; exact ⟨by simp, hs⟩
  | cons cmd rest =>
    simp only at h
    cases hl : loadStore J path w with
    | none => rw [hl] at h; cases h; exact ⟨by simp, hs⟩
    | some o =>
      rw [hl] at h
      have hm : ∃ m, o = some m ∧ Safe m ∧ m.Finite := by
        unfold loadStore at hl
        rcases hs with h1 | ⟨data, h1, h2 | ⟨m, h2, h3⟩⟩
        · rw [h1] at hl; cases hl; exact ⟨_, rfl, safe_empty, Map.finite_empty⟩
        · rw [h1] at hl; simp only [h2] at hl; cases hl
        · rw [h1] at hl; simp only [h2] at hl; cases hl; exact ⟨m, rfl, h3, J.dec_finite _ _ h2⟩
      obtain ⟨m, rfl, hsafe, hfin⟩ := hm
      simp only at h
      split at h
      · simp only [Option.some.injEq] at h
        rcases register_cases C J e path (some m) w with ⟨w1, h1, h2, -⟩ | ⟨n, k, as, -, h1, -⟩ | ⟨n, k, as, o, w2, -, h1, h2⟩
        · rw [h1] at h; cases h; exact ⟨by simp, safeFile_fs J path (by rw [h2]) hs⟩
        · exact absurd h1 (enrol_no_panic C e hp k _)
        · have hs2 : SafeFile J path w2.fs := safeFile_fs J path (enrol_fs C e h1 path hq) hs
          rcases h2 with ⟨-, h2⟩ | ⟨a, rfl, ⟨h2, -⟩ | ⟨m', h2, w3, h3, h4⟩⟩
          · rw [h2] at h; cases h; exact ⟨by simp, hs2⟩
          · cases h2
          · cases h2
            have hs3 : SafeFile J path w3.fs := by
              rw [h3]
              refine safeFile_write J path (hfin.set _ _) (safe_set hsafe rfl ?_) _ hs2
              rcases (enrol_ok C e h1).2 with h5 | ⟨h5, key, h6, h7⟩
              · exact .inl h5
              · exact .inr ⟨h5, e.provider, key, h6, hp, h7⟩
            rcases h4 with ⟨-, h4, -⟩ | ⟨-, h4, -⟩
            · rw [h4] at h; cases h; exact ⟨by simp, hs3⟩
            · rw [h4] at h; cases h; exact ⟨by simp, hs3⟩
      · split at h
        · refine loop_invariant C J e path (fun m w => Safe m ∧ m.Finite ∧ SafeFile J path w.fs)
            (Q := fun r w => r ≠ .panic ∧ SafeFile J path w.fs) (L := w.term.answers) ?_ ?_ ?_ ?_ ?_ fuel m w r w' (fun x hx => hx)
            ⟨hsafe, hfin, hs⟩ h
          · intro m w a b m' w' hi _ _ _ ht
            have h1 := (turn_safe C J e path hi.1 ht).2
            have hc := turn_cases C J e path m (trimSpace a) (trimSpace b) w
            rw [ht] at hc
            cases hc with
            | unknown => exact hi
            | refused => exact hi
            | password => exact hi
            | updated => exact ⟨h1, hi.2.1.set _ _, safeFile_write J path (hi.2.1.set _ _) h1 .done hi.2.2⟩
          · intro m w a b r m' w' hi _ _ _ ht hr
            have h1 := turn_safe C J e path hi.1 ht
            refine ⟨h1.1, ?_⟩
            have hc := turn_cases C J e path m (trimSpace a) (trimSpace b) w
            rw [ht] at hc
            cases hc with
            | unknown => exact hi.2.2
            | nobody => exact hi.2.2
            | panic => exact hi.2.2
            | refused => exact hi.2.2
            | password => exact hi.2.2
            | updated => exact absurd rfl hr
            | torn => exact safeFile_write J path (hi.2.1.set _ _) h1.2 _ hi.2.2
          · intro m w hi _; exact ⟨by simp, hi.2.2⟩
          · intro m w hi; exact ⟨by simp, hi.2.2⟩
          · intro m w as hi; exact hi
        · cases h; exact ⟨by simp, hs⟩

end Verif.Proofs.Login
