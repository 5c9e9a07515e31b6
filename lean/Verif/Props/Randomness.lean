import Verif.Model.SecretStore
import Verif.Props.Totp
/-! What becomes of the bytes of the PRNG in a program that calls the libraries (C240). -/

namespace Verif.Props.Randomness
open Verif Verif.Go Verif.Model.Util Verif.Model.SecretStore Verif.Model.Auth

/-- Calls of the functions of common/secret, common/public, common/auth and common/store that draw random bytes. -/
inductive Call where
  /-- `secret.GenerateKey` -/
  | newKey
  /-- `secret.Encrypt` -/
  | encrypt (key : Option Bytes) (msg : Bytes)
  /-- `secret.EncryptFile` on a disk that behaves like `o` -/
  | encryptFile (o : WriteOutcome) (fs : Fs) (path : Path) (pass msg : Bytes)
  /-- `public.Encrypt` -/
  | publicEncrypt (pub : Option Model.Public.PublicKey) (msg : Bytes)
  /-- `public.EncryptAndSign` -/
  | encryptAndSign (priv : Option Model.Public.PrivateKey) (pub : Option Model.Public.PublicKey) (msg : Bytes)
  /-- `public.LockKey` -/
  | lockKey (priv : Option Model.Public.PrivateKey) (pass : Bytes)
  /-- `store.MarshalSecretStore` -/
  | marshal (s : SecretStore) (mode : Int)
  /-- `auth.NewGoogleTOTP` -/
  | newTOTP (qr : TOTPConfig → Bytes → Option Bytes) (provider : Bytes) (now : BitVec 64) (label : Bytes)
  /-- `auth.ValidateSession` -/
  | validate (a : Option Authenticator) (otp : Bytes)

/-- The name of the provider fits into the record of a token. -/
def Call.Fits : Call → Prop
  | .newTOTP _ provider _ _ => provider.length < 2 ^ 30
  | _ => True

/-- Salt and nonce at the beginning of a sealed file. -/
def saltAndNonce (b : Bytes) : List Bytes := [b.take 32, (b.drop 32).take 24]

variable (C : Crypto) (J : Json)

/-- A call: the nonces, salts, keys and session tokens in what it returns or writes, if it succeeds, and the PRNG. -/
def Call.run : Call → Rng → Res (List Bytes × Rng)
  | .newKey, rng =>
    let (k, r) := Model.Secret.generateKey rng
    .ok (k.toList, r)
  | .encrypt key msg, rng => do
    let (ct, r) ← Model.Secret.encrypt C key msg rng
    pure (ct.toList.map (·.take 24), r)
  | .encryptFile o fs path pass msg, rng => do
    let out ← Model.Secret.encryptFile C o fs path pass msg rng
    pure (if out.ok then (out.fs path).toList.flatMap saltAndNonce else [], out.rng)
  | .publicEncrypt pub msg, rng => do
    let (ct, r) ← Model.Public.encrypt C pub msg rng
    pure (ct.toList.map fun b => (b.drop 32).take 24, r)
  | .encryptAndSign priv pub msg, rng => do
    let (ct, r) ← Model.Public.encryptAndSign C priv pub msg rng
    pure (ct.toList.map fun b => (b.drop 32).take 24, r)
  | .lockKey priv pass, rng => do
    let (ct, r) ← Model.Public.lockKey C priv pass rng
    pure (ct.toList.flatMap saltAndNonce, r)
  | .marshal s mode, rng => do
    let (ct, _, r) ← marshalSecretStore C J s mode rng
    pure (ct.toList.flatMap saltAndNonce, r)
  | .newTOTP qr provider now label, rng => do
    let (a, r) ← newGoogleTOTP C qr provider now label rng
    match a with
    | .error _ => pure ([], r)
    | .ok (a, _) => do
      let c ← parseTOTPConfig a.secret []
      pure (c.toList.map (·.key), r)
  | .validate a otp, rng =>
    let (v, r) := validateSession C a otp rng
    .ok (if v.update then (v.auth.bind fun a => hexDecode a.last).toList else [], r)

/-- Calls one after the other; the PRNG goes on where the last call left it. -/
def runAll : List Call → Rng → Res (List Bytes × Rng)
  | [], rng => .ok ([], rng)
  | c :: cs, rng => do
    let (vs, r) ← c.run C J rng
    let (ws, r') ← runAll cs r
    pure (vs ++ ws, r')

/-- The values are parts of the string, in this order and without a byte in common. -/
inductive Apart : List Bytes → Bytes → Prop where
  | nil (r : Bytes) : Apart [] r
  | cons (gap p : Bytes) {ps : List Bytes} {r : Bytes} (h : Apart ps r) : Apart (p :: ps) (gap ++ p ++ r)

/-- No string of `n` bytes occurs at two places that do not overlap. -/
def NoRepeat (n : Nat) (r : Bytes) : Prop := ∀ a p b q c, r = a ++ p ++ b ++ q ++ c → p.length = n → q.length = n → p ≠ q

theorem Apart.append {a b : List Bytes} {x y : Bytes} (h1 : Apart a x) (h2 : Apart b y) : Apart (a ++ b) (x ++ y) := by
  induction h1 with
  | nil r =>
    cases h2 with
    | nil => exact .nil _
    | cons gap p h =>
      have h' := Apart.cons (r ++ gap) p h
      simpa only [List.nil_append, List.append_assoc] using h'
  | cons gap p _ ih =>
    have h' := Apart.cons gap p ih
    simpa only [List.cons_append, List.append_assoc] using h'

theorem Apart.one (p : Bytes) : Apart [p] p := by
  have h := Apart.cons [] p (.nil [])
  simpa using h

theorem Apart.mem {ps : List Bytes} {r q : Bytes} (h : Apart ps r) (hq : q ∈ ps) : ∃ a c, r = a ++ q ++ c := by
  induction h with
  | nil => cases hq
  | @cons gap p ps r _ ih =>
    cases hq with
    | head => exact ⟨gap, r, rfl⟩
    | tail _ hq =>
      obtain ⟨a, c, rfl⟩ := ih hq
      exact ⟨gap ++ p ++ a, c, by simp⟩

/-- What a call leaves of the PRNG, and what it took its values from. -/
def Took (vs : List Bytes) (rng rng' : Rng) : Prop :=
  ∃ used, rng = used ++ rng' ∧ Apart vs used ∧ ∀ v ∈ vs, v.length = 20 ∨ v.length = 24 ∨ v.length = 32

theorem Took.refl (rng : Rng) : Took [] rng rng := ⟨[], rfl, .nil _, by simp⟩

theorem Took.none {rng rng' : Rng} (used : Bytes) (h : rng = used ++ rng') : Took [] rng rng' := ⟨used, h, .nil _, by simp⟩

theorem Took.trans {vs ws : List Bytes} {r r' r'' : Rng} (h1 : Took vs r r') (h2 : Took ws r' r'') : Took (vs ++ ws) r r'' := by
  obtain ⟨u, rfl, a1, l1⟩ := h1
  obtain ⟨v, rfl, a2, l2⟩ := h2
  refine ⟨u ++ v, by simp, a1.append a2, fun x hx => ?_⟩
  rcases List.mem_append.1 hx with hx | hx
  · exact l1 x hx
  · exact l2 x hx

theorem Took.one {p : Bytes} {rng rng' : Rng} (h : rng = p ++ rng') (hl : p.length = 20 ∨ p.length = 24 ∨ p.length = 32) : Took [p] rng rng' :=
  ⟨p, h, .one p, by simpa using hl⟩

theorem took_read {rng rng' : Rng} {n : Nat} {o : Option Bytes} (h : readFull rng n = (o, rng')) (hn : n = 20 ∨ n = 24 ∨ n = 32) :
    Took o.toList rng rng' := by
  cases o with
  | none =>
    unfold readFull at h
    split at h
    · cases h
    · cases h
      exact .none rng (by simp)
  | some p =>
    obtain ⟨e1, e2⟩ := readFull_some h
    exact .one e1 (by rw [e2]; exact hn)

theorem took_nonce {rng rng' : Rng} {o : Option Bytes} (h : newNonce rng = (o, rng')) : Took o.toList rng rng' := by
  unfold newNonce at h
  split at h
  · next r' hr => cases h; exact took_read hr (by decide)
  · next p r' hr =>
    cases h
    have hl := (readFull_some hr).2
    rw [copyInto_eq hl]
    exact took_read hr (by decide)

/-- Without its values, a call has still left a part of the PRNG. -/
theorem Took.forget {vs : List Bytes} {rng rng' : Rng} (h : Took vs rng rng') : Took [] rng rng' := by
  obtain ⟨u, e, -, -⟩ := h
  exact .none u e

theorem took_encrypt {key : Option Bytes} {msg : Bytes} {rng rng' : Rng} {ct : Option Bytes}
    (h : Model.Secret.encrypt C key msg rng = .ok (ct, rng')) : Took (ct.toList.map (·.take 24)) rng rng' := by
  unfold Model.Secret.encrypt at h
  split at h
  · next r' hr => cases h; exact took_nonce hr
  · next p r' hr =>
    cases key with
    | none => cases h
    | some k =>
      cases h
      have hl := (newNonce_some hr).2
      have := took_nonce hr
      simp only [Option.toList, List.map_cons, List.map_nil, copyInto_eq hl]
      rw [List.take_append_of_le_length (by omega), List.take_of_length_le (by omega)]
      exact this

/-- Salt first, then a message sealed under a new nonce. -/
theorem took_salted {salt ct : Bytes} {rng r rng' : Rng} (hs : readFull rng 32 = (some salt, r)) (he : Took [ct.take 24] r rng') :
    Took (saltAndNonce (salt ++ ct)) rng rng' := by
  have hl := (readFull_some hs).2
  have h := (took_read hs (by decide)).trans he
  simp only [saltAndNonce]
  rw [List.take_append_of_le_length (by omega), List.take_of_length_le (by omega), List.drop_append_of_le_length (by omega),
    List.drop_eq_nil_of_le (by omega), List.nil_append]
  exact h

theorem took_raw {pub : Option Model.Public.PublicKey} {msg : Bytes} {rng rng' : Rng} {ct : Option Bytes}
    (h : Model.Public.encryptRaw C pub msg rng = .ok (ct, rng')) : Took (ct.toList.map fun b => (b.drop 32).take 24) rng rng' := by
  unfold Model.Public.encryptRaw at h
  split at h
  · cases h; exact .refl _
  · unfold Model.Public.boxGenerate at h
    cases hr : readFull rng 32 with
    | mk o r =>
      rw [hr] at h
      have t1 := took_read hr (by decide)
      cases o with
      | none => cases h; exact t1
      | some d =>
        simp only at h
        cases hn : newNonce r with
        | mk n r2 =>
          rw [hn] at h
          have t2 := took_nonce hn
          cases n with
          | none => cases h
          | some n =>
            have hl := (newNonce_some hn).2
            cases pub with
            | none => cases h
            | some pk =>
              obtain ⟨e, v⟩ := pk
              cases e with
              | none => cases h
              | some e =>
                cases h
                have hb := C.base_length d
                simp only [Option.toList, List.map_cons, List.map_nil]
                rw [List.append_assoc, List.drop_append_of_le_length (by omega), List.drop_eq_nil_of_le (by omega), List.nil_append,
                  List.take_append_of_le_length (by omega), List.take_of_length_le (by omega)]
                exact t1.forget.trans t2

theorem took_lock {priv : Option Model.Public.PrivateKey} {pass : Bytes} {rng rng' : Rng} {ct : Option Bytes}
    (h : Model.Public.lockKey C priv pass rng = .ok (ct, rng')) : Took (ct.toList.flatMap saltAndNonce) rng rng' := by
  unfold Model.Public.lockKey at h
  cases hm : Model.Public.marshalPrivate priv with
  | panic => rw [hm] at h; cases h
  | ok m =>
    rw [hm] at h
    cases m with
    | none => cases h; exact .refl _
    | some m =>
      simp only [Res.ok_bind, randBytes] at h
      cases hr : readFull rng 32 with
      | mk o r =>
        rw [hr] at h
        cases o with
        | none => cases h; exact took_read hr (by decide)
        | some salt =>
          simp only at h
          cases hk : Model.Secret.deriveKey C pass salt with
          | none => rw [hk] at h; cases h
          | some k =>
            rw [hk] at h
            simp only [Model.Public.deref, Res.ok_bind] at h
            cases he : Model.Secret.encrypt C (some k) m r with
            | panic => rw [he] at h; cases h
            | ok x =>
              obtain ⟨c, r2⟩ := x
              rw [he] at h
              have t := took_encrypt C he
              cases c with
              | none => cases h; exact (took_read hr (by decide)).forget.trans t
              | some c =>
                cases h
                simpa using took_salted hr t

theorem took_marshal {s s' : SecretStore} {mode : Int} {rng rng' : Rng} {ct : Option Bytes}
    (h : marshalSecretStore C J s mode rng = .ok (ct, s', rng')) : Took (ct.toList.flatMap saltAndNonce) rng rng' := by
  unfold marshalSecretStore at h
  split at h
  · cases h; exact .refl _
  · simp only [randBytes] at h
    cases hr : readFull rng 32 with
    | mk o r =>
      rw [hr] at h
      cases o with
      | none => cases h; exact took_read hr (by decide)
      | some salt =>
        simp only at h
        cases hk : Model.Secret.deriveKeyStrength C (s.passphrase.getD []) salt mode with
        | none => rw [hk] at h; cases h; exact (took_read hr (by decide)).forget
        | some k =>
          rw [hk] at h
          simp only at h
          cases he : Model.Secret.encrypt C (some k) (J.enc s.toFields) r with
          | panic => rw [he] at h; cases h
          | ok x =>
            obtain ⟨c, r2⟩ := x
            rw [he] at h
            have t := took_encrypt C he
            cases c with
            | none => cases h; exact (took_read hr (by decide)).forget.trans t
            | some c =>
              cases h
              simpa using took_salted hr t

theorem took_file {o : WriteOutcome} {fs : Fs} {path : Path} {pass msg : Bytes} {rng : Rng} {out : Model.Secret.FileOut}
    (h : Model.Secret.encryptFile C o fs path pass msg rng = .ok out) :
    Took (if out.ok then (out.fs path).toList.flatMap saltAndNonce else []) rng out.rng := by
  unfold Model.Secret.encryptFile at h
  simp only [randBytes] at h
  cases hr : readFull rng 32 with
  | mk x r =>
    rw [hr] at h
    cases x with
    | none => cases h; exact took_read hr (by decide)
    | some salt =>
      simp only at h
      cases he : Model.Secret.encrypt C (Model.Secret.deriveKey C pass salt) msg r with
      | panic => rw [he] at h; cases h
      | ok x =>
        obtain ⟨c, r2⟩ := x
        rw [he] at h
        have t := took_encrypt C he
        cases c with
        | none => cases h; exact (took_read hr (by decide)).forget.trans t
        | some c =>
          cases o with
          | done =>
            cases h
            simpa [writeFile] using took_salted hr t
          | openFails => cases h; exact ((took_read hr (by decide)).trans t).forget
          | failsAfter k => cases h; exact ((took_read hr (by decide)).trans t).forget

theorem took_totp {qr : TOTPConfig → Bytes → Option Bytes} {provider : Bytes} {now : BitVec 64} {label : Bytes} {rng rng' : Rng} {vs : List Bytes}
    (hp : provider.length < 2 ^ 30) (h : (Call.newTOTP qr provider now label).run C J rng = .ok (vs, rng')) : Took vs rng rng' := by
  simp only [Call.run, newGoogleTOTP, randBytes] at h
  cases hr : readFull rng 20 with
  | mk x r =>
    rw [hr] at h
    have t := took_read hr (by decide)
    cases x with
    | none => cases h; exact t
    | some key =>
      have hl := (readFull_some hr).2
      simp only [importGoogleTOTP] at h
      cases hg : generateOTPAt C { key := key, start := 0, step := 30, size := 6, algo := sha1Id, provider := provider } now with
      | panic => rw [hg] at h; cases h
      | ok i =>
        rw [hg] at h
        simp only [Res.ok_bind, Res.pure_eq] at h
        generalize he : exportUserTOTP qr _ label = ex at h
        cases ex with
        | panic => cases h
        | ok ex =>
          cases ex with
          | error e => cases h; exact t.forget
          | ok ud =>
            simp only [Res.ok_bind] at h
            rw [Totp.C28_roundtrip_partial _ [] (by rintro rfl; cases hl) ⟨by simp, by simp⟩ (by simp only; decide) (by simp only; omega)] at h
            cases h
            exact t

theorem took_validate {a : Option Authenticator} {otp : Bytes} {rng rng' : Rng} {vs : List Bytes}
    (h : (Call.validate a otp).run C J rng = .ok (vs, rng')) : Took vs rng rng' := by
  simp only [Call.run] at h
  suffices hv : ∀ v r, validateSession C a otp rng = (v, r) →
      Took (if v.update then (v.auth.bind fun a => hexDecode a.last).toList else []) rng r by
    cases hx : validateSession C a otp rng with
    | mk v r =>
      rw [hx] at h
      cases h
      exact hv v r hx
  clear h
  intro v r h
  unfold validateSession at h
  cases hr : readFull rng 32 with
  | mk x r2 =>
    have t := took_read hr (by decide)
    simp only [randBytes, sessionLength, hr] at h
    cases a with
    | none => cases h; exact .refl _
    | some a =>
      simp only at h
      by_cases h1 : a.typ ≠ typeSession
      · rw [if_pos h1] at h; cases h; exact .refl _
      rw [if_neg h1] at h
      cases h2 : hexDecode otp with
      | none => rw [h2] at h; cases h; exact .refl _
      | some ob =>
        simp only [h2] at h
        by_cases h3 : ob.length ≠ 2 * 32
        · rw [if_pos h3] at h; cases h; exact .refl _
        rw [if_neg h3] at h
        cases h4 : hexDecode a.last with
        | none => rw [h4] at h; cases h; exact .refl _
        | some lb =>
          simp only [h4] at h
          by_cases h5 : ob.take 32 ≠ lb
          · rw [if_pos h5] at h; cases h; exact .refl _
          rw [if_neg h5] at h
          by_cases h6 : ob.drop 32 ≠ C.hmacSha256 a.secret lb
          · rw [if_pos h6] at h; cases h; exact .refl _
          rw [if_neg h6] at h
          cases x with
          | none => cases h; exact t
          | some next =>
            cases h
            simpa [hexDecode_encode] using t

theorem took_call {c : Call} (hf : c.Fits) {rng rng' : Rng} {vs : List Bytes} (h : c.run C J rng = .ok (vs, rng')) : Took vs rng rng' := by
  cases c with
  | newKey =>
    simp only [Call.run, Model.Secret.generateKey, randBytes] at h
    cases hr : readFull rng 32 with
    | mk x r =>
      rw [hr] at h
      have t := took_read hr (by decide)
      cases x with
      | none => cases h; exact t
      | some k =>
        have hl := (readFull_some hr).2
        simp only [copyInto_eq hl, hl, ne_eq, not_true_eq_false, if_false] at h
        cases h
        exact t
  | encrypt key msg =>
    simp only [Call.run] at h
    cases he : Model.Secret.encrypt C key msg rng with
    | panic => rw [he] at h; cases h
    | ok x => rw [he] at h; cases h; exact took_encrypt C he
  | encryptFile o fs path pass msg =>
    simp only [Call.run] at h
    cases he : Model.Secret.encryptFile C o fs path pass msg rng with
    | panic => rw [he] at h; cases h
    | ok x => rw [he] at h; cases h; exact took_file C he
  | publicEncrypt pub msg =>
    simp only [Call.run] at h
    cases he : Model.Public.encrypt C pub msg rng with
    | panic => rw [he] at h; cases h
    | ok x => rw [he] at h; cases h; exact took_raw C he
  | encryptAndSign priv pub msg =>
    simp only [Call.run] at h
    cases he : Model.Public.encryptAndSign C priv pub msg rng with
    | panic => rw [he] at h; cases h
    | ok x =>
      rw [he] at h
      cases h
      unfold Model.Public.encryptAndSign at he
      cases hs : Model.Public.sign C priv msg with
      | panic => rw [hs] at he; cases he
      | ok s =>
        rw [hs] at he
        cases s with
        | none => cases he; exact .refl _
        | some s => exact took_raw C he
  | lockKey priv pass =>
    simp only [Call.run] at h
    cases he : Model.Public.lockKey C priv pass rng with
    | panic => rw [he] at h; cases h
    | ok x => rw [he] at h; cases h; exact took_lock C he
  | marshal s mode =>
    simp only [Call.run] at h
    cases he : marshalSecretStore C J s mode rng with
    | panic => rw [he] at h; cases h
    | ok x => rw [he] at h; cases h; exact took_marshal C J he
  | newTOTP qr provider now label => exact took_totp C J hf h
  | validate a otp => exact took_validate C J h

/-- C240: the nonces, salts, keys and session tokens that a program gets from any sequence of calls, whether some of them fail or not, are parts of what
the PRNG has produced, in the order of the calls, and no byte is used for two of them; what the last call leaves has not been used. -/
theorem C240_apart (cs : List Call) (hf : ∀ c ∈ cs, c.Fits) (rng rng' : Rng) (vs : List Bytes) (h : runAll C J cs rng = .ok (vs, rng')) :
    ∃ used, rng = used ++ rng' ∧ Apart vs used ∧ ∀ v ∈ vs, v.length = 20 ∨ v.length = 24 ∨ v.length = 32 := by
  suffices Took vs rng rng' from this
  induction cs generalizing rng vs with
  | nil => cases h; exact .refl _
  | cons c cs ih =>
    simp only [runAll] at h
    cases hc : c.run C J rng with
    | panic => rw [hc] at h; cases h
    | ok x =>
      obtain ⟨v, r⟩ := x
      rw [hc] at h
      simp only [Res.ok_bind] at h
      cases hr : runAll C J cs r with
      | panic => rw [hr] at h; cases h
      | ok y =>
        obtain ⟨w, r2⟩ := y
        rw [hr] at h
        cases h
        exact (took_call C J (hf c (.head _)) hc).trans (ih (fun c hc => hf c (.tail _ hc)) _ _ hr)

theorem Took.nodup {vs : List Bytes} {rng rng' : Rng} (h : Took vs rng rng') (hn : NoRepeat 20 rng) : vs.Nodup := by
  obtain ⟨used, e, ha, hl⟩ := h
  have hu : NoRepeat 20 used := fun a p b q c e' => hn a p b q (c ++ rng') (by rw [e, e']; simp)
  clear e hn
  induction ha with
  | nil => exact .nil
  | @cons gap p ps r h2 ih =>
    refine List.nodup_cons.2 ⟨fun hm => ?_, ih (fun v hv => hl v (.tail _ hv)) fun a x b q c e' => hu (gap ++ p ++ a) x b q c (by rw [e']; simp)⟩
    obtain ⟨a, c, rfl⟩ := h2.mem hm
    have hp := hl p (.head _)
    refine hu gap (p.take 20) (p.drop 20 ++ a) (p.take 20) (p.drop 20 ++ c) ?_ (by rw [List.length_take]; omega) (by rw [List.length_take]; omega) rfl
    have := List.take_append_drop 20 p
    calc gap ++ p ++ (a ++ p ++ c) = gap ++ (p.take 20 ++ p.drop 20) ++ (a ++ (p.take 20 ++ p.drop 20) ++ c) := by rw [this]
      _ = _ := by simp only [List.append_assoc]

/-- C240: hence, if the PRNG does not repeat itself, all of them are different, whichever functions they come from. -/
theorem C240_distinct (cs : List Call) (hf : ∀ c ∈ cs, c.Fits) (rng rng' : Rng) (hn : NoRepeat 20 rng) (vs : List Bytes)
    (h : runAll C J cs rng = .ok (vs, rng')) : vs.Nodup :=
  Took.nodup (C240_apart C J cs hf rng rng' vs h) hn

theorem noRepeat_nodup {r : Bytes} (h : r.Nodup) : NoRepeat 20 r := by
  rintro a p b q c rfl hp hq rfl
  cases p with
  | nil => cases hp
  | cons x p =>
    simp only [List.append_assoc, List.cons_append] at h
    have h1 := (List.nodup_append.1 h).2.1
    exact (List.nodup_cons.1 h1).1 (by simp)

/-- The numbers from 0 to 111. -/
def exStream : Bytes := (List.range 112).map UInt8.ofNat

set_option maxRecDepth 20000 in
theorem exStream_nodup : exStream.Nodup := by decide +kernel

theorem exStream_eq : exStream = (List.range 32).map UInt8.ofNat ++ ((List.range' 32 24).map UInt8.ofNat ++
    ((List.range' 56 24).map UInt8.ofNat ++ ((List.range' 80 32).map UInt8.ofNat ++ []))) := by decide +kernel

/-- A file is written, a message sealed and a session token used, with the bytes 0, 1, 2, … as the PRNG. -/
example : NoRepeat 20 exStream ∧
    runAll C J [.encryptFile .done (fun _ => none) [102] [112, 119] [1, 2, 3], .encrypt (some (List.replicate 32 9)) [4, 5],
      .validate (some { typ := typeSession, last := hexEncode (List.replicate 32 7), secret := [1] })
        (hexEncode (List.replicate 32 7 ++ C.hmacSha256 [1] (List.replicate 32 7)))] exStream =
      .ok ([(List.range 32).map UInt8.ofNat, (List.range' 32 24).map UInt8.ofNat, (List.range' 56 24).map UInt8.ofNat,
        (List.range' 80 32).map UInt8.ofNat], []) := by
  refine ⟨noRepeat_nodup exStream_nodup, ?_⟩
  rw [exStream_eq]
  have l5 : (List.replicate 32 (7 : UInt8)).length = 32 := rfl
  generalize List.replicate 32 (7 : UInt8) = p5 at l5
  generalize List.replicate 32 (9 : UInt8) = key
  have hl := C.hmacSha256_length [1] p5
  generalize h1 : (List.range 32).map UInt8.ofNat = p1
  generalize h2 : (List.range' 32 24).map UInt8.ofNat = p2
  generalize h3 : (List.range' 56 24).map UInt8.ofNat = p3
  generalize h4 : (List.range' 80 32).map UInt8.ofNat = p4
  have l1 : p1.length = 32 := by simp [← h1]
  have l2 : p2.length = 24 := by simp [← h2]
  have l3 : p3.length = 24 := by simp [← h3]
  have l4 : p4.length = 32 := by simp [← h4]
  clear h1 h2 h3 h4
  have hk : ∃ k, Model.Secret.deriveKey C [112, 119] p1 = some k := ⟨_, rfl⟩
  obtain ⟨k, hk⟩ := hk
  have e1 : Model.Secret.encryptFile C .done (fun _ => none) [102] [112, 119] [1, 2, 3] (p1 ++ (p2 ++ (p3 ++ (p4 ++ [])))) =
      .ok ⟨Fs.set (fun _ => none) [102] (p1 ++ (p2 ++ C.sealBox k p2 [1, 2, 3])), true, zero [1, 2, 3], p3 ++ (p4 ++ [])⟩ := by
    unfold Model.Secret.encryptFile
    rw [randBytes, readFull_append l1]
    simp only [hk, Model.Secret.encrypt]
    rw [newNonce_append l2]
    simp [Model.Secret.sealPtr, copyInto_eq l2, writeFile]
  have e2 : Model.Secret.encrypt C (some key) [4, 5] (p3 ++ (p4 ++ [])) =
      .ok (some (p3 ++ C.sealBox key p3 [4, 5]), p4 ++ []) := by
    unfold Model.Secret.encrypt
    rw [newNonce_append l3]
    simp [Model.Secret.sealPtr, copyInto_eq l3]
  have e3 : validateSession C (some { typ := typeSession, last := hexEncode (p5), secret := [1] })
      (hexEncode (p5 ++ C.hmacSha256 [1] (p5))) (p4 ++ []) =
      (⟨some { typ := typeSession, last := hexEncode p4, secret := [1] }, true, none⟩, []) := by
    unfold validateSession
    simp only [hexDecode_encode]
    rw [randBytes, readFull_append l4]
    simp [hl, l5, sessionLength]
  have r1 : (Call.encryptFile .done (fun _ => none) [102] [112, 119] [1, 2, 3]).run C J (p1 ++ (p2 ++ (p3 ++ (p4 ++ [])))) =
      .ok ([p1, p2], p3 ++ (p4 ++ [])) := by
    simp only [Call.run]
    rw [e1]
    simp [saltAndNonce, ← l1, ← l2]
  have r2 : (Call.encrypt (some key) [4, 5]).run C J (p3 ++ (p4 ++ [])) = .ok ([p3], p4 ++ []) := by
    simp only [Call.run]
    rw [e2]
    simp [← l3]
  have r3 : (Call.validate (some { typ := typeSession, last := hexEncode p5, secret := [1] }) (hexEncode (p5 ++ C.hmacSha256 [1] p5))).run C J
      (p4 ++ []) = .ok ([p4], []) := by
    simp only [Call.run]
    rw [e3]
    simp [hexDecode_encode]
  simp only [runAll]
  rw [r1, Res.ok_bind]
  simp only [r2, r3, Res.ok_bind, Res.pure_eq, List.cons_append, List.nil_append]

end Verif.Props.Randomness
