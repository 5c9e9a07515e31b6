import Verif.Proofs.Auth
/-! Properties of common/auth/totp.go (C28-C33). -/

namespace Verif.Props.Totp
open Verif Verif.Go Verif.Model.Util Verif.Model.Tlv Verif.Model.Auth Verif.Spec.Auth
  Verif.Spec.Tlv Verif.Proofs.Tlv Verif.Proofs.Public Verif.Proofs.Auth

variable (C : Crypto)

/-- C28, what holds: configurations with a key, a 32-bit size and a hash number below 128
survive (total size below 2 GiB). Missing: empty keys, and sizes and hashes out of range. -/
theorem C28_roundtrip_partial (c : TOTPConfig) (spare : Bytes) (hk : c.key ≠ [])
    (hs : -2 ^ 31 ≤ c.size ∧ c.size < 2 ^ 31) (ha : c.algo.toNat < 128)
    (hl : c.key.length + c.provider.length < 2 ^ 31 - 51) :
    parseTOTPConfig c.bytes spare = .ok (some c) := by
  rw [parseTOTP_bytes c spare hk hl]
  obtain ⟨key, start, step, size, algo, provider⟩ := c
  simp only at hs ha ⊢
  have h1 : (BitVec.ofInt 32 size).toInt = size := by
    rw [BitVec.toInt_ofInt, Int.bmod_eq_of_le] <;> omega
  have h2 : (algo.setWidth 8).signExtend 64 = algo := by
    apply BitVec.eq_of_toInt_eq
    rw [BitVec.toInt_signExtend_of_le (by omega), BitVec.toInt_eq_toNat_cond,
      BitVec.toInt_eq_toNat_cond, BitVec.toNat_setWidth, Nat.mod_eq_of_lt (by omega),
      if_pos (by omega), if_pos (by omega)]
  rw [h1, h2]

/-- C28 is false for an empty key: whatever the configuration, all-zero comes back. -/
theorem C28_empty_key_violated (c : TOTPConfig) (spare : Bytes) (hk : c.key = [])
    (hl : c.provider.length < 2 ^ 31 - 51) :
    parseTOTPConfig c.bytes spare =
      .ok (some { key := [], start := 0, step := 0, size := 0, algo := 0, provider := [] }) := by
  rw [totp_bytes_eq, hk, record_nil]
  refine parseTOTP_empty _ _ ?_
  simp only [List.length_append, bytesRecord_length, record_length, size]
  omega

/-- C28: which configurations survive, exactly: those with a key, a 32-bit size and a hash number that
fits a signed byte, and the one in which everything is zero. -/
theorem C28_exact_partial (c : TOTPConfig) (spare : Bytes) (hl : c.key.length + c.provider.length < 2 ^ 31 - 51) :
    parseTOTPConfig c.bytes spare = .ok (some c) ↔
      (c.key ≠ [] ∧ (-2 ^ 31 ≤ c.size ∧ c.size < 2 ^ 31) ∧ (-128 ≤ c.algo.toInt ∧ c.algo.toInt < 128)) ∨
      c = { key := [], start := 0, step := 0, size := 0, algo := 0, provider := [] } := by
  by_cases hk : c.key = []
  · rw [C28_empty_key_violated c spare hk (by omega)]
    simp only [Res.ok.injEq, Option.some.injEq, hk, ne_eq, not_true_eq_false, false_and, false_or]
    exact eq_comm
  · rw [parseTOTP_bytes c spare hk hl]
    obtain ⟨key, start, step, size, algo, provider⟩ := c
    simp only at hk
    have hsz : (BitVec.ofInt 32 size).toInt = size ↔ -2 ^ 31 ≤ size ∧ size < 2 ^ 31 := by
      rw [BitVec.toInt_ofInt]
      constructor
      · intro h
        rw [← h]
        have h1 := Int.le_bmod (x := size) (m := 2 ^ 32) (by omega)
        have h2 := Int.bmod_lt (x := size) (m := 2 ^ 32) (by omega)
        omega
      · intro h
        rw [Int.bmod_eq_of_le] <;> omega
    have hal : (algo.setWidth 8).signExtend 64 = algo ↔ -128 ≤ algo.toInt ∧ algo.toInt < 128 := by
      rw [← BitVec.toInt_inj, BitVec.toInt_signExtend_of_le (by omega), BitVec.toInt_eq_toNat_cond,
        BitVec.toInt_eq_toNat_cond, BitVec.toNat_setWidth]
      have := algo.isLt
      split <;> split <;> omega
    simp only [Res.ok.injEq, Option.some.injEq, TOTPConfig.mk.injEq, true_and, and_true, ne_eq, hk, not_false_eq_true,
      false_and, or_false, hsz, hal]

/-- C28 is false for hash numbers above 127: SHA3-256 would do as number 10, but 200 becomes a number
that names no hash. -/
theorem C28_hash_violated : ∃ c c' : TOTPConfig, c ≠ c' ∧ c.algo.toNat = 200 ∧ c'.algo.toNat = 2 ^ 64 - 56 ∧
    parseTOTPConfig c.bytes = .ok (some c') :=
  ⟨{ key := [1], start := 0, step := 30, size := 6, algo := 200, provider := [] },
    { key := [1], start := 0, step := 30, size := 6, algo := 18446744073709551560, provider := [] },
    by decide, by decide, by decide, by decide⟩

example : ∃ c : TOTPConfig, c.key.length + c.provider.length < 2 ^ 31 - 51 ∧ c.key ≠ [] ∧ c.algo.toInt = -1 :=
  ⟨{ key := [1], start := 0, step := 30, size := 6, algo := -1, provider := [] }, by decide, by decide, by decide⟩

/-- C28 is false for a size that does not fit 32 bits: 6 + 2^32 digits become 6. -/
theorem C28_size_violated : ∃ c c' : TOTPConfig, c ≠ c' ∧ c.size = 6 + 2 ^ 32 ∧ c'.size = 6 ∧
    parseTOTPConfig c.bytes = .ok (some c') :=
  ⟨{ key := [1], start := 0, step := 30, size := 6 + 2 ^ 32, algo := 3, provider := [] },
    { key := [1], start := 0, step := 30, size := 6, algo := 3, provider := [] },
    by decide, rfl, rfl, by decide⟩

example : ∃ c : TOTPConfig, c.key ≠ [] ∧ (-2 ^ 31 ≤ c.size ∧ c.size < 2 ^ 31) ∧ c.algo.toNat < 128 ∧
    c.key.length + c.provider.length < 2 ^ 31 - 51 :=
  ⟨google [65] [1, 2, 3], by decide, by decide, by decide, by decide⟩

/-- C29: the code has exactly the configured number of digits, and its value is the dynamic
truncation of the HMAC of the big-endian time counter, modulo the power of ten. -/
theorem C29_code (c : TOTPConfig) (hstep : c.step ≠ 0) (h1 : 1 ≤ c.size) (h10 : c.size ≤ 10)
    (ha : c.algo = 3) (t : BitVec 64) :
    ∃ s, generateOTPAt C c t = .ok (some s) ∧ (s.length : Int) = c.size ∧
      (∀ ch ∈ s, 48 ≤ ch.toNat ∧ ch.toNat ≤ 57) ∧
      decVal s = dynamicTruncation (C.hmacSha1 c.key
        (be 8 ((t.toNat + 2 ^ 64 - c.start.toNat) % 2 ^ 64 / c.step.toNat))) % 10 ^ c.size.toNat := by
  have hc : Supported c := ⟨hstep, h1, h10, ha⟩
  refine ⟨_, generate_supported C c hc t, ?_⟩
  exact (isCode_iff C c hc t _).mpr rfl

/-- C29: with another hash there is no code, only an error. -/
theorem C29_other_hash (c : TOTPConfig) (hstep : c.step ≠ 0) (h0 : 0 ≤ c.size) (h10 : c.size ≤ 10)
    (ha : c.algo ≠ 3) (t : BitVec 64) : generateOTPAt C c t = .ok none := by
  unfold generateOTPAt oathDigits
  rw [if_neg hstep, if_pos ⟨h0, h10⟩]
  exact if_pos ha

example : ∃ c : TOTPConfig, c.step ≠ 0 ∧ 1 ≤ c.size ∧ c.size ≤ 10 ∧ c.algo = 3 :=
  ⟨google [] [1], by decide, by decide, by decide, rfl⟩
example : ∃ c : TOTPConfig, c.step ≠ 0 ∧ 0 ≤ c.size ∧ c.size ≤ 10 ∧ c.algo ≠ 3 :=
  ⟨{ google [] [1] with algo := 5 }, by decide, by decide, by decide, by decide⟩

/-- RFC 4226 appendix D: the hash of counter 0 truncates to 1284755224, hence 755224. -/
example : dynamicTruncation [0xcc, 0x93, 0xcf, 0x18, 0x50, 0x8d, 0x94, 0x93, 0x4c, 0x64, 0xb6, 0x5d,
    0x8b, 0xa7, 0x66, 0x7f, 0xb7, 0xcd, 0xe4, 0xb0] = 1284755224 := by decide

/-- C30: acceptance is exact for every supported configuration, and nothing but the last OTP
changes. -/
theorem C30_acceptance (a : Authenticator) (c : TOTPConfig) (spare otp : Bytes) (now : BitVec 64)
    (hp : parseTOTPConfig a.secret spare = .ok (some c)) (hc : Supported c) :
    ((a.typ = typeTOTP ∧ a.last ≠ otp ∧ (IsCode C c now otp ∨ IsCode C c (now - c.step) otp)) →
      validateTOTP C (some a) otp now spare = .ok ⟨some { a with last := otp }, true, none⟩) ∧
    (¬ (a.typ = typeTOTP ∧ a.last ≠ otp ∧ (IsCode C c now otp ∨ IsCode C c (now - c.step) otp)) →
      ∃ e, validateTOTP C (some a) otp now spare = .ok ⟨some a, false, some e⟩) := by
  by_cases ht : a.typ = typeTOTP
  · rw [validateTOTP_supported C a c spare otp now ht hp hc]
    by_cases hl : a.last = otp
    · simp [hl]
    · rw [if_neg hl]
      by_cases hcode : IsCode C c now otp ∨ IsCode C c (now - c.step) otp
      · simp [hcode, ht, hl]
      · simp [hcode]
  · refine ⟨fun h => absurd h.1 ht, fun _ => ⟨.invalidAuth, ?_⟩⟩
    unfold validateTOTP
    simp [ht]

/-- C30: an authenticator whose configuration does not parse, or names another hash, accepts
nothing and is left alone. -/
theorem C30_unusable (a : Authenticator) (spare otp : Bytes) (now : BitVec 64) :
    (parseTOTPConfig a.secret spare = .ok none →
      ∃ e, validateTOTP C (some a) otp now spare = .ok ⟨some a, false, some e⟩) ∧
    (∀ c, parseTOTPConfig a.secret spare = .ok (some c) → c.step ≠ 0 → 0 ≤ c.size → c.size ≤ 10 →
      c.algo ≠ 3 → ∃ e, validateTOTP C (some a) otp now spare = .ok ⟨some a, false, some e⟩) := by
  constructor
  · intro hp
    unfold validateTOTP
    simp only
    split
    · exact ⟨_, rfl⟩
    split
    · exact ⟨_, rfl⟩
    rw [hp]
    exact ⟨_, rfl⟩
  · intro c hp hs h0 h10 ha
    unfold validateTOTP
    simp only
    split
    · exact ⟨_, rfl⟩
    split
    · exact ⟨_, rfl⟩
    simp only [hp, Res.ok_bind, totpTry, C29_other_hash C c hs h0 h10 ha]
    exact ⟨_, rfl⟩

example : ∃ a c, parseTOTPConfig (Authenticator.secret a) = .ok (some c) ∧ Supported c :=
  ⟨{ typ := typeTOTP, secret := (google [] [1, 2]).bytes }, google [] [1, 2],
    google_parse [] [1, 2] [] (by decide) (by decide), google_supported _ _⟩

/-- C31 is false: with two different valid codes p (previous step) and q (current step),
p, q, p are all accepted, because only the latest accepted code is remembered. -/
theorem C31_replay_violated (a : Authenticator) (c : TOTPConfig) (spare p q : Bytes)
    (now : BitVec 64) (ht : a.typ = typeTOTP) (hp : parseTOTPConfig a.secret spare = .ok (some c))
    (hc : Supported c) (hpc : IsCode C c (now - c.step) p) (hqc : IsCode C c now q) (hne : p ≠ q)
    (hl : a.last ≠ p) :
    ∃ a1 a2 a3, validateTOTP C (some a) p now spare = .ok ⟨some a1, true, none⟩ ∧
      validateTOTP C (some a1) q now spare = .ok ⟨some a2, true, none⟩ ∧
      validateTOTP C (some a2) p now spare = .ok ⟨some a3, true, none⟩ := by
  refine ⟨{ a with last := p }, { a with last := q }, { a with last := p }, ?_, ?_, ?_⟩
  · exact (C30_acceptance C a c spare p now hp hc).1 ⟨ht, hl, Or.inr hpc⟩
  · exact (C30_acceptance C { a with last := p } c spare q now hp hc).1 ⟨ht, hne, Or.inl hqc⟩
  · exact (C30_acceptance C { a with last := q } c spare p now hp hc).1 ⟨ht, hne.symm, Or.inr hpc⟩

/-- A concrete instance: time 0x10f, step 1, one digit, under a toy HMAC. -/
example : ∃ (a : Authenticator) (c : TOTPConfig) (p q : Bytes) (now : BitVec 64),
    a.typ = typeTOTP ∧ parseTOTPConfig a.secret = .ok (some c) ∧ Supported c ∧
    IsCode Toy.crypto c (now - c.step) p ∧ IsCode Toy.crypto c now q ∧ p ≠ q ∧ a.last ≠ p :=
  let c : TOTPConfig := { key := List.replicate 12 0, start := 0, step := 1, size := 1, algo := 3, provider := [] }
  ⟨{ typ := typeTOTP, secret := c.bytes }, c,
    decimalPad 1 (codeValue Toy.crypto c (0x10f - 1)), decimalPad 1 (codeValue Toy.crypto c 0x10f), 0x10f, rfl,
    C28_roundtrip_partial c [] (by decide) (by decide) (by decide) (by decide),
    ⟨by decide, by decide, by decide, rfl⟩,
    (isCode_iff Toy.crypto c ⟨by decide, by decide, by decide, rfl⟩ _ _).mpr rfl,
    (isCode_iff Toy.crypto c ⟨by decide, by decide, by decide, rfl⟩ _ _).mpr rfl,
    by decide, by decide⟩

/-- C31, what holds, in any history of attempts at any times: between two acceptances of one
code some different code is accepted. Missing: remembering older codes. -/
theorem C31_history_partial (a a' : Authenticator) (otp : Bytes) (t1 t2 : BitVec 64)
    (h1 h2 h3 : List ((Bytes × BitVec 64) × Bool))
    (h : History (totpStep C) a
      (h1 ++ ((otp, t1), true) :: (h2 ++ ((otp, t2), true) :: h3)) a') :
    ∃ other t, other ≠ otp ∧ ((other, t), true) ∈ h2 := by
  have step_cases : ∀ s i ok s', totpStep C s i ok s' →
      (ok = true ∧ s'.last = i.1 ∧ s.last ≠ i.1) ∨ (ok = false ∧ s' = s) := by
    rintro s i ok s' ⟨spare, u, e, hv, rfl⟩
    rcases validateTOTP_result C hv with ⟨h, -, hl⟩ | ⟨e', h⟩
    · simp only [VRes.mk.injEq, Option.some.injEq] at h
      obtain ⟨rfl, -, rfl⟩ := h
      exact Or.inl ⟨rfl, rfl, hl⟩
    · simp only [VRes.mk.injEq, Option.some.injEq] at h
      obtain ⟨rfl, -, rfl⟩ := h
      exact Or.inr ⟨rfl, rfl⟩
  obtain ⟨m, -, h⟩ := history_append h
  cases h with
  | cons hs h =>
    rename_i m1
    obtain ⟨m2, hmid, h⟩ := history_append h
    cases h with
    | cons hs' h =>
      rcases step_cases _ _ _ _ hs with ⟨-, hlast, -⟩ | ⟨hf, -⟩
      rotate_left
      · exact absurd hf (by decide)
      rcases step_cases _ _ _ _ hs' with ⟨-, -, hne⟩ | ⟨hf, -⟩
      rotate_left
      · exact absurd hf (by decide)
      -- walk through the attempts in between
      clear hs hs' h
      have walk : ∀ s hist s', History (totpStep C) s hist s' → s.last = otp → s'.last ≠ otp →
          ∃ other t, other ≠ otp ∧ ((other, t), true) ∈ hist := by
        intro s hist s' hh
        induction hh with
        | nil => intro h1 h2; exact absurd h1 h2
        | @cons s i ok s' hist s'' hs hr ih =>
          intro h1 h2
          obtain ⟨o, t⟩ := i
          rcases step_cases _ _ _ _ hs with ⟨rfl, hl, hne'⟩ | ⟨rfl, rfl⟩
          · by_cases ho : o = otp
            · exact absurd (h1.trans ho.symm) hne'
            · exact ⟨o, t, ho, List.mem_cons_self⟩
          · obtain ⟨o', t', ho, hm⟩ := ih h1 h2
            exact ⟨o', t', ho, List.mem_cons_of_mem _ hm⟩
      exact walk _ _ _ hmid hlast hne

/-- C31, the immediate case: an accepted code is refused at once, whatever the time. -/
theorem C31_immediate_partial (a a' : Authenticator) (spare otp : Bytes) (now : BitVec 64)
    (h : validateTOTP C (some a) otp now spare = .ok ⟨some a', true, none⟩)
    (later : BitVec 64) (spare' : Bytes) :
    validateTOTP C (some a') otp later spare' = .ok ⟨some a', false, some .fail⟩ := by
  rcases validateTOTP_result C h with ⟨h, ht, -⟩ | ⟨e, h⟩
  · simp only [VRes.mk.injEq, Option.some.injEq, and_true] at h
    subst h
    unfold validateTOTP
    simp [ht]
  · simp at h

/-- C32: exactly when validation panics. -/
theorem C32_panics_partial (a : Authenticator) (spare otp : Bytes) (now : BitVec 64) :
    validateTOTP C (some a) otp now spare = .panic ↔
      a.typ = typeTOTP ∧ a.last ≠ otp ∧ (parseTOTPConfig a.secret spare = .panic ∨
        ∃ c, parseTOTPConfig a.secret spare = .ok (some c) ∧ (c.step = 0 ∨ c.size < 0 ∨ 10 < c.size)) := by
  unfold validateTOTP
  simp only
  by_cases ht : a.typ = typeTOTP
  · rw [if_neg (by simpa using ht)]
    by_cases hl : a.last = otp
    · simp [hl]
    · rw [if_neg hl, Res.bind_eq_panic]
      simp only [ht, ne_eq, hl, not_false_eq_true, true_and]
      constructor
      · rintro (h | ⟨o, ho, h⟩)
        · exact Or.inl h
        · right
          cases o with
          | none => simp at h
          | some c =>
            refine ⟨c, ho, ?_⟩
            simp only [Res.bind_eq_panic, totpTry_panic_iff] at h
            rcases h with h | ⟨st, -, h | ⟨st', -, h⟩⟩
            · exact h
            · exact h
            · split at h
              · simp at h
              · simp at h
      · rintro (h | ⟨c, hc, h⟩)
        · exact Or.inl h
        · right
          refine ⟨_, hc, ?_⟩
          simp only [Res.bind_eq_panic]
          left
          exact (totpTry_panic_iff C c otp _ _).mpr h
  · rw [if_pos (by simpa using ht)]
    simp [ht]

/-- C32 is false: an authenticator imported from an empty key panics on every code but the
remembered one. -/
theorem C32_empty_key_violated (provider otp : Bytes) (t now : BitVec 64)
    (hl : provider.length < 2 ^ 31 - 51) :
    ∃ a, importGoogleTOTP C provider t [] = .ok a ∧
      (a.last ≠ otp → validateTOTP C (some a) otp now = .panic) := by
  rw [import_eq]
  refine ⟨_, rfl, fun h => ?_⟩
  rw [C32_panics_partial]
  refine ⟨rfl, h, Or.inr ⟨_, C28_empty_key_violated (google provider []) [] rfl hl, Or.inl rfl⟩⟩

/-- C32 for imported keys that are not empty: no panic, ever. -/
theorem C32_imported_partial (provider key otp : Bytes) (t now : BitVec 64) (hk : key ≠ [])
    (hl : key.length + provider.length < 2 ^ 31 - 51) (spare : Bytes) :
    ∃ a, importGoogleTOTP C provider t key = .ok a ∧
      validateTOTP C (some a) otp now spare ≠ .panic := by
  rw [import_eq]
  refine ⟨_, rfl, ?_⟩
  rw [ne_eq, C32_panics_partial]
  rintro ⟨-, -, h⟩
  simp only [google_parse provider key spare hk hl, reduceCtorEq, false_or, Res.ok.injEq,
    Option.some.injEq] at h
  obtain ⟨c, rfl, h⟩ := h
  simp [google] at h

example : ([1] : Bytes) ≠ [] ∧ ([1] : Bytes).length + ([65] : Bytes).length < 2 ^ 31 - 51 := by decide

/-- C33: an imported key. The current code is refused (it counts as used). -/
theorem C33_import_partial (qr : TOTPConfig → Bytes → Option Bytes) (provider key : Bytes)
    (now : BitVec 64) (hk : key ≠ []) (hl : key.length + provider.length < 2 ^ 31 - 51) :
    ∃ a u, importGoogleTOTP C provider now key = .ok a ∧ a.typ = typeTOTP ∧
      parseTOTPConfig a.secret = .ok (some
        { key := key, start := 0, step := 30, size := 6, algo := 3, provider := provider }) ∧
      (∀ otp, IsCode C (google provider key) now otp → ∀ later,
        validateTOTP C (some a) otp later = .ok ⟨some a, false, some .fail⟩) ∧
      exportUserTOTP qr (some a) [] = .ok (.ok u) ∧ b32Decode u.secret = some key := by
  rw [import_eq]
  refine ⟨_, ⟨b32Encode key, []⟩, rfl, rfl, google_parse provider key [] hk hl, ?_, ?_,
    b32Decode_encode key⟩
  · intro otp hcode later
    have := (isCode_iff C _ (google_supported provider key) now otp).mp hcode
    unfold validateTOTP
    have h6 : (google provider key).size.toNat = 6 := rfl
    rw [h6] at this
    simp [this]
  · unfold exportUserTOTP
    simp only [ne_eq, not_true_eq_false, if_false, google_parse provider key [] hk hl, Res.ok_bind]
    rfl

/-- C33: fresh tokens always have these properties: 20 PRNG bytes are the key. -/
theorem C33_new (qr : TOTPConfig → Bytes → Option Bytes) (provider : Bytes) (now : BitVec 64)
    (rng : Rng) (hl : provider.length < 2 ^ 31 - 71) :
    (rng.length < 20 → ∃ r, newGoogleTOTP C qr provider now [] rng = .ok (.error .prng, r)) ∧
    (20 ≤ rng.length → ∃ a u, newGoogleTOTP C qr provider now [] rng = .ok (.ok (a, u), rng.drop 20) ∧
      parseTOTPConfig a.secret = .ok (some (google provider (rng.take 20))) ∧
      b32Decode u.secret = some (rng.take 20) ∧
      ∀ otp t, validateTOTP C (some a) otp t ≠ .panic) := by
  constructor
  · intro h
    unfold newGoogleTOTP randBytes
    rw [readFull_none h]
    exact ⟨_, rfl⟩
  · intro h
    have hlen : (rng.take 20).length = 20 := by simp only [List.length_take]; omega
    have hk : rng.take 20 ≠ [] := by intro h0; rw [h0] at hlen; simp at hlen
    obtain ⟨a, u, h1, -, h2, -, h4, h5⟩ :=
      C33_import_partial C qr provider (rng.take 20) now hk (by omega)
    refine ⟨a, u, ?_, h2, h5, ?_⟩
    · unfold newGoogleTOTP randBytes readFull
      rw [if_pos h]
      simp only [h1, Res.ok_bind, h4]
      rfl
    · intro otp t
      obtain ⟨a', h1', h'⟩ := C32_imported_partial C provider (rng.take 20) otp now t hk (by omega) []
      rw [h1] at h1'
      simp only [Res.ok.injEq] at h1'
      subst h1'
      exact h'

/-- C33 is false for an empty key: its secret does not parse to the documented settings. -/
theorem C33_empty_key_violated (provider : Bytes) (now : BitVec 64)
    (hl : provider.length < 2 ^ 31 - 51) :
    ∃ a c, importGoogleTOTP C provider now [] = .ok a ∧ parseTOTPConfig a.secret = .ok (some c) ∧
      c.step = 0 ∧ c.size = 0 ∧ c.algo = 0 := by
  rw [import_eq]
  exact ⟨_, _, rfl, C28_empty_key_violated (google provider []) [] rfl hl, rfl, rfl, rfl⟩

end Verif.Props.Totp
