import Verif.Spec.Auth
import Verif.Proofs.Tlv
import Verif.Proofs.Public
/-! Lemmas about common/auth. -/

namespace Verif.Proofs.Auth
open Verif Verif.Go Verif.Model.Util Verif.Model.Tlv Verif.Model.Auth Verif.Spec.Auth
  Verif.Spec.Tlv Verif.Proofs.Tlv Verif.Proofs.Public

variable (C : Crypto)

theorem decodeVar_record (v cur : Val) (hty : ty cur = ty v) (hpos : 0 < size v) (rest spare : Bytes)
    (hlen : (record v ++ rest).length < 2 ^ 31) :
    decodeVar (newDecoder (record v ++ rest) spare) cur = .ok (some (newDecoder rest spare, v)) := by
  unfold decodeVar newDecoder
  rw [decode_record v cur hty hpos rest spare hlen]
  rfl

theorem decodeVar_empty (cur : Val) (rest spare : Bytes) (hl : rest.length < 2 ^ 31) :
    decodeVar (newDecoder (emptyRec ++ rest) spare) cur =
      .ok (some (newDecoder (emptyRec ++ rest) spare, cur)) := by
  have hs : split (emptyRec ++ rest) = some (3, 0, rest) := rfl
  unfold decodeVar newDecoder
  rw [decode_split _ _ _ hs, toInt32_of_lt hl, if_neg (by omega), if_pos ⟨rfl, rfl⟩]
  rfl

/-- Decoding the last byte string of a buffer into an empty variable works for every content. -/
theorem decodeVar_last (x spare : Bytes) (hlen : x.length < 2 ^ 31 - 5) :
    ∃ d, decodeVar (newDecoder (record (.bytes x)) spare) (.bytes []) = .ok (some (d, .bytes x)) := by
  cases x with
  | nil =>
    have h := decodeVar_empty (.bytes []) [] spare (by decide)
    rw [List.append_nil] at h
    rw [record_nil, h]
    exact ⟨_, rfl⟩
  | cons a x =>
    have h := decodeVar_record (.bytes (a :: x)) (.bytes []) rfl (by simp [size]) [] spare
      (by simp only [List.append_nil, bytesRecord_length]; omega)
    rw [List.append_nil] at h
    exact ⟨_, h⟩

theorem totp_bytes_eq (c : TOTPConfig) :
    c.bytes = record (.bytes c.key) ++ (record (.u64 c.start) ++ (record (.u64 c.step) ++
      (record (.i32 (BitVec.ofInt 32 c.size)) ++ (record (.i8 (c.algo.setWidth 8)) ++
      record (.bytes c.provider))))) := by
  simp [TOTPConfig.bytes, Encoder.encode, Encoder.bytes]

/-- What comes back from `Bytes`. -/
theorem parseTOTP_bytes (c : TOTPConfig) (spare : Bytes) (hk : c.key ≠ [])
    (hl : c.key.length + c.provider.length < 2 ^ 31 - 51) :
    parseTOTPConfig c.bytes spare = .ok (some { c with
      size := (BitVec.ofInt 32 c.size).toInt, algo := (c.algo.setWidth 8).signExtend 64 }) := by
  rw [totp_bytes_eq]
  unfold parseTOTPConfig
  have h8 : ∀ v, (record (.u64 v)).length = 13 := fun v => by rw [record_length]; rfl
  have h4 : ∀ v, (record (.i32 v)).length = 9 := fun v => by rw [record_length]; rfl
  have h1 : ∀ v, (record (.i8 v)).length = 6 := fun v => by rw [record_length]; rfl
  have hb := bytesRecord_length
  rw [decodeVar_record (.bytes c.key) (.bytes []) rfl
    (by simpa [size] using List.length_pos_iff.mpr hk) _ _
    (by simp only [List.length_append, h8, h4, h1, hb]; omega)]
  simp only [Res.ok_bind]
  rw [decodeVar_record (.u64 c.start) (.u64 0) rfl (by simp [size]) _ _
    (by simp only [List.length_append, h8, h4, h1, hb]; omega)]
  simp only [Res.ok_bind]
  rw [decodeVar_record (.u64 c.step) (.u64 0) rfl (by simp [size]) _ _
    (by simp only [List.length_append, h8, h4, h1, hb]; omega)]
  simp only [Res.ok_bind]
  rw [decodeVar_record (.i32 (BitVec.ofInt 32 c.size)) (.i32 0) rfl (by simp [size]) _ _
    (by simp only [List.length_append, h8, h4, h1, hb]; omega)]
  simp only [Res.ok_bind]
  rw [decodeVar_record (.i8 (c.algo.setWidth 8)) (.i8 0) rfl (by simp [size]) _ _
    (by simp only [List.length_append, h8, h4, h1, hb]; omega)]
  simp only [Res.ok_bind]
  obtain ⟨d, hd⟩ := decodeVar_last c.provider spare (by omega)
  rw [hd]
  rfl

/-- An empty key makes every other field disappear. -/
theorem parseTOTP_empty (rest spare : Bytes) (hl : rest.length < 2 ^ 31) :
    parseTOTPConfig (emptyRec ++ rest) spare =
      .ok (some { key := [], start := 0, step := 0, size := 0, algo := 0, provider := [] }) := by
  unfold parseTOTPConfig
  simp only [decodeVar_empty _ _ _ hl, Res.ok_bind]
  rfl

theorem and_0xF (x : UInt8) : (x &&& 0xF).toNat = x.toNat % 16 := by
  rw [UInt8.toNat_and]
  exact Nat.and_two_pow_sub_one_eq_mod x.toNat 4

theorem and_0x7f (x : UInt8) : (x &&& 0x7f).toNat = x.toNat % 128 := by
  rw [UInt8.toNat_and]
  exact Nat.and_two_pow_sub_one_eq_mod x.toNat 7

theorem truncate_arith (a b c d : Nat) (ha : a < 256) (hb : b < 256) (hc : c < 256) (hd : d < 256) :
    (a % 128 * 2 ^ 24 + b * 2 ^ 16 + c * 2 ^ 8 + d) % 2 ^ 31 =
      ((((0 * 256 + a) * 256 + b) * 256 + c) * 256 + d) % 2 ^ 31 := by
  omega

theorem truncate_eq (h : Bytes) (hl : h.length = 20) : truncate h = .ok (dynamicTruncation h) := by
  unfold truncate dynamicTruncation
  cases hlast : h.getLast? with
  | none => rw [List.getLast?_eq_none_iff] at hlast; subst hlast; simp at hl
  | some x =>
    simp only [Option.getD_some, and_0xF]
    have hd : (h.drop (x.toNat % 16)).length ≥ 5 := by simp only [List.length_drop]; omega
    match h.drop (x.toNat % 16), hd with
    | p0 :: p1 :: p2 :: p3 :: r, _ =>
      simp only [and_0x7f, ofBe, List.take_succ_cons, List.take_zero, List.foldl_cons, List.foldl_nil]
      exact congrArg Res.ok
        (truncate_arith _ _ _ _ p0.toNat_lt p1.toNat_lt p2.toNat_lt p3.toNat_lt)

theorem counter_eq (c : TOTPConfig) (t : BitVec 64) :
    ((t - c.start) / c.step).toNat = timeCounter c t := by
  unfold timeCounter
  rw [BitVec.toNat_udiv, BitVec.toNat_sub]
  congr 2
  have := c.start.isLt
  omega

theorem generate_supported (c : TOTPConfig) (h : Supported c) (t : BitVec 64) :
    generateOTPAt C c t = .ok (some (decimalPad c.size.toNat (codeValue C c t))) := by
  obtain ⟨hs, h1, h10, ha⟩ := h
  unfold generateOTPAt oathDigits
  simp only [if_neg hs, counter_eq, if_pos (show (0 : Int) ≤ c.size ∧ c.size ≤ 10 by omega), Res.ok_bind]
  rw [if_neg (by simp [ha]), truncate_eq _ (C.hmacSha1_length _ _)]
  rfl

theorem codeValue_lt (c : TOTPConfig) (t : BitVec 64) : codeValue C c t < 10 ^ c.size.toNat :=
  Nat.mod_lt _ (Nat.pow_pos (by omega))

theorem decVal_lt (s : Bytes) (h : Digits s) : decVal s < 10 ^ s.length := by
  induction s with
  | nil => simp [decVal]
  | cons x s ih =>
    have := h x (by simp)
    have ih := ih (fun c hc => h c (by simp [hc]))
    have e : decVal (x :: s) = (x.toNat - 48) * 10 ^ s.length + decVal s := by
      have := decVal_append [x] s
      simpa [decVal] using this
    rw [e, List.length_cons, Nat.pow_succ]
    have : (x.toNat - 48) * 10 ^ s.length ≤ 9 * 10 ^ s.length := Nat.mul_le_mul_right _ (by omega)
    omega

/-- A digit string is determined by its length and its value. -/
theorem digits_unique (a b : Bytes) (ha : Digits a) (hb : Digits b) (hl : a.length = b.length)
    (hv : decVal a = decVal b) : a = b := by
  induction a generalizing b with
  | nil => exact (List.length_eq_zero_iff.mp hl.symm).symm
  | cons x a ih =>
    cases b with
    | nil => simp at hl
    | cons y b =>
      have hx := ha x (by simp)
      have hy := hb y (by simp)
      have ha' : Digits a := fun c hc => ha c (by simp [hc])
      have hb' : Digits b := fun c hc => hb c (by simp [hc])
      have e1 : decVal (x :: a) = (x.toNat - 48) * 10 ^ a.length + decVal a := by
        have := decVal_append [x] a
        simpa [decVal] using this
      have e2 : decVal (y :: b) = (y.toNat - 48) * 10 ^ b.length + decVal b := by
        have := decVal_append [y] b
        simpa [decVal] using this
      simp only [List.length_cons, Nat.add_right_cancel_iff] at hl
      have l1 := decVal_lt a ha'
      have l2 := decVal_lt b hb'
      rw [e1, e2, ← hl] at hv
      rw [← hl] at l2
      have hq := congrArg (· / 10 ^ a.length) hv
      have hpos : 0 < 10 ^ a.length := Nat.pow_pos (by omega)
      rw [Nat.add_comm, Nat.add_mul_div_right _ _ hpos, Nat.div_eq_of_lt l1, Nat.add_comm (_ * _),
        Nat.add_mul_div_right _ _ hpos, Nat.div_eq_of_lt l2] at hq
      have hxy : x = y := UInt8.toNat_inj.mp (by omega)
      subst hxy
      rw [ih b ha' hb' hl (by omega)]

theorem isCode_iff (c : TOTPConfig) (h : Supported c) (t : BitVec 64) (otp : Bytes) :
    IsCode C c t otp ↔ decimalPad c.size.toNat (codeValue C c t) = otp := by
  obtain ⟨hs, h1, h10, ha⟩ := h
  obtain ⟨p1, p2, p3⟩ := decimalPad_spec c.size.toNat (codeValue C c t) (codeValue_lt C c t) (by omega)
  constructor
  · rintro ⟨q1, q2, q3⟩
    exact digits_unique _ _ p2 q2 (by omega) (by rw [p3, q3])
  · rintro rfl
    exact ⟨by rw [p1]; omega, p2, p3⟩

instance (c : TOTPConfig) (t : BitVec 64) (otp : Bytes) : Decidable (IsCode C c t otp) := by
  unfold IsCode Digits; infer_instance

theorem totpTry_supported (c : TOTPConfig) (h : Supported c) (otp : Bytes) (st : Authenticator × Bool)
    (t : BitVec 64) :
    totpTry C c otp st t =
      .ok (if IsCode C c t otp then ({ st.1 with last := otp }, true) else st) := by
  unfold totpTry
  rw [generate_supported C c h]
  simp only [Res.ok_bind, isCode_iff C c h]
  split <;> rfl

/-- `ValidateTOTP` on a supported configuration. -/
theorem validateTOTP_supported (a : Authenticator) (c : TOTPConfig) (spare otp : Bytes)
    (now : BitVec 64) (ht : a.typ = typeTOTP) (hp : parseTOTPConfig a.secret spare = .ok (some c))
    (hc : Supported c) :
    validateTOTP C (some a) otp now spare =
      if a.last = otp then .ok ⟨some a, false, some .fail⟩
      else if IsCode C c now otp ∨ IsCode C c (now - c.step) otp then
        .ok ⟨some { a with last := otp }, true, none⟩
      else .ok ⟨some a, false, some .fail⟩ := by
  unfold validateTOTP
  simp only [ht, ne_eq, not_true_eq_false, if_false]
  by_cases hl : a.last = otp
  · simp [hl]
  · simp only [if_neg hl, hp, Res.ok_bind, totpTry_supported C c hc]
    by_cases h1 : IsCode C c now otp <;> by_cases h2 : IsCode C c (now - c.step) otp <;>
      simp [h1, h2, ht]

theorem generate_panic_iff (c : TOTPConfig) (t : BitVec 64) :
    generateOTPAt C c t = .panic ↔ c.step = 0 ∨ c.size < 0 ∨ 10 < c.size := by
  unfold generateOTPAt
  by_cases hs : c.step = 0
  · simp [hs]
  · rw [if_neg hs]
    by_cases hz : (0 : Int) ≤ c.size ∧ c.size ≤ 10
    · have ho : oathDigits c.size = .ok (10 ^ c.size.toNat) := by unfold oathDigits; rw [if_pos hz]
      simp only [ho, Res.ok_bind, hs, false_or, truncate_eq _ (C.hmacSha1_length _ _)]
      constructor
      · intro h
        split at h <;> simp at h
      · omega
    · have ho : oathDigits c.size = .panic := by unfold oathDigits; rw [if_neg hz]
      simp only [ho, Res.panic_bind, true_iff]
      omega

theorem totpTry_panic_iff (c : TOTPConfig) (otp : Bytes) (st : Authenticator × Bool) (t : BitVec 64) :
    totpTry C c otp st t = .panic ↔ c.step = 0 ∨ c.size < 0 ∨ 10 < c.size := by
  unfold totpTry
  rw [Res.bind_eq_panic, generate_panic_iff]
  constructor
  · rintro (h | ⟨o, -, h⟩)
    · exact h
    · cases o with
      | none => simp at h
      | some s => simp only at h; split at h <;> simp at h
  · exact Or.inl

theorem google_supported (provider key : Bytes) : Supported (google provider key) := by
  exact ⟨by simp [google], by simp [google], by simp [google], rfl⟩

theorem import_eq (provider : Bytes) (now : BitVec 64) (key : Bytes) :
    importGoogleTOTP C provider now key = .ok {
      typ := typeTOTP, last := decimalPad 6 (codeValue C (google provider key) now)
      secret := (google provider key).bytes } := by
  unfold importGoogleTOTP
  have := generate_supported C _ (google_supported provider key) now
  unfold google at this
  simp only [this, Res.ok_bind]
  rfl

theorem google_parse (provider key spare : Bytes) (hk : key ≠ [])
    (hl : key.length + provider.length < 2 ^ 31 - 51) :
    parseTOTPConfig (google provider key).bytes spare = .ok (some (google provider key)) := by
  rw [parseTOTP_bytes (google provider key) spare hk hl]
  rfl

theorem totpTry_cases {c : TOTPConfig} {otp : Bytes} {st st' : Authenticator × Bool}
    {t : BitVec 64} (h : totpTry C c otp st t = .ok st') :
    st' = st ∨ st' = ({ st.1 with last := otp }, true) := by
  unfold totpTry at h
  simp only [Res.bind_eq_ok] at h
  obtain ⟨o, -, h⟩ := h
  cases o with
  | none => simp only [Res.pure_eq, Res.ok.injEq] at h; exact Or.inl h.symm
  | some s =>
    simp only at h
    split at h
    · simp only [Res.pure_eq, Res.ok.injEq] at h; exact Or.inr h.symm
    · simp only [Res.pure_eq, Res.ok.injEq] at h; exact Or.inl h.symm

/-- Every way `ValidateTOTP` returns. -/
theorem validateTOTP_result {a : Authenticator} {otp : Bytes} {now : BitVec 64} {spare : Bytes}
    {v : VRes} (h : validateTOTP C (some a) otp now spare = .ok v) :
    (v = ⟨some { a with last := otp }, true, none⟩ ∧ a.typ = typeTOTP ∧ a.last ≠ otp) ∨
    ∃ e, v = ⟨some a, false, some e⟩ := by
  unfold validateTOTP at h
  simp only at h
  split at h
  · simp only [Res.ok.injEq] at h; exact Or.inr ⟨_, h.symm⟩
  rename_i ht
  split at h
  · simp only [Res.ok.injEq] at h; exact Or.inr ⟨_, h.symm⟩
  rename_i hl
  simp only [Res.bind_eq_ok] at h
  obtain ⟨o, -, h⟩ := h
  cases o with
  | none => simp only [Res.pure_eq, Res.ok.injEq] at h; exact Or.inr ⟨_, h.symm⟩
  | some c =>
    simp only [Res.bind_eq_ok] at h
    obtain ⟨st1, h1, st2, h2, h⟩ := h
    have key : st2 = (a, false) ∨ st2 = ({ a with last := otp }, true) := by
      rcases totpTry_cases C h1 with rfl | rfl
      · exact totpTry_cases C h2
      · rcases totpTry_cases C h2 with rfl | rfl
        · exact Or.inr rfl
        · exact Or.inr rfl
    rcases key with rfl | rfl
    · simp at h; exact Or.inr ⟨_, h.symm⟩
    · simp at h; exact Or.inl ⟨h.symm, by simpa using ht, hl⟩

theorem yk_bytes_eq (c : YubiKeyConfig) :
    c.bytes = record (.bytes c.key) ++ (record (.u32 c.counter) ++ record (.bytes c.pub)) := by
  simp [YubiKeyConfig.bytes, Encoder.encode, Encoder.bytes]

theorem parseYk_bytes (c : YubiKeyConfig) (spare : Bytes) (hk : c.key.length = 16)
    (hl : c.pub.length < 2 ^ 31 - 35) : parseYubiKeyConfig c.bytes spare = .ok (some c) := by
  rw [yk_bytes_eq]
  unfold parseYubiKeyConfig
  have h4 : ∀ v, (record (.u32 v)).length = 9 := fun v => by rw [record_length]; rfl
  have hb := bytesRecord_length
  rw [decodeVar_record (.bytes c.key) (.bytes []) rfl (by simp [size, hk]) _ _
    (by simp only [List.length_append, h4, hb]; omega)]
  simp only [Res.ok_bind]
  split
  · rename_i h; exact absurd hk h
  rw [decodeVar_record (.u32 c.counter) (.u32 0) rfl (by simp [size]) _ _
    (by simp only [List.length_append, h4, hb]; omega)]
  simp only [Res.ok_bind]
  obtain ⟨d, hd⟩ := decodeVar_last c.pub spare (by omega)
  rw [hd]
  rfl

theorem parseYk_bad (c : YubiKeyConfig) (spare : Bytes) (hk : c.key.length ≠ 16)
    (hl : c.key.length + c.pub.length < 2 ^ 31 - 19) :
    parseYubiKeyConfig c.bytes spare = .ok none := by
  rw [yk_bytes_eq]
  unfold parseYubiKeyConfig
  have h4 : ∀ v, (record (.u32 v)).length = 9 := fun v => by rw [record_length]; rfl
  have hb := bytesRecord_length
  by_cases h0 : c.key = []
  · rw [h0, record_nil, decodeVar_empty _ _ _ (by simp only [List.length_append, h4, hb]; omega)]
    simp [asBytes]
  · rw [decodeVar_record (.bytes c.key) (.bytes []) rfl
      (by simpa [size] using List.length_pos_iff.mpr h0) _ _
      (by simp only [List.length_append, h4, hb]; omega)]
    simp only [Res.ok_bind]
    split
    · rfl
    · rename_i h; exact absurd hk h

theorem parseYk_key {b spare : Bytes} {c : YubiKeyConfig}
    (h : parseYubiKeyConfig b spare = .ok (some c)) : c.key.length = 16 := by
  unfold parseYubiKeyConfig at h
  simp only [Res.bind_eq_ok] at h
  obtain ⟨o, -, h⟩ := h
  cases o with
  | none => simp at h
  | some p =>
    obtain ⟨d, key⟩ := p
    simp only at h
    split at h
    · simp at h
    rename_i hk
    simp only [Res.bind_eq_ok] at h
    obtain ⟨o, -, h⟩ := h
    cases o with
    | none => simp at h
    | some p =>
      obtain ⟨d, ctr⟩ := p
      simp only [Res.bind_eq_ok] at h
      obtain ⟨o, -, h⟩ := h
      cases o with
      | none => simp at h
      | some p =>
        obtain ⟨d, pub⟩ := p
        simp only [Res.pure_eq, Res.ok.injEq, Option.some.injEq] at h
        subst h
        exact Decidable.not_not.mp hk

theorem tokenCounter_toNat (t : Token) : (getTokenCounter t).toNat = insertions t := by
  unfold getTokenCounter insertions
  have h0 : (t.use <<< 16).setWidth 32 = 0#32 := by
    have : t.use <<< 16 = 0#8 := BitVec.shiftLeft_eq_zero (by decide)
    rw [this]; rfl
  simp only [h0, BitVec.zero_add, BitVec.toNat_setWidth, BitVec.toNat_and]
  have h1 : t.ctr.toNat &&& BitVec.toNat (0x7fff : BitVec 16) = t.ctr.toNat % 2 ^ 15 :=
    Nat.and_two_pow_sub_one_eq_mod t.ctr.toNat 15
  rw [h1]
  omega

/-- Every way `ValidateYubiKey` returns. -/
theorem validateYk_result {Y : Yubi} {a : Authenticator} {otp spare : Bytes} {v : VRes}
    (h : validateYubiKey Y (some a) otp spare = .ok v) :
    (∃ c t, a.typ = typeYubiKey ∧ a.last ≠ otp ∧ parseYubiKeyConfig a.secret spare = .ok (some c) ∧
      YkGood Y c otp t ∧ v = ⟨some { a with last := otp, secret :=
        ({ c with counter := getTokenCounter t } : YubiKeyConfig).bytes }, true, none⟩) ∨
    ∃ e, v = ⟨some a, false, some e⟩ := by
  unfold validateYubiKey at h
  simp only at h
  split at h
  · simp only [Res.ok.injEq] at h; exact Or.inr ⟨_, h.symm⟩
  rename_i ht
  split at h
  · simp only [Res.ok.injEq] at h; exact Or.inr ⟨_, h.symm⟩
  rename_i hl
  simp only [Res.bind_eq_ok] at h
  obtain ⟨o, hp, h⟩ := h
  cases o with
  | none => simp only [Res.pure_eq, Res.ok.injEq] at h; exact Or.inr ⟨_, h.symm⟩
  | some c =>
    simp only at h
    split at h
    · simp only [Res.pure_eq, Res.ok.injEq] at h; exact Or.inr ⟨_, h.symm⟩
    rename_i pub box hotp
    split at h
    · simp only [Res.pure_eq, Res.ok.injEq] at h; exact Or.inr ⟨_, h.symm⟩
    rename_i hpub
    split at h
    · simp only [Res.pure_eq, Res.ok.injEq] at h; exact Or.inr ⟨_, h.symm⟩
    rename_i t htok
    split at h
    · simp only [Res.pure_eq, Res.ok.injEq] at h; exact Or.inr ⟨_, h.symm⟩
    rename_i hctr
    simp only [Res.pure_eq, Res.ok.injEq] at h
    rw [copyInto_eq (parseYk_key hp)] at htok
    refine Or.inl ⟨c, t, by simpa using ht, hl, hp, ⟨box, ?_, htok, ?_⟩, h.symm⟩
    · rw [hotp, Decidable.not_not.mp hpub]
    · rw [← tokenCounter_toNat]
      simp only [BitVec.lt_def] at hctr
      omega

theorem validateYk_accepts {Y : Yubi} {a : Authenticator} {otp spare : Bytes} {c : YubiKeyConfig}
    {t : Token} (ht : a.typ = typeYubiKey) (hl : a.last ≠ otp)
    (hp : parseYubiKeyConfig a.secret spare = .ok (some c)) (hg : YkGood Y c otp t) :
    validateYubiKey Y (some a) otp spare = .ok ⟨some { a with last := otp, secret :=
        ({ c with counter := getTokenCounter t } : YubiKeyConfig).bytes }, true, none⟩ := by
  obtain ⟨box, h1, h2, h3⟩ := hg
  unfold validateYubiKey
  simp only
  rw [if_neg (by simpa using ht), if_neg hl, hp]
  simp only [Res.ok_bind, h1]
  rw [if_neg (by simp), copyInto_eq (parseYk_key hp), h2]
  simp only
  rw [if_neg]
  · rfl
  · rw [BitVec.lt_def, tokenCounter_toNat]; omega

theorem history_append {σ ι : Type} {step : σ → ι → Bool → σ → Prop} {s s' : σ}
    {h1 h2 : List (ι × Bool)} (h : History step s (h1 ++ h2) s') :
    ∃ m, History step s h1 m ∧ History step m h2 s' := by
  induction h1 generalizing s with
  | nil => exact ⟨s, .nil s, h⟩
  | cons x h1 ih =>
    obtain ⟨i, ok⟩ := x
    cases h with
    | cons hs h =>
      obtain ⟨m, hm, hr⟩ := ih h
      exact ⟨m, .cons hs hm, hr⟩

/-- An invariant of every step is an invariant of every history. -/
theorem history_inv {σ ι : Type} {step : σ → ι → Bool → σ → Prop} {P : σ → Prop}
    (hstep : ∀ s i ok s', step s i ok s' → P s → P s') {s s' : σ} {h : List (ι × Bool)}
    (hh : History step s h s') (hp : P s) : P s' := by
  induction hh with
  | nil => exact hp
  | cons hs _ ih => exact ih (hstep _ _ _ _ hs hp)

theorem validateSession_good {a : Authenticator} {otp : Bytes} {rng : Rng}
    (ht : a.typ = typeSession) (hg : SessionGood C a otp) :
    validateSession C (some a) otp rng =
      if 32 ≤ rng.length then
        (⟨some { a with last := hexEncode (rng.take 32) }, true, none⟩, rng.drop 32)
      else (⟨some a, false, some .prng⟩, []) := by
  obtain ⟨ch, hlen, h1, h2⟩ := hg
  unfold validateSession
  simp only
  rw [if_neg (by simpa using ht), h2]
  simp only
  rw [if_neg (by simp [hlen, C.hmacSha256_length, sessionLength]), h1]
  simp only
  rw [if_neg (by simp [List.take_left' hlen]), if_neg (by simp [List.drop_left' hlen])]
  unfold randBytes
  by_cases hr : 32 ≤ rng.length
  · rw [if_pos hr, readFull, if_pos hr]
  · rw [if_neg hr, readFull, if_neg hr]

theorem validateSession_bad {a : Authenticator} {otp : Bytes} {rng : Rng}
    (hn : ¬ (a.typ = typeSession ∧ SessionGood C a otp)) :
    ∃ e, validateSession C (some a) otp rng = (⟨some a, false, some e⟩, rng) := by
  unfold validateSession
  simp only
  split
  · exact ⟨_, rfl⟩
  rename_i ht
  have ht : a.typ = typeSession := by simpa using ht
  split
  · exact ⟨_, rfl⟩
  rename_i ob hob
  split
  · exact ⟨_, rfl⟩
  rename_i hlen
  have hlen : ob.length = 64 := Decidable.not_not.mp hlen
  split
  · exact ⟨_, rfl⟩
  rename_i ch hch
  split
  · exact ⟨_, rfl⟩
  rename_i h1
  split
  · exact ⟨_, rfl⟩
  rename_i h2
  exfalso
  have h1 : ob.take 32 = ch := Decidable.not_not.mp h1
  have h2 : ob.drop 32 = C.hmacSha256 a.secret ch := Decidable.not_not.mp h2
  refine hn ⟨ht, ch, ?_, hch, ?_⟩
  · rw [← h1, List.length_take]; omega
  · rw [hob, ← h2, ← h1, List.take_append_drop]

end Verif.Proofs.Auth
