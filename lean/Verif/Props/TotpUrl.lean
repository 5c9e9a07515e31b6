import Verif.Proofs.TotpUrl
import Verif.Props.Totp
/-! Properties of the QR codes of common/auth/totp.go (C151-C153). -/

namespace Verif.Props.TotpUrl
open Verif Verif.Go Verif.Model.Util Verif.Model.Auth Verif.Spec.Auth Verif.Spec.TotpUrl
  Verif.Proofs.TotpUrl Verif.Proofs.Auth Verif.Props.Totp

variable (C : Crypto)

/-- The parameters the URL has. -/
theorem readUri_generate (c : TOTPConfig) (label : Bytes) (hl : label ≠ []) :
    readUri (generateURL c label) = some ⟨if label.head? = some 47 then label.drop 1 else label,
      (if c.size ≠ 6 then [(ascii "digits", decimalInt c.size)] else []) ++
      (if c.provider ≠ [] then [(ascii "provider", c.provider)] else []) ++
      [(ascii "secret", b32Encode c.key)]⟩ :=
  readUri_eq label hl _ (by simp)

theorem readNat_decimal (n : Nat) : readNat (decimal n) = some n := by
  unfold readNat
  rw [if_pos, decimal_val]
  refine ⟨?_, decimalF_digits _ _⟩
  unfold decimal decimalF
  split <;> simp

theorem readInt_decimalInt (i : Int) : readInt (decimalInt i) = some i := by
  unfold readInt decimalInt
  by_cases h : i < 0
  · rw [if_pos h, if_pos (show (45 :: decimal i.natAbs).head? = some 45 from rfl), List.drop_succ_cons, List.drop_zero, readNat_decimal]
    simp only [Option.map_some, Option.some.injEq, Int.ofNat_eq_natCast]
    omega
  · rw [if_neg h, if_neg, readNat_decimal]
    · simp only [Option.map_some, Option.some.injEq, Int.ofNat_eq_natCast]
      omega
    · intro e
      have hm : (45 : UInt8) ∈ decimal i.natAbs := List.mem_of_head? e
      have := (decimalF_digits _ _ _ hm).1
      simp at this

/-- C151, what holds: if the label does not begin with a slash (and is not empty), the picture that
`ExportUserTOTP` returns shows a text from which label, key, provider and number of digits can be
read back, and the secret beside it is the same key. Missing: labels that begin with a slash. -/
theorem C151_qr_partial (draw : Bytes → Option Bytes) (a : Authenticator) (c : TOTPConfig)
    (label spare : Bytes) (ht : a.typ = typeTOTP) (hp : parseTOTPConfig a.secret spare = .ok (some c))
    (hl : label ≠ []) (hs : label.head? ≠ some 47) :
    ∃ text k, readUri text = some k ∧ k.label = label ∧
      (k.param (ascii "secret")).bind b32Decode = some c.key ∧
      k.param (ascii "provider") = (if c.provider = [] then none else some c.provider) ∧
      ((k.param (ascii "digits")).map readInt).getD (some 6) = some c.size ∧
      exportUserTOTP (exportQR draw) (some a) label spare =
        .ok (match draw text with
          | some png => .ok ⟨b32Encode c.key, png⟩
          | none => .error .foreign) := by
  refine ⟨generateURL c label, _, readUri_generate c label hl, by simp [hs], ?_, ?_, ?_, ?_⟩
  · have h1 : ascii "digits" ≠ ascii "secret" := by decide
    have h2 : ascii "provider" ≠ ascii "secret" := by decide
    have : ∀ l, KeyUri.param ⟨l, (if c.size ≠ 6 then [(ascii "digits", decimalInt c.size)] else []) ++
        (if c.provider ≠ [] then [(ascii "provider", c.provider)] else []) ++
        [(ascii "secret", b32Encode c.key)]⟩ (ascii "secret") = some (b32Encode c.key) := by
      intro l
      unfold KeyUri.param
      by_cases hz : c.size = 6 <;> by_cases hpr : c.provider = [] <;> simp [hz, hpr, h1, h2]
    rw [this]
    exact b32Decode_encode c.key
  · have h1 : ascii "digits" ≠ ascii "provider" := by decide
    have h2 : ascii "secret" ≠ ascii "provider" := by decide
    unfold KeyUri.param
    by_cases hz : c.size = 6 <;> by_cases hpr : c.provider = [] <;> simp [hz, hpr, h1, h2]
  · have h1 : ascii "provider" ≠ ascii "digits" := by decide
    have h2 : ascii "secret" ≠ ascii "digits" := by decide
    unfold KeyUri.param
    by_cases hz : c.size = 6 <;> by_cases hpr : c.provider = [] <;> simp [hz, hpr, h1, h2, readInt_decimalInt]
  · unfold exportUserTOTP exportQR
    simp only [ht, ne_eq, not_true_eq_false, if_false, hp, Res.ok_bind, hl, not_false_eq_true, if_true]
    cases draw (generateURL c label) <;> rfl

/-- A label with a space, a slash, a question mark and a percent sign. -/
example : ∃ (a : Authenticator) (c : TOTPConfig) (label : Bytes), a.typ = typeTOTP ∧
    parseTOTPConfig a.secret [] = .ok (some c) ∧ label ≠ [] ∧ label.head? ≠ some 47 ∧
    c.provider ≠ [] ∧ c.size ≠ 6 :=
  let c : TOTPConfig := { google (ascii "A & B") [1, 2, 3] with size := 8 }
  ⟨{ typ := typeTOTP, secret := c.bytes }, c, ascii "a b/c?d%41", rfl,
    C28_roundtrip_partial c [] (by decide) (by decide) (by decide) (by decide),
    by decide, by decide, by decide, by decide⟩

/-- What the text looks like. -/
example : generateURL { google (ascii "A & B") [1, 2, 3, 4, 5] with size := 8 } (ascii "a b/c?d") =
    ascii "otpauth://totp/a%20b/c%3Fd?digits=8&provider=A+%26+B&secret=AEBAGBAF" := by decide

/-- C151 is false for labels that begin with a slash: whatever the token, `/x` and `x` give the same
picture. -/
theorem C151_slash_violated (draw : Bytes → Option Bytes) (c : TOTPConfig) (label : Bytes)
    (hl : label ≠ []) (hs : label.head? ≠ some 47) (h : label ≠ [42]) :
    label ≠ 47 :: label ∧ exportQR draw c (47 :: label) = exportQR draw c label := by
  refine ⟨fun h => ?_, ?_⟩
  · have := congrArg List.length h
    simp at this
  · obtain ⟨x, r, rfl⟩ := List.exists_cons_of_ne_nil hl
    have hx : x ≠ 47 := by simpa using hs
    unfold exportQR generateURL urlString
    simp only [escapedPath_slash]
    have he : escapedPath (x :: r) =
        (x :: r).flatMap (fun c => if unreserved c || pathSafe c then [c] else pct c) := by
      unfold escapedPath
      rw [if_neg h]
    rw [if_pos (⟨escapedPath_ne _ hl, by rw [ne_eq, escapedPath_head]; exact hx⟩ :
      escapedPath (x :: r) ≠ [] ∧ (escapedPath (x :: r)).head? ≠ some 47), he]
    simp

example : ∃ label : Bytes, label ≠ [] ∧ label.head? ≠ some 47 ∧ label ≠ [42] :=
  ⟨ascii "alice", by decide, by decide, by decide⟩

/-- C151 is false for an empty label, which `ExportQR` accepts: the text has no label part and is not
in the format. -/
theorem C151_empty_label_violated (c : TOTPConfig) : readUri (generateURL c []) = none := by
  have h : ∃ r, generateURL c [] = ascii "otpauth://totp?" ++ r := by
    unfold generateURL urlString
    have h1 : escapedPath [] = [] := rfl
    have e : ascii "otpauth://totp?" = ascii "otpauth" ++ 58 :: 47 :: 47 :: (ascii "totp" ++ [63]) := by decide
    simp only [h1]
    rw [if_neg (by simp), if_pos (encodeValues_ne _ (by simp)), e]
    exact ⟨encodeValues _, by rw [List.nil_append, List.append_assoc]; rfl⟩
  obtain ⟨r, h⟩ := h
  unfold readUri
  rw [h, if_neg]
  rw [Bool.not_eq_true]
  simp only [show ascii "otpauth://totp/" = [111, 116, 112, 97, 117, 116, 104, 58, 47, 47, 116, 111, 116, 112, 47] by decide,
    show ascii "otpauth://totp?" = [111, 116, 112, 97, 117, 116, 104, 58, 47, 47, 116, 111, 116, 112, 63] by decide]
  simp [List.isPrefixOf]

/-- The token that an app has from the text. -/
theorem appToken_generate (c : TOTPConfig) (label : Bytes) (hl : label ≠ []) (h0 : 0 ≤ c.size) :
    (readUri (generateURL c label)).bind appToken =
      some { key := c.key, start := 0, step := 30, size := c.size, algo := 3, provider := [] } := by
  rw [readUri_generate c label hl, Option.bind_some]
  have n1 : ascii "digits" ≠ ascii "secret" := by decide
  have n2 : ascii "provider" ≠ ascii "secret" := by decide
  have n3 : ascii "provider" ≠ ascii "digits" := by decide
  have n4 : ascii "secret" ≠ ascii "digits" := by decide
  have n5 : ascii "digits" ≠ ascii "period" := by decide
  have n6 : ascii "provider" ≠ ascii "period" := by decide
  have n7 : ascii "secret" ≠ ascii "period" := by decide
  have n8 : ascii "digits" ≠ ascii "algorithm" := by decide
  have n9 : ascii "provider" ≠ ascii "algorithm" := by decide
  have n10 : ascii "secret" ≠ ascii "algorithm" := by decide
  have n11 : ascii "digits" ≠ ascii "issuer" := by decide
  have n12 : ascii "provider" ≠ ascii "issuer" := by decide
  have n13 : ascii "secret" ≠ ascii "issuer" := by decide
  have hd : readNat (decimalInt c.size) = some c.size.natAbs := by
    unfold readNat decimalInt
    rw [if_neg (Int.not_lt.mpr h0), if_pos, decimal_val]
    refine ⟨?_, decimalF_digits _ _⟩
    unfold decimal decimalF
    split <;> simp
  unfold appToken KeyUri.param
  by_cases hz : c.size = 6 <;> by_cases hpr : c.provider = [] <;>
    simp [hz, hpr, n1, n2, n3, n4, n5, n6, n7, n8, n9, n10, n11, n12, n13, hd, b32Decode_encode] <;> omega

/-- C152, what holds: for a token with the start, step and hash of Google's, an app that reads the text
shows at every time exactly the token's codes, so that what it shows is accepted then and during the
next step, unless it was the last code accepted. Missing: other starts, steps and hashes. -/
theorem C152_app_partial (a : Authenticator) (c : TOTPConfig) (label spare : Bytes)
    (hp : parseTOTPConfig a.secret spare = .ok (some c)) (ht : a.typ = typeTOTP)
    (hl : label ≠ []) (h1 : 1 ≤ c.size) (h10 : c.size ≤ 10)
    (hstart : c.start = 0) (hstep : c.step = 30) (halgo : c.algo = 3) :
    ∃ app, (readUri (generateURL c label)).bind appToken = some app ∧
      (∀ t otp, IsCode C app t otp ↔ IsCode C c t otp) ∧
      ∀ shown now otp, IsCode C app shown otp → (now = shown ∨ now - 30 = shown) → a.last ≠ otp →
        validateTOTP C (some a) otp now spare = .ok ⟨some { a with last := otp }, true, none⟩ := by
  refine ⟨_, appToken_generate c label hl (by omega), ?_⟩
  have h : ∀ t otp, IsCode C { key := c.key, start := 0, step := 30, size := c.size, algo := 3, provider := [] } t otp ↔
      IsCode C c t otp := by
    intro t otp
    unfold IsCode codeValue timeCounter
    rw [hstart, hstep]
  refine ⟨h, fun shown now otp hcode hnow hlast => ?_⟩
  have hcode := (h shown otp).mp hcode
  refine (C30_acceptance C a c spare otp now hp ⟨by rw [hstep]; decide, h1, h10, halgo⟩).1 ⟨ht, hlast, ?_⟩
  rcases hnow with rfl | rfl
  · exact Or.inl hcode
  · exact Or.inr (by rw [hstep]; exact hcode)

example : ∃ (a : Authenticator) (c : TOTPConfig), parseTOTPConfig a.secret [] = .ok (some c) ∧
    a.typ = typeTOTP ∧ 1 ≤ c.size ∧ c.size ≤ 10 ∧ c.start = 0 ∧ c.step = 30 ∧ c.algo = 3 :=
  ⟨{ typ := typeTOTP, secret := (google [] [1, 2]).bytes }, google [] [1, 2],
    google_parse [] [1, 2] [] (by decide) (by decide), rfl, by decide, by decide, rfl, rfl, rfl⟩

/-- C152 for tokens made by the package: the app of someone who scans the picture made for a new token
shows its codes, and each that is not the one of the moment of creation is accepted when shown. -/
theorem C152_new (draw : Bytes → Option Bytes) (provider label : Bytes) (now : BitVec 64) (rng : Rng)
    (hl : label ≠ []) (hpl : provider.length < 2 ^ 31 - 71) (hr : 20 ≤ rng.length) :
    ∃ text a app, newGoogleTOTP C (exportQR draw) provider now label rng =
        .ok (match draw text with
          | some png => (.ok (a, ⟨b32Encode (rng.take 20), png⟩), rng.drop 20)
          | none => (.error .foreign, rng.drop 20)) ∧
      (readUri text).bind appToken = some app ∧
      (∀ otp, IsCode C app now otp → a.last = otp) ∧
      ∀ t otp, IsCode C app t otp → a.last ≠ otp →
        validateTOTP C (some a) otp t = .ok ⟨some { a with last := otp }, true, none⟩ := by
  have hlen : (rng.take 20).length = 20 := by simp only [List.length_take]; omega
  have hk : rng.take 20 ≠ [] := by intro h0; rw [h0] at hlen; simp at hlen
  have hparse := google_parse provider (rng.take 20) [] hk (by omega)
  obtain ⟨app, happ, hiff, hacc⟩ := C152_app_partial C
    { typ := typeTOTP, last := decimalPad 6 (codeValue C (google provider (rng.take 20)) now),
      secret := (google provider (rng.take 20)).bytes }
    (google provider (rng.take 20)) label [] hparse rfl hl (by simp [google]) (by simp [google]) rfl rfl rfl
  refine ⟨generateURL (google provider (rng.take 20)) label, _, app, ?_, happ, ?_,
    fun t otp h1 h2 => hacc t t otp h1 (Or.inl rfl) h2⟩
  · unfold newGoogleTOTP randBytes readFull
    rw [if_pos hr]
    simp only [import_eq, Res.ok_bind, exportUserTOTP, ne_eq, not_true_eq_false, if_false, hparse, hl,
      not_false_eq_true, if_true, exportQR]
    cases draw (generateURL (google provider (rng.take 20)) label) <;> rfl
  · intro otp h
    exact (isCode_iff C _ (google_supported _ _) now otp).mp ((hiff now otp).mp h)

example : ∃ (provider label : Bytes) (rng : Rng), label ≠ [] ∧ provider.length < 2 ^ 31 - 71 ∧ 20 ≤ rng.length :=
  ⟨ascii "us", ascii "alice", List.replicate 24 7, by decide, by decide, by decide⟩

/-- C152 is false in general: start, step and hash are not in the text, so that tokens that differ in
them give the same picture. -/
theorem C152_lost_violated (draw : Bytes → Option Bytes) (c : TOTPConfig) (label : Bytes)
    (start step algo : BitVec 64) :
    exportQR draw { c with start := start, step := step, algo := algo } label = exportQR draw c label := rfl

/-- C152: for a token with a step of a minute the app shows, an hour after the epoch, the code of count
120, while the token's count is 60. Unless the code happens to be that of count 60 or 59, it is refused. -/
theorem C152_step_violated (a : Authenticator) (c : TOTPConfig) (label spare otp : Bytes)
    (hp : parseTOTPConfig a.secret spare = .ok (some c)) (hl : label ≠ []) (h1 : 1 ≤ c.size)
    (h10 : c.size ≤ 10) (hstart : c.start = 0) (hstep : c.step = 60) (halgo : c.algo = 3) :
    ∃ app, (readUri (generateURL c label)).bind appToken = some app ∧ timeCounter app 3600 = 120 ∧
      timeCounter c 3600 = 60 ∧ (¬ IsCode C c 3600 otp → ¬ IsCode C c 3540 otp → ∃ e,
        validateTOTP C (some a) otp 3600 spare = .ok ⟨some a, false, some e⟩) := by
  refine ⟨_, appToken_generate c label hl (by omega), ?_, ?_, fun h2 h3 => ?_⟩
  · unfold timeCounter
    dsimp only
    decide
  · unfold timeCounter
    rw [hstart, hstep]
    decide
  · refine (C30_acceptance C a c spare otp 3600 hp ⟨by rw [hstep]; decide, h1, h10, halgo⟩).2 ?_
    rintro ⟨-, -, h | h⟩
    · exact h2 h
    · rw [hstep] at h; exact h3 h

/-- A concrete token under a toy HMAC: the app's code is refused. -/
example : ∃ (a : Authenticator) (c : TOTPConfig) (otp : Bytes), parseTOTPConfig a.secret [] = .ok (some c) ∧
    1 ≤ c.size ∧ c.size ≤ 10 ∧ c.start = 0 ∧ c.step = 60 ∧ c.algo = 3 ∧
    IsCode Toy.crypto { c with step := 30 } 3600 otp ∧ ¬ IsCode Toy.crypto c 3600 otp ∧
    ¬ IsCode Toy.crypto c 3540 otp :=
  let c : TOTPConfig := { key := List.replicate 12 1, start := 0, step := 60, size := 6, algo := 3, provider := [] }
  ⟨{ typ := typeTOTP, secret := c.bytes }, c, decimalPad 6 (codeValue Toy.crypto { c with step := 30 } 3600),
    C28_roundtrip_partial c [] (by decide) (by decide) (by decide) (by decide),
    by decide, by decide, rfl, rfl, rfl,
    (isCode_iff Toy.crypto { c with step := 30 } ⟨by decide, by decide, by decide, rfl⟩ _ _).mpr rfl,
    by decide, by decide⟩

/-- C153, what holds: the text does name the provider, unchanged, so that a reader that knows the
parameter `provider` learns it, and without a provider none is named. Missing: the name `issuer`. -/
theorem C153_named_partial (c : TOTPConfig) (label : Bytes) (hl : label ≠ []) :
    ∃ k, readUri (generateURL c label) = some k ∧
      ∀ v, k.param (ascii "provider") = some v ↔ c.provider ≠ [] ∧ v = c.provider := by
  refine ⟨_, readUri_generate c label hl, fun v => ?_⟩
  have h1 : ascii "digits" ≠ ascii "provider" := by decide
  have h2 : ascii "secret" ≠ ascii "provider" := by decide
  unfold KeyUri.param
  by_cases hz : c.size = 6 <;> by_cases hpr : c.provider = [] <;> simp [hz, hpr, h1, h2, eq_comm]

/-- C153 is false whenever there is a provider: the text names it under `provider`, which is not a
parameter of the format, and has no `issuer`, so that the app knows of none. -/
theorem C153_issuer_violated (c : TOTPConfig) (label : Bytes) (hl : label ≠ []) (hp : c.provider ≠ []) :
    ∃ k, readUri (generateURL c label) = some k ∧ k.param (ascii "issuer") = none ∧
      k.param (ascii "provider") = some c.provider ∧
      ∀ app, appToken k = some app → app.provider = [] := by
  have n11 : ascii "digits" ≠ ascii "issuer" := by decide
  have n12 : ascii "provider" ≠ ascii "issuer" := by decide
  have n13 : ascii "secret" ≠ ascii "issuer" := by decide
  have n14 : ascii "digits" ≠ ascii "provider" := by decide
  refine ⟨_, readUri_generate c label hl, ?_, ?_, ?_⟩
  · unfold KeyUri.param
    by_cases hz : c.size = 6 <;> simp [hz, hp, n11, n12, n13]
  · unfold KeyUri.param
    by_cases hz : c.size = 6 <;> simp [hz, hp, n14]
  · intro app h
    have hn : KeyUri.param ⟨if label.head? = some 47 then label.drop 1 else label,
      (if c.size ≠ 6 then [(ascii "digits", decimalInt c.size)] else []) ++
      (if c.provider ≠ [] then [(ascii "provider", c.provider)] else []) ++
      [(ascii "secret", b32Encode c.key)]⟩ (ascii "issuer") = none := by
      unfold KeyUri.param
      by_cases hz : c.size = 6 <;> simp [hz, hp, n11, n12, n13]
    unfold appToken at h
    simp only [bind, Option.bind_eq_some_iff, hn] at h
    obtain ⟨_, _, _, _, _, _, h⟩ := h
    simp only [Option.ite_none_right_eq_some, Option.some.injEq] at h
    rw [← h.2]; rfl

example : ∃ (c : TOTPConfig) (label : Bytes), label ≠ [] ∧ c.provider ≠ [] :=
  ⟨google (ascii "Example") [1, 2, 3], ascii "alice", by decide, by decide⟩

end Verif.Props.TotpUrl
