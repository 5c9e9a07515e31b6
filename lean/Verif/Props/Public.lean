import Verif.Proofs.Public
import Verif.Go.Strings
/-! Properties of common/public (C16-C27, C86, C87). -/

namespace Verif.Props.Public
open Verif Verif.Go Verif.Model.Util Verif.Model.Tlv Verif.Model.Public Verif.Spec.Public
  Verif.Spec.Tlv Verif.Proofs.Tlv Verif.Proofs.Secret Verif.Proofs.Public

variable (C : Crypto)

/-- C16, private keys: every complete, well-typed key survives serialisation, which is the
180-byte TLV encoding of its four components. -/
theorem C16_private_roundtrip (k : PrivateKey) (hwt : k.WT) (hv : validPriv (some k) = true) :
    ∃ d s e v b, k = mkPriv d s e v ∧ marshalPrivate (some k) = .ok (some b) ∧ b.length = 180 ∧
      b = encodeAll [.bytes d, .bytes s, .bytes e, .bytes v] ∧
      unmarshalPrivate b = .ok (some k) := by
  obtain ⟨d, s, e, v, h⟩ := (validPriv_iff _).mp hv
  simp only [Option.some.injEq] at h
  subst h
  obtain ⟨hd, hs, hp⟩ := hwt
  obtain ⟨he, hv'⟩ := hp _ rfl
  have hd := hd d rfl
  have hs := hs s rfl
  have he := he e rfl
  have hv' := hv' v rfl
  refine ⟨d, s, e, v, _, rfl, marshalPrivate_mk d s e v, ?_, (encodeAll_four d s e v).symm, ?_⟩
  · simp only [List.length_append, bytesRecord_length, hd, hs, he, hv']
  · have h := unmarshal_records d s e v [] (by rintro rfl; simp at hd) (by rintro rfl; simp at hs)
      (by rintro rfl; simp at he) (by rintro rfl; simp at hv')
      (by simp only [List.length_append, bytesRecord_length, hd, hs, he, hv', List.length_nil]; omega)
    rw [List.append_nil] at h
    rw [h, copyInto_eq hd, copyInto_eq hs, copyInto_eq he, copyInto_eq hv']

example : ∃ k : PrivateKey, k.WT ∧ validPriv (some k) = true := by
  refine ⟨mkPriv (List.replicate 32 1) (List.replicate 64 2) (List.replicate 32 3)
    (List.replicate 32 4), ⟨?_, ?_, ?_⟩, rfl⟩
  · rintro _ ⟨⟩; decide
  · rintro _ ⟨⟩; decide
  · rintro _ ⟨⟩; exact ⟨by rintro _ ⟨⟩; decide, by rintro _ ⟨⟩; decide⟩

/-- C16, public keys: serialisation is 64 bytes and round-trips in both directions, and
exactly the 64-byte strings are accepted. -/
theorem C16_public_roundtrip :
    (∀ k : PublicKey, k.WT → validPub (some k) = true →
      ∃ b, marshalPublic (some k) = .ok (some b) ∧ b.length = 64 ∧ unmarshalPublic b = some k) ∧
    (∀ b, (unmarshalPublic b).isSome ↔ b.length = 64) ∧
    (∀ b k, unmarshalPublic b = some k → k.WT ∧ marshalPublic (some k) = .ok (some b)) := by
  refine ⟨?_, ?_, ?_⟩
  · intro k hwt hv
    obtain ⟨e, v, h⟩ := (validPub_iff _).mp hv
    simp only [Option.some.injEq] at h
    subst h
    have he := hwt.1 e rfl
    have hv' := hwt.2 v rfl
    refine ⟨e ++ v, by simp [marshalPublic, validPub, deref], by simp [he, hv'], ?_⟩
    unfold unmarshalPublic
    rw [if_neg (by simp [he, hv']), copyInto_append he, List.drop_left' he, copyInto_eq hv']
  · intro b
    unfold unmarshalPublic
    split <;> simp_all
  · intro b k h
    unfold unmarshalPublic at h
    split at h
    · simp at h
    rename_i hl
    simp only [ne_eq, Decidable.not_not] at hl
    simp only [Option.some.injEq] at h
    subst h
    have h1 : copyInto 32 b = b.take 32 := by
      conv => lhs; rw [← List.take_append_drop 32 b]
      exact copyInto_append (by simp [hl])
    have h2 : copyInto 32 (b.drop 32) = b.drop 32 := copyInto_eq (by simp [hl])
    refine ⟨⟨?_, ?_⟩, ?_⟩
    · rintro _ ⟨⟩; exact copyInto_length _ _
    · rintro _ ⟨⟩; exact copyInto_length _ _
    · simp [marshalPublic, validPub, deref, h1, h2]

/-- C17 is false: a single empty byte-string record, followed by anything, is accepted as a
private key, and the result is the all-zero key (which counts as valid). -/
theorem C17_zero_key_violated (rest : Bytes) (h : rest.length < 2 ^ 31 - 5) :
    unmarshalPrivate ([3, 0, 0, 0, 0] ++ rest) =
      .ok (some (mkPriv (List.replicate 32 0) (List.replicate 64 0) (List.replicate 32 0)
        (List.replicate 32 0))) := by
  rw [unmarshalPrivate_decodeN]
  refine ⟨[], [], [], [], ?_, ?_⟩
  · rw [decodeN_iff _ _ _ (by simp only [List.length_append, List.length_cons, List.length_nil]; omega)]
    exact ⟨[], _, by simp, rfl, Or.inr ⟨by decide, ⟨rest, rfl⟩⟩, rfl⟩
  · simp [copyInto]

/-- C17 is false in a second way: anything may follow a serialised key. -/
theorem C17_trailing_violated (d s e v rest : Bytes) (hd : d.length = 32) (hs : s.length = 64)
    (he : e.length = 32) (hv : v.length = 32) (hr : rest.length < 2 ^ 31 - 180) :
    unmarshalPrivate (encodeAll [.bytes d, .bytes s, .bytes e, .bytes v] ++ rest) =
      .ok (some (mkPriv d s e v)) := by
  have h := unmarshal_records d s e v rest (by rintro rfl; simp at hd) (by rintro rfl; simp at hs)
      (by rintro rfl; simp at he) (by rintro rfl; simp at hv)
      (by simp only [List.length_append, bytesRecord_length, hd, hs, he, hv]; omega)
  rw [encodeAll_four]
  simp only [List.append_assoc]
  rw [h, copyInto_eq hd, copyInto_eq hs, copyInto_eq he, copyInto_eq hv]

/-- C17 is false in a third way: a hostile length crashes the program. -/
theorem C17_panic_violated : unmarshalPrivate [3, 255, 255, 255, 255] = .panic := by decide

/-- C17, what is accepted exactly (inputs below 2 GiB): up to four non-empty byte-string
records of any size, and if there are fewer than four then an empty record must follow. The
components are cut or zero-padded. Missing: the size and trailing-data checks. -/
theorem C17_accepted_partial (b : Bytes) (hb : b.length < 2 ^ 31) (k : PrivateKey) :
    unmarshalPrivate b = .ok (some k) ↔
      ∃ comps rest d s e v, (∀ c ∈ comps, c ≠ []) ∧
        b = encodeAll (comps.map .bytes) ++ rest ∧
        (comps.length = 4 ∨ comps.length < 4 ∧ [3, 0, 0, 0, 0] <+: rest) ∧
        comps ++ List.replicate (4 - comps.length) [] = [d, s, e, v] ∧
        k = mkPriv ((d ++ List.replicate 32 0).take 32) ((s ++ List.replicate 64 0).take 64)
          ((e ++ List.replicate 32 0).take 32) ((v ++ List.replicate 32 0).take 32) := by
  rw [unmarshalPrivate_decodeN]
  simp only [decodeN_iff _ _ _ hb, copyInto_fit]
  constructor
  · rintro ⟨d, s, e, v, ⟨comps, rest, h1, h2, h3, h4⟩, hk⟩
    exact ⟨comps, rest, d, s, e, v, h1, by rw [encodeAll_bytes]; exact h2, h3, h4.symm, hk⟩
  · rintro ⟨comps, rest, d, s, e, v, h1, h2, h3, h4, hk⟩
    exact ⟨d, s, e, v, ⟨comps, rest, h1, by rw [← encodeAll_bytes]; exact h2, h3, h4.symm⟩, hk⟩

example : ∃ b : Bytes, b.length < 2 ^ 31 ∧ ∃ k, unmarshalPrivate b = .ok (some k) :=
  ⟨[3, 0, 0, 0, 1, 7, 3, 0, 0, 0, 0], by decide, _, rfl⟩

/-- What becomes of a message that is encrypted and decrypted, whatever its length. -/
theorem decrypt_encrypt (d seed msg : Bytes) (rng : Rng) (hr : 56 ≤ rng.length) :
    ∃ ct, encrypt C (some (pubOf C d seed)) msg rng = .ok (some ct, rng.drop 56) ∧
      ct.length = msg.length + 77 ∧
      decrypt C (some (pairOf C d seed)) ct =
        if toInt32 msg.length < 0 then .panic
        else if toInt32 msg.length = 0 ∨ toInt32 msg.length < msg.length then .ok none
        else .ok (some msg) := by
  have hn : ((rng.drop 32).take 24).length = 24 := by
    simp only [List.length_take, List.length_drop]; omega
  rw [encrypt_eq_raw]
  unfold pubOf
  rw [encryptRaw_eq, if_neg (by omega), if_neg (by omega)]
  refine ⟨_, rfl, ?_, ?_⟩
  · rw [boxFor_length C _ _ _ _ hn, bytesRecord_length]; omega
  · unfold decrypt
    rw [pairOf_eq, decryptRaw_boxFor C _ _ _ _ _ _ _ hn]
    simp only [Res.ok_bind]
    have h := decodeBytes_any msg [] []
    simp only [List.append_nil, List.length_nil, Nat.add_zero] at h
    rw [if_neg (by omega)] at h
    have hle := toInt32_le msg.length
    rw [h]
    by_cases h0 : toInt32 msg.length = 0
    · rw [if_pos h0, if_neg (by omega), if_pos (.inl h0)]
      have hrec := bytesRecord_length msg
      have hne : (newDecoder (record (.bytes msg))).length ≠ 0 := by
        show (record (.bytes msg)).length ≠ 0
        omega
      simp only [Res.ok_bind, if_pos hne, Res.pure_eq]
    rw [if_neg h0]
    by_cases h1 : toInt32 msg.length < 0
    · rw [if_pos h1, if_pos h1]; rfl
    rw [if_neg h1, if_neg h1]
    by_cases h2 : toInt32 msg.length < msg.length
    · rw [if_pos (.inr h2)]
      simp only [Res.ok_bind, newDecoder, Decoder.length, List.length_drop]
      rw [if_pos (by omega)]; rfl
    · have h3 : (toInt32 msg.length).toNat = msg.length := by omega
      rw [if_neg (by omega), h3]
      simp [newDecoder, Decoder.length]

/-- C18: with 56 PRNG bytes `Encrypt` succeeds, and `Decrypt` returns the message exactly if it is not empty and shorter
than 2 GiB. -/
theorem C18_exact_partial (d seed msg : Bytes) (rng : Rng) (hr : 56 ≤ rng.length) :
    ∃ ct, encrypt C (some (pubOf C d seed)) msg rng = .ok (some ct, rng.drop 56) ∧
      (decrypt C (some (pairOf C d seed)) ct = .ok (some msg) ↔ msg ≠ [] ∧ msg.length < 2 ^ 31) := by
  obtain ⟨ct, h1, -, h2⟩ := decrypt_encrypt C d seed msg rng hr
  refine ⟨ct, h1, ?_⟩
  rw [h2, toInt32_mod]
  have hm : msg ≠ [] ↔ 0 < msg.length := List.length_pos_iff.symm
  rw [hm]
  have hle := Nat.mod_le msg.length (2 ^ 32)
  have hlt := Nat.mod_lt msg.length (show 0 < 2 ^ 32 by decide)
  by_cases hl : 0 < msg.length ∧ msg.length < 2 ^ 31
  · rw [Nat.mod_eq_of_lt (by omega), if_pos hl.2, if_neg (by omega), if_neg (by omega)]
    simpa using hl
  · refine ⟨fun h => absurd h ?_, fun h => absurd h hl⟩
    have hmod : msg.length % 2 ^ 32 = msg.length → msg.length = 0 ∨ 2 ^ 31 ≤ msg.length := by omega
    split <;> split <;> first | (simp; done) | (split <;> first | (simp; done) | omega)

/-- C18: with 56 PRNG bytes `Encrypt` succeeds, and `Decrypt` returns every non-empty message. -/
theorem C18_roundtrip_partial (d seed msg : Bytes) (rng : Rng)
    (hm : msg ≠ []) (hl : msg.length < 2 ^ 31) (hr : 56 ≤ rng.length) :
    ∃ ct, encrypt C (some (pubOf C d seed)) msg rng = .ok (some ct, rng.drop 56) ∧
      ct.length = msg.length + 77 ∧
      decrypt C (some (pairOf C d seed)) ct = .ok (some msg) := by
  obtain ⟨ct, h1, h2, h3⟩ := decrypt_encrypt C d seed msg rng hr
  refine ⟨ct, h1, h2, ?_⟩
  have hm := List.length_pos_iff.mpr hm
  rw [h3, toInt32_of_lt hl, if_neg (by omega), if_neg (by omega)]

/-- C18 is false for long messages: encrypting a message of 2 GiB or more succeeds, and decrypting the result crashes. -/
theorem C18_long_message_violated (d seed msg : Bytes) (rng : Rng) (h1 : 2 ^ 31 ≤ msg.length)
    (h2 : msg.length < 2 ^ 32) (hr : 56 ≤ rng.length) :
    ∃ ct, encrypt C (some (pubOf C d seed)) msg rng = .ok (some ct, rng.drop 56) ∧
      decrypt C (some (pairOf C d seed)) ct = .panic := by
  obtain ⟨ct, e1, -, e2⟩ := decrypt_encrypt C d seed msg rng hr
  refine ⟨ct, e1, ?_⟩
  rw [e2, toInt32_neg h1 h2, if_pos (by omega)]

example : ∃ msg : Bytes, 2 ^ 31 ≤ msg.length ∧ msg.length < 2 ^ 32 :=
  ⟨List.replicate (2 ^ 31) 7, by rw [List.length_replicate]; decide, by rw [List.length_replicate]; decide⟩

/-- C18 is false for the empty message: encryption succeeds and decryption refuses the result,
for every key pair. -/
theorem C18_empty_message_violated (d seed : Bytes) (rng : Rng) (hr : 56 ≤ rng.length) :
    ∃ ct, encrypt C (some (pubOf C d seed)) [] rng = .ok (some ct, rng.drop 56) ∧
      decrypt C (some (pairOf C d seed)) ct = .ok none := by
  have hn : ((rng.drop 32).take 24).length = 24 := by
    simp only [List.length_take, List.length_drop]; omega
  rw [encrypt_eq_raw]
  unfold pubOf
  rw [encryptRaw_eq, if_neg (by omega), if_neg (by omega)]
  refine ⟨_, rfl, ?_⟩
  unfold decrypt
  rw [pairOf_eq, decryptRaw_boxFor C _ _ _ _ _ _ _ hn]
  simp only [Res.ok_bind]
  have h := decodeBytes_empty [] [] (by decide)
  rw [List.append_nil] at h
  rw [record_nil, h]
  simp [newDecoder, Decoder.length, emptyRec]

example : ∃ (msg : Bytes) (rng : Rng), msg ≠ [] ∧ msg.length < 2 ^ 31 ∧ 56 ≤ rng.length :=
  ⟨[104, 105], List.replicate 60 9, by decide, by decide, by decide⟩

/-- What becomes of the opened box, when `EncryptAndSign` is undone. -/
theorem decryptAndVerify_own (d seed d' seed' msg : Bytes) (rng : Rng) (hr : 56 ≤ rng.length) :
    ∃ ct, encryptAndSign C (some (pairOf C d seed)) (some (pubOf C d' seed')) msg rng =
        .ok (some ct, rng.drop 56) ∧
      ct.length = msg.length + 146 ∧
      decryptAndVerify C (some (pairOf C d' seed')) (some (pubOf C d seed)) ct = (do
        match ← decodeBytes (newDecoder (record (.bytes msg) ++
            record (.bytes (C.sign (seed ++ C.edPub seed) msg)))) [] with
        | none => pure none
        | some (dec, m) =>
        match ← decodeBytes dec [] with
        | none => pure none
        | some (dec, s) =>
        if dec.length ≠ 0 then pure none
        else if s.length ≠ 64 then pure none
        else
          if ← verify C (some (pubOf C d seed)) m s then pure (some m) else pure none) := by
  have hn : ((rng.drop 32).take 24).length = 24 := by
    simp only [List.length_take, List.length_drop]; omega
  have hsl := C.sign_length (seed ++ C.edPub seed) msg
  rw [pairOf_eq, encryptAndSign_mk]
  unfold pubOf
  rw [encryptRaw_eq, if_neg (by omega), if_neg (by omega)]
  have hbl := boxFor_length C (C.base d') (rng.take 32) _
    (record (.bytes msg) ++ record (.bytes (C.sign (seed ++ C.edPub seed) msg))) hn
  refine ⟨_, rfl, ?_, ?_⟩
  · rw [hbl]
    simp only [List.length_append, bytesRecord_length, hsl]; omega
  · unfold decryptAndVerify
    have hv1 : validPriv (some (pairOf C d' seed')) = true := rfl
    have hv2 : validPub (some { E := some (C.base d), V := some (C.edPub seed) }) = true := rfl
    rw [hv1, hv2, if_neg (by simp), if_neg (by rw [hbl]; omega), pairOf_eq,
      decryptRaw_boxFor C _ _ _ _ _ _ _ hn]
    simp only [Res.ok_bind]
    rfl

/-- C19: signed encryption round-trips for non-empty messages. -/
theorem C19_roundtrip_partial (d seed d' seed' msg : Bytes) (rng : Rng)
    (hseed : seed.length = 32) (hm : msg ≠ []) (hl : msg.length < 2 ^ 31 - 69) (hr : 56 ≤ rng.length) :
    ∃ ct, encryptAndSign C (some (pairOf C d seed)) (some (pubOf C d' seed')) msg rng =
        .ok (some ct, rng.drop 56) ∧
      ct.length = msg.length + 146 ∧
      decryptAndVerify C (some (pairOf C d' seed')) (some (pubOf C d seed)) ct = .ok (some msg) := by
  obtain ⟨ct, h1, h2, h3⟩ := decryptAndVerify_own C d seed d' seed' msg rng hr
  refine ⟨ct, h1, h2, ?_⟩
  have hsl := C.sign_length (seed ++ C.edPub seed) msg
  have hm' := List.length_pos_iff.mpr hm
  have hk : (toInt32 msg.length).toNat = msg.length := by rw [toInt32_of_lt (by omega)]; omega
  have hd := decodeBytes_any msg (record (.bytes (C.sign (seed ++ C.edPub seed) msg))) []
  rw [hk, bytesRecord_length, hsl, toInt32_of_lt (by omega), toInt32_of_lt (by omega), if_neg (by omega),
    if_neg (by omega), if_neg (by omega), List.drop_left, List.take_left] at hd
  rw [h3, hd]
  simp only [Res.ok_bind]
  have h := decodeBytes_record (C.sign (seed ++ C.edPub seed) msg) [] []
    (by intro h; rw [h] at hsl; simp at hsl)
    (by simp only [List.append_nil, bytesRecord_length, hsl]; omega)
  rw [List.append_nil] at h
  rw [h]
  simp only [Res.ok_bind]
  unfold pubOf
  rw [if_neg (by simp [newDecoder, Decoder.length]), if_neg (by simp [hsl]), verify_mk,
    if_pos hsl, C.verify_sign _ _ hseed]
  rfl

/-- C19: `DecryptAndVerify` returns the message exactly if it is not empty and shorter than 2 GiB less the 69 bytes of the
signature record. -/
theorem C19_exact_partial (d seed d' seed' msg : Bytes) (rng : Rng) (hseed : seed.length = 32) (hr : 56 ≤ rng.length) :
    ∃ ct, encryptAndSign C (some (pairOf C d seed)) (some (pubOf C d' seed')) msg rng =
        .ok (some ct, rng.drop 56) ∧
      (decryptAndVerify C (some (pairOf C d' seed')) (some (pubOf C d seed)) ct = .ok (some msg) ↔
        msg ≠ [] ∧ msg.length < 2 ^ 31 - 69) := by
  by_cases hl : msg ≠ [] ∧ msg.length < 2 ^ 31 - 69
  · obtain ⟨ct, h1, -, h3⟩ := C19_roundtrip_partial C d seed d' seed' msg rng hseed hl.1 hl.2 hr
    exact ⟨ct, h1, by simp [h3, hl]⟩
  obtain ⟨ct, h1, -, h3⟩ := decryptAndVerify_own C d seed d' seed' msg rng hr
  refine ⟨ct, h1, ?_⟩
  refine ⟨fun h => absurd h ?_, fun h => absurd h hl⟩
  have hl' : msg.length = 0 ∨ 2 ^ 31 - 69 ≤ msg.length := by
    by_cases h0 : msg.length = 0
    · exact .inl h0
    · refine .inr (Nat.le_of_not_lt fun h => hl ⟨fun e => h0 (by rw [e]; rfl), h⟩)
  have hsl := C.sign_length (seed ++ C.edPub seed) msg
  have hlt := Nat.mod_lt msg.length (show 0 < 2 ^ 32 by decide)
  have hle := Nat.mod_le msg.length (2 ^ 32)
  rw [h3, decodeBytes_any, bytesRecord_length, hsl]
  by_cases g1 : toInt32 msg.length > toInt32 (msg.length + (5 + 64))
  · rw [if_pos g1]; simp
  rw [if_neg g1]
  by_cases g2 : toInt32 msg.length = 0
  · have he := decodeBytes_any msg (record (.bytes (C.sign (seed ++ C.edPub seed) msg))) []
    rw [bytesRecord_length, hsl, if_neg g1, if_pos g2] at he
    rw [if_pos g2]
    simp only [Res.ok_bind]
    rw [he]
    simp [newDecoder, Decoder.length]
  rw [if_neg g2]
  by_cases g3 : toInt32 msg.length < 0
  · rw [if_pos g3]; simp
  rw [if_neg g3]
  simp only [Res.ok_bind]
  have hshort : (toInt32 msg.length).toNat < msg.length := by
    rw [toInt32_mod] at g1 g2 g3 ⊢
    rw [toInt32_mod] at g1
    split at g3 <;> split at g1 <;> split <;> omega
  intro h
  have key : ∀ r, (do
      match ← decodeBytes (newDecoder r) [] with
      | none => pure none
      | some (dec, s) =>
        if dec.length ≠ 0 then pure none
        else if s.length ≠ 64 then pure none
        else
          if ← verify C (some (pubOf C d seed)) ((msg ++ record (.bytes (C.sign (seed ++ C.edPub seed) msg))).take
            (toInt32 msg.length).toNat) s then pure (some ((msg ++ record (.bytes (C.sign (seed ++ C.edPub seed) msg))).take
            (toInt32 msg.length).toNat)) else pure none) = .ok (some msg) → False := by
    intro r hr
    obtain ⟨x, -, hx⟩ := Res.bind_eq_ok.mp hr
    cases x with
    | none => simp at hx
    | some x =>
      simp only at hx
      split at hx
      · simp at hx
      · split at hx
        · simp at hx
        · obtain ⟨y, -, hy⟩ := Res.bind_eq_ok.mp hx
          cases y with
          | false => simp at hy
          | true =>
            simp only [if_true, Res.pure_eq, Res.ok.injEq, Option.some.injEq] at hy
            have := congrArg List.length hy
            simp only [List.length_take, List.length_append, bytesRecord_length] at this
            omega
  exact key _ h

/-- C19 is false for long messages: `EncryptAndSign` takes a message of 2 GiB or more, and `DecryptAndVerify` crashes on the
result. -/
theorem C19_long_message_violated (d seed d' seed' msg : Bytes) (rng : Rng) (h1 : 2 ^ 31 ≤ msg.length)
    (h2 : msg.length < 2 ^ 32 - 69) (hr : 56 ≤ rng.length) :
    ∃ ct, encryptAndSign C (some (pairOf C d seed)) (some (pubOf C d' seed')) msg rng =
        .ok (some ct, rng.drop 56) ∧
      decryptAndVerify C (some (pairOf C d' seed')) (some (pubOf C d seed)) ct = .panic := by
  obtain ⟨ct, e1, -, e2⟩ := decryptAndVerify_own C d seed d' seed' msg rng hr
  refine ⟨ct, e1, ?_⟩
  have hsl := C.sign_length (seed ++ C.edPub seed) msg
  rw [e2, decodeBytes_any, bytesRecord_length, hsl, toInt32_neg h1 (by omega), toInt32_neg (by omega) (by omega),
    if_neg (by omega), if_neg (by omega), if_pos (by omega)]
  rfl

example : ∃ msg : Bytes, 2 ^ 31 ≤ msg.length ∧ msg.length < 2 ^ 32 - 69 :=
  ⟨List.replicate (2 ^ 31) 7, by rw [List.length_replicate]; decide, by rw [List.length_replicate]; decide⟩

/-- Whoever is taken for the sender, no message is returned if it was 2 GiB or longer. -/
theorem long_refused (d seed d' seed' msg : Bytes) (rng : Rng) (h1 : 2 ^ 31 - 69 ≤ msg.length)
    (h2 : msg.length < 2 ^ 32 - 69) (hr : 56 ≤ rng.length) :
    ∃ ct, encryptAndSign C (some (pairOf C d seed)) (some (pubOf C d' seed')) msg rng =
        .ok (some ct, rng.drop 56) ∧ ct ≠ [] ∧
      ∀ pub m, decryptAndVerify C (some (pairOf C d' seed')) pub ct ≠ .ok (some m) := by
  have hn : ((rng.drop 32).take 24).length = 24 := by
    simp only [List.length_take, List.length_drop]; omega
  have hsl := C.sign_length (seed ++ C.edPub seed) msg
  rw [pairOf_eq, encryptAndSign_mk]
  unfold pubOf
  rw [encryptRaw_eq, if_neg (by omega), if_neg (by omega)]
  have hbl := boxFor_length C (C.base d') (rng.take 32) _
    (record (.bytes msg) ++ record (.bytes (C.sign (seed ++ C.edPub seed) msg))) hn
  refine ⟨_, rfl, fun h => ?_, fun pub m h => ?_⟩
  · rw [h, List.length_nil] at hbl; omega
  unfold decryptAndVerify at h
  split at h
  · simp at h
  split at h
  · simp at h
  rw [pairOf_eq, decryptRaw_boxFor C _ _ _ _ _ _ _ hn] at h
  simp only [Res.ok_bind] at h
  rw [decodeBytes_any, bytesRecord_length, hsl] at h
  by_cases hl : msg.length < 2 ^ 31
  · rw [toInt32_of_lt hl, toInt32_neg (by omega) (by omega), if_pos (by omega)] at h
    simp at h
  · rw [toInt32_neg (by omega) (by omega), toInt32_neg (by omega) (by omega), if_neg (by omega), if_neg (by omega),
      if_pos (by omega)] at h
    simp at h

/-- C19 is false for the empty message. -/
theorem C19_empty_message_violated (d seed d' seed' : Bytes) (rng : Rng) (hr : 56 ≤ rng.length) :
    ∃ ct, encryptAndSign C (some (pairOf C d seed)) (some (pubOf C d' seed')) [] rng =
        .ok (some ct, rng.drop 56) ∧
      decryptAndVerify C (some (pairOf C d' seed')) (some (pubOf C d seed)) ct = .ok none := by
  have hn : ((rng.drop 32).take 24).length = 24 := by
    simp only [List.length_take, List.length_drop]; omega
  have hsl := C.sign_length (seed ++ C.edPub seed) []
  rw [pairOf_eq, encryptAndSign_mk]
  unfold pubOf
  rw [encryptRaw_eq, if_neg (by omega), if_neg (by omega)]
  have hbl := boxFor_length C (C.base d') (rng.take 32) _
    (record (.bytes []) ++ record (.bytes (C.sign (seed ++ C.edPub seed) []))) hn
  refine ⟨_, rfl, ?_⟩
  unfold decryptAndVerify
  have hv1 : validPriv (some (pairOf C d' seed')) = true := rfl
  have hv2 : validPub (some { E := some (C.base d), V := some (C.edPub seed) }) = true := rfl
  rw [hv1, hv2, if_neg (by simp), if_neg (by rw [hbl]; omega), pairOf_eq,
    decryptRaw_boxFor C _ _ _ _ _ _ _ hn]
  simp only [Res.ok_bind]
  have he := decodeBytes_empty (record (.bytes (C.sign (seed ++ C.edPub seed) []))) []
    (by rw [bytesRecord_length, hsl]; omega)
  rw [record_nil, he]
  simp only [Res.ok_bind]
  rw [he]
  simp [newDecoder, Decoder.length, emptyRec]

example : ∃ (seed msg : Bytes) (rng : Rng), seed.length = 32 ∧ msg ≠ [] ∧
    msg.length < 2 ^ 31 - 69 ∧ 56 ≤ rng.length :=
  ⟨List.replicate 32 5, [104, 105], List.replicate 60 9, by decide, by decide, by decide, by decide⟩

/-- C20: a released message was sealed for the recipient together with a 64-byte signature
that verifies under the claimed sender's key, and nothing else was in the box. -/
theorem C20_only_verified (k : Option PrivateKey) (pub : Option PublicKey) (enc m : Bytes)
    (h : decryptAndVerify C k pub enc = .ok (some m)) :
    ∃ d s e v e' v' p n sig, k = some (mkPriv d s e v) ∧ pub = some { E := some e', V := some v' } ∧
      p.length = 32 ∧ n.length = 24 ∧ sig.length = 64 ∧ m ≠ [] ∧
      enc = p ++ n ++ C.sealBox (C.shared p d) n (encodeAll [.bytes m, .bytes sig]) ∧
      C.verify v' m sig = true := by
  obtain ⟨sig, hm, hs, hver, hraw⟩ := decryptAndVerify_some C h
  obtain ⟨d, s, e, v, p, n, rfl, hp, hn, henc⟩ := (decryptRaw_some_iff C _ _ _).mp hraw
  cases hvp : validPub pub with
  | false => unfold verify at hver; rw [hvp] at hver; simp at hver
  | true =>
    obtain ⟨e', v', rfl⟩ := (validPub_iff _).mp hvp
    rw [verify_mk, if_pos hs] at hver
    refine ⟨d, s, e, v, e', v', p, n, sig, rfl, rfl, hp, hn, hs, hm, ?_, ?_⟩
    · rw [encodeAll_two]; exact henc
    · simpa using hver

/-- A message that does round-trip, so the hypothesis of C20 can be met. -/
example : ∃ k pub enc m, decryptAndVerify Toy.crypto k pub enc = .ok (some m) :=
  let d := List.replicate 32 1
  let s := List.replicate 32 2
  let ⟨ct, _, _, h⟩ := C19_roundtrip_partial Toy.crypto d s d s [7] (List.replicate 60 9)
    (by decide) (by decide) (by decide) (by decide)
  ⟨_, _, ct, _, h⟩

/-- C21: what `EncryptAndSign` makes for a key pair is not accepted by `Decrypt` with it. -/
theorem C21_signed_not_unsigned (priv : Option PrivateKey) (d seed msg ct : Bytes)
    (rng rng' : Rng)
    (h : encryptAndSign C priv (some (pubOf C d seed)) msg rng = .ok (some ct, rng')) (m : Bytes) :
    decrypt C (some (pairOf C d seed)) ct ≠ .ok (some m) := by
  intro hdec
  obtain ⟨hm, hraw⟩ := decrypt_some C hdec
  obtain ⟨d1, s1, e1, v1, rfl, h'⟩ := encryptAndSign_some C h
  obtain ⟨e', v', hp, hr, rfl, rfl⟩ := encryptRaw_some C h'
  simp only [pubOf, Option.some.injEq, PublicKey.mk.injEq] at hp
  obtain ⟨rfl, rfl⟩ := hp
  rw [pairOf_eq, decryptRaw_boxFor C _ _ _ _ _ _ _
    (by simp only [List.length_take, List.length_drop]; omega)] at hraw
  simp only [Res.ok.injEq, Option.some.injEq] at hraw
  exact record_two_ne _ _ _ (by rw [C.sign_length]; omega) hraw

/-- C21: what `Encrypt` makes for a key pair is not accepted by `DecryptAndVerify` with it,
whoever is claimed to be the sender. -/
theorem C21_unsigned_not_signed (sender : Option PublicKey) (d seed msg ct : Bytes) (rng rng' : Rng)
    (h : encrypt C (some (pubOf C d seed)) msg rng = .ok (some ct, rng')) (m : Bytes) :
    decryptAndVerify C (some (pairOf C d seed)) sender ct ≠ .ok (some m) := by
  intro hdec
  obtain ⟨s, hm, hs, -, hraw⟩ := decryptAndVerify_some C hdec
  rw [encrypt_eq_raw] at h
  obtain ⟨e', v', hp, hr, rfl, rfl⟩ := encryptRaw_some C h
  simp only [pubOf, Option.some.injEq, PublicKey.mk.injEq] at hp
  obtain ⟨rfl, rfl⟩ := hp
  rw [pairOf_eq, decryptRaw_boxFor C _ _ _ _ _ _ _
    (by simp only [List.length_take, List.length_drop]; omega)] at hraw
  simp only [Res.ok.injEq, Option.some.injEq] at hraw
  exact record_two_ne _ _ _ (by omega) hraw.symm

/-- Both kinds of ciphertext exist. -/
example : ∃ d seed msg ct1 ct2 rng r1 r2,
    encrypt Toy.crypto (some (pubOf Toy.crypto d seed)) msg rng = .ok (some ct1, r1) ∧
    encryptAndSign Toy.crypto (some (pairOf Toy.crypto d seed)) (some (pubOf Toy.crypto d seed)) msg
      rng = .ok (some ct2, r2) := by
  let d : Bytes := List.replicate 32 1
  let s : Bytes := List.replicate 32 2
  obtain ⟨c1, h1, -⟩ := C18_roundtrip_partial Toy.crypto d s [7] (List.replicate 60 9)
    (by decide) (by decide) (by decide)
  obtain ⟨c2, h2, -⟩ := C19_roundtrip_partial Toy.crypto d s d s [7] (List.replicate 60 9)
    (by decide) (by decide) (by decide) (by decide)
  exact ⟨_, _, _, _, _, _, _, _, h1, h2⟩

/-- C22 is false: from the public key alone (and 56 random bytes) anyone can make a ciphertext
on which the recipient's `Decrypt` and `DecryptAndVerify` panic. -/
theorem C22_hostile_ciphertext_violated (d seed : Bytes) (e v : Bytes) (rng : Rng)
    (hr : 56 ≤ rng.length) :
    let ct := boxFor C (C.base d) (rng.take 32) ((rng.drop 32).take 24) [3, 255, 255, 255, 255]
    decrypt C (some (pairOf C d seed)) ct = .panic ∧
    decryptAndVerify C (some (pairOf C d seed)) (some { E := some e, V := some v }) ct = .panic := by
  have hn : ((rng.drop 32).take 24).length = 24 := by
    simp only [List.length_take, List.length_drop]; omega
  have hp : decodeBytes (newDecoder [3, 255, 255, 255, 255]) [] = .panic := by decide
  have hraw := decryptRaw_boxFor C d (seed ++ C.edPub seed) (C.base d) (C.edPub seed) (rng.take 32)
    _ [3, 255, 255, 255, 255] hn
  have hbl := boxFor_length C (C.base d) (rng.take 32) _ [3, 255, 255, 255, 255] hn
  intro ct
  constructor
  · unfold decrypt
    rw [pairOf_eq, hraw]
    simp only [Res.ok_bind, hp, Res.panic_bind]
  · unfold decryptAndVerify
    have hv1 : validPriv (some (pairOf C d seed)) = true := rfl
    have hv2 : validPub (some { E := some e, V := some v }) = true := rfl
    rw [hv1, hv2, if_neg (by simp), if_neg (by rw [hbl]; omega), pairOf_eq, hraw]
    simp only [Res.ok_bind, hp, Res.panic_bind]

/-- C22, what holds: `Decrypt` panics exactly when the box opens (so it was made for this
key) and the plaintext starts with a byte-string header with a negative length that passes
the length test. Missing: rejecting those. -/
theorem C22_decrypt_panics_partial (k : Option PrivateKey) (enc : Bytes) :
    decrypt C k enc = .panic ↔
      ∃ d s e v p n out l rest, k = some (mkPriv d s e v) ∧ p.length = 32 ∧ n.length = 24 ∧
        enc = p ++ n ++ C.sealBox (C.shared p d) n out ∧
        split out = some (3, l, rest) ∧ l < 0 ∧ l ≤ toInt32 rest.length := by
  rw [decrypt_panic_iff]
  constructor
  · rintro ⟨out, l, rest, ho, h⟩
    obtain ⟨d, s, e, v, p, n, h1, h2, h3, h4⟩ := (decryptRaw_some_iff C _ _ _).mp ho
    exact ⟨d, s, e, v, p, n, out, l, rest, h1, h2, h3, h4, h⟩
  · rintro ⟨d, s, e, v, p, n, out, l, rest, h1, h2, h3, h4, h⟩
    exact ⟨out, l, rest, (decryptRaw_some_iff C _ _ _).mpr ⟨d, s, e, v, p, n, h1, h2, h3, h4⟩, h⟩

/-- A byte-string header with a negative length that passes the length test of the decoder. -/
def NegativeRecord (b : Bytes) : Prop :=
  ∃ l rest, split b = some (3, l, rest) ∧ l < 0 ∧ l ≤ toInt32 rest.length

/-- C22, what holds: `DecryptAndVerify` panics exactly when it is given complete keys, the box opens
and the plaintext starts with such a header, or has one after its first byte string. The signature
makes no difference. Missing: rejecting those. -/
theorem C22_verify_panics_partial (k : Option PrivateKey) (pub : Option PublicKey) (enc : Bytes) (hlen : enc.length < 2 ^ 31) :
    decryptAndVerify C k pub enc = .panic ↔
      ∃ d s e v e' v' p n out, k = some (mkPriv d s e v) ∧ pub = some { E := some e', V := some v' } ∧
        p.length = 32 ∧ n.length = 24 ∧ enc = p ++ n ++ C.sealBox (C.shared p d) n out ∧
        (NegativeRecord out ∨ ∃ x rest, x ≠ [] ∧ out = record (.bytes x) ++ rest ∧ NegativeRecord rest) := by
  constructor
  · intro h
    unfold decryptAndVerify at h
    split at h
    · simp at h
    rename_i hv
    split at h
    · simp at h
    simp only [Bool.or_eq_true, Bool.not_eq_true', not_or, Bool.not_eq_false] at hv
    obtain ⟨e', v', hpub⟩ := (validPub_iff pub).mp hv.2
    rw [Res.bind_eq_panic] at h
    rcases h with h | ⟨o, ho, h⟩
    · exact absurd h (decryptRaw_no_panic C k enc)
    cases o with
    | none => simp at h
    | some out =>
    obtain ⟨d, s, e, v, p, n, h1, h2, h3, h4⟩ := (decryptRaw_some_iff C _ _ _).mp ho
    refine ⟨d, s, e, v, e', v', p, n, out, h1, hpub, h2, h3, h4, ?_⟩
    simp only [Res.bind_eq_panic] at h
    rcases h with h | ⟨o, ho2, h⟩
    · exact .inl ((decodeBytes_panic_iff _ _).mp h)
    cases o with
    | none => simp at h
    | some x =>
    obtain ⟨d', x⟩ := x
    simp only [Res.bind_eq_panic] at h
    rcases h with h | ⟨o, ho3, h⟩
    · rcases decodeBytes_some ho2 with ⟨rest, hx, hout, rfl⟩ | ⟨⟨r, hr⟩, rfl, rfl⟩
      · exact .inr ⟨x, rest, hx, hout, (decodeBytes_panic_iff _ _).mp h⟩
      · exact .inl ((decodeBytes_panic_iff _ _).mp h)
    cases o with
    | none => simp at h
    | some y =>
    obtain ⟨d'', y⟩ := y
    dsimp only at h
    split at h
    · simp at h
    split at h
    · simp at h
    rw [Res.bind_eq_panic] at h
    rcases h with h | ⟨o, -, h⟩
    · rw [hpub, verify] at h
      split at h
      · simp at h
      simp [deref] at h
    · cases o <;> simp at h
  · rintro ⟨d, s, e, v, e', v', p, n, out, rfl, rfl, h2, h3, h4, h⟩
    have hraw := (decryptRaw_some_iff C (some (mkPriv d s e v)) enc out).mpr ⟨d, s, e, v, p, n, rfl, h2, h3, h4⟩
    have hsl := C.seal_length (C.shared p d) n out
    have hel : enc.length = 32 + 24 + (out.length + 16) := by
      rw [h4]; simp only [List.length_append, h2, h3, hsl]
    unfold decryptAndVerify
    rw [show validPriv (some (mkPriv d s e v)) = true from rfl, show validPub (some ⟨some e', some v'⟩) = true from rfl,
      if_neg (by simp), if_neg (by omega), hraw]
    simp only [Res.ok_bind]
    rcases h with h | ⟨x, rest, hx, hout, h⟩
    · rw [(decodeBytes_panic_iff out []).mpr h]; rfl
    · rw [hout, decodeBytes_record x rest [] hx (by rw [← hout]; omega)]
      simp only [Res.ok_bind]
      rw [(decodeBytes_panic_iff rest []).mpr h]; rfl

/-- A message of one byte followed by such a header: the box for it makes the recipient panic. -/
example : ∃ x rest, x ≠ [] ∧ ([3, 0, 0, 0, 1, 9, 3, 255, 255, 255, 255] : Bytes) = record (.bytes x) ++ rest ∧
    NegativeRecord rest :=
  ⟨[9], [3, 255, 255, 255, 255], by decide, by decide, -1, [], by decide, by decide, by decide⟩

/-- C22, what holds: without a panic being possible in the TLV layer, `DecryptAndVerify` does
not panic either: a ciphertext whose box does not open is refused. -/
theorem C22_unopened_partial (k : Option PrivateKey) (pub : Option PublicKey) (enc : Bytes)
    (h : ∀ d s e v p n out, k = some (mkPriv d s e v) → p.length = 32 → n.length = 24 →
      enc ≠ p ++ n ++ C.sealBox (C.shared p d) n out) :
    decrypt C k enc = .ok none ∧ decryptAndVerify C k pub enc = .ok none := by
  have hraw : decryptRaw C k enc = .ok none := by
    cases hr : decryptRaw C k enc with
    | panic => exact absurd hr (decryptRaw_no_panic C k enc)
    | ok o =>
      cases o with
      | none => rfl
      | some out =>
        obtain ⟨d, s, e, v, p, n, h1, h2, h3, h4⟩ := (decryptRaw_some_iff C _ _ _).mp hr
        exact absurd h4 (h d s e v p n out h1 h2 h3)
  constructor
  · unfold decrypt; rw [hraw]; rfl
  · unfold decryptAndVerify
    split
    · rfl
    split
    · rfl
    rw [hraw]; rfl

example : ∀ d s e v p n out, some (mkPriv [1] [2] [3] [4]) = some (mkPriv d s e v) → p.length = 32 →
    n.length = 24 → ([5, 6] : Bytes) ≠ p ++ n ++ Toy.crypto.sealBox (Toy.crypto.shared p d) n out := by
  intro d s e v p n out _ hp hn h
  have := congrArg List.length h
  simp only [List.length_append, hp, hn, List.length_cons, List.length_nil] at this
  omega

/-- C23 is false: with enough randomness `GenerateKey` always panics. -/
theorem C23_generate_violated (rng : Rng) (h : 64 ≤ rng.length) : generateKey C rng = .panic := by
  unfold generateKey boxGenerate edGenerate
  have h1 : readFull rng 32 = (some (rng.take 32), rng.drop 32) := by
    unfold readFull; rw [if_pos (by omega)]
  have h2 : readFull (rng.drop 32) 32 = (some ((rng.drop 32).take 32), (rng.drop 32).drop 32) := by
    unfold readFull; rw [if_pos (by simp only [List.length_drop]; omega)]
  simp [h1, h2, copyPtr, deref]

/-- C23, what holds: with too little randomness it reports failure. Missing: any success. -/
theorem C23_short_rng_partial (rng : Rng) (h : rng.length < 64) :
    generateKey C rng = .ok (none, []) := by
  unfold generateKey boxGenerate edGenerate
  by_cases h0 : rng.length < 32
  · rw [readFull_none h0]
  · have h1 : readFull rng 32 = (some (rng.take 32), rng.drop 32) := by
      unfold readFull; rw [if_pos (by omega)]
    have h2 : readFull (rng.drop 32) 32 = (none, []) :=
      readFull_none (by simp only [List.length_drop]; omega)
    simp [h1, h2]

example : 64 ≤ (List.replicate 70 (1 : UInt8)).length ∧ (List.replicate 40 (1 : UInt8)).length < 64 := by
  decide

/-- C24: locking a complete key needs 56 PRNG bytes and then always works, and unlocking with
the same passphrase gives the key back. -/
theorem C24_lock_roundtrip (k : PrivateKey) (hwt : k.WT) (hv : validPriv (some k) = true)
    (pass : Bytes) (rng : Rng) :
    (rng.length < 56 → ∃ r, lockKey C (some k) pass rng = .ok (none, r)) ∧
    (56 ≤ rng.length → ∃ locked, lockKey C (some k) pass rng = .ok (some locked, rng.drop 56) ∧
      locked.length = 252 ∧ unlockKey C locked pass = .ok (some k)) := by
  obtain ⟨d, s, e, v, b, rfl, hm, hbl, -, hu⟩ := C16_private_roundtrip k hwt hv
  constructor
  · intro h
    unfold lockKey
    rw [hm]
    simp only [Res.ok_bind, randBytes]
    by_cases h0 : rng.length < 32
    · rw [readFull_none h0]; exact ⟨_, rfl⟩
    · have h1 : readFull rng 32 = (some (rng.take 32), rng.drop 32) := by
        unfold readFull; rw [if_pos (by omega)]
      rw [h1]
      simp only [deriveKey_eq, deref, Res.ok_bind]
      rw [encrypt_some, if_neg (by simp only [List.length_drop]; omega)]
      exact ⟨_, rfl⟩
  · intro h
    unfold lockKey
    rw [hm]
    simp only [Res.ok_bind, randBytes]
    have h1 : readFull rng 32 = (some (rng.take 32), rng.drop 32) := by
      unfold readFull; rw [if_pos (by omega)]
    rw [h1]
    simp only [deriveKey_eq, deref, Res.ok_bind]
    rw [encrypt_some, if_pos (by simp only [List.length_drop]; omega)]
    have hs : (rng.take 32).length = 32 := by simp only [List.length_take]; omega
    have hn : ((rng.drop 32).take 24).length = 24 := by
      simp only [List.length_take, List.length_drop]; omega
    refine ⟨_, by simp [List.drop_drop]; rfl, ?_, ?_⟩
    · simp only [List.length_append, C.seal_length, hbl, hs, hn]
    · unfold unlockKey
      rw [if_neg (by simp only [List.length_append, hs, hn]; omega), List.take_left' hs,
        List.drop_left' hs]
      simp only [deriveKey_eq, deref, Res.ok_bind]
      rw [decrypt_seal C _ _ _ hn]
      exact hu

/-- C24: unlocking succeeds only on a salt, a nonce and a sealing under the derived key. -/
theorem C24_unlock_only (locked pass : Bytes) (k : PrivateKey) :
    unlockKey C locked pass = .ok (some k) ↔
      ∃ salt nonce out, salt.length = 32 ∧ nonce.length = 24 ∧
        locked = salt ++ nonce ++ C.sealBox (C.scrypt pass salt 1048576 8 2 32) nonce out ∧
        unmarshalPrivate out = .ok (some k) := by
  unfold unlockKey
  constructor
  · intro h
    split at h
    · simp at h
    rename_i hl
    simp only [deriveKey_eq, deref, Res.ok_bind, Res.bind_eq_ok] at h
    obtain ⟨o, ho, h⟩ := h
    cases o with
    | none => simp at h
    | some out =>
      obtain ⟨n, hn, he⟩ := (decrypt_iff C _ _ _).mp ho
      refine ⟨locked.take 32, n, out, by simp only [List.length_take]; omega, hn, ?_, h⟩
      rw [List.append_assoc]
      conv => lhs; rw [← List.take_append_drop 32 locked]
      rw [he]; rfl
  · rintro ⟨salt, n, out, hs, hn, rfl, h⟩
    rw [if_neg (by simp only [List.length_append, hs, hn]; omega), List.append_assoc,
      List.take_left' hs, List.drop_left' hs]
    simp only [deriveKey_eq, deref, Res.ok_bind]
    have := decrypt_seal C (stdKey C pass salt) n out hn
    rw [show stdKey C pass salt = C.scrypt pass salt 1048576 8 2 32 from rfl] at this ⊢
    rw [this]
    exact h

/-- C24: the same through PEM. -/
theorem C24_export_roundtrip (P : Pem) (k : PrivateKey) (hwt : k.WT)
    (hv : validPriv (some k) = true) (pass : Bytes) (rng : Rng) (hr : 56 ≤ rng.length) :
    ∃ pem, exportPrivate C P (some k) pass rng = .ok (some pem, rng.drop 56) ∧
      importPrivate C P pem pass = .ok (some k) := by
  obtain ⟨locked, h1, h2, h3⟩ := (C24_lock_roundtrip C k hwt hv pass rng).2 hr
  refine ⟨P.enc privateType locked, ?_, ?_⟩
  · unfold exportPrivate; rw [h1]; rfl
  · unfold importPrivate
    rw [P.dec_enc _ _ (by decide) (by rintro rfl; simp at h2)]
    simp [h3]

/-- C24: text that is not armour of the type for private keys is not imported. -/
theorem C24_import_type (P : Pem) (text pass : Bytes)
    (h : ¬ ∃ body, P.dec text = some (ascii "CRYPTUTIL PRIVATE KEY", body)) :
    importPrivate C P text pass = .ok none := by
  unfold importPrivate
  cases hd : P.dec text with
  | none => rfl
  | some tb =>
    obtain ⟨typ, body⟩ := tb
    have : typ ≠ privateType := by
      rintro rfl
      exact h ⟨body, hd⟩
    simp [this]

/-- For example, armoured public keys. -/
example (P : Pem) : ¬ ∃ body, P.dec (P.enc (ascii "CRYPTUTIL PUBLIC KEY") [2]) = some (ascii "CRYPTUTIL PRIVATE KEY", body) := by
  rw [P.dec_enc _ _ (by decide) (by decide)]
  rintro ⟨body, h⟩
  injection h with h
  injection h with h
  revert h
  decide

/-- C25: nil and incomplete keys are refused everywhere, without a panic. -/
theorem C25_incomplete_rejected (P : Pem) (priv : Option PrivateKey) (pub : Option PublicKey)
    (hk : validPriv priv = false) (hp : validPub pub = false)
    (p : Option PublicKey) (k : Option PrivateKey) (x y : Bytes) (rng : Rng) :
    encrypt C pub x rng = .ok (none, rng) ∧
    decrypt C priv x = .ok none ∧
    sign C priv x = .ok none ∧
    verify C pub x y = .ok false ∧
    encryptAndSign C priv p x rng = .ok (none, rng) ∧
    encryptAndSign C k pub x rng = .ok (none, rng) ∧
    decryptAndVerify C priv p x = .ok none ∧
    decryptAndVerify C k pub x = .ok none ∧
    marshalPrivate priv = .ok none ∧
    marshalPublic pub = .ok none ∧
    lockKey C priv x rng = .ok (none, rng) ∧
    exportPrivate C P priv x rng = .ok (none, rng) := by
  refine ⟨?_, ?_, ?_, ?_, ?_, ?_, ?_, ?_, ?_, ?_, ?_, ?_⟩
  · simp [encrypt_eq_raw, encryptRaw, hp]
  · simp [decrypt, decryptRaw, hk]
  · simp [sign, hk]
  · simp [verify, hp]
  · simp [encryptAndSign, sign, hk]
  · cases hk' : validPriv k with
    | false => simp [encryptAndSign, sign, hk']
    | true =>
      obtain ⟨d, s, e, v, rfl⟩ := (validPriv_iff _).mp hk'
      rw [encryptAndSign_mk]
      simp [encryptRaw, hp]
  · simp [decryptAndVerify, hk]
  · simp [decryptAndVerify, hp]
  · simp [marshalPrivate, hk]
  · simp [marshalPublic, hp]
  · simp [lockKey, marshalPrivate, hk]
  · simp [exportPrivate, lockKey, marshalPrivate, hk]

/-- C25: complete means: all four components are there. -/
theorem C25_valid_iff (k : Option PrivateKey) (p : Option PublicKey) :
    (validPriv k = true ↔ ∃ d s e v, k = some (mkPriv d s e v)) ∧
    (validPub p = true ↔ ∃ e v, p = some { E := some e, V := some v }) :=
  ⟨validPriv_iff k, validPub_iff p⟩

example : validPriv (some { D := none, S := some [], pub := none }) = false ∧
    validPub (some { E := some [], V := none }) = false := by decide

/-- C26 is false: if the PRNG dies between the ephemeral key and the nonce, encryption
panics instead of failing. -/
theorem C26_panic_violated (e v msg : Bytes) (rng : Rng) (h1 : 32 ≤ rng.length)
    (h2 : rng.length < 56) :
    encrypt C (some { E := some e, V := some v }) msg rng = .panic ∧
    ∀ d s e' v', encryptAndSign C (some (mkPriv d s e' v')) (some { E := some e, V := some v }) msg
      rng = .panic := by
  constructor
  · rw [encrypt_eq_raw, encryptRaw_eq, if_neg (by omega), if_pos h2]
  · intro d s e' v'
    rw [encryptAndSign_mk, encryptRaw_eq, if_neg (by omega), if_pos h2]

/-- C26, what holds: a PRNG that fails earlier gives failure, and every ciphertext that is
produced uses an ephemeral key and a nonce that are the next 32 and 24 PRNG bytes. Missing:
failure instead of a panic for 32 to 55 bytes. -/
theorem C26_fails_closed_partial (pub : Option PublicKey) (priv : Option PrivateKey) (msg : Bytes)
    (rng : Rng) :
    (rng.length < 32 → (∃ r, encrypt C pub msg rng = .ok (none, r)) ∧
      ∃ r, encryptAndSign C priv pub msg rng = .ok (none, r)) ∧
    (∀ ct r, encrypt C pub msg rng = .ok (some ct, r) → ∃ epriv nonce e v, rng = epriv ++ nonce ++ r ∧
      epriv.length = 32 ∧ nonce.length = 24 ∧ pub = some { E := some e, V := some v } ∧
      ct = boxFor C e epriv nonce (encodeAll [.bytes msg])) ∧
    (∀ ct r, encryptAndSign C priv pub msg rng = .ok (some ct, r) → ∃ epriv nonce e v d s e' v',
      rng = epriv ++ nonce ++ r ∧ epriv.length = 32 ∧ nonce.length = 24 ∧
      pub = some { E := some e, V := some v } ∧ priv = some (mkPriv d s e' v') ∧
      ct = boxFor C e epriv nonce (encodeAll [.bytes msg, .bytes (C.sign s msg)])) := by
  have hsplit : rng = rng.take 32 ++ (rng.drop 32).take 24 ++ rng.drop 56 := by
    have : rng.drop 56 = (rng.drop 32).drop 24 := by simp [List.drop_drop]
    rw [List.append_assoc, this, List.take_append_drop, List.take_append_drop]
  refine ⟨fun h => ?_, fun ct r h => ?_, fun ct r h => ?_⟩
  · have hraw : ∀ m, ∃ r, encryptRaw C pub m rng = .ok (none, r) := by
      intro m
      cases hv : validPub pub with
      | false => simp [encryptRaw, hv]
      | true =>
        obtain ⟨e, v, rfl⟩ := (validPub_iff _).mp hv
        rw [encryptRaw_eq, if_pos h]; exact ⟨_, rfl⟩
    refine ⟨by rw [encrypt_eq_raw]; exact hraw _, ?_⟩
    cases hv : validPriv priv with
    | false => simp [encryptAndSign, sign, hv]
    | true =>
      obtain ⟨d, s, e, v, rfl⟩ := (validPriv_iff _).mp hv
      rw [encryptAndSign_mk]; exact hraw _
  · rw [encrypt_eq_raw] at h
    obtain ⟨e, v, rfl, hr, rfl, rfl⟩ := encryptRaw_some C h
    exact ⟨_, _, e, v, hsplit, by simp only [List.length_take]; omega,
      by simp only [List.length_take, List.length_drop]; omega, rfl, by rw [encodeAll_one]⟩
  · obtain ⟨d, s, e', v', rfl, h'⟩ := encryptAndSign_some C h
    obtain ⟨e, v, rfl, hr, rfl, rfl⟩ := encryptRaw_some C h'
    exact ⟨_, _, e, v, d, s, e', v', hsplit, by simp only [List.length_take]; omega,
      by simp only [List.length_take, List.length_drop]; omega, rfl, rfl, by rw [encodeAll_two]⟩

example : 32 ≤ (List.replicate 40 (0 : UInt8)).length ∧ (List.replicate 40 (0 : UInt8)).length < 56 := by
  decide

/-- C27: signatures verify, and only 64-byte strings are ever accepted. -/
theorem C27_sign_verify (d seed msg : Bytes) (hs : seed.length = 32) :
    ∃ sig, sign C (some (pairOf C d seed)) msg = .ok (some sig) ∧ sig.length = 64 ∧
      verify C (some (pubOf C d seed)) msg sig = .ok true := by
  have hl := C.sign_length (seed ++ C.edPub seed) msg
  refine ⟨_, by rw [pairOf_eq, sign_mk], hl, ?_⟩
  unfold pubOf
  rw [verify_mk, if_pos hl, C.verify_sign _ _ hs]

/-- C27: `Verify` is exactly Ed25519 verification behind a length check. -/
theorem C27_verify_exact (pub : Option PublicKey) (msg sig : Bytes) :
    verify C pub msg sig ≠ .panic ∧
    (verify C pub msg sig = .ok true ↔
      ∃ e v, pub = some { E := some e, V := some v } ∧ sig.length = 64 ∧ C.verify v msg sig = true) := by
  cases hv : validPub pub with
  | false =>
    have : verify C pub msg sig = .ok false := by simp [verify, hv]
    rw [this]
    refine ⟨by simp, ?_⟩
    simp only [Res.ok.injEq, Bool.false_eq_true, false_iff]
    rintro ⟨e, v, rfl, -⟩
    simp [validPub] at hv
  | true =>
    obtain ⟨e, v, rfl⟩ := (validPub_iff _).mp hv
    rw [verify_mk]
    refine ⟨by simp, ?_⟩
    constructor
    · intro h
      simp only [Res.ok.injEq] at h
      split at h
      · exact ⟨e, v, rfl, by assumption, h⟩
      · simp at h
    · rintro ⟨e', v', h, hl, hver⟩
      simp only [Option.some.injEq, PublicKey.mk.injEq] at h
      rw [if_pos hl, h.2, hver]

example : (List.replicate 32 (3 : UInt8)).length = 32 := by decide

/-- C86: both sides of a key exchange between genuine key pairs get the same 32 bytes. -/
theorem C86_key_exchange (d seed d' seed' : Bytes) :
    ∃ k, k.length = 32 ∧
      keyExchange C (some (pairOf C d seed)) (some (pubOf C d' seed')) = .ok k ∧
      keyExchange C (some (pairOf C d' seed')) (some (pubOf C d seed)) = .ok k := by
  refine ⟨C.shared (C.base d') d, C.shared_length _ _, rfl, ?_⟩
  rw [C.shared_comm]; rfl

/-- C87: `Zero` on a complete key removes both secrets, keeps the public half, and leaves a
key no private operation accepts. -/
theorem C87_zero_effect_partial (d s e v : Bytes) :
    ∃ k, zeroPriv (some (mkPriv d s e v)) = .ok k ∧ k.D = none ∧ k.S = none ∧
      k.pub = some { E := some e, V := some v } ∧ validPriv (some k) = false ∧
      validPub k.pub = true := by
  exact ⟨_, rfl, rfl, rfl, rfl, by simp [validPriv, mkPriv, validPub], rfl⟩

/-- C87: `Zero` returns exactly for keys that have both secrets, whatever else they lack. Missing: keys
that lack one. -/
theorem C87_exact_partial (k : Option PrivateKey) :
    (∃ k', zeroPriv k = .ok k') ↔ ∃ d s p, k = some { D := some d, S := some s, pub := p } := by
  constructor
  · rintro ⟨k', h⟩
    rcases k with _ | ⟨_ | d, _ | s, p⟩
    · simp [zeroPriv, deref] at h
    · simp [zeroPriv, deref] at h
    · simp [zeroPriv, deref] at h
    · simp [zeroPriv, deref] at h
    · exact ⟨d, s, p, rfl⟩
  · rintro ⟨d, s, p, rfl⟩
    exact ⟨_, rfl⟩

example : (∃ k', zeroPriv (some { D := some [1], S := some [2], pub := none }) = .ok k') ∧
    ¬ ∃ k', zeroPriv (some { D := some [1], S := none, pub := none }) = .ok k' :=
  ⟨(C87_exact_partial _).mpr ⟨_, _, _, rfl⟩, fun h => by
    obtain ⟨_, _, _, h⟩ := (C87_exact_partial _).mp h
    simp at h⟩

/-- C87 is false: `Zero` panics on a key that has no secrets any more, in particular when it
is called a second time. -/
theorem C87_zero_twice_violated (k : Option PrivateKey) (k' : PrivateKey)
    (h : zeroPriv k = .ok k') : zeroPriv (some k') = .panic := by
  unfold zeroPriv at h
  simp only [Res.bind_eq_ok] at h
  obtain ⟨k0, h0, d, hd, s, hs, h⟩ := h
  simp only [Res.pure_eq, Res.ok.injEq] at h
  subst h
  simp [zeroPriv, deref]

example : ∃ k k', zeroPriv k = .ok k' := ⟨some (mkPriv [] [] [] []), _, rfl⟩

end Verif.Props.Public
