import Verif.Spec.Public
import Verif.Proofs.Tlv
import Verif.Proofs.Secret
/-! Lemmas about common/public. -/

namespace Verif.Proofs.Public
open Verif Verif.Go Verif.Model.Util Verif.Model.Tlv Verif.Model.Public Verif.Spec.Public
  Verif.Spec.Tlv Verif.Proofs.Tlv Verif.Proofs.Secret

variable (C : Crypto)

/-- The five bytes of an empty byte-string record. -/
def emptyRec : Bytes := [3, 0, 0, 0, 0]

theorem record_nil : record (.bytes []) = emptyRec := by decide

/-- What a successful decode into a byte string means. -/
theorem decodeBytes_some {b cur x : Bytes} {d' : Decoder}
    (h : decodeBytes (newDecoder b) cur = .ok (some (d', x))) :
    (∃ rest, x ≠ [] ∧ b = record (.bytes x) ++ rest ∧ d' = newDecoder rest) ∨
    (emptyRec <+: b ∧ d' = newDecoder b ∧ x = cur) := by
  unfold decodeBytes at h
  simp only [Res.bind_eq_ok] at h
  obtain ⟨o, ho, h⟩ := h
  obtain ⟨dec, tgt, err⟩ := o
  split at h
  · rename_i d1 b1 heq
    simp only [Out.mk.injEq] at heq
    obtain ⟨rfl, rfl, rfl⟩ := heq
    simp only [Res.pure_eq, Res.ok.injEq, Option.some.injEq, Prod.mk.injEq] at h
    obtain ⟨rfl, rfl⟩ := h
    cases hs : split b with
    | none => rw [newDecoder, decode_nosplit _ _ _ hs] at ho; simp at ho
    | some t =>
      obtain ⟨t, l, rest⟩ := t
      rcases decode_success hs ho with ⟨rfl, rfl, rfl, ht⟩ | ⟨ht, h0, hl, hne, rfl, v, hv, hty, hr⟩
      · right
        simp only [Target.ptr.injEq, Val.bytes.injEq] at ht
        subst ht
        obtain ⟨a, b', c, e, rfl, hl0⟩ := split_some_buf hs
        refine ⟨⟨rest, ?_⟩, rfl, rfl⟩
        have hz : ofBe [a, b', c, e] = 0 := by
          have hlt := ofBe_lt [a, b', c, e]
          simp only [List.length_cons, List.length_nil] at hlt
          unfold toInt32 at hl0
          rw [BitVec.toInt_eq_toNat_cond] at hl0
          simp only [BitVec.toNat_ofNat] at hl0
          split at hl0 <;> omega
        have hb := be_ofBe [a, b', c, e]
        rw [hz] at hb
        simp [be] at hb
        obtain ⟨rfl, rfl, rfl, rfl⟩ := hb
        rfl
      · left
        simp only [Target.ptr.injEq] at hv
        subst hv
        have hne0 : l ≠ 0 := by
          intro h; exact hne ⟨by rw [ht]; rfl, h⟩
        obtain ⟨hp, hsz⟩ := readValue_canonical hr h0 hl (by intro w hw; simp [ty, Ty.width] at hw)
        simp only [size, payload] at hp hsz
        refine ⟨rest.drop l.toNat, ?_, ?_, rfl⟩
        · rintro rfl; simp at hsz; omega
        · obtain ⟨a, b', c, e, rfl, hl0⟩ := split_some_buf hs
          have hlt := ofBe_lt [a, b', c, e]
          simp only [List.length_cons, List.length_nil] at hlt
          have hb := be_ofBe [a, b', c, e]
          have hn : toInt32 (ofBe [a, b', c, e]) = ofBe [a, b', c, e] := by
            unfold toInt32 at hl0 ⊢
            rw [BitVec.toInt_eq_toNat_cond] at hl0 ⊢
            simp only [BitVec.toNat_ofNat] at hl0 ⊢
            split at hl0 <;> split <;> omega
          have : ofBe [a, b', c, e] = b1.length := by
            rw [hn] at hl0; omega
          rw [this] at hb
          simp only [List.length_cons, List.length_nil, Nat.zero_add, Nat.reduceAdd] at hb
          simp only [record, hb, ht, ty, Ty.tag]
          have hpre : b1 ++ rest.drop l.toNat = rest := by rw [hp, List.take_append_drop]
          simp [hpre]
  · simp at h

theorem decodeBytes_record (x rest cur : Bytes) (hx : x ≠ [])
    (hl : (record (.bytes x) ++ rest).length < 2 ^ 31) :
    decodeBytes (newDecoder (record (.bytes x) ++ rest)) cur = .ok (some (newDecoder rest, x)) := by
  unfold decodeBytes newDecoder
  rw [decode_record (.bytes x) (.bytes cur) rfl (by simpa [size] using List.length_pos_iff.mpr hx)
    rest [] hl]
  rfl

theorem decodeBytes_empty (rest cur : Bytes) (hl : rest.length < 2 ^ 31) :
    decodeBytes (newDecoder (emptyRec ++ rest)) cur =
      .ok (some (newDecoder (emptyRec ++ rest), cur)) := by
  have hs : split (emptyRec ++ rest) = some (3, 0, rest) := rfl
  unfold decodeBytes newDecoder
  rw [decode_split _ _ _ hs, toInt32_of_lt hl, if_neg (by omega), if_pos ⟨rfl, rfl⟩]
  rfl

theorem toInt32_mod (n : Nat) :
    toInt32 n = if n % 2 ^ 32 < 2 ^ 31 then ((n % 2 ^ 32 : Nat) : Int) else ((n % 2 ^ 32 : Nat) : Int) - 2 ^ 32 := by
  unfold toInt32
  rw [BitVec.toInt_eq_toNat_cond]
  simp only [BitVec.toNat_ofNat]
  split <;> split <;> omega

theorem toInt32_neg {n : Nat} (h1 : 2 ^ 31 ≤ n) (h2 : n < 2 ^ 32) : toInt32 n = (n : Int) - 2 ^ 32 := by
  rw [toInt32_mod, Nat.mod_eq_of_lt h2, if_neg (by omega)]

/-- Decoding a byte-string record of any length, with anything behind it. -/
theorem decodeBytes_any (x rest cur : Bytes) :
    decodeBytes (newDecoder (record (.bytes x) ++ rest)) cur =
      if toInt32 x.length > toInt32 (x.length + rest.length) then .ok none
      else if toInt32 x.length = 0 then .ok (some (newDecoder (record (.bytes x) ++ rest), cur))
      else if toInt32 x.length < 0 then .panic
      else .ok (some (newDecoder ((x ++ rest).drop (toInt32 x.length).toNat),
        (x ++ rest).take (toInt32 x.length).toNat)) := by
  obtain ⟨a, b, c, d, hb, hn⟩ := be4_cases x.length
  have hs : split (record (.bytes x) ++ rest) = some (3, toInt32 x.length, x ++ rest) := by
    simp only [record, hb, List.cons_append, List.nil_append, split, hn]
    unfold toInt32
    rw [show BitVec.ofNat 32 (x.length % 2 ^ 32) = BitVec.ofNat 32 x.length by
      apply BitVec.eq_of_toNat_eq; simp]
  unfold decodeBytes newDecoder
  rw [decode_split _ _ _ hs, List.length_append]
  have hle := toInt32_le x.length
  by_cases h1 : toInt32 x.length > toInt32 (x.length + rest.length)
  · rw [if_pos h1, if_pos h1]; rfl
  rw [if_neg h1, if_neg h1]
  by_cases h2 : toInt32 x.length = 0
  · rw [if_pos ⟨rfl, h2⟩, if_pos h2]; rfl
  rw [if_neg (by rintro ⟨-, h⟩; exact h2 h), if_neg h2]
  by_cases h3 : toInt32 x.length < 0
  · rw [if_pos h3]
    simp only [readValue, makeCopy, if_neg (show ¬ 0 ≤ toInt32 x.length by omega)]
    rfl
  · rw [if_neg h3]
    have hk : (toInt32 x.length).toNat - (x ++ rest).length = 0 := by
      simp only [List.length_append]; omega
    simp only [readValue, makeCopy, sliceFrom, if_pos (show 0 ≤ toInt32 x.length by omega), hk]
    rw [if_pos trivial]
    simp only [List.replicate_zero, List.append_nil, Res.pure_eq, Res.ok_bind]
    rw [if_pos ⟨by omega, by simp only [List.length_append]; omega⟩]
    rfl

theorem decodeBytes_short (b cur : Bytes) (h : b.length < 5) :
    decodeBytes (newDecoder b) cur = .ok none := by
  have hs : split b = none := by
    unfold split
    split
    · simp only [List.length_cons] at h; omega
    · rfl
  unfold decodeBytes newDecoder
  rw [decode_nosplit _ _ _ hs]
  rfl

theorem validPub_iff (p : Option PublicKey) :
    validPub p = true ↔ ∃ e v, p = some { E := some e, V := some v } := by
  cases p with
  | none => simp [validPub]
  | some p =>
    obtain ⟨e, v⟩ := p
    cases e <;> cases v <;> simp [validPub]

theorem validPriv_iff (k : Option PrivateKey) :
    validPriv k = true ↔ ∃ d s e v, k = some (mkPriv d s e v) := by
  cases k with
  | none => simp [validPriv]
  | some k =>
    obtain ⟨d, s, p⟩ := k
    cases d <;> cases s <;> cases hp : validPub p <;> simp [validPriv, hp, mkPriv]
    · intro _ _ h; subst h; simp [validPub] at hp
    · exact (validPub_iff p).mp hp

theorem encBytes_eq (xs : List Bytes) (e : Encoder) :
    (xs.foldl (fun e x => (e.encode (.val (.bytes x))).1) e).bytes =
      e.buf ++ xs.flatMap (fun x => record (.bytes x)) := by
  induction xs generalizing e with
  | nil => simp [Encoder.bytes]
  | cons x xs ih => rw [List.foldl_cons, ih]; simp [Encoder.encode]

theorem marshalPrivate_mk (d s e v : Bytes) :
    marshalPrivate (some (mkPriv d s e v)) =
      .ok (some (record (.bytes d) ++ (record (.bytes s) ++ (record (.bytes e) ++ record (.bytes v))))) := by
  have hv : validPriv (some (mkPriv d s e v)) = true := (validPriv_iff _).mpr ⟨_, _, _, _, rfl⟩
  unfold marshalPrivate
  rw [hv]
  simp [mkPriv, deref, Encoder.encode, Encoder.bytes]

theorem unmarshal_records (d s e v rest : Bytes) (hd : d ≠ []) (hs : s ≠ []) (he : e ≠ [])
    (hv : v ≠ [])
    (hl : (record (.bytes d) ++ (record (.bytes s) ++ (record (.bytes e) ++
      (record (.bytes v) ++ rest)))).length < 2 ^ 31) :
    unmarshalPrivate (record (.bytes d) ++ (record (.bytes s) ++ (record (.bytes e) ++
      (record (.bytes v) ++ rest)))) =
      .ok (some (mkPriv (copyInto 32 d) (copyInto 64 s) (copyInto 32 e) (copyInto 32 v))) := by
  unfold unmarshalPrivate
  simp only [List.length_append] at hl
  rw [decodeBytes_record _ _ _ hd (by simp only [List.length_append]; omega)]
  simp only [Res.ok_bind]
  rw [decodeBytes_record _ _ _ hs (by simp only [List.length_append]; omega)]
  simp only [Res.ok_bind]
  rw [decodeBytes_record _ _ _ he (by simp only [List.length_append]; omega)]
  simp only [Res.ok_bind]
  rw [decodeBytes_record _ _ _ hv (by simp only [List.length_append]; omega)]
  rfl

theorem bytesRecord_length (x : Bytes) : (record (.bytes x)).length = 5 + x.length := by
  rw [record_length]; rfl

theorem encryptRaw_eq (e v msg : Bytes) (rng : Rng) :
    encryptRaw C (some { E := some e, V := some v }) msg rng =
      if rng.length < 32 then .ok (none, [])
      else if rng.length < 56 then .panic
      else .ok (some (boxFor C e (rng.take 32) ((rng.drop 32).take 24) msg), rng.drop 56) := by
  unfold encryptRaw boxGenerate
  have hv : validPub (some { E := some e, V := some v }) = true := (validPub_iff _).mpr ⟨_, _, rfl⟩
  rw [hv]
  simp only [Bool.not_true, Bool.false_eq_true, if_false]
  by_cases h : rng.length < 32
  · rw [if_pos h, readFull_none h]
  · rw [if_neg h]
    have hr : readFull rng 32 = (some (rng.take 32), rng.drop 32) := by
      unfold readFull; rw [if_pos (by omega)]
    rw [hr]
    simp only
    by_cases h2 : rng.length < 56
    · rw [if_pos h2, newNonce_none (by simp only [List.length_drop]; omega)]
      rfl
    · rw [if_neg h2]
      have hn : newNonce (rng.drop 32) = (some ((rng.drop 32).take 24), (rng.drop 32).drop 24) := by
        conv => lhs; rw [← List.take_append_drop 24 (rng.drop 32)]
        exact newNonce_append (by simp only [List.length_take, List.length_drop]; omega)
      rw [hn]
      simp [deref, boxFor, List.drop_drop]

theorem boxFor_length (e epriv nonce plain : Bytes) (hn : nonce.length = 24) :
    (boxFor C e epriv nonce plain).length = 72 + plain.length := by
  simp only [boxFor, List.length_append, C.base_length, C.seal_length, hn]; omega

theorem decryptRaw_mk (d s e v enc : Bytes) :
    decryptRaw C (some (mkPriv d s e v)) enc =
      if enc.length < 72 then .ok none
      else .ok (C.openBox (C.shared (enc.take 32) d) ((enc.drop 32).take 24) (enc.drop 56)) := by
  have hv : validPriv (some (mkPriv d s e v)) = true := (validPriv_iff _).mpr ⟨_, _, _, _, rfl⟩
  unfold decryptRaw
  rw [hv]
  simp only [Bool.not_true, Bool.false_eq_true, if_false]
  by_cases h : enc.length < 72
  · rw [if_pos h, if_pos (by omega)]
  · rw [if_neg h, if_neg (by omega)]
    have h1 : copyInto 32 (enc.take 32) = enc.take 32 :=
      copyInto_eq (by simp only [List.length_take]; omega)
    have h2 : copyInto 24 (enc.drop 32) = (enc.drop 32).take 24 := by
      simp only [copyInto]
      rw [Nat.sub_eq_zero_of_le (by simp only [List.length_drop]; omega)]; simp
    simp [mkPriv, deref, h1, h2]

theorem decryptRaw_invalid (k : Option PrivateKey) (enc : Bytes) (h : validPriv k = false) :
    decryptRaw C k enc = .ok none := by
  unfold decryptRaw; rw [h]; rfl

/-- What the holder of the private key can open. -/
theorem decryptRaw_some_iff (k : Option PrivateKey) (enc out : Bytes) :
    decryptRaw C k enc = .ok (some out) ↔
      ∃ d s e v p n, k = some (mkPriv d s e v) ∧ p.length = 32 ∧ n.length = 24 ∧
        enc = p ++ n ++ C.sealBox (C.shared p d) n out := by
  constructor
  · intro h
    cases hv : validPriv k with
    | false => rw [decryptRaw_invalid C k enc hv] at h; simp at h
    | true =>
      obtain ⟨d, s, e, v, rfl⟩ := (validPriv_iff k).mp hv
      rw [decryptRaw_mk] at h
      split at h
      · simp at h
      rename_i hl
      simp only [Res.ok.injEq, C.open_iff] at h
      refine ⟨d, s, e, v, enc.take 32, (enc.drop 32).take 24, rfl, ?_, ?_, ?_⟩
      · simp only [List.length_take]; omega
      · simp only [List.length_take, List.length_drop]; omega
      · rw [← h, List.append_assoc]
        have : enc.drop 56 = (enc.drop 32).drop 24 := by simp [List.drop_drop]
        rw [this, List.take_append_drop, List.take_append_drop]
  · rintro ⟨d, s, e, v, p, n, rfl, hp, hn, rfl⟩
    have hl := C.seal_length (C.shared p d) n out
    rw [decryptRaw_mk, if_neg (by simp only [List.length_append]; omega)]
    have h1 : (p ++ n ++ C.sealBox (C.shared p d) n out).take 32 = p := by
      rw [List.append_assoc]; exact List.take_left' hp
    have h2 : (p ++ n ++ C.sealBox (C.shared p d) n out).drop 32 = n ++ C.sealBox (C.shared p d) n out := by
      rw [List.append_assoc]; exact List.drop_left' hp
    have h3 : (p ++ n ++ C.sealBox (C.shared p d) n out).drop 56 = C.sealBox (C.shared p d) n out :=
      List.drop_left' (by simp [hp, hn])
    rw [h1, h2, h3, List.take_left' hn]
    simp only [Res.ok.injEq]
    exact (C.open_iff _ _ _ _).mpr rfl

theorem decryptRaw_boxFor (d s e v epriv n out : Bytes) (hn : n.length = 24) :
    decryptRaw C (some (mkPriv d s e v)) (boxFor C (C.base d) epriv n out) =
      .ok (some out) := by
  rw [decryptRaw_some_iff]
  refine ⟨d, s, e, v, C.base epriv, n, rfl, C.base_length _, hn, ?_⟩
  rw [boxFor, C.shared_comm]

theorem decryptRaw_no_panic (k : Option PrivateKey) (enc : Bytes) : decryptRaw C k enc ≠ .panic := by
  cases hv : validPriv k with
  | false => rw [decryptRaw_invalid C k enc hv]; simp
  | true =>
    obtain ⟨d, s, e, v, rfl⟩ := (validPriv_iff k).mp hv
    rw [decryptRaw_mk]; split <;> simp

theorem encrypt_eq_raw (pub : Option PublicKey) (msg : Bytes) (rng : Rng) :
    encrypt C pub msg rng = encryptRaw C pub (record (.bytes msg)) rng := by
  simp [encrypt, Encoder.encode, Encoder.bytes]

theorem sign_mk (d s e v msg : Bytes) :
    sign C (some (mkPriv d s e v)) msg = .ok (some (C.sign s msg)) := by
  have hv : validPriv (some (mkPriv d s e v)) = true := (validPriv_iff _).mpr ⟨_, _, _, _, rfl⟩
  unfold sign; rw [hv]; simp [mkPriv, deref]

theorem encryptAndSign_mk (d s e v : Bytes) (pub : Option PublicKey) (msg : Bytes) (rng : Rng) :
    encryptAndSign C (some (mkPriv d s e v)) pub msg rng =
      encryptRaw C pub (record (.bytes msg) ++ record (.bytes (C.sign s msg))) rng := by
  unfold encryptAndSign
  rw [sign_mk]
  simp [Encoder.encode, Encoder.bytes]

theorem verify_mk (e v msg sig : Bytes) :
    verify C (some { E := some e, V := some v }) msg sig =
      .ok (if sig.length = 64 then C.verify v msg sig else false) := by
  have hv : validPub (some { E := some e, V := some v }) = true := (validPub_iff _).mpr ⟨_, _, rfl⟩
  unfold verify; rw [hv]
  by_cases h : sig.length = 64
  · simp [h, deref, copyInto_eq h]
  · simp [h]

theorem pairOf_eq (d seed : Bytes) :
    pairOf C d seed = mkPriv d (seed ++ C.edPub seed) (C.base d) (C.edPub seed) := rfl

/-- `Decrypt` succeeds exactly on boxes around one non-empty byte-string record. -/
theorem decrypt_some {k : Option PrivateKey} {enc m : Bytes} (h : decrypt C k enc = .ok (some m)) :
    m ≠ [] ∧ decryptRaw C k enc = .ok (some (record (.bytes m))) := by
  unfold decrypt at h
  simp only [Res.bind_eq_ok] at h
  obtain ⟨o, ho, h⟩ := h
  cases o with
  | none => simp at h
  | some out =>
    simp only [Res.bind_eq_ok] at h
    obtain ⟨o, ho2, h⟩ := h
    cases o with
    | none => simp at h
    | some p =>
      obtain ⟨dec, x⟩ := p
      simp only at h
      split at h
      · simp at h
      rename_i hlen
      simp only [ne_eq, Decidable.not_not] at hlen
      simp only [Res.pure_eq, Res.ok.injEq, Option.some.injEq] at h
      subst h
      rcases decodeBytes_some ho2 with ⟨rest, hx, rfl, rfl⟩ | ⟨⟨r, rfl⟩, rfl, rfl⟩
      · refine ⟨hx, ?_⟩
        have : rest = [] := List.length_eq_zero_iff.mp hlen
        rw [ho, this]; simp
      · simp [Decoder.length, newDecoder, emptyRec] at hlen

theorem decryptAndVerify_some {k : Option PrivateKey} {pub : Option PublicKey} {enc m : Bytes}
    (h : decryptAndVerify C k pub enc = .ok (some m)) :
    ∃ s, m ≠ [] ∧ s.length = 64 ∧ verify C pub m s = .ok true ∧
      decryptRaw C k enc = .ok (some (record (.bytes m) ++ record (.bytes s))) := by
  unfold decryptAndVerify at h
  split at h
  · simp at h
  split at h
  · simp at h
  simp only [Res.bind_eq_ok] at h
  obtain ⟨o, ho, h⟩ := h
  cases o with
  | none => simp at h
  | some out =>
  simp only [Res.bind_eq_ok] at h
  obtain ⟨o, ho2, h⟩ := h
  cases o with
  | none => simp at h
  | some p =>
  obtain ⟨dec, x⟩ := p
  simp only [Res.bind_eq_ok] at h
  obtain ⟨o, ho3, h⟩ := h
  cases o with
  | none => simp at h
  | some p =>
  obtain ⟨dec2, s⟩ := p
  simp only at h
  split at h
  · simp at h
  rename_i hlen
  split at h
  · simp at h
  rename_i hs
  simp only [ne_eq, Decidable.not_not] at hlen hs
  simp only [Res.bind_eq_ok] at h
  obtain ⟨b, hb, h⟩ := h
  cases b with
  | false => simp at h
  | true =>
  simp only [if_true, Res.pure_eq, Res.ok.injEq, Option.some.injEq] at h
  subst h
  rcases decodeBytes_some ho2 with ⟨rest, hx, rfl, rfl⟩ | ⟨⟨r, rfl⟩, rfl, rfl⟩
  · rcases decodeBytes_some ho3 with ⟨rest2, hx2, rfl, rfl⟩ | ⟨⟨r, rfl⟩, rfl, rfl⟩
    · have : rest2 = [] := List.length_eq_zero_iff.mp hlen
      subst this
      exact ⟨s, hx, hs, hb, by rw [ho]; simp⟩
    · simp at hs
  · rcases decodeBytes_some ho3 with ⟨rest2, hx2, he, rfl⟩ | ⟨⟨r', he⟩, rfl, rfl⟩
    · have hlen' := congrArg List.length he
      have : rest2 = [] := List.length_eq_zero_iff.mp hlen
      subst this
      have := record_append_inj (.bytes []) (.bytes s) (by simp [Fits, size])
        (by simp [Fits, size, hs]) r [] (by rw [record_nil, he])
      simp only [Val.bytes.injEq] at this
      rw [← this.1] at hs; simp at hs
    · simp at hs

theorem record_two_ne (x y z : Bytes) (hy : y.length < 2 ^ 32 - 5) :
    record (.bytes x) ++ record (.bytes y) ≠ record (.bytes z) := by
  intro h
  have hlen := congrArg List.length h
  rw [List.length_append, bytesRecord_length, bytesRecord_length, bytesRecord_length] at hlen
  have htake := congrArg (List.take 5) h
  have hx : ∀ x : Bytes, (record (.bytes x)).take 5 = 3 :: be 4 x.length := by
    intro x
    simp only [record]
    rw [List.take_left' (by simp)]
  rw [List.take_append_of_le_length (by rw [bytesRecord_length]; omega), hx, hx] at htake
  simp only [List.cons.injEq, true_and] at htake
  have e1 := congrArg ofBe htake
  rw [ofBe_be, ofBe_be] at e1
  omega

/-- What a successful `Encrypt`/`EncryptAndSign` produced. -/
theorem encryptRaw_some {pub : Option PublicKey} {msg ct : Bytes} {rng rng' : Rng}
    (h : encryptRaw C pub msg rng = .ok (some ct, rng')) :
    ∃ e v, pub = some { E := some e, V := some v } ∧ 56 ≤ rng.length ∧
      ct = boxFor C e (rng.take 32) ((rng.drop 32).take 24) msg ∧ rng' = rng.drop 56 := by
  cases hvq : validPub pub with
  | false => simp [encryptRaw, hvq] at h
  | true =>
  obtain ⟨e, v, rfl⟩ := (validPub_iff _).mp hvq
  rw [encryptRaw_eq] at h
  split at h
  · simp at h
  split at h
  · simp at h
  simp only [Res.ok.injEq, Prod.mk.injEq, Option.some.injEq] at h
  exact ⟨e, v, rfl, by omega, h.1.symm, h.2.symm⟩

theorem encryptAndSign_some {priv : Option PrivateKey} {pub : Option PublicKey} {msg ct : Bytes}
    {rng rng' : Rng} (h : encryptAndSign C priv pub msg rng = .ok (some ct, rng')) :
    ∃ d s e v, priv = some (mkPriv d s e v) ∧
      encryptRaw C pub (record (.bytes msg) ++ record (.bytes (C.sign s msg))) rng = .ok (some ct, rng') := by
  cases hvp : validPriv priv with
  | false => simp [encryptAndSign, sign, hvp] at h
  | true =>
  obtain ⟨d1, s1, e1, v1, rfl⟩ := (validPriv_iff _).mp hvp
  rw [encryptAndSign_mk] at h
  exact ⟨_, _, _, _, rfl, h⟩

/-! ### Exactly which private-key encodings are accepted -/

theorem decodeBytes_iff {b x : Bytes} {d' : Decoder} (hb : b.length < 2 ^ 31) :
    decodeBytes (newDecoder b) [] = .ok (some (d', x)) ↔
    (∃ rest, x ≠ [] ∧ b = record (.bytes x) ++ rest ∧ d' = newDecoder rest) ∨
    (emptyRec <+: b ∧ d' = newDecoder b ∧ x = []) := by
  constructor
  · exact decodeBytes_some
  · rintro (⟨rest, hx, rfl, rfl⟩ | ⟨⟨r, rfl⟩, rfl, rfl⟩)
    · exact decodeBytes_record x rest [] hx hb
    · exact decodeBytes_empty r [] (by simp only [List.length_append] at hb; omega)

/-- Decode `n` byte strings in a row. -/
def decodeN : Nat → Decoder → Res (Option (List Bytes))
  | 0, _ => .ok (some [])
  | n + 1, d => do
    match ← decodeBytes d [] with
    | none => pure none
    | some (d', x) =>
      match ← decodeN n d' with
      | none => pure none
      | some xs => pure (some (x :: xs))

theorem record_bytes_ne_empty {x rest : Bytes} (hx : x ≠ []) (hb : (record (.bytes x) ++ rest).length < 2 ^ 31) :
    ¬ emptyRec <+: record (.bytes x) ++ rest := by
  rintro ⟨r, h⟩
  rw [← record_nil] at h
  have hl := bytesRecord_length x
  simp only [List.length_append] at hb
  have := record_append_inj (.bytes []) (.bytes x) (by simp [Fits, size])
    (by simp only [Fits, size]; omega) r rest h
  simp only [Val.bytes.injEq] at this
  exact hx this.1.symm

theorem decodeN_succ {n : Nat} {d : Decoder} {xs : List Bytes} :
    decodeN (n + 1) d = .ok (some xs) ↔
      ∃ d' x ys, decodeBytes d [] = .ok (some (d', x)) ∧ decodeN n d' = .ok (some ys) ∧ xs = x :: ys := by
  simp only [decodeN, Res.bind_eq_ok]
  constructor
  · rintro ⟨o, ho, h⟩
    cases o with
    | none => simp at h
    | some p =>
      obtain ⟨d', x⟩ := p
      simp only [Res.bind_eq_ok] at h
      obtain ⟨o, ho', h⟩ := h
      cases o with
      | none => simp at h
      | some ys =>
        simp only [Res.pure_eq, Res.ok.injEq, Option.some.injEq] at h
        exact ⟨d', x, ys, ho, ho', h.symm⟩
  · rintro ⟨d', x, ys, h1, h2, rfl⟩
    exact ⟨_, h1, by simp [h2]⟩

theorem decodeN_iff (n : Nat) (b : Bytes) (xs : List Bytes) (hb : b.length < 2 ^ 31) :
    decodeN n (newDecoder b) = .ok (some xs) ↔
      ∃ comps rest, (∀ c ∈ comps, c ≠ []) ∧ b = comps.flatMap (fun c => record (.bytes c)) ++ rest ∧
        (comps.length = n ∨ comps.length < n ∧ emptyRec <+: rest) ∧
        xs = comps ++ List.replicate (n - comps.length) [] := by
  induction n generalizing b xs with
  | zero =>
    constructor
    · intro h
      simp only [decodeN, Res.ok.injEq, Option.some.injEq] at h
      exact ⟨[], b, by simp, by simp, by simp, by simp [← h]⟩
    · rintro ⟨comps, rest, -, -, h, rfl⟩
      have : comps = [] := List.length_eq_zero_iff.mp (by omega)
      subst this
      simp [decodeN]
  | succ n ih =>
    rw [decodeN_succ]
    constructor
    · rintro ⟨d', x, ys, h1, h2, rfl⟩
      rcases (decodeBytes_iff hb).mp h1 with ⟨rest, hx, rfl, rfl⟩ | ⟨hp, rfl, rfl⟩
      · rw [ih rest ys (by simp only [List.length_append] at hb; omega)] at h2
        obtain ⟨comps, rest', hne, rfl, hl, rfl⟩ := h2
        refine ⟨x :: comps, rest', ?_, by simp, ?_, ?_⟩
        · intro c hc
          rcases List.mem_cons.mp hc with rfl | hc
          · exact hx
          · exact hne c hc
        · simp only [List.length_cons]
          rcases hl with h | ⟨h, h'⟩
          · left; omega
          · right; exact ⟨by omega, h'⟩
        · simp
      · rw [ih b ys hb] at h2
        obtain ⟨comps, rest', hne, hbe, hl, rfl⟩ := h2
        cases comps with
        | nil =>
          refine ⟨[], b, by simp, by simp, Or.inr ⟨by simp, hp⟩, ?_⟩
          simp [List.replicate_succ]
        | cons c cs =>
          exfalso
          rw [hbe] at hp hb
          simp only [List.flatMap_cons, List.append_assoc] at hp hb
          exact record_bytes_ne_empty (hne c (by simp)) hb hp
    · rintro ⟨comps, rest, hne, rfl, hl, rfl⟩
      cases comps with
      | nil =>
        simp only [List.flatMap_nil, List.nil_append, List.length_nil] at hl hb ⊢
        have hp : emptyRec <+: rest := by
          rcases hl with h | h
          · omega
          · exact h.2
        refine ⟨newDecoder rest, [], List.replicate n [], (decodeBytes_iff hb).mpr (Or.inr ⟨hp, rfl, rfl⟩), ?_, ?_⟩
        · rw [ih rest _ hb]
          refine ⟨[], rest, by simp, by simp, ?_, by simp⟩
          by_cases h0 : n = 0
          · left; simp [h0]
          · right; exact ⟨by simp; omega, hp⟩
        · simp [List.replicate_succ]
      | cons c cs =>
        simp only [List.flatMap_cons, List.append_assoc, List.length_cons] at hl hb ⊢
        refine ⟨newDecoder (cs.flatMap (fun c => record (.bytes c)) ++ rest), c, cs ++ List.replicate (n - cs.length) [],
          (decodeBytes_iff hb).mpr (Or.inl ⟨_, hne c (by simp), rfl, rfl⟩), ?_, ?_⟩
        · rw [ih _ _ (by simp only [List.length_append] at hb ⊢; omega)]
          refine ⟨cs, rest, fun c hc => hne c (by simp [hc]), rfl, ?_, rfl⟩
          rcases hl with h | ⟨h, h'⟩
          · left; omega
          · right; exact ⟨by omega, h'⟩
        · simp

theorem unmarshalPrivate_decodeN (b : Bytes) (k : PrivateKey) :
    unmarshalPrivate b = .ok (some k) ↔
      ∃ d s e v, decodeN 4 (newDecoder b) = .ok (some [d, s, e, v]) ∧
        k = mkPriv (copyInto 32 d) (copyInto 64 s) (copyInto 32 e) (copyInto 32 v) := by
  constructor
  · intro h
    unfold unmarshalPrivate at h
    simp only [Res.bind_eq_ok] at h
    obtain ⟨o, h1, h⟩ := h
    cases o with
    | none => simp at h
    | some p =>
    obtain ⟨d1, d⟩ := p
    simp only [Res.bind_eq_ok] at h
    obtain ⟨o, h2, h⟩ := h
    cases o with
    | none => simp at h
    | some p =>
    obtain ⟨d2, s⟩ := p
    simp only [Res.bind_eq_ok] at h
    obtain ⟨o, h3, h⟩ := h
    cases o with
    | none => simp at h
    | some p =>
    obtain ⟨d3, e⟩ := p
    simp only [Res.bind_eq_ok] at h
    obtain ⟨o, h4, h⟩ := h
    cases o with
    | none => simp at h
    | some p =>
    obtain ⟨d4, v⟩ := p
    simp only [Res.pure_eq, Res.ok.injEq, Option.some.injEq] at h
    refine ⟨d, s, e, v, ?_, h.symm⟩
    simp [decodeN, h1, h2, h3, h4]
  · rintro ⟨d, s, e, v, h, rfl⟩
    simp only [decodeN_succ] at h
    obtain ⟨d1, _, _, h1, ⟨d2, _, _, h2, ⟨d3, _, _, h3, ⟨d4, _, _, h4, _, rfl⟩, rfl⟩, rfl⟩, h⟩ := h
    simp only [List.cons.injEq] at h
    obtain ⟨rfl, rfl, rfl, rfl, -⟩ := h
    unfold unmarshalPrivate
    simp only [h1, h2, h3, h4, Res.ok_bind]
    rfl

theorem encodeAll_bytes (xs : List Bytes) :
    encodeAll (xs.map .bytes) = xs.flatMap (fun c => record (.bytes c)) := by
  rw [encodeAll_eq]
  induction xs with
  | nil => rfl
  | cons x xs ih => simp [ih]

theorem encodeAll_one (x : Bytes) : encodeAll [.bytes x] = record (.bytes x) := by
  simp [encodeAll_eq]

theorem encodeAll_two (x y : Bytes) :
    encodeAll [.bytes x, .bytes y] = record (.bytes x) ++ record (.bytes y) := by
  simp [encodeAll_eq]

theorem encodeAll_four (x y z w : Bytes) :
    encodeAll [.bytes x, .bytes y, .bytes z, .bytes w] =
      record (.bytes x) ++ (record (.bytes y) ++ (record (.bytes z) ++ record (.bytes w))) := by
  simp [encodeAll_eq]

theorem copyInto_fit (n : Nat) (b : Bytes) : copyInto n b = (b ++ List.replicate n 0).take n := by
  rw [copyInto, List.take_append, List.take_replicate]
  congr 2
  omega

theorem decodeBytes_panic_iff (b cur : Bytes) :
    decodeBytes (newDecoder b) cur = .panic ↔
      ∃ l rest, split b = some (3, l, rest) ∧ l < 0 ∧ l ≤ toInt32 rest.length := by
  have h0 : decodeBytes (newDecoder b) cur = .panic ↔
      (newDecoder b).decode (.ptr (.bytes cur)) = .panic := by
    unfold decodeBytes
    rw [Res.bind_eq_panic]
    constructor
    · rintro (h | ⟨o, ho, h⟩)
      · exact h
      · split at h <;> simp at h
    · exact Or.inl
  rw [h0, newDecoder, decode_panic_iff]
  constructor
  · rintro ⟨t, l, rest, c, hs, hc, rfl, hl, h⟩
    simp only [Target.ptr.injEq] at hc
    subst hc
    refine ⟨l, rest, hs, ?_, hl⟩
    rcases h with h | h
    · exact h
    · simp [Lacks, ty, Ty.width] at h
  · rintro ⟨l, rest, hs, h0, hl⟩
    exact ⟨3, l, rest, .bytes cur, hs, rfl, rfl, hl, Or.inl h0⟩

theorem decrypt_panic_iff (k : Option PrivateKey) (enc : Bytes) :
    decrypt C k enc = .panic ↔
      ∃ out l rest, decryptRaw C k enc = .ok (some out) ∧ split out = some (3, l, rest) ∧ l < 0 ∧
        l ≤ toInt32 rest.length := by
  unfold decrypt
  rw [Res.bind_eq_panic]
  constructor
  · rintro (h | ⟨o, ho, h⟩)
    · exact absurd h (decryptRaw_no_panic C k enc)
    · cases o with
      | none => simp at h
      | some out =>
        simp only [Res.bind_eq_panic] at h
        rcases h with h | ⟨o, ho', h⟩
        · obtain ⟨l, rest, hs⟩ := (decodeBytes_panic_iff _ _).mp h
          exact ⟨out, l, rest, ho, hs⟩
        · cases o with
          | none => simp at h
          | some p => simp only at h; split at h <;> simp at h
  · rintro ⟨out, l, rest, ho, hs⟩
    right
    refine ⟨_, ho, ?_⟩
    simp only [Res.bind_eq_panic]
    left
    exact (decodeBytes_panic_iff _ _).mpr ⟨l, rest, hs⟩

end Verif.Proofs.Public
