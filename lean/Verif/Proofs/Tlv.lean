import Verif.Spec.Tlv
/-! Lemmas about the TLV model. -/

namespace Verif.Proofs.Tlv
open Verif.Go Verif.Model.Tlv Verif.Spec.Tlv

/-- Payload bytes of a record. -/
def payload : Val → Bytes
  | .i8 v | .u8 v => [UInt8.ofNat v.toNat]
  | .bytes v => v
  | .i16 v | .u16 v => be 2 v.toNat
  | .i32 v | .u32 v => be 4 v.toNat
  | .i64 v | .u64 v => be 8 v.toNat

theorem payload_length (v : Val) : (payload v).length = size v := by
  cases v <;> simp [payload, size]

/-- Uniform shape of a record. -/
theorem record_eq (v : Val) : record v = (ty v).tag :: (be 4 (size v) ++ payload v) := by
  cases v <;> simp [record, ty, Ty.tag, size, payload, be, tagInt8, tagUint8, tagBytes, tagInt16,
    tagUint16, tagInt32, tagUint32, tagInt64, tagUint64]

theorem record_length (v : Val) : (record v).length = 5 + size v := by
  rw [record_eq]; simp [payload_length]; omega

theorem encodeCalls_buf (e : Encoder) (vs : List Val) :
    (encodeCalls e (vs.map .val)).buf = e.buf ++ vs.flatMap record := by
  induction vs generalizing e with
  | nil => simp [encodeCalls]
  | cons v vs ih => simp [encodeCalls, Encoder.encode, ih]

theorem encodeAll_eq (vs : List Val) : encodeAll vs = vs.flatMap record := by
  simp [encodeAll, Encoder.bytes, encodeCalls_buf]

theorem be4_cases (n : Nat) : ∃ a b c d, be 4 n = [a, b, c, d] ∧ ofBe [a, b, c, d] = n % 2 ^ 32 := by
  refine ⟨_, _, _, _, rfl, ?_⟩
  exact ofBe_be 4 n

/-- Reading the payload of a well-formed record back. -/
theorem readValue_payload (v cur : Val) (hty : ty cur = ty v) (rest spare : Bytes) :
    readValue (ty v).tag (size v) (payload v ++ rest) spare cur = .ok (.ok v) := by
  cases v <;> cases cur <;> simp [ty] at hty <;>
    simp [readValue, ty, Ty.tag, size, payload, tagInt8, tagUint8, tagBytes, tagInt16, tagUint16,
      tagInt32, tagUint32, tagInt64, tagUint64, index0, makeCopy, upTo, ofBe_be,
      Nat.add_assoc] <;>
    apply BitVec.eq_of_toNat_eq <;> simp <;> omega

theorem decode_record (v cur : Val) (hty : ty cur = ty v) (hpos : 0 < size v) (rest spare : Bytes)
    (hlen : (record v ++ rest).length < 2 ^ 31) :
    Decoder.decode { buf := record v ++ rest, spare := spare } (.ptr cur) =
      .ok ⟨{ buf := rest, spare := spare }, .ptr v, none⟩ := by
  rw [List.length_append, record_length] at hlen
  obtain ⟨a, b, c, d, hb, hn⟩ := be4_cases (size v)
  rw [Nat.mod_eq_of_lt (by omega)] at hn
  rw [record_eq, hb]
  simp only [List.cons_append, List.nil_append, Decoder.decode, hn]
  have h1 : toInt32 (size v) = size v := toInt32_of_lt (by omega)
  have h2 : toInt32 (payload v ++ rest).length = (size v + rest.length : Nat) := by
    rw [List.length_append, payload_length]; exact toInt32_of_lt (by omega)
  rw [h1, h2, if_neg (by omega), if_neg (by omega), readValue_payload v cur hty]
  simp only [Res.ok_bind, sliceFrom]
  rw [if_pos (by simp only [List.length_append, payload_length]; omega)]
  simp [← payload_length]

theorem decodeCalls_encode (vs ts : List Val) (hty : ts.map ty = vs.map ty)
    (hpos : ∀ v ∈ vs, 0 < size v) (rest spare : Bytes)
    (hlen : (vs.flatMap record ++ rest).length < 2 ^ 31) :
    decodeCalls { buf := vs.flatMap record ++ rest, spare := spare } ts =
      .ok (some ({ buf := rest, spare := spare }, vs)) := by
  induction vs generalizing ts with
  | nil => cases ts with
    | nil => simp [decodeCalls]
    | cons => simp at hty
  | cons v vs ih => cases ts with
    | nil => simp at hty
    | cons t ts =>
      simp only [List.map_cons, List.cons.injEq] at hty
      simp only [List.flatMap_cons, List.append_assoc] at hlen ⊢
      rw [decodeCalls, decode_record v t hty.1 (hpos v (by simp)) _ _ hlen]
      simp only
      rw [ih ts hty.2 (fun w hw => hpos w (by simp [hw]))]
      simp only [List.length_append] at hlen ⊢; omega

theorem tag_inj (a b : Ty) (h : a.tag = b.tag) : a = b := by
  cases a <;> cases b <;> first | rfl | (exact absurd h (by decide))

theorem payload_inj (v w : Val) (hty : ty v = ty w) (h : payload v = payload w) : v = w := by
  cases v <;> cases w <;> simp [ty] at hty <;> simp only [payload] at h
  case bytes.bytes => rw [h]
  case i8.i8 x y =>
    congr; apply BitVec.eq_of_toNat_eq
    have := congrArg UInt8.toNat (List.cons.inj h).1
    simp at this; omega
  case u8.u8 x y =>
    congr; apply BitVec.eq_of_toNat_eq
    have := congrArg UInt8.toNat (List.cons.inj h).1
    simp at this; omega
  all_goals
    congr; apply BitVec.eq_of_toNat_eq
    exact be_inj (by omega) (by omega) h

/-- A record can be peeled off unambiguously. -/
theorem record_append_inj (v w : Val) (hv : Fits v) (hw : Fits w) (r s : Bytes)
    (h : record v ++ r = record w ++ s) : v = w ∧ r = s := by
  rw [record_eq, record_eq] at h
  simp only [List.cons_append, List.cons.injEq, List.append_assoc] at h
  obtain ⟨htag, h⟩ := h
  have hty := tag_inj _ _ htag
  obtain ⟨hl, h⟩ := List.append_inj h (by simp)
  have hs : size v = size w := be_inj (by unfold Fits at hv; omega) (by unfold Fits at hw; omega) hl
  obtain ⟨hp, h⟩ := List.append_inj h (by rw [payload_length, payload_length, hs])
  exact ⟨payload_inj _ _ hty hp, h⟩

theorem flatMap_record_inj (xs ys : List Val) (hx : ∀ v ∈ xs, Fits v) (hy : ∀ v ∈ ys, Fits v)
    (r : Bytes) (h : xs.flatMap record = ys.flatMap record ++ r) :
    ∃ zs, xs = ys ++ zs ∧ r = zs.flatMap record := by
  induction ys generalizing xs with
  | nil => exact ⟨xs, by simp, by simpa using h.symm⟩
  | cons y ys ih =>
    cases xs with
    | nil =>
      exfalso
      have := congrArg List.length h
      simp [record_length] at this; omega
    | cons x xs =>
      simp only [List.flatMap_cons, List.append_assoc] at h
      obtain ⟨rfl, h'⟩ := record_append_inj x y (hx x (by simp)) (hy y (by simp)) _ _ h
      obtain ⟨zs, rfl, rfl⟩ := ih xs (fun v hv => hx v (by simp [hv]))
        (fun v hv => hy v (by simp [hv])) h'
      exact ⟨zs, rfl, rfl⟩

theorem decode_error_unchanged (d d' : Decoder) (t t' : Target) (e : DecErr)
    (h : d.decode t = .ok ⟨d', t', some e⟩) : d' = d ∧ t' = t := by
  obtain ⟨buf, spare⟩ := d
  simp only [Decoder.decode] at h
  split at h
  · split at h
    · simp at h; simp [← h.1, ← h.2.1]
    · split at h
      · simp at h
      · split at h
        · simp at h; simp [← h.1, ← h.2.1]
        · simp at h; simp [← h.1, ← h.2.1]
        · simp only [Res.bind_eq_ok] at h
          obtain ⟨r, hr, h⟩ := h
          split at h
          · simp at h; simp [← h.1, ← h.2.1]
          · rw [Res.bind_eq_ok] at h
            obtain ⟨_, _, h⟩ := h
            simp at h
  · simp at h; simp [← h.1, ← h.2.1]

theorem readValue_cases (t : UInt8) (l : Int) (rest spare : Bytes) (cur : Val) :
    (t ≠ (ty cur).tag ∧ readValue t l rest spare cur = .ok (.error .badTag)) ∨
    (t = (ty cur).tag ∧ (Lacks (ty cur) rest spare ∨ (ty cur = .bytes ∧ l < 0)) ∧
      readValue t l rest spare cur = .panic) ∨
    (t = (ty cur).tag ∧ ¬ Lacks (ty cur) rest spare ∧ ¬ (ty cur = .bytes ∧ l < 0) ∧
      ∃ v, ty v = ty cur ∧ readValue t l rest spare cur = .ok (.ok v)) := by
  by_cases ht : t = (ty cur).tag
  · subst ht
    right
    simp only [true_and]
    cases cur
    case i8 v | u8 v =>
      cases rest
      · left; simp [Lacks, ty, Ty.width, readValue, Ty.tag, tagInt8, tagUint8, index0]
      · right
        refine ⟨by simp [Lacks, ty, Ty.width], by simp [ty], ?_⟩
        simp only [readValue, ty, Ty.tag, tagInt8, tagUint8, index0, if_true, Res.ok_bind,
          Res.pure_eq, Res.ok.injEq, Except.ok.injEq]
        exact ⟨_, rfl, rfl⟩
    case bytes v =>
      by_cases h : l < 0
      · left
        refine ⟨.inr ⟨rfl, h⟩, ?_⟩
        simp only [readValue, ty, Ty.tag, tagBytes, makeCopy, if_true]
        rw [if_neg (by omega)]; rfl
      · right
        refine ⟨by simp [Lacks, ty, Ty.width], by simp only [h, and_false, not_false_eq_true], ?_⟩
        simp only [readValue, ty, Ty.tag, tagBytes, makeCopy, if_true]
        rw [if_pos (by omega)]
        exact ⟨_, rfl, rfl⟩
    all_goals
      refine (Classical.em _).elim (fun h => Or.inl ⟨.inl h, ?_⟩)
        (fun h => Or.inr ⟨h, by simp [ty], ?_⟩)
      · simp only [Lacks, ty, Ty.width] at h
        simp only [readValue, ty, Ty.tag, tagInt16, tagUint16, tagInt32, tagUint32, tagInt64,
          tagUint64, upTo, if_true]
        rw [if_neg (by omega)]; rfl
      · simp only [Lacks, ty, Ty.width] at h
        simp only [readValue, ty, Ty.tag, tagInt16, tagUint16, tagInt32, tagUint32, tagInt64,
          tagUint64, upTo, if_true]
        rw [if_pos (by omega)]
        exact ⟨_, rfl, rfl⟩
  · left
    refine ⟨ht, ?_⟩
    cases cur <;> exact if_neg ht

theorem decode_split (buf spare : Bytes) (tgt : Target) {t l rest}
    (hs : split buf = some (t, l, rest)) :
    Decoder.decode ⟨buf, spare⟩ tgt =
    (if l > toInt32 rest.length then .ok ⟨⟨buf, spare⟩, tgt, some .badLength⟩
    else if t = tagBytes ∧ l = 0 then .ok ⟨⟨buf, spare⟩, tgt, none⟩
    else match tgt with
      | .nil => .ok ⟨⟨buf, spare⟩, tgt, some .nilPointer⟩
      | .other => .ok ⟨⟨buf, spare⟩, tgt, some .unknownType⟩
      | .ptr cur => do
        match ← readValue t l rest spare cur with
        | .error e => pure ⟨⟨buf, spare⟩, tgt, some e⟩
        | .ok v => do
          let rest' ← sliceFrom l rest
          pure ⟨{ buf := rest', spare := spare }, .ptr v, none⟩) := by
  unfold split at hs
  split at hs
  · simp only [Option.some.injEq, Prod.mk.injEq] at hs
    obtain ⟨rfl, rfl, rfl⟩ := hs
    cases tgt <;> rfl
  · simp at hs

theorem decode_nosplit (buf spare : Bytes) (tgt : Target) (hs : split buf = none) :
    Decoder.decode ⟨buf, spare⟩ tgt = .ok ⟨⟨buf, spare⟩, tgt, some .tooShort⟩ := by
  unfold split at hs
  split at hs
  · simp at hs
  · rename_i h
    unfold Decoder.decode
    split
    · rename_i heq; exact absurd heq (h _ _ _ _ _ _)
    · rfl

theorem split_some_buf {buf : Bytes} {t l rest} (hs : split buf = some (t, l, rest)) :
    ∃ a b c e, buf = t :: a :: b :: c :: e :: rest ∧ l = toInt32 (ofBe [a, b, c, e]) := by
  unfold split at hs
  split at hs
  · simp only [Option.some.injEq, Prod.mk.injEq] at hs
    obtain ⟨rfl, rfl, rfl⟩ := hs
    exact ⟨_, _, _, _, rfl, rfl⟩
  · simp at hs

theorem decode_panic_iff (buf spare : Bytes) (tgt : Target) :
    Decoder.decode ⟨buf, spare⟩ tgt = .panic ↔
      ∃ t l rest cur, split buf = some (t, l, rest) ∧ tgt = .ptr cur ∧ t = (ty cur).tag ∧
        l ≤ toInt32 rest.length ∧ (l < 0 ∨ Lacks (ty cur) rest spare) := by
  cases hs : split buf with
  | none => rw [decode_nosplit _ _ _ hs]; simp
  | some x =>
    obtain ⟨t, l, rest⟩ := x
    rw [decode_split _ _ _ hs]
    simp only [Option.some.injEq, Prod.mk.injEq]
    by_cases h1 : l > toInt32 rest.length
    · rw [if_pos h1]
      simp only [reduceCtorEq, false_iff, not_exists]
      rintro _ _ _ _ ⟨⟨rfl, rfl, rfl⟩, -, -, h, -⟩
      omega
    rw [if_neg h1]
    by_cases h2 : t = tagBytes ∧ l = 0
    · rw [if_pos h2]
      simp only [reduceCtorEq, false_iff, not_exists]
      rintro _ _ _ cur ⟨⟨rfl, rfl, rfl⟩, -, ht, -, h | h⟩
      · omega
      · have : ty cur = .bytes := tag_inj _ _ (by rw [← ht, h2.1]; rfl)
        simp [this, Lacks, Ty.width] at h
    rw [if_neg h2]
    cases tgt with
    | nil => simp
    | other => simp
    | ptr cur =>
      simp only
      have hle : toInt32 rest.length ≤ rest.length := toInt32_le _
      rcases readValue_cases t l rest spare cur with ⟨ht, h⟩ | ⟨ht, hc, h⟩ | ⟨ht, hl, hb, v, -, h⟩
      · rw [h]
        simp only [Res.ok_bind, Res.pure_eq, reduceCtorEq, false_iff, not_exists]
        rintro _ _ _ _ ⟨⟨rfl, rfl, rfl⟩, hc, ht', -⟩
        cases hc; exact ht ht'
      · rw [h]
        simp only [Res.panic_bind, true_iff]
        refine ⟨t, l, rest, cur, ⟨rfl, rfl, rfl⟩, rfl, ht, by omega, ?_⟩
        rcases hc with hc | hc
        · exact .inr hc
        · exact .inl hc.2
      · rw [h]
        simp only [Res.ok_bind, sliceFrom]
        by_cases h0 : 0 ≤ l
        · rw [if_pos ⟨h0, by omega⟩]
          simp only [Res.ok_bind, Res.pure_eq, reduceCtorEq, false_iff, not_exists]
          rintro _ _ _ _ ⟨⟨rfl, rfl, rfl⟩, hc, -, -, h | h⟩
          · omega
          · cases hc; exact hl h
        · rw [if_neg (by omega)]
          simp only [Res.panic_bind, true_iff]
          exact ⟨t, l, rest, cur, ⟨rfl, rfl, rfl⟩, rfl, ht, by omega, .inl (by omega)⟩

/-- What a successful, non-empty decode did. -/
theorem decode_success {buf spare : Bytes} {cur : Val} {d' : Decoder} {t' : Target} {t l rest}
    (hs : split buf = some (t, l, rest))
    (h : Decoder.decode ⟨buf, spare⟩ (.ptr cur) = .ok ⟨d', t', none⟩) :
    (t = 3 ∧ l = 0 ∧ d' = ⟨buf, spare⟩ ∧ t' = .ptr cur) ∨
    (t = (ty cur).tag ∧ 0 ≤ l ∧ l ≤ rest.length ∧ ¬ (t = 3 ∧ l = 0) ∧
      d' = ⟨rest.drop l.toNat, spare⟩ ∧
      ∃ v, t' = .ptr v ∧ ty v = ty cur ∧ readValue t l rest spare cur = .ok (.ok v)) := by
  rw [decode_split _ _ _ hs] at h
  split at h
  · simp at h
  split at h
  · rename_i h2
    simp only [Res.ok.injEq, Out.mk.injEq, and_true] at h
    exact .inl ⟨h2.1, h2.2, h.1.symm, h.2.symm⟩
  · rename_i h1 h2
    right
    simp only [Res.bind_eq_ok] at h
    obtain ⟨r, hr, h⟩ := h
    rcases readValue_cases t l rest spare cur with ⟨ht, h'⟩ | ⟨ht, hc, h'⟩ | ⟨ht, hl, hb, v, hv, h'⟩
    · rw [h'] at hr; cases hr; simp at h
    · rw [h'] at hr; simp at hr
    · rw [h'] at hr; cases hr
      simp only [sliceFrom] at h
      have hle : toInt32 rest.length ≤ rest.length := toInt32_le _
      by_cases h0 : 0 ≤ l ∧ l ≤ rest.length
      · rw [if_pos h0] at h
        simp only [Res.ok_bind, Res.pure_eq, Res.ok.injEq, Out.mk.injEq, and_true] at h
        exact ⟨ht, h0.1, h0.2, h2, h.1.symm, v, h.2.symm, hv, h'⟩
      · rw [if_neg h0] at h; simp at h

theorem ofBe_single (x : UInt8) : ofBe [x] = x.toNat := by simp [ofBe]

theorem readValue_canonical {t : UInt8} {l : Int} {rest spare : Bytes} {cur v : Val}
    (h : readValue t l rest spare cur = .ok (.ok v)) (h0 : 0 ≤ l) (hl : l ≤ rest.length)
    (hw : ∀ w, (ty cur).width = some w → l = w) :
    payload v = rest.take l.toNat ∧ size v = l.toNat := by
  rcases readValue_cases t l rest spare cur with ⟨ht, h'⟩ | ⟨ht, hc, h'⟩ | ⟨ht, hn, hb, w, hv, -⟩
  · rw [h'] at h; simp at h
  · rw [h'] at h; simp at h
  have key : ∀ (n m : Nat) (_ : m = 8 * n) (x : BitVec m), l = n →
      x = BitVec.ofNat m (ofBe ((rest ++ spare).take n)) → be n x.toNat = rest.take n := by
    intro n m hm x hln hx
    have hrl : n ≤ rest.length := by omega
    rw [List.take_append_of_le_length hrl] at hx
    subst hx
    have hlen : (rest.take n).length = n := by simp [hrl]
    have hlt := ofBe_lt (rest.take n)
    rw [hlen] at hlt
    have : (256 : Nat) ^ n = 2 ^ m := by subst hm; rw [Nat.pow_mul]
    rw [BitVec.toNat_ofNat, Nat.mod_eq_of_lt (by omega)]
    conv => lhs; arg 1; rw [← hlen]
    exact be_ofBe _
  subst ht
  cases cur <;>
    simp only [readValue, ty, Ty.tag, tagInt8, tagUint8, tagBytes, tagInt16, tagUint16, tagInt32,
      tagUint32, tagInt64, tagUint64, if_true, Res.bind_eq_ok, Res.pure_eq, Res.ok.injEq,
      Except.ok.injEq] at h <;>
    obtain ⟨x, hx, rfl⟩ := h <;> simp only [payload, size]
  case i8 | u8 =>
    have := hw 1 rfl
    subst this
    cases rest with
    | nil => simp [index0] at hx
    | cons b rest => 
      simp [index0] at hx
      subst hx; simp
  case bytes =>
    simp only [makeCopy, h0, if_true, Res.ok.injEq] at hx
    rw [Nat.sub_eq_zero_of_le (by omega)] at hx
    subst hx
    simp; omega
  all_goals
    have hl' := hw _ rfl
    unfold upTo at hx
    split at hx
    · simp only [Res.ok.injEq] at hx
      subst hx
      subst hl'
      refine ⟨?_, rfl⟩
      apply key <;> rfl
    · simp at hx

theorem decodeCalls_append (ts us : List Val) (d d1 : Decoder) (xs : List Val)
    (h : decodeCalls d ts = .ok (some (d1, xs))) :
    decodeCalls d (ts ++ us) = (match decodeCalls d1 us with
      | .panic => .panic
      | .ok none => .ok none
      | .ok (some (d2, ys)) => .ok (some (d2, xs ++ ys))) := by
  induction ts generalizing d xs with
  | nil =>
    simp only [decodeCalls, Res.ok.injEq, Option.some.injEq, Prod.mk.injEq] at h
    obtain ⟨rfl, rfl⟩ := h
    simp only [List.nil_append]
    cases hd : decodeCalls d us with
    | panic => rfl
    | ok o => cases o <;> rfl
  | cons t ts ih =>
    rw [List.cons_append, decodeCalls]
    rw [decodeCalls] at h
    cases hd : d.decode (.ptr t) with
    | panic => rw [hd] at h; simp at h
    | ok o =>
      obtain ⟨d', t', err⟩ := o
      rw [hd] at h
      cases t' with
      | nil => simp at h
      | other => simp at h
      | ptr v =>
        cases err with
        | some e => simp at h
        | none =>
          simp only at h ⊢
          cases hd2 : decodeCalls d' ts with
          | panic => rw [hd2] at h; simp at h
          | ok o =>
            rw [hd2] at h
            cases o with
            | none => simp at h
            | some p =>
              obtain ⟨d'', vs'⟩ := p
              simp only [Res.ok.injEq, Option.some.injEq, Prod.mk.injEq] at h
              obtain ⟨rfl, rfl⟩ := h
              rw [ih _ _ hd2]
              cases decodeCalls d'' us with
              | panic => rfl
              | ok o => cases o <;> rfl

theorem encodeCalls_filter (as : List Any) (e : Encoder) : (encodeCalls e as).buf =
    e.buf ++ (as.filterMap fun | .val v => some v | .other => none).flatMap record := by
  induction as generalizing e with
  | nil => simp [encodeCalls]
  | cons a as ih => cases a <;> simp [encodeCalls, Encoder.encode, ih]

end Verif.Proofs.Tlv
