import Verif.Proofs.TlvMem
/-! Properties of common/tlv (C01-C07, C84, C85). -/

namespace Verif.Props.Tlv
open Verif.Go Verif.Model.Tlv Verif.Model.TlvMem Verif.Spec.Tlv Verif.Proofs.Tlv
  Verif.Proofs.TlvMem

/-- C01: encode then decode gives back every sequence without empty byte strings, and
leaves the decoder at whatever follows, as long as the buffer is below 2 GiB. -/
theorem C01_roundtrip (vs ts : List Val) (rest spare : Bytes)
    (hty : ts.map ty = vs.map ty) (hne : Val.bytes [] ∉ vs)
    (hlen : (encodeAll vs ++ rest).length < 2 ^ 31) :
    decodeCalls (newDecoder (encodeAll vs ++ rest) spare) ts =
      .ok (some (newDecoder rest spare, vs)) := by
  rw [encodeAll_eq] at hlen ⊢
  refine decodeCalls_encode vs ts hty ?_ rest spare hlen
  intro v hv
  cases v with
  | bytes b =>
    cases b with
    | nil => exact absurd hv hne
    | cons => simp [size]
  | _ => simp [size]

example : ∃ vs ts : List Val, ∃ rest : Bytes, vs.length = 3 ∧ ts.map ty = vs.map ty ∧
    Val.bytes [] ∉ vs ∧ (encodeAll vs ++ rest).length < 2 ^ 31 :=
  ⟨[.i16 5, .bytes [1, 2], .u64 7], [.i16 0, .bytes [], .u64 0], [9, 9],
    by decide, by decide, by decide, by decide⟩

/-- C02 is false: an empty byte-string record is never consumed, so every later
`Decode`, whatever its target, reports success and changes nothing. -/
theorem C02_empty_not_consumed_violated (rest spare : Bytes) (tgt : Target)
    (h : rest.length < 2 ^ 31) :
    (newDecoder (encodeAll [.bytes []] ++ rest) spare).decode tgt =
      .ok ⟨newDecoder (encodeAll [.bytes []] ++ rest) spare, tgt, none⟩ := by
  rw [encodeAll_eq]
  simp only [List.flatMap_cons, List.flatMap_nil, record, be, newDecoder, List.length_nil,
    List.cons_append, List.nil_append, List.append_nil]
  rw [decode_split _ _ _ rfl, toInt32_of_lt h]
  have h0 : (BitVec.ofNat 32 (ofBe [UInt8.ofNat (0 / 256 ^ 3), UInt8.ofNat (0 / 256 ^ 2),
    UInt8.ofNat (0 / 256 ^ 1), UInt8.ofNat (0 / 256 ^ 0)])).toInt = 0 := by decide
  rw [if_neg (by rw [h0]; omega), if_pos ⟨rfl, h0⟩]

/-- The round trip of C01 fails as soon as something follows an empty byte string:
the value after it is silently not read. -/
theorem C02_roundtrip_violated :
    ∃ vs : List Val, ∃ ts : List Val, ts.map ty = vs.map ty ∧ (encodeAll vs).length < 2 ^ 31 ∧
      decodeCalls (newDecoder (encodeAll vs)) ts = .ok (some (newDecoder (encodeAll vs), ts)) ∧
      ts ≠ vs :=
  ⟨[.bytes [], .u32 7], [.bytes [], .u32 0], by decide, by decide, by decide, by decide⟩

/-- C02, what holds: an empty byte string is harmless in last position, when its target
was empty too (the five bytes stay in the decoder). Missing: any other position. -/
theorem C02_last_position_partial (vs ts : List Val) (spare : Bytes)
    (hty : ts.map ty = vs.map ty) (hne : Val.bytes [] ∉ vs)
    (hlen : (encodeAll (vs ++ [.bytes []])).length < 2 ^ 31) :
    decodeCalls (newDecoder (encodeAll (vs ++ [.bytes []])) spare) (ts ++ [.bytes []]) =
      .ok (some (newDecoder (encodeAll [.bytes []]) spare, vs ++ [.bytes []])) := by
  have happ : encodeAll (vs ++ [.bytes []]) = encodeAll vs ++ encodeAll [.bytes []] := by
    simp [encodeAll_eq]
  have h1 := C01_roundtrip vs ts (encodeAll [.bytes []]) spare hty hne (by rw [← happ]; exact hlen)
  rw [happ, decodeCalls_append _ _ _ _ _ h1]
  have h2 := C02_empty_not_consumed_violated [] spare (.ptr (.bytes [])) (by decide)
  rw [List.append_nil] at h2
  simp only [decodeCalls, h2]

example : ∃ vs ts : List Val, vs ≠ [] ∧ ts.map ty = vs.map ty ∧ Val.bytes [] ∉ vs ∧
    (encodeAll (vs ++ [.bytes []])).length < 2 ^ 31 :=
  ⟨[.u32 7], [.u32 0], by decide, by decide, by decide, by decide⟩

/-- C03: an encoding determines the values, and a complete encoding followed by more
bytes is an encoding only if those bytes are the encoding of the remaining values. -/
theorem C03_unambiguous (xs ys : List Val) (rest : Bytes)
    (hx : ∀ v ∈ xs, Fits v) (hy : ∀ v ∈ ys, Fits v)
    (h : encodeAll xs = encodeAll ys ++ rest) : ∃ zs, xs = ys ++ zs ∧ rest = encodeAll zs := by
  simp only [encodeAll_eq] at *
  exact flatMap_record_inj xs ys hx hy rest h

/-- C03: injectivity. -/
theorem C03_injective (xs ys : List Val) (hx : ∀ v ∈ xs, Fits v) (hy : ∀ v ∈ ys, Fits v)
    (h : encodeAll xs = encodeAll ys) : xs = ys := by
  obtain ⟨zs, rfl, h⟩ := C03_unambiguous xs ys [] hx hy (by simpa using h)
  cases zs with
  | nil => simp
  | cons z zs =>
    have := congrArg List.length h
    simp [encodeAll_eq, record_length] at this

example : ∃ xs ys : List Val, ∃ rest, (∀ v ∈ xs, Fits v) ∧ (∀ v ∈ ys, Fits v) ∧
    encodeAll xs = encodeAll ys ++ rest ∧ rest ≠ [] := by
  refine ⟨[.bytes [], .u8 3], [.bytes []], encodeAll [.u8 3], ?_, ?_, by decide, by decide⟩ <;>
    simp [Fits, size]

/-- C04: whenever `Decode` reports an error, decoder and target are as before. -/
theorem C04_error_no_effect (d d' : Decoder) (t t' : Target) (e : DecErr)
    (h : d.decode t = .ok ⟨d', t', some e⟩) : d' = d ∧ t' = t :=
  decode_error_unchanged d d' t t' e h

example : ∃ d t d' t' e, Decoder.decode d t = .ok ⟨d', t', some e⟩ ∧ d.buf.length = 7 :=
  ⟨newDecoder [4, 0, 0, 0, 2, 1, 2], .ptr (.u16 9), _, _, _, rfl, rfl⟩

/-- C05 is false: for every supported target type there is a five-byte buffer on which
`Decode` panics. -/
theorem C05_panics_violated (cur : Val) :
    ∃ buf : Bytes, buf.length = 5 ∧ (newDecoder buf).decode (.ptr cur) = .panic := by
  by_cases hb : ty cur = .bytes
  · refine ⟨[3, 255, 255, 255, 255], rfl, (decode_panic_iff _ _ _).mpr ?_⟩
    exact ⟨3, -1, [], cur, by decide, rfl, by rw [hb]; rfl, by decide, .inl (by decide)⟩
  · refine ⟨[(ty cur).tag, 0, 0, 0, 0], rfl, (decode_panic_iff _ _ _).mpr ?_⟩
    refine ⟨_, 0, [], cur, rfl, rfl, rfl, by decide, .inr ?_⟩
    cases cur <;> simp [ty] at hb <;> simp [ty, Lacks, Ty.width]

/-- C05, exact panic condition: the tag matches the target type, the signed length passes
the length check, and either it is negative or an integer target finds too few bytes. -/
theorem C05_panic_iff_partial (buf spare : Bytes) (tgt : Target) :
    (newDecoder buf spare).decode tgt = .panic ↔
      ∃ t l rest cur, split buf = some (t, l, rest) ∧ tgt = .ptr cur ∧ t = (ty cur).tag ∧
        l ≤ (BitVec.ofNat 32 rest.length).toInt ∧ (l < 0 ∨ Lacks (ty cur) rest spare) :=
  decode_panic_iff buf spare tgt

/-- C05, what holds: no panic when the declared length is the type's width, or for byte
strings not negative. Missing: the other lengths, on which it can panic. -/
theorem C05_no_panic_partial (buf spare : Bytes) (cur : Val)
    (h : ∀ t l rest, split buf = some (t, l, rest) →
      0 ≤ l ∧ ∀ w, (ty cur).width = some w → l = w) :
    (newDecoder buf spare).decode (.ptr cur) ≠ .panic := by
  intro hp
  obtain ⟨t, l, rest, c, hs, hc, ht, hl, hbad⟩ := (C05_panic_iff_partial _ _ _).mp hp
  obtain ⟨h0, hw⟩ := h t l rest hs
  cases hc
  have hle : toInt32 rest.length ≤ rest.length := toInt32_le _
  unfold toInt32 at hle
  rcases hbad with hbad | hbad
  · omega
  · cases cur <;> simp only [ty, Lacks, Ty.width] at hbad hw
    case i8 | u8 =>
      have := hw 1 rfl
      subst hbad
      have : (BitVec.ofNat 32 ([] : Bytes).length).toInt = 0 := by decide
      omega
    all_goals
      have := hw _ rfl
      omega

example : ∃ buf cur, (∀ t l rest, split buf = some (t, l, rest) →
      0 ≤ l ∧ ∀ w, (ty cur).width = some w → l = w) ∧ buf.length = 7 := by
  refine ⟨[4, 0, 0, 0, 2, 1, 2], .i16 0, ?_, rfl⟩
  intro t l rest h
  simp only [split, Option.some.injEq, Prod.mk.injEq] at h
  obtain ⟨rfl, rfl, rfl⟩ := h
  refine ⟨by decide, fun w hw => ?_⟩
  simp only [ty, Ty.width, Option.some.injEq] at hw
  subst hw; decide

/-- C06 is false: an integer record with declared length 0 is accepted and yields bytes
that belong to the next record (which is then read again), or even bytes beyond the end
of the buffer, in the spare capacity of the slice. -/
theorem C06_overread_violated :
    (newDecoder ([4, 0, 0, 0, 0] ++ record (.u8 9))).decode (.ptr (.i16 0)) =
      .ok ⟨newDecoder (record (.u8 9)), .ptr (.i16 0x0100), none⟩ ∧
    ∀ x y : UInt8, (newDecoder [4, 0, 0, 0, 0] [x, y]).decode (.ptr (.i16 0)) =
      .ok ⟨newDecoder [] [x, y], .ptr (.i16 (BitVec.ofNat 16 (ofBe [x, y]))), none⟩ :=
  ⟨by decide, fun _ _ => rfl⟩

/-- C06, what holds: if the declared length is positive and, for an integer, is its width,
then what a successful `Decode` consumed is exactly the encoding of the value it returned.
Missing: other declared lengths, which are accepted too. -/
theorem C06_inside_record_partial (buf spare : Bytes) (cur : Val) (d' : Decoder) (t' : Target)
    (t : UInt8) (l : Int) (rest : Bytes) (hs : split buf = some (t, l, rest)) (hl : l ≠ 0)
    (hw : ∀ w, (ty cur).width = some w → l = w)
    (h : (newDecoder buf spare).decode (.ptr cur) = .ok ⟨d', t', none⟩) :
    ∃ v, t' = .ptr v ∧ ty v = ty cur ∧ buf = encodeAll [v] ++ d'.buf ∧ d'.spare = spare := by
  rcases decode_success hs h with ⟨-, h0, -⟩ | ⟨ht, h0, hle, -, rfl, v, rfl, hv, hr⟩
  · exact absurd h0 hl
  obtain ⟨hp, hsz⟩ := readValue_canonical hr h0 hle hw
  refine ⟨v, rfl, hv, ?_, rfl⟩
  obtain ⟨a, b, c, e, rfl, hle'⟩ := split_some_buf hs
  have hbe : be 4 (size v) = [a, b, c, e] := by
    have hb := be_ofBe [a, b, c, e]
    have hlt := ofBe_lt [a, b, c, e]
    simp only [List.length_cons, List.length_nil] at hb hlt
    rw [hsz, hle']
    have : toInt32 (ofBe [a, b, c, e]) = ofBe [a, b, c, e] := by
      unfold toInt32 at hle' ⊢
      rw [BitVec.toInt_eq_toNat_cond] at hle' ⊢
      simp only [BitVec.toNat_ofNat] at hle' ⊢
      split at hle' <;> split <;> omega
    rw [this]
    simpa using hb
  simp only [encodeAll_eq, List.flatMap_cons, List.flatMap_nil, List.append_nil, record_eq, hbe,
    hp, hv, ← ht]
  simp

/-- C06, in general: a successful `Decode` either met an empty byte string and did nothing,
or moved past the header and exactly the declared number of bytes. -/
theorem C06_consumes_declared_partial (buf spare : Bytes) (cur : Val) (d' : Decoder) (t' : Target)
    (h : (newDecoder buf spare).decode (.ptr cur) = .ok ⟨d', t', none⟩) :
    ∃ t l rest, split buf = some (t, l, rest) ∧
      ((t = 3 ∧ l = 0 ∧ d' = newDecoder buf spare ∧ t' = .ptr cur) ∨
       (0 ≤ l ∧ l ≤ rest.length ∧ d' = newDecoder (rest.drop l.toNat) spare ∧
        ∃ v, t' = .ptr v ∧ ty v = ty cur)) := by
  cases hs : split buf with
  | none => rw [newDecoder, decode_nosplit _ _ _ hs] at h; simp at h
  | some x =>
    obtain ⟨t, l, rest⟩ := x
    refine ⟨t, l, rest, rfl, ?_⟩
    rcases decode_success hs h with h | ⟨-, h0, hl, -, hd, v, hv, ht, -⟩
    · exact .inl h
    · exact .inr ⟨h0, hl, hd, v, hv, ht⟩

example : ∃ buf cur d' t' t l rest, split buf = some (t, l, rest) ∧ l ≠ 0 ∧
    (∀ w, (ty cur).width = some w → l = w) ∧
    (newDecoder buf).decode (.ptr cur) = .ok ⟨d', t', none⟩ ∧ d'.buf ≠ [] := by
  refine ⟨[3, 0, 0, 0, 2, 1, 2, 77], .bytes [], newDecoder [77], .ptr (.bytes [1, 2]), 3, 2,
    [1, 2, 77], by decide, by decide, ?_, by decide, by decide⟩
  intro w hw; simp [ty, Ty.width] at hw

/-- The supported values among some arguments of `Encode`. -/
def supported (as : List Any) : List Val :=
  as.filterMap fun | .val v => some v | .other => none

/-- C07: after any calls the encoder holds the encoding of the supported arguments, in
order; its length is the sum of their sizes plus five each; every call with an unsupported
type reports an error and changes nothing. -/
theorem C07_length (as : List Any) :
    (encodeCalls {} as).bytes = encodeAll (supported as) ∧
    (encodeCalls {} as).length = ((supported as).map fun v => 5 + size v).sum ∧
    ∀ e : Encoder, e.encode .other = (e, false) ∧ ∀ v, (e.encode (.val v)).2 = true := by
  have h := encodeCalls_filter as {}
  simp only [List.nil_append] at h
  refine ⟨?_, ?_, fun _ => ⟨rfl, fun _ => rfl⟩⟩
  · rw [Encoder.bytes, h, encodeAll_eq]; rfl
  · rw [Encoder.length, h, List.length_flatMap]
    simp only [record_length]; rfl

/-- C07: the encoder over real memory behaves like the value-level one, and `Zero` leaves
it empty with every byte that its last `Bytes` result shows equal to zero. -/
theorem C07_zero (grow : Nat → Nat → Nat) (m : Mem) (as : List Any) (d n : Nat)
    (e : MEncoder) (he : e = newEncoder m ∨ e = newFixedEncoder m d n) :
    let e' := encodeCallsM grow e as
    e'.mem.read e'.bytes = (encodeCalls {} as).bytes ∧
    e'.length = (encodeCalls {} as).length ∧
    e'.zero.mem.read e'.bytes = List.replicate e'.length 0 ∧
    e'.zero.length = 0 ∧ e'.zero.mem.read e'.zero.bytes = [] := by
  have hwf : WF e ∧ content e = [] := by
    rcases he with rfl | rfl
    · exact newEncoder_wf m
    · exact newFixedEncoder_wf m d n
  obtain ⟨h1, h2⟩ := encodeCallsM_content grow as hwf.1
  rw [hwf.2] at h2
  refine ⟨h2, ?_, zero_read h1, rfl, by simp [MEncoder.zero, MEncoder.bytes, Mem.read]⟩
  rw [Encoder.length, ← h2]
  exact (Mem.read_length h1).symm

example (grow : Nat → Nat → Nat) :
    let e' := encodeCallsM grow (newFixedEncoder {} 4 1) [.val (.u32 7), .other, .val (.bytes [1])]
    e'.length = 15 := by
  have := (C07_zero grow {} [.val (.u32 7), .other, .val (.bytes [1])] 4 1 _ (.inr rfl)).2.1
  exact this

/-- C84: an encoder from `NewFixedEncoder` that gets no more values and bytes than announced
never copies its buffer: after `Zero` the only array it ever allocated is all zero, and
no other memory was touched. -/
theorem C84_fixed_encoder_wipes_all (grow : Nat → Nat → Nat) (m : Mem) (d n : Nat)
    (vs : List Val) (hn : vs.length ≤ n) (hd : (vs.map size).sum ≤ d) :
    (encodeCallsM grow (newFixedEncoder m d n) (vs.map .val)).zero.mem.arrays =
      m.arrays ++ [List.replicate (d + n * 5) 0] := by
  apply inPlace_zero
  apply inPlace_calls grow vs (newFixed_inPlace m d n)
  have hlen : ∀ vs : List Val, (vs.flatMap record).length = (vs.map size).sum + 5 * vs.length := by
    intro vs
    induction vs with
    | nil => rfl
    | cons v vs ih => simp [record_length, ih]; omega
  rw [hlen]
  simp only [newFixedEncoder, Mem.make]
  omega

example : ([.bytes [1, 2], .u8 1] : List Val).length ≤ 2 ∧
    (([.bytes [1, 2], .u8 1] : List Val).map size).sum ≤ 3 := by decide

/-- C85 is false, however the runtime grows slices: when the buffer outgrows its array, the old array keeps a copy of the
data and `Zero` does not reach it. For every value there is a second one after which this happens to the first. -/
theorem C85_zero_misses_copies_violated (grow : Nat → Nat → Nat) (m : Mem) (d n : Nat) (e : MEncoder)
    (he : e = newEncoder m ∨ e = newFixedEncoder m d n) (v : Val) :
    ∃ b, ∃ y ∈ (encodeCallsM grow e [.val v, .val (.bytes b)]).zero.mem.arrays, encodeAll [v] <+: y := by
  have hwf : WF e ∧ content e = [] := by
    rcases he with rfl | rfl
    · exact newEncoder_wf m
    · exact newFixedEncoder_wf m d n
  obtain ⟨w1, hc1, -⟩ := encode_wf grow hwf.1 (.val v)
  obtain ⟨m1, c1, h1⟩ := inPlace_first grow m d n e he v
  let e1 := (e.encode grow (.val v)).1
  change WF e1 at w1
  change content e1 = _ at hc1
  change InPlace m1 c1 e1 at h1
  have hx : encodeAll [v] <+: content e1 := by
    rw [hc1, hwf.2, encodeAll_eq]
    simp [Encoder.encode]
  refine ⟨List.replicate (c1 + 1) 0, ?_⟩
  apply kept_zero
  show Kept _ (((e1.app grow [tagBytes]).app grow (be 4 (List.replicate (c1 + 1) 0).length)).app grow (List.replicate (c1 + 1) 0))
  by_cases g1 : e1.buf.len + [tagBytes].length ≤ e1.buf.cap
  · obtain ⟨h2, l2⟩ := inPlace_app grow h1 [tagBytes] (by rw [h1.2.2.1] at g1; exact g1)
    obtain ⟨w2, hc2⟩ := app_wf grow w1 [tagBytes]
    have hx2 : encodeAll [v] <+: content (e1.app grow [tagBytes]) := by
      rw [hc2]; exact hx.trans (List.prefix_append _ _)
    by_cases g2 : (e1.app grow [tagBytes]).buf.len + (be 4 (List.replicate (c1 + 1) (0 : UInt8)).length).length ≤
        (e1.app grow [tagBytes]).buf.cap
    · obtain ⟨h3, l3⟩ := inPlace_app grow h2 _ (by rw [h2.2.2.1] at g2; exact g2)
      obtain ⟨w3, hc3⟩ := app_wf grow w2 (be 4 (List.replicate (c1 + 1) (0 : UInt8)).length)
      refine kept_grow grow h3 w3 _ ?_ (by rw [hc3]; exact hx2.trans (List.prefix_append _ _))
      rw [h3.2.2.1, List.length_replicate (n := c1 + 1)]
      omega
    · exact kept_app grow (kept_grow grow h2 w2 _ g2 hx2) _
  · exact kept_app grow (kept_app grow (kept_grow grow h1 w1 _ g1 hx) _) _

/-- A case in numbers: a key is encoded and then one more value. -/
example : [3, 0, 0, 0, 2, 0xAA, 0xBB] ∈
    (encodeCallsM (fun _ _ => 0) (newEncoder {}) [.val (.bytes [0xAA, 0xBB]), .val (.u8 1)]).zero.mem.arrays := by decide

/-- C85, what holds: the array the encoder worked on last is zero from end to end. Missing: the arrays it left. -/
theorem C85_last_array_partial (grow : Nat → Nat → Nat) (m : Mem) (d n : Nat) (e : MEncoder)
    (he : e = newEncoder m ∨ e = newFixedEncoder m d n) (v : Val) (as : List Any) :
    let e' := encodeCallsM grow e (.val v :: as)
    ∃ old c, e'.zero.mem.arrays = old ++ [List.replicate c 0] ∧ e'.bytes.arr = old.length ∧ e'.bytes.off = 0 ∧
      e'.bytes.len ≤ c ∧ old.length + 1 = e'.mem.arrays.length := by
  intro e'
  have hwf : WF e := by
    rcases he with rfl | rfl
    · exact (newEncoder_wf m).1
    · exact (newFixedEncoder_wf m d n).1
  obtain ⟨m1, c1, h1⟩ := inPlace_first grow m d n e he v
  obtain ⟨m2, c2, h2⟩ := inPlace_any grow as (encode_wf grow hwf (.val v)).1 h1
  refine ⟨m2.arrays, c2, inPlace_zero h2, h2.1, h2.2.1, h2.2.2.2.1.1, ?_⟩
  have := congrArg List.length h2.2.2.2.2
  rw [List.length_append, List.length_singleton] at this
  exact this.symm

example : (encodeCallsM (fun _ _ => 3) (newEncoder {}) [.val (.bytes [0xAA, 0xBB]), .val (.u8 1)]).zero.mem.arrays.getLast? =
    some (List.replicate 15 0) := by decide

end Verif.Props.Tlv
