import Verif.Go.Basic
/-!
Text formats of the Go standard library used by the code: decimal numbers (fmt), hexadecimal
(encoding/hex) and base32 (encoding/base32, standard alphabet with padding).
-/

namespace Verif.Go

/-- Decimal digits of `n`, given enough fuel. -/
def decimalF : (fuel n : Nat) → Bytes
  | 0, _ => []
  | fuel + 1, n =>
    if n < 10 then [UInt8.ofNat (48 + n)]
    else decimalF fuel (n / 10) ++ [UInt8.ofNat (48 + n % 10)]

/-- `fmt.Sprintf("%d", n)` for a non-negative `n`. -/
def decimal (n : Nat) : Bytes := decimalF (n + 1) n

/-- `fmt.Sprintf("%0<width>d", n)` for a non-negative `n`. -/
def decimalPad (width n : Nat) : Bytes :=
  List.replicate (width - (decimal n).length) 48 ++ decimal n

/-- A lower-case hexadecimal digit. -/
def hexDigit (n : Nat) : UInt8 := UInt8.ofNat (if n < 10 then 48 + n else 87 + n)

/-- `hex.EncodeToString`. -/
def hexEncode : Bytes → Bytes
  | [] => []
  | x :: b => hexDigit (x.toNat / 16) :: hexDigit (x.toNat % 16) :: hexEncode b

/-- Value of a hexadecimal digit of either case. -/
def hexVal (c : UInt8) : Option Nat :=
  let c := c.toNat
  if 48 ≤ c ∧ c ≤ 57 then some (c - 48)
  else if 97 ≤ c ∧ c ≤ 102 then some (c - 87)
  else if 65 ≤ c ∧ c ≤ 70 then some (c - 55)
  else none

/-- `hex.DecodeString`; `none` is an error. -/
def hexDecode : Bytes → Option Bytes
  | [] => some []
  | [_] => none
  | a :: b :: r =>
    match hexVal a, hexVal b, hexDecode r with
    | some x, some y, some r => some (UInt8.ofNat (16 * x + y) :: r)
    | _, _, _ => none

/-- A digit of the standard base32 alphabet A-Z, 2-7. -/
def b32Digit (n : Nat) : UInt8 := UInt8.ofNat (if n < 26 then 65 + n else 24 + n)

/-- The `n` low base-32 digits of `x`, most significant first. -/
def digits32 : (n x : Nat) → List Nat
  | 0, _ => []
  | n + 1, x => x / 32 ^ n % 32 :: digits32 n x

/-- The same as characters. -/
def b32Digits (n x : Nat) : Bytes := (digits32 n x).map b32Digit

/-- Number of digits for the last, incomplete group of `n` < 5 bytes. -/
def b32Chars (n : Nat) : Nat := (8 * n + 4) / 5

/-- `base32.StdEncoding.EncodeToString`: groups of five bytes become eight digits; a shorter
last group is zero-extended, cut and padded with '='. -/
def b32Encode : Bytes → Bytes
  | a :: b :: c :: d :: e :: r => b32Digits 8 (ofBe [a, b, c, d, e]) ++ b32Encode r
  | [] => []
  | r => (b32Digits 8 (ofBe (r ++ List.replicate (5 - r.length) 0))).take (b32Chars r.length) ++
      List.replicate (8 - b32Chars r.length) 61

/-- Value of a base32 digit. -/
def b32Val (c : UInt8) : Option Nat :=
  let c := c.toNat
  if 65 ≤ c ∧ c ≤ 90 then some (c - 65)
  else if 50 ≤ c ∧ c ≤ 55 then some (c - 24)
  else none

/-- One group of eight characters: digits, then only '='; 2, 4, 5, 7 or 8 digits. Unused low
bits are ignored, as encoding/base32 does. -/
def b32Group (g : Bytes) : Option Bytes :=
  let ds := g.takeWhile (· ≠ 61)
  if (g.drop ds.length).all (· = 61) ∧ ds.length ∈ [2, 4, 5, 7, 8] then
    match ds.mapM b32Val with
    | none => none
    | some vs =>
      some ((be 5 ((vs ++ List.replicate (8 - vs.length) 0).foldl (fun acc v => acc * 32 + v) 0)).take
        (vs.length * 5 / 8))
  else none

/-- `base32.StdEncoding.DecodeString` on input without line breaks; only the last group may be
padded. -/
def b32Decode : Bytes → Option Bytes
  | [] => some []
  | a :: b :: c :: d :: e :: f :: g :: h :: r =>
    match b32Group [a, b, c, d, e, f, g, h] with
    | none => none
    | some x => if x.length < 5 then (if r = [] then some x else none) else
      match b32Decode r with
      | none => none
      | some y => some (x ++ y)
  | _ => none

theorem decimalF_digits (fuel n : Nat) : ∀ c ∈ decimalF fuel n, 48 ≤ c.toNat ∧ c.toNat ≤ 57 := by
  induction fuel generalizing n with
  | zero => simp [decimalF]
  | succ f ih =>
    intro c hc
    unfold decimalF at hc
    split at hc
    · simp only [List.mem_singleton] at hc
      subst hc
      rw [UInt8.toNat_ofNat']; omega
    · rcases List.mem_append.mp hc with h | h
      · exact ih _ c h
      · simp only [List.mem_singleton] at h
        subst h
        rw [UInt8.toNat_ofNat']; omega

/-- Value of a string of ASCII digits. -/
def decVal (b : Bytes) : Nat := b.foldl (fun acc c => acc * 10 + (c.toNat - 48)) 0

theorem decVal_acc (acc : Nat) (b : Bytes) :
    b.foldl (fun acc c => acc * 10 + (c.toNat - 48)) acc = acc * 10 ^ b.length + decVal b := by
  unfold decVal
  induction b generalizing acc with
  | nil => simp
  | cons x b ih =>
    rw [List.foldl_cons, List.foldl_cons, ih, ih (0 * 10 + _), List.length_cons, Nat.pow_succ,
      Nat.add_mul, Nat.mul_assoc, Nat.mul_comm 10]
    simp [Nat.add_assoc]

theorem decVal_append (a b : Bytes) : decVal (a ++ b) = decVal a * 10 ^ b.length + decVal b := by
  conv => lhs; unfold decVal
  rw [List.foldl_append, decVal_acc]
  rfl

theorem decVal_replicate (n : Nat) : decVal (List.replicate n 48) = 0 := by
  unfold decVal
  induction n with
  | zero => rfl
  | succ n ih => rw [List.replicate_succ, List.foldl_cons]; simpa using ih

theorem decimalF_val (fuel n : Nat) (h : n < fuel) : decVal (decimalF fuel n) = n := by
  induction fuel generalizing n with
  | zero => omega
  | succ f ih =>
    unfold decimalF
    split
    · simp only [decVal, List.foldl_cons, List.foldl_nil, UInt8.toNat_ofNat']; omega
    · rw [decVal_append, ih _ (by omega)]
      simp only [decVal, List.foldl_cons, List.foldl_nil, UInt8.toNat_ofNat', List.length_singleton]
      omega

theorem decimal_val (n : Nat) : decVal (decimal n) = n := decimalF_val _ _ (by omega)

theorem decimalF_length (fuel n w : Nat) (h : n < fuel) (hw : n < 10 ^ w) (h1 : 1 ≤ w) :
    (decimalF fuel n).length ≤ w := by
  induction fuel generalizing n w with
  | zero => omega
  | succ f ih =>
    unfold decimalF
    split
    · simpa using h1
    · obtain ⟨w, rfl⟩ : ∃ v, w = v + 1 := ⟨w - 1, by omega⟩
      have hw0 : w ≠ 0 := by rintro rfl; simp at hw; omega
      have := ih (n / 10) w (by omega) (by rw [Nat.pow_succ] at hw; omega) (by omega)
      simp; omega

theorem decimalPad_spec (w n : Nat) (hw : n < 10 ^ w) (h1 : 1 ≤ w) :
    (decimalPad w n).length = w ∧ (∀ c ∈ decimalPad w n, 48 ≤ c.toNat ∧ c.toNat ≤ 57) ∧
      decVal (decimalPad w n) = n := by
  have hl := decimalF_length (n + 1) n w (by omega) hw h1
  refine ⟨?_, ?_, ?_⟩
  · simp only [decimalPad, List.length_append, List.length_replicate, decimal]; omega
  · intro c hc
    rcases List.mem_append.mp hc with h | h
    · rw [List.eq_of_mem_replicate h]; decide
    · exact decimalF_digits _ _ c h
  · rw [decimalPad, decVal_append, decVal_replicate, decimal_val]; simp

theorem hexVal_digit (n : Nat) (h : n < 16) : hexVal (hexDigit n) = some n := by
  have : ∀ n : Fin 16, hexVal (hexDigit n) = some n.val := by decide
  exact this ⟨n, h⟩

theorem hexDecode_encode (b : Bytes) : hexDecode (hexEncode b) = some b := by
  induction b with
  | nil => rfl
  | cons x b ih =>
    have hx := x.toNat_lt
    rw [hexEncode, hexDecode, hexVal_digit _ (by omega), hexVal_digit _ (by omega), ih]
    simp only [Option.some.injEq, List.cons.injEq, and_true]
    apply UInt8.toNat_inj.mp
    rw [UInt8.toNat_ofNat']; omega

theorem hexEncode_length (b : Bytes) : (hexEncode b).length = 2 * b.length := by
  induction b with
  | nil => rfl
  | cons x b ih => simp [hexEncode, ih]; omega

theorem hexEncode_inj {a b : Bytes} (h : hexEncode a = hexEncode b) : a = b := by
  have := congrArg hexDecode h
  rwa [hexDecode_encode, hexDecode_encode, Option.some.injEq] at this

theorem b32Val_digit (n : Nat) (h : n < 32) : b32Val (b32Digit n) = some n := by
  have : ∀ n : Fin 32, b32Val (b32Digit n) = some n.val := by decide
  exact this ⟨n, h⟩

theorem digits32_length (n x : Nat) : (digits32 n x).length = n := by
  induction n with
  | zero => rfl
  | succ n ih => simp [digits32, ih]

theorem digits32_lt (n x : Nat) : ∀ d ∈ digits32 n x, d < 32 := by
  induction n with
  | zero => simp [digits32]
  | succ n ih =>
    intro d hd
    rcases List.mem_cons.mp hd with rfl | h
    · omega
    · exact ih d h

theorem fold32_acc (acc : Nat) (b : List Nat) :
    b.foldl (fun acc v => acc * 32 + v) acc = acc * 32 ^ b.length + b.foldl (fun acc v => acc * 32 + v) 0 := by
  induction b generalizing acc with
  | nil => simp
  | cons x b ih =>
    rw [List.foldl_cons, List.foldl_cons, ih, ih (0 * 32 + _), List.length_cons, Nat.pow_succ,
      Nat.add_mul, Nat.mul_assoc, Nat.mul_comm 32]
    simp [Nat.add_assoc]

theorem digits32_fold (n x : Nat) :
    (digits32 n x).foldl (fun acc v => acc * 32 + v) 0 = x % 32 ^ n := by
  induction n with
  | zero => simp [digits32, Nat.mod_one]
  | succ n ih =>
    rw [digits32, List.foldl_cons, fold32_acc, ih, digits32_length, Nat.pow_succ, Nat.mod_mul,
      Nat.zero_mul, Nat.zero_add, Nat.mul_comm, Nat.add_comm]

/-- Low digits of a multiple of 32^m vanish. -/
theorem digits32_zeros (n m x : Nat) (h : 32 ^ m ∣ x) (hm : m ≤ n) :
    digits32 n x = (digits32 n x).take (n - m) ++ List.replicate m 0 := by
  induction n with
  | zero => simp [digits32, Nat.le_zero.mp hm]
  | succ n ih =>
    by_cases he : m = n + 1
    · subst he
      have hz : ∀ k, k ≤ n + 1 → digits32 k x = List.replicate k 0 := by
        intro k hk
        induction k with
        | zero => rfl
        | succ k ihk =>
          rw [digits32, ihk (by omega), List.replicate_succ]
          congr 1
          obtain ⟨y, rfl⟩ := Nat.dvd_trans (Nat.pow_dvd_pow 32 hk) h
          rw [Nat.pow_succ, Nat.mul_assoc, Nat.mul_div_cancel_left _ (Nat.pow_pos (by omega)),
            Nat.mul_mod_right]
      simp [hz (n + 1) (Nat.le_refl _)]
    · have := ih (by omega)
      have hs : n + 1 - m = (n - m) + 1 := by omega
      rw [digits32, hs, List.take_succ_cons, List.cons_append, ← this]

theorem mapM_b32Val (ds : List Nat) (h : ∀ d ∈ ds, d < 32) :
    (ds.map b32Digit).mapM b32Val = some ds := by
  induction ds with
  | nil => rfl
  | cons d ds ih =>
    rw [List.map_cons, List.mapM_cons, b32Val_digit d (h d (by simp)),
      ih (fun x hx => h x (by simp [hx]))]
    rfl

theorem b32Digit_ne_pad (n : Nat) (h : n < 32) : b32Digit n ≠ 61 := by
  have : ∀ n : Fin 32, b32Digit n ≠ 61 := by decide
  exact this ⟨n, h⟩

theorem b32Group_eq (ds : List Nat) (h : ∀ d ∈ ds, d < 32) (hl : ds.length ∈ [2, 4, 5, 7, 8]) :
    b32Group (ds.map b32Digit ++ List.replicate (8 - ds.length) 61) =
      some ((be 5 ((ds ++ List.replicate (8 - ds.length) 0).foldl (fun acc v => acc * 32 + v) 0)).take
        (ds.length * 5 / 8)) := by
  have htw : (ds.map b32Digit ++ List.replicate (8 - ds.length) 61).takeWhile (· ≠ 61) =
      ds.map b32Digit := by
    rw [List.takeWhile_append_of_pos]
    · have : (List.replicate (8 - ds.length) (61 : UInt8)).takeWhile (· ≠ 61) = [] := by
        cases 8 - ds.length <;> simp [List.replicate_succ]
      rw [this, List.append_nil]
    · intro c hc
      obtain ⟨d, hd, rfl⟩ := List.mem_map.mp hc
      simpa using b32Digit_ne_pad d (h d hd)
  unfold b32Group
  simp only [htw]
  rw [if_pos]
  · rw [mapM_b32Val ds h]
  · refine ⟨?_, by simpa using hl⟩
    rw [List.drop_left' rfl]
    simp

theorem b32Encode_step (g r : Bytes) (hg : g.length = 5) :
    b32Encode (g ++ r) = b32Digits 8 (ofBe g) ++ b32Encode r := by
  match g, hg with
  | [a, b, c, d, e], _ => rfl

theorem b32Decode_group (g r : Bytes) (hg : g.length = 8) :
    b32Decode (g ++ r) = (match b32Group g with
    | none => none
    | some x => if x.length < 5 then (if r = [] then some x else none) else
      match b32Decode r with
      | none => none
      | some y => some (x ++ y)) := by
  match g, hg with
  | [a, b, c, d, e, f, g, h], _ => rfl

theorem ofBe_dvd (r : Bytes) (n : Nat) : 256 ^ n ∣ ofBe (r ++ List.replicate n 0) := by
  induction n with
  | zero => simp
  | succ n ih =>
    rw [List.replicate_succ', ← List.append_assoc]
    unfold ofBe at *
    rw [List.foldl_append]
    rw [List.foldl_cons, List.foldl_nil, Nat.pow_succ, show UInt8.toNat 0 = 0 from rfl, Nat.add_zero]
    exact Nat.mul_dvd_mul_right ih 256

/-- The last group round-trips. -/
theorem b32_tail (r : Bytes) (h0 : 0 < r.length) (h5 : r.length < 5) :
    b32Decode (b32Encode r) = some r := by
  have henc : b32Encode r = ((digits32 8 (ofBe (r ++ List.replicate (5 - r.length) 0))).take
      (b32Chars r.length)).map b32Digit ++ List.replicate (8 - b32Chars r.length) 61 := by
    rw [List.map_take]
    match r, h0, h5 with
    | [_], _, _ => rfl
    | [_, _], _, _ => rfl
    | [_, _, _], _, _ => rfl
    | [_, _, _, _], _, _ => rfl
  generalize hx : ofBe (r ++ List.replicate (5 - r.length) 0) = x at henc
  have hk : b32Chars r.length ≤ 8 := by unfold b32Chars; omega
  have hdvd : 32 ^ (8 - b32Chars r.length) ∣ x := by
    rw [← hx]
    refine Nat.dvd_trans ?_ (ofBe_dvd r (5 - r.length))
    have h1 : ∀ k, 32 ^ k = 2 ^ (5 * k) := fun k => (Nat.pow_mul 2 5 k).symm
    have h2 : ∀ k, 256 ^ k = 2 ^ (8 * k) := fun k => (Nat.pow_mul 2 8 k).symm
    rw [h1, h2]
    exact Nat.pow_dvd_pow 2 (by unfold b32Chars; omega)
  have hz := digits32_zeros 8 (8 - b32Chars r.length) x hdvd (by omega)
  have hk8 : 8 - (8 - b32Chars r.length) = b32Chars r.length := by omega
  rw [hk8] at hz
  generalize hds : (digits32 8 x).take (b32Chars r.length) = ds at henc hz
  have hdl : ds.length = b32Chars r.length := by
    rw [← hds, List.length_take, digits32_length]; omega
  have hlt : ∀ d ∈ ds, d < 32 := by
    intro d hd; rw [← hds] at hd; exact digits32_lt 8 x d (List.mem_of_mem_take hd)
  have hmem : ds.length ∈ [2, 4, 5, 7, 8] := by
    rw [hdl]; unfold b32Chars
    have : r.length = 1 ∨ r.length = 2 ∨ r.length = 3 ∨ r.length = 4 := by omega
    rcases this with h | h | h | h <;> rw [h] <;> decide
  have hg := b32Group_eq ds hlt hmem
  have hxlt : x < 256 ^ 5 := by
    have := ofBe_lt (r ++ List.replicate (5 - r.length) 0)
    rw [hx] at this
    simp only [List.length_append, List.length_replicate] at this
    rwa [show r.length + (5 - r.length) = 5 by omega] at this
  have hfold := digits32_fold 8 x
  rw [hz, Nat.mod_eq_of_lt (by omega)] at hfold
  rw [← hdl] at hfold henc
  rw [hfold] at hg
  have hbe : be 5 x = r ++ List.replicate (5 - r.length) 0 := by
    have := be_ofBe (r ++ List.replicate (5 - r.length) 0)
    rw [hx] at this
    simp only [List.length_append, List.length_replicate] at this
    rwa [show r.length + (5 - r.length) = 5 by omega] at this
  have hcnt : ds.length * 5 / 8 = r.length := by rw [hdl]; unfold b32Chars; omega
  rw [hbe, hcnt, List.take_left' rfl] at hg
  have hd := b32Decode_group (ds.map b32Digit ++ List.replicate (8 - ds.length) 61) []
    (by simp only [List.length_append, List.length_map, List.length_replicate]; omega)
  rw [List.append_nil, hg] at hd
  rw [henc, hd]
  simp [h5]

theorem b32Decode_encode (b : Bytes) : b32Decode (b32Encode b) = some b := by
  induction hn : b.length using Nat.strongRecOn generalizing b with
  | _ n ih =>
    by_cases h5 : b.length < 5
    · by_cases h0 : b.length = 0
      · rw [List.length_eq_zero_iff.mp h0]; rfl
      · exact b32_tail b (by omega) h5
    · have hg : (b.take 5).length = 5 := by simp only [List.length_take]; omega
      have hb := List.take_append_drop 5 b
      have hih := ih (b.drop 5).length (by simp only [List.length_drop]; omega) (b.drop 5) rfl
      revert hb hih hg
      generalize b.take 5 = g
      generalize b.drop 5 = r
      intro hg hb hih
      rw [← hb, b32Encode_step _ _ hg, b32Decode_group _ _ (by simp [b32Digits, digits32_length])]
      have h1 := b32Group_eq (digits32 8 (ofBe g)) (digits32_lt _ _)
        (by rw [digits32_length]; decide)
      have hlt := ofBe_lt g
      have hbe := be_ofBe g
      rw [hg] at hlt hbe
      rw [digits32_length] at h1
      simp only [Nat.sub_self, List.replicate_zero, List.append_nil] at h1
      rw [digits32_fold, Nat.mod_eq_of_lt (by omega), hbe] at h1
      have h5' : g.take (8 * 5 / 8) = g := List.take_of_length_le (by omega)
      rw [h5'] at h1
      simp only [b32Digits, h1, hih, hg]
      simp

end Verif.Go
