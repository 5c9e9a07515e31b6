import Verif.Model.Otpc
/-!
How otpc tidies up a typed secret (C75).
-/

namespace Verif.Props.OtpcText
open Verif Verif.Go Verif.Model.Otpc

variable (U : Case)

theorem toUpperF_fuel (n : Nat) : ∀ (m : Nat) (s : Bytes), s.length ≤ n → s.length ≤ m → toUpperF U n s = toUpperF U m s := by
  induction n with
  | zero =>
    intro m s hn hm
    cases s with
    | nil => cases m <;> rfl
    | cons b r => simp at hn
  | succ n ih =>
    intro m s hn hm
    cases s with
    | nil => cases m <;> rfl
    | cons b r =>
      cases m with
      | zero => simp at hm
      | succ m =>
        simp only [List.length_cons, Nat.add_le_add_iff_right] at hn hm
        simp only [toUpperF]
        cases hr : runeLen (b :: r) with
        | none => simp only [ih m r hn hm]
        | some k =>
          have := (runeLen_take hr []).2
          simp only
          rw [ih m ((b :: r).drop k) (by simp; omega) (by simp; omega)]

/-- Strings of runes that are their own upper case. -/
inductive Upper : Bytes → Prop
  | nil : Upper []
  | rune (r s : Bytes) : runeLen r = some r.length → U.up r = r → Upper s → Upper (r ++ s)

theorem Upper.append {s t : Bytes} (hs : Upper U s) (ht : Upper U t) : Upper U (s ++ t) := by
  induction hs with
  | nil => exact ht
  | rune r s h1 h2 _ ih => rw [List.append_assoc]; exact .rune r _ h1 h2 ih

theorem upper_toUpperF (n : Nat) : ∀ s, Upper U (toUpperF U n s) := by
  induction n with
  | zero => intro s; exact .nil
  | succ n ih =>
    intro s
    cases s with
    | nil => exact .nil
    | cons b r =>
      simp only [toUpperF]
      cases hr : runeLen (b :: r) with
      | none =>
        have h3 : runeLen [0xEF, 0xBF, 0xBD] = some ([0xEF, 0xBF, 0xBD] : Bytes).length := rfl
        exact .rune _ _ (U.up_rune _ h3) (U.up_up _ h3) (ih _)
      | some k =>
        obtain ⟨h1, h2, h3⟩ := runeLen_take hr []
        have hk : ((b :: r).take k).length = k := by rw [List.length_take]; omega
        have h4 : runeLen ((b :: r).take k) = some ((b :: r).take k).length := by
          rw [hk]; simpa using h1
        exact .rune _ _ (U.up_rune _ h4) (U.up_up _ h4) (ih _)

theorem upper_ascii (s : Bytes) (h : ∀ b ∈ s, b < 0x80 ∧ upperByte b = b) : Upper U s := by
  induction s with
  | nil => exact .nil
  | cons b s ih =>
    have hb := h b List.mem_cons_self
    refine .rune [b] s ?_ ?_ (ih fun x hx => h x (List.mem_cons_of_mem _ hx))
    · simp [runeLen, hb.1]
    · rw [U.up_ascii b hb.1, hb.2]

theorem upperByte_idem (b : UInt8) : upperByte (upperByte b) = upperByte b := by
  unfold upperByte
  by_cases h : (0x61 ≤ b && b ≤ 0x7A) = true
  · rw [if_pos h, if_neg]
    simp only [Bool.and_eq_true, decide_eq_true_eq, UInt8.le_iff_toNat_le] at h ⊢
    have : (b - 32).toNat = b.toNat - 32 := UInt8.toNat_sub_of_le _ _ (by rw [UInt8.le_iff_toNat_le]; change 32 ≤ _; change 97 ≤ _ ∧ _ at h; omega)
    rw [this]
    change ¬ (97 ≤ _ ∧ _)
    change 97 ≤ _ ∧ _ ≤ 122 at h
    omega
  · rw [if_neg h, if_neg h]

theorem upperByte_lt (b : UInt8) : upperByte b < 0x80 ↔ b < 0x80 := by
  unfold upperByte
  split
  · rename_i h
    simp only [Bool.and_eq_true, decide_eq_true_eq, UInt8.le_iff_toNat_le] at h
    change 97 ≤ _ ∧ _ ≤ 122 at h
    have : (b - 32).toNat = b.toNat - 32 := UInt8.toNat_sub_of_le _ _ (by rw [UInt8.le_iff_toNat_le]; change 32 ≤ _; omega)
    simp only [UInt8.lt_iff_toNat_lt, this]
    change _ < 128 ↔ _ < 128
    omega
  · exact Iff.rfl

theorem upperByte_space (b : UInt8) : upperByte b = 0x20 ↔ b = 0x20 := by
  unfold upperByte
  split
  · rename_i h
    simp only [Bool.and_eq_true, decide_eq_true_eq, UInt8.le_iff_toNat_le] at h
    change 97 ≤ _ ∧ _ ≤ 122 at h
    have : (b - 32).toNat = b.toNat - 32 := UInt8.toNat_sub_of_le _ _ (by rw [UInt8.le_iff_toNat_le]; change 32 ≤ _; omega)
    simp only [← UInt8.toNat_inj, this]
    change _ = 32 ↔ _ = 32
    omega
  · exact Iff.rfl

theorem upper_toUpper (s : Bytes) : Upper U (toUpper U s) := by
  unfold toUpper
  split
  · rename_i h
    apply upper_ascii
    intro b hb
    obtain ⟨a, ha, rfl⟩ := List.mem_map.mp hb
    rw [List.all_eq_true] at h
    exact ⟨(upperByte_lt a).mpr (by simpa using h a ha), upperByte_idem a⟩
  · exact upper_toUpperF U _ s

/-- In a rune of more than one byte there is no ASCII byte. -/
theorem rune_bytes {r : Bytes} (h : runeLen r = some r.length) : (∃ b, r = [b] ∧ b < 0x80) ∨ ∀ b ∈ r, ¬ b < 0x80 := by
  have hc : ∀ b, isCont b = true → ¬ b < 0x80 := by
    intro b hb
    simp only [isCont, Bool.and_eq_true, decide_eq_true_eq, UInt8.le_iff_toNat_le] at hb
    rw [UInt8.lt_iff_toNat_lt]
    change 128 ≤ _ ∧ _ at hb
    change ¬ _ < 128
    omega
  match r with
  | [] => simp [runeLen] at h
  | [a] =>
    simp only [runeLen] at h
    split at h
    · rename_i ha; exact .inl ⟨a, rfl, ha⟩
    · simp at h
  | [a, b] =>
    simp only [runeLen] at h
    split at h
    · simp at h
    · rename_i ha
      split at h
      · split at h
        · rename_i hb
          right; intro x hx
          simp only [List.mem_cons, List.not_mem_nil, or_false] at hx
          rcases hx with rfl | rfl
          · exact ha
          · exact hc _ hb
        · simp at h
      · simp at h
  | [a, b, c] =>
    simp only [runeLen] at h
    split at h
    · simp at h
    · rename_i ha
      split at h
      · split at h <;> simp at h
      · split at h
        · split at h
          · rename_i hb
            simp only [Bool.and_eq_true] at hb
            right; intro x hx
            simp only [List.mem_cons, List.not_mem_nil, or_false] at hx
            rcases hx with rfl | rfl | rfl
            · exact ha
            · exact hc _ hb.1.1.1
            · exact hc _ hb.1.1.2
          · simp at h
        · simp at h
  | a :: b :: c :: d :: t =>
    simp only [runeLen] at h
    split at h
    · simp at h
    · rename_i ha
      split at h
      · split at h <;> simp at h
      · split at h
        · split at h <;> simp at h
        · split at h
          · rename_i hb
            simp only [Bool.and_eq_true] at hb
            have : t = [] := by simpa using h
            subst this
            right; intro x hx
            simp only [List.mem_cons, List.not_mem_nil, or_false] at hx
            rcases hx with rfl | rfl | rfl | rfl
            · exact ha
            · exact hc _ hb.1.1.1.1.2
            · exact hc _ hb.1.1.1.2
            · exact hc _ hb.1.1.2
          · simp at h

theorem Upper.filter {s : Bytes} (h : Upper U s) : Upper U (s.filter (· ≠ 0x20)) := by
  induction h with
  | nil => exact .nil
  | rune r s h1 h2 _ ih =>
    rw [List.filter_append]
    rcases rune_bytes h1 with ⟨b, rfl, hb⟩ | hr
    · by_cases hs : b = 0x20
      · subst hs; simpa using ih
      · rw [List.filter_cons_of_pos (by simpa using hs)]
        exact .rune [b] _ h1 h2 ih
    · have : r.filter (· ≠ 0x20) = r := by
        rw [List.filter_eq_self]
        intro b hb
        have := hr b hb
        simp only [ne_eq, decide_eq_true_eq]
        rintro rfl
        exact this (by decide)
      rw [this]
      exact .rune r _ h1 h2 ih

theorem Upper.bytes {s : Bytes} (h : Upper U s) : ∀ b ∈ s, upperByte b = b := by
  induction h with
  | nil => simp
  | rune r s h1 h2 _ ih =>
    intro b hb
    rcases List.mem_append.mp hb with hb | hb
    · rcases rune_bytes h1 with ⟨a, rfl, ha⟩ | hr
      · simp only [List.mem_cons, List.not_mem_nil, or_false] at hb
        subst hb
        rw [U.up_ascii b ha] at h2
        simpa using h2
      · have := hr b hb
        unfold upperByte
        rw [if_neg]
        simp only [UInt8.lt_iff_toNat_lt, Bool.and_eq_true, decide_eq_true_eq, UInt8.le_iff_toNat_le] at this ⊢
        change ¬ _ < 128 at this
        change ¬ (_ ∧ _ ≤ 122)
        omega
    · exact ih b hb

theorem Upper.toUpper {s : Bytes} (h : Upper U s) : toUpper U s = s := by
  unfold Model.Otpc.toUpper
  split
  · have := Upper.bytes U h
    rw [List.map_congr_left this, List.map_id']
  · rename_i hx
    clear hx
    suffices ∀ n, s.length ≤ n → toUpperF U n s = s from this _ (Nat.le_refl _)
    induction h with
    | nil => intro n _; cases n <;> rfl
    | rune r s h1 h2 _ ih =>
      intro n hn
      have hl : ∃ b t, r = b :: t := by
        cases r with
        | nil => simp [runeLen] at h1
        | cons b t => exact ⟨b, t, rfl⟩
      obtain ⟨b, t, rfl⟩ := hl
      cases n with
      | zero => simp at hn
      | succ n =>
        have h3 := (runeLen_take h1 s).1
        rw [List.take_length] at h3
        rw [List.cons_append] at h3 ⊢
        rw [toUpperF, h3]
        simp only
        rw [← List.cons_append, List.take_left, List.drop_left, h2, ih n (by simp at hn; omega)]

/-! ### C75 -/

/-- The result of `sanitiseSecret` before padding, and the padding. -/
theorem sanitise_parts (s : Bytes) : ∃ k, k < 8 ∧ ((toUpper U s).filter (· ≠ 0x20)).length % 8 = (8 - k) % 8 ∧
    sanitiseSecret U s = (toUpper U s).filter (· ≠ 0x20) ++ List.replicate k 61 := by
  unfold sanitiseSecret
  simp only
  split
  · exact ⟨_, by omega, by omega, rfl⟩
  · exact ⟨0, by omega, by omega, by simp⟩

theorem sanitise_length (s : Bytes) : (sanitiseSecret U s).length % 8 = 0 := by
  obtain ⟨k, h1, h2, h3⟩ := sanitise_parts U s
  rw [h3, List.length_append, List.length_replicate]
  omega

theorem upper_sanitise (s : Bytes) : Upper U (sanitiseSecret U s) := by
  obtain ⟨k, -, -, h3⟩ := sanitise_parts U s
  rw [h3]
  refine Upper.append U (Upper.filter U (upper_toUpper U s)) (upper_ascii U _ ?_)
  intro b hb
  rw [(List.mem_replicate.mp hb).2]
  decide

/-- The result has no spaces, no lower-case letters of the ASCII alphabet, and a multiple of
eight bytes. -/
theorem C75_shape (s : Bytes) : (sanitiseSecret U s).length % 8 = 0 ∧
    ∀ b ∈ sanitiseSecret U s, b ≠ 0x20 ∧ ¬ (97 ≤ b ∧ b ≤ 122) := by
  refine ⟨sanitise_length U s, fun b hb => ⟨?_, ?_⟩⟩
  · obtain ⟨k, -, -, h3⟩ := sanitise_parts U s
    rw [h3] at hb
    rcases List.mem_append.mp hb with h | h
    · have := (List.mem_filter.mp h).2
      simpa using this
    · rw [(List.mem_replicate.mp h).2]
      decide
  · intro hr
    have := Upper.bytes U (upper_sanitise U s) b hb
    unfold upperByte at this
    rw [if_pos (by simpa using hr)] at this
    have h2 := congrArg UInt8.toNat this
    simp only [UInt8.le_iff_toNat_le] at hr
    change 97 ≤ _ ∧ _ at hr
    rw [UInt8.toNat_sub_of_le _ _ (by rw [UInt8.le_iff_toNat_le]; change 32 ≤ _; omega)] at h2
    change _ - 32 = _ at h2
    omega

/-- Doing it twice changes nothing. -/
theorem C75_idempotent (s : Bytes) : sanitiseSecret U (sanitiseSecret U s) = sanitiseSecret U s := by
  have h := Upper.toUpper U (upper_sanitise U s)
  have hf : (sanitiseSecret U s).filter (· ≠ 0x20) = sanitiseSecret U s := by
    rw [List.filter_eq_self]
    intro b hb
    simpa using ((C75_shape U s).2 b hb).1
  have hl := sanitise_length U s
  generalize sanitiseSecret U s = x at *
  unfold sanitiseSecret
  simp only [h, hf]
  rw [if_neg (by omega)]

theorem toUpper_ascii (s : Bytes) (h : ∀ b ∈ s, b < 0x80) : toUpper U s = s.map upperByte := by
  unfold toUpper
  rw [if_pos]
  rw [List.all_eq_true]
  intro b hb
  simpa using h b hb

theorem filter_upper (s : Bytes) : (s.map upperByte).filter (· ≠ 0x20) = (s.filter (· ≠ 0x20)).map upperByte := by
  induction s with
  | nil => rfl
  | cons b s ih =>
    by_cases hb : b = 0x20
    · subst hb
      rw [List.map_cons, List.filter_cons_of_neg (by decide), List.filter_cons_of_neg (by decide), ih]
    · rw [List.map_cons, List.filter_cons_of_pos (by simpa [upperByte_space] using hb), List.filter_cons_of_pos (by simpa using hb),
        List.map_cons, ih]

/-- Of an ASCII string the result is the string without its spaces, in upper case, followed by
the padding and nothing else. -/
theorem C75_ascii (s : Bytes) (h : ∀ b ∈ s, b < 0x80) : ∃ k, k < 8 ∧
    sanitiseSecret U s = (s.filter (· ≠ 0x20)).map upperByte ++ List.replicate k 61 := by
  obtain ⟨k, h1, -, h3⟩ := sanitise_parts U s
  rw [toUpper_ascii U s h, filter_upper] at h3
  exact ⟨k, h1, h3⟩

/-- "jb swy" -/
example : sanitiseSecret U [0x6A, 0x62, 0x20, 0x73, 0x77, 0x79] = ascii "JBSWY===" := by
  unfold sanitiseSecret
  rw [toUpper_ascii U _ (by decide)]
  decide

/-- Base 32 text is letters and digits, then padding. -/
theorem b32Digit_range (n : Nat) (h : n < 32) : b32Digit n < 0x80 ∧ b32Digit n ≠ 61 := by
  have : ∀ n, n < 32 → b32Digit n < 0x80 ∧ b32Digit n ≠ 61 := by decide
  exact this n h

theorem b32Digits_range (n x : Nat) : ∀ b ∈ b32Digits n x, b < 0x80 ∧ b ≠ 61 := by
  intro b hb
  obtain ⟨d, hd, rfl⟩ := List.mem_map.mp hb
  exact b32Digit_range d (digits32_lt n x d hd)

theorem b32Digits_length (n x : Nat) : (b32Digits n x).length = n := by rw [b32Digits, List.length_map, digits32_length]

theorem b32_parts (key : Bytes) : ∃ t k, b32Encode key = t ++ List.replicate k 61 ∧ k < 8 ∧ (t.length + k) % 8 = 0 ∧
    ∀ b ∈ t, b < 0x80 ∧ b ≠ 61 := by
  suffices ∀ n (key : Bytes), key.length ≤ n → ∃ t k, b32Encode key = t ++ List.replicate k 61 ∧ k < 8 ∧ (t.length + k) % 8 = 0 ∧
      ∀ b ∈ t, b < 0x80 ∧ b ≠ 61 from this _ key (Nat.le_refl _)
  intro n
  induction n with
  | zero =>
    intro key h
    cases key with
    | nil => exact ⟨[], 0, rfl, by omega, rfl, by simp⟩
    | cons b r => simp at h
  | succ n ih =>
    intro key h
    have short : ∀ g : Bytes, 0 < g.length → g.length < 5 → b32Encode g =
        (b32Digits 8 (ofBe (g ++ List.replicate (5 - g.length) 0))).take (b32Chars g.length) ++ List.replicate (8 - b32Chars g.length) 61 →
        ∃ t k, b32Encode g = t ++ List.replicate k 61 ∧ k < 8 ∧ (t.length + k) % 8 = 0 ∧ ∀ b ∈ t, b < 0x80 ∧ b ≠ 61 := by
      intro g h0 h5 he
      refine ⟨_, _, he, ?_, ?_, fun b hb => b32Digits_range _ _ b (List.mem_of_mem_take hb)⟩
      · unfold b32Chars; omega
      · rw [List.length_take, b32Digits_length]; unfold b32Chars; omega
    match key with
    | [] => exact ⟨[], 0, rfl, by omega, rfl, by simp⟩
    | [a] => exact short [a] (by simp) (by simp) rfl
    | [a, b] => exact short [a, b] (by simp) (by simp) rfl
    | [a, b, c] => exact short [a, b, c] (by simp) (by simp) rfl
    | [a, b, c, d] => exact short [a, b, c, d] (by simp) (by simp) rfl
    | a :: b :: c :: d :: e :: r =>
      obtain ⟨t', k', e1, e2, e3, e4⟩ := ih r (by simp at h; omega)
      refine ⟨b32Digits 8 (ofBe [a, b, c, d, e]) ++ t', k', ?_, e2, by rw [List.length_append, b32Digits_length]; omega, ?_⟩
      · rw [b32Encode, e1]
        simp
      · intro x hx
        rcases List.mem_append.mp hx with hx | hx
        · exact b32Digits_range _ _ x hx
        · exact e4 x hx

/-- Whatever the case of the letters, wherever the spaces, and without the padding: the base 32
form of a key becomes the exact base 32 text of that key. -/
theorem C75_key (key s : Bytes) (h : (s.filter (· ≠ 0x20)).map upperByte = (b32Encode key).filter (· ≠ 61)) :
    sanitiseSecret U s = b32Encode key := by
  obtain ⟨t, k, h1, h2, h3, h4⟩ := b32_parts key
  have hp : (List.replicate k (61 : UInt8)).filter (· ≠ 61) = [] := by
    rw [List.filter_eq_nil_iff]
    intro b hb
    rw [(List.mem_replicate.mp hb).2]
    decide
  have ht : t.filter (· ≠ 61) = t := by
    rw [List.filter_eq_self]
    intro b hb
    simpa using (h4 b hb).2
  rw [h1, List.filter_append, hp, ht, List.append_nil] at h
  have ha : ∀ b ∈ s, b < 0x80 := by
    intro b hb
    by_cases hs : b = 0x20
    · subst hs; decide
    · have : upperByte b ∈ t := by
        rw [← h]
        exact List.mem_map_of_mem (List.mem_filter.mpr ⟨hb, by simpa using hs⟩)
      exact (upperByte_lt b).mp (h4 _ this).1
  unfold sanitiseSecret
  simp only
  rw [toUpper_ascii U s ha, filter_upper, h, h1]
  split
  · congr 2
    omega
  · have : k = 0 := by omega
    subst this
    simp

/-- "mzxw 6ytb oi" is "foobar". -/
example : sanitiseSecret U (ascii "mzxw 6ytb oi") = b32Encode (ascii "foobar") := C75_key U _ _ (by decide)

/-- The padding may also be typed. -/
theorem C75_padded (key s : Bytes) (h : (s.filter (· ≠ 0x20)).map upperByte = b32Encode key) :
    sanitiseSecret U s = b32Encode key := by
  obtain ⟨t, k, h1, h2, h3, h4⟩ := b32_parts key
  have ha : ∀ b ∈ s, b < 0x80 := by
    intro b hb
    by_cases hs : b = 0x20
    · subst hs; decide
    · have : upperByte b ∈ b32Encode key := by
        rw [← h]
        exact List.mem_map_of_mem (List.mem_filter.mpr ⟨hb, by simpa using hs⟩)
      rw [h1] at this
      rcases List.mem_append.mp this with hm | hm
      · exact (upperByte_lt b).mp (h4 _ hm).1
      · rw [← upperByte_lt, (List.mem_replicate.mp hm).2]
        decide
  have hl : (b32Encode key).length % 8 = 0 := by rw [h1, List.length_append, List.length_replicate]; exact h3
  unfold sanitiseSecret
  simp only
  rw [toUpper_ascii U s ha, filter_upper, h, if_neg (by omega)]

example : sanitiseSecret U (ascii "mzxw6ytb oi== ====") = b32Encode (ascii "foobar") := C75_padded U _ _ (by decide)

/-- A case mapping that satisfies the assumptions: ASCII letters only. -/
def asciiCase : Case where
  up r := match r with
    | [b] => [upperByte b]
    | r => r
  up_ascii b _ := rfl
  up_rune r h := by
    match r with
    | [] => exact h
    | [b] =>
      have hb : b < 0x80 := by
        simp only [runeLen] at h
        split at h
        · assumption
        · simp at h
      simp [runeLen, (upperByte_lt b).mpr hb]
    | a :: b :: r => exact h
  up_up r _ := by
    match r with
    | [] => rfl
    | [b] => simp [upperByte_idem]
    | a :: b :: r => rfl

/-- Input with a byte that is not UTF-8 and a two-byte letter. -/
example : sanitiseSecret asciiCase [0x61, 0x20, 0xFF, 0xC3, 0xA9] = [0x41, 0xEF, 0xBF, 0xBD, 0xC3, 0xA9, 61, 61] := by decide

end Verif.Props.OtpcText
