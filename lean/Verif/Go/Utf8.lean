import Verif.Go.Basic
/-! UTF-8 as Go's `unicode/utf8` reads it, and what encoding/json does to other strings. -/

namespace Verif.Go

/-- A continuation byte. -/
def isCont (b : UInt8) : Bool := 0x80 ≤ b && b ≤ 0xBF

/-- Length of the well-formed rune at the front, if there is one (`utf8.DecodeRune`). -/
def runeLen : Bytes → Option Nat
  | [] => none
  | b0 :: r =>
    if b0 < 0x80 then some 1
    else match r with
      | [] => none
      | b1 :: r =>
        if 0xC2 ≤ b0 && b0 ≤ 0xDF then if isCont b1 then some 2 else none
        else match r with
          | [] => none
          | b2 :: r =>
            if 0xE0 ≤ b0 && b0 ≤ 0xEF then
              if isCont b1 && isCont b2 && (b0 != 0xE0 || 0xA0 ≤ b1) && (b0 != 0xED || b1 ≤ 0x9F)
              then some 3 else none
            else match r with
              | [] => none
              | b3 :: _ =>
                if 0xF0 ≤ b0 && b0 ≤ 0xF4 && isCont b1 && isCont b2 && isCont b3 &&
                  (b0 != 0xF0 || 0x90 ≤ b1) && (b0 != 0xF4 || b1 ≤ 0x8F)
                then some 4 else none

/-- encoding/json writes `�` for every byte that does not start a well-formed rune. -/
def sanitiseF : Nat → Bytes → Bytes
  | 0, _ => []
  | _ + 1, [] => []
  | n + 1, b :: r =>
    match runeLen (b :: r) with
    | some k => (b :: r).take k ++ sanitiseF n ((b :: r).drop k)
    | none => [0xEF, 0xBF, 0xBD] ++ sanitiseF n r

/-- What a string is after a trip through encoding/json. -/
def sanitise (s : Bytes) : Bytes := sanitiseF s.length s

/-- Strings that encoding/json leaves alone. -/
def ValidUtf8 (s : Bytes) : Prop := sanitise s = s

instance (s : Bytes) : Decidable (ValidUtf8 s) := inferInstanceAs (Decidable (_ = _))

/-- ASCII strings are valid. -/
theorem validUtf8_ascii (s : Bytes) (h : ∀ b ∈ s, b < 0x80) : ValidUtf8 s := by
  unfold ValidUtf8 sanitise
  induction s with
  | nil => rfl
  | cons b s ih =>
    have hb := h b List.mem_cons_self
    have : runeLen (b :: s) = some 1 := by simp [runeLen, hb]
    rw [List.length_cons, sanitiseF, this]
    simp only [List.take_succ_cons, List.take_zero, List.drop_succ_cons, List.drop_zero]
    rw [ih (fun x hx => h x (List.mem_cons_of_mem _ hx))]
    rfl

/-- Whether a rune starts at the front depends on the bytes of the rune only. -/
theorem runeLen_take {s : Bytes} {k : Nat} (h : runeLen s = some k) (t : Bytes) :
    runeLen (s.take k ++ t) = some k ∧ 1 ≤ k ∧ k ≤ s.length := by
  match s with
  | [] => simp [runeLen] at h
  | [a] =>
    simp only [runeLen] at h
    split at h <;> simp at h
    subst h
    rename_i ha
    simp [runeLen, ha]
  | [a, b] =>
    simp only [runeLen] at h
    split at h
    · cases h; rename_i ha; simp [runeLen, ha]
    · split at h
      · split at h <;> simp at h
        subst h
        rename_i h1 h2 h3
        simp [runeLen, h1, h2, h3]
      · simp at h
  | [a, b, c] =>
    simp only [runeLen] at h
    split at h
    · cases h; rename_i ha; simp [runeLen, ha]
    · split at h
      · split at h <;> simp at h
        subst h
        rename_i h1 h2 h3
        simp [runeLen, h1, h2, h3]
      · split at h
        · split at h
          · cases h
            rename_i h1 h2 h3 h4
            refine ⟨?_, by omega, by simp⟩
            simp only [List.take_succ_cons, List.take_zero, List.cons_append, List.nil_append, runeLen]
            rw [if_neg h1, if_neg h2, if_pos h3, if_pos h4]
          · simp at h
        · simp at h
  | a :: b :: c :: d :: r =>
    simp only [runeLen] at h
    split at h
    · cases h; rename_i ha; simp [runeLen, ha]
    · split at h
      · split at h <;> simp at h
        subst h
        rename_i h1 h2 h3
        simp [runeLen, h1, h2, h3]
      · split at h
        · split at h
          · cases h
            rename_i h1 h2 h3 h4
            refine ⟨?_, by omega, by simp⟩
            simp only [List.take_succ_cons, List.take_zero, List.cons_append, List.nil_append, runeLen]
            rw [if_neg h1, if_neg h2, if_pos h3, if_pos h4]
          · simp at h
        · split at h
          · cases h
            rename_i h1 h2 h3 h4
            refine ⟨?_, by omega, by simp⟩
            simp only [List.take_succ_cons, List.take_zero, List.cons_append, List.nil_append, runeLen]
            rw [if_neg h1, if_neg h2, if_neg h3, if_pos h4]
          · simp at h

theorem sanitiseF_fuel (n : Nat) : ∀ (m : Nat) (s : Bytes), s.length ≤ n → s.length ≤ m → sanitiseF n s = sanitiseF m s := by
  induction n with
  | zero =>
    intro m s hn hm
    cases s with
    | nil => cases m <;> rfl
    | cons b r => simp at hn
  | succ n ih =>
    intro m s hn hm
    cases s with
    | nil => cases m <;> rfl
    | cons b r =>
      cases m with
      | zero => simp at hm
      | succ m =>
        simp only [List.length_cons, Nat.add_le_add_iff_right] at hn hm
        simp only [sanitiseF]
        cases hr : runeLen (b :: r) with
        | none => simp only [ih m r hn hm]
        | some k =>
          have := (runeLen_take hr []).2
          simp only
          rw [ih m ((b :: r).drop k) (by simp; omega) (by simp; omega)]

theorem sanitise_rune {s : Bytes} {k : Nat} (h : runeLen s = some k) :
    sanitise s = s.take k ++ sanitise (s.drop k) := by
  cases s with
  | nil => simp [runeLen] at h
  | cons b r =>
    have h2 := (runeLen_take h []).2
    unfold sanitise
    rw [List.length_cons, sanitiseF, h]
    simp only
    rw [sanitiseF_fuel r.length ((b :: r).drop k).length _ (by simp; omega) (by simp)]

theorem sanitise_bad {b : UInt8} {r : Bytes} (h : runeLen (b :: r) = none) :
    sanitise (b :: r) = [0xEF, 0xBF, 0xBD] ++ sanitise r := by
  unfold sanitise
  rw [List.length_cons, sanitiseF, h]

/-- Doing it twice changes nothing. -/
theorem validUtf8_sanitise (s : Bytes) : ValidUtf8 (sanitise s) := by
  suffices ∀ n (s : Bytes), s.length ≤ n → ValidUtf8 (sanitise s) from this _ s (Nat.le_refl _)
  intro n
  induction n with
  | zero =>
    intro s hs
    cases s with
    | nil => rfl
    | cons b r => simp at hs
  | succ n ih =>
    intro s hs
    cases s with
    | nil => rfl
    | cons b r =>
      unfold ValidUtf8
      cases hr : runeLen (b :: r) with
      | none =>
        rw [sanitise_bad hr, sanitise_rune (s := [0xEF, 0xBF, 0xBD] ++ sanitise r) (k := 3) rfl]
        simp only [List.cons_append, List.nil_append, List.take_succ_cons, List.take_zero, List.drop_succ_cons, List.drop_zero]
        rw [ih r (by simpa using hs)]
      | some k =>
        obtain ⟨-, h1, h2⟩ := runeLen_take hr []
        rw [sanitise_rune hr]
        rw [sanitise_rune (runeLen_take hr (sanitise ((b :: r).drop k))).1]
        have hl : ((b :: r).take k).length = k := by rw [List.length_take]; omega
        rw [List.take_left' hl, List.drop_left' hl]
        rw [ih _ (by simp at hs ⊢; omega)]

example : ValidUtf8 [0xC3, 0xA9, 0x41, 0xE2, 0x82, 0xAC, 0xF0, 0x9F, 0x94, 0x91] := by decide
example : sanitise [0x41, 0xFF, 0xC3] = [0x41, 0xEF, 0xBF, 0xBD, 0xEF, 0xBF, 0xBD] := by decide

end Verif.Go
