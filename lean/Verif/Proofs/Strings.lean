import Verif.Go.Strings
/-! Cutting UTF-8 strings where the programs cut them leaves UTF-8 strings. -/

namespace Verif.Proofs.Strings
open Verif Verif.Go

theorem runeLen_cont {s : Bytes} {k i : Nat} {x : UInt8} (h : runeLen s = some k) (h1 : 1 ≤ i) (h2 : i < k)
    (hx : s[i]? = some x) : isCont x = true := by
  match s with
  | [] => simp [runeLen] at h
  | [a] =>
    simp only [runeLen] at h
    split at h <;> simp at h
    omega
  | [a, b] =>
    simp only [runeLen] at h
    split at h
    · cases h; omega
    · split at h
      · split at h <;> simp at h
        subst h
        have : i = 1 := by omega
        subst this
        simp at hx; subst hx; assumption
      · simp at h
  | [a, b, c] =>
    simp only [runeLen] at h
    split at h
    · cases h; omega
    · split at h
      · split at h <;> simp at h
        subst h
        have : i = 1 := by omega
        subst this
        simp at hx; subst hx; assumption
      · split at h
        · split at h
          · cases h
            rename_i h4
            simp only [Bool.and_eq_true] at h4
            have : i = 1 ∨ i = 2 := by omega
            rcases this with rfl | rfl <;> simp at hx <;> subst hx
            · exact h4.1.1.1
            · exact h4.1.1.2
          · simp at h
        · simp at h
  | a :: b :: c :: d :: r =>
    simp only [runeLen] at h
    split at h
    · cases h; omega
    · split at h
      · split at h <;> simp at h
        subst h
        have : i = 1 := by omega
        subst this
        simp at hx; subst hx; assumption
      · split at h
        · split at h
          · cases h
            rename_i h4
            simp only [Bool.and_eq_true] at h4
            have : i = 1 ∨ i = 2 := by omega
            rcases this with rfl | rfl <;> simp at hx <;> subst hx
            · exact h4.1.1.1
            · exact h4.1.1.2
          · simp at h
        · split at h
          · cases h
            rename_i h4
            simp only [Bool.and_eq_true] at h4
            have : i = 1 ∨ i = 2 ∨ i = 3 := by omega
            rcases this with rfl | rfl | rfl <;> simp at hx <;> subst hx
            · exact h4.1.1.1.1.2
            · exact h4.1.1.1.2
            · exact h4.1.1.2
          · simp at h

theorem sanitise_length_bad (b : UInt8) (r : Bytes) (h : runeLen (b :: r) = none) : ¬ ValidUtf8 (b :: r) := by
  intro hv
  unfold ValidUtf8 at hv
  rw [sanitise_bad h] at hv
  -- the first three bytes would be a rune
  have h3 : runeLen ([0xEF, 0xBF, 0xBD] ++ sanitise r) = some 3 := rfl
  rw [hv, h] at h3
  simp at h3

theorem valid_rune {s : Bytes} (hs : s ≠ []) (h : ValidUtf8 s) : ∃ k, runeLen s = some k := by
  cases s with
  | nil => exact absurd rfl hs
  | cons b r =>
    cases hr : runeLen (b :: r) with
    | none => exact absurd h (sanitise_length_bad b r hr)
    | some k => exact ⟨k, rfl⟩

theorem valid_drop_rune {s : Bytes} {k : Nat} (hr : runeLen s = some k) : ValidUtf8 s ↔ ValidUtf8 (s.drop k) := by
  unfold ValidUtf8
  rw [sanitise_rune hr]
  constructor
  · intro h
    have h2 : s.take k ++ sanitise (s.drop k) = s.take k ++ s.drop k := by rw [h, List.take_append_drop]
    exact List.append_cancel_left h2
  · intro h
    rw [h, List.take_append_drop]

/-- A UTF-8 string can be cut in front of every byte that is not a continuation byte. -/
theorem valid_split (n : Nat) : ∀ (p t : Bytes), p.length ≤ n → ValidUtf8 (p ++ t) →
    (∀ x, t.head? = some x → isCont x = false) → ValidUtf8 p ∧ ValidUtf8 t := by
  induction n with
  | zero =>
    intro p t hp hv _
    cases p with
    | nil => exact ⟨rfl, hv⟩
    | cons => simp at hp
  | succ n ih =>
    intro p t hp hv ht
    cases p with
    | nil => exact ⟨rfl, hv⟩
    | cons b p =>
      obtain ⟨k, hk⟩ := valid_rune (by simp) hv
      obtain ⟨-, k1, k2⟩ := runeLen_take hk []
      by_cases hle : k ≤ (b :: p).length
      · have hd : (b :: p ++ t).drop k = (b :: p).drop k ++ t := by
          rw [List.drop_append_of_le_length hle]
        have hv2 := (valid_drop_rune hk).mp hv
        rw [hd] at hv2
        obtain ⟨h1, h2⟩ := ih ((b :: p).drop k) t (by simp at hp ⊢; omega) hv2 ht
        refine ⟨?_, h2⟩
        have hk' : runeLen (b :: p) = some k := by
          have := (runeLen_take hk ((b :: p).drop k)).1
          rw [List.take_append_of_le_length hle, List.take_append_drop] at this
          exact this
        exact (valid_drop_rune hk').mpr h1
      · exfalso
        have hlt : (b :: p).length < k := by omega
        cases t with
        | nil => simp at k2 hlt; omega
        | cons x t =>
          have hx : ((b :: p) ++ x :: t)[(b :: p).length]? = some x := by
            rw [List.getElem?_append_right (Nat.le_refl _)]; simp
          have := runeLen_cont hk (by simp) hlt hx
          rw [ht x rfl] at this
          simp at this

theorem spaceLen_rune {s : Bytes} (h : spaceLen s ≠ 0) : runeLen s = some (spaceLen s) := by
  match s with
  | [] => simp [spaceLen] at h
  | [a] =>
    simp only [spaceLen] at h ⊢
    split at h
    · rename_i hc
      rw [if_pos hc]
      have : a < 0x80 := by
        simp only [Bool.or_eq_true, beq_iff_eq, Bool.and_eq_true, decide_eq_true_eq] at hc
        rcases hc with rfl | ⟨-, h2⟩
        · decide
        · exact UInt8.lt_of_le_of_lt h2 (by decide)
      simp [runeLen, this]
    · simp at h
  | [a, b] =>
    simp only [spaceLen] at h ⊢
    split at h
    · rename_i hc
      rw [if_pos hc]
      have : a < 0x80 := by
        simp only [Bool.or_eq_true, beq_iff_eq, Bool.and_eq_true, decide_eq_true_eq] at hc
        rcases hc with rfl | ⟨-, h2⟩
        · decide
        · exact UInt8.lt_of_le_of_lt h2 (by decide)
      simp [runeLen, this]
    · rename_i hc
      split at h
      · rename_i h2
        rw [if_neg hc, if_pos h2]
        simp only [Bool.and_eq_true, beq_iff_eq, Bool.or_eq_true] at h2
        obtain ⟨rfl, rfl | rfl⟩ := h2 <;> rfl
      · simp at h
  | a :: b :: c :: r =>
    simp only [spaceLen] at h ⊢
    split at h
    · rename_i hc
      rw [if_pos hc]
      have : a < 0x80 := by
        simp only [Bool.or_eq_true, beq_iff_eq, Bool.and_eq_true, decide_eq_true_eq] at hc
        rcases hc with rfl | ⟨-, h2⟩
        · decide
        · exact UInt8.lt_of_le_of_lt h2 (by decide)
      simp [runeLen, this]
    · rename_i hc
      split at h
      · rename_i h2
        rw [if_neg hc, if_pos h2]
        simp only [Bool.and_eq_true, beq_iff_eq, Bool.or_eq_true] at h2
        obtain ⟨rfl, rfl | rfl⟩ := h2 <;> rfl
      · rename_i h2
        rw [if_neg hc, if_neg h2]
        split at h
        · rename_i h3
          rw [if_pos h3]
          simp only [Bool.and_eq_true, beq_iff_eq] at h3
          obtain ⟨⟨rfl, rfl⟩, rfl⟩ := h3; rfl
        · rename_i h3
          split at h
          · rename_i h4
            rw [if_neg h3, if_pos h4]
            simp only [Bool.and_eq_true, beq_iff_eq, Bool.or_eq_true, decide_eq_true_eq] at h4
            obtain ⟨⟨rfl, rfl⟩, h4⟩ := h4
            have hcc : isCont c = true := by
              unfold isCont
              simp only [Bool.and_eq_true, decide_eq_true_eq]
              rcases h4 with ((⟨h5, h6⟩ | rfl) | rfl) | rfl
              · exact ⟨h5, UInt8.le_trans h6 (by decide)⟩
              · decide
              · decide
              · decide
            simp [runeLen, hcc]
            decide
          · rename_i h4
            split at h
            · rename_i h5
              rw [if_neg h3, if_neg h4, if_pos h5]
              simp only [Bool.and_eq_true, beq_iff_eq] at h5
              obtain ⟨⟨rfl, rfl⟩, rfl⟩ := h5; rfl
            · rename_i h5
              split at h
              · rename_i h6
                rw [if_neg h3, if_neg h4, if_neg h5, if_pos h6]
                simp only [Bool.and_eq_true, beq_iff_eq] at h6
                obtain ⟨⟨rfl, rfl⟩, rfl⟩ := h6; rfl
              · simp at h

theorem runeLen_head {x : UInt8} {t : Bytes} {k : Nat} (h : runeLen (x :: t) = some k) : isCont x = false := by
  cases hc : isCont x with
  | false => rfl
  | true =>
    exfalso
    simp only [isCont, Bool.and_eq_true, decide_eq_true_eq] at hc
    have e1 : ¬ x < 0x80 := UInt8.not_lt.mpr hc.1
    have lt : x < 0xC2 := UInt8.lt_of_le_of_lt hc.2 (by decide)
    have e2 : ¬ (0xC2 ≤ x) := UInt8.not_le.mpr lt
    have e3 : ¬ (0xE0 ≤ x) := UInt8.not_le.mpr (UInt8.lt_trans lt (by decide))
    have e4 : ¬ (0xF0 ≤ x) := UInt8.not_le.mpr (UInt8.lt_trans lt (by decide))
    match t with
    | [] => simp [runeLen, e1] at h
    | [b] => simp [runeLen, e1, e2] at h
    | [b, c] => simp [runeLen, e1, e2, e3] at h
    | b :: c :: d :: r => simp [runeLen, e1, e2, e3, e4] at h

theorem valid_trimLeft (n : Nat) : ∀ s : Bytes, ValidUtf8 s → ValidUtf8 (trimLeftF n s) := by
  induction n with
  | zero => intro s h; exact h
  | succ n ih =>
    intro s h
    unfold trimLeftF
    split
    · exact h
    · rename_i hs
      exact ih _ ((valid_drop_rune (spaceLen_rune hs)).mp h)

theorem valid_cut {s : Bytes} {j n : Nat} (h : ValidUtf8 s) (hj : j ≤ s.length) (hs : spaceLen (s.drop (s.length - j)) = n)
    (hn : n ≠ 0) : ValidUtf8 (s.take (s.length - j)) := by
  have hr := spaceLen_rune (s := s.drop (s.length - j)) (by rw [hs]; exact hn)
  have hv : ValidUtf8 (s.take (s.length - j) ++ s.drop (s.length - j)) := by rwa [List.take_append_drop]
  refine (valid_split _ _ _ (Nat.le_refl _) hv ?_).1
  intro x hx
  cases hd : s.drop (s.length - j) with
  | nil => rw [hd] at hx; simp at hx
  | cons y t =>
    rw [hd] at hx hr
    simp only [List.head?_cons, Option.some.injEq] at hx
    subst hx
    exact runeLen_head hr

theorem valid_trimRight (n : Nat) : ∀ s : Bytes, ValidUtf8 s → ValidUtf8 (trimRightF n s) := by
  induction n with
  | zero => intro s h; exact h
  | succ n ih =>
    intro s h
    unfold trimRightF
    split
    · exact h
    · rename_i hs
      apply ih
      unfold spaceLenBack at hs ⊢
      split at hs
      · rename_i h1
        simp only [h1, if_true]
        simp only [Bool.and_eq_true, decide_eq_true_eq, beq_iff_eq] at h1
        exact valid_cut h (by omega) h1.2 (by decide)
      · split at hs
        · rename_i h1 h2
          rw [if_neg h1, if_pos h2]
          simp only [Bool.and_eq_true, decide_eq_true_eq, beq_iff_eq] at h2
          exact valid_cut h (by omega) h2.2 (by decide)
        · split at hs
          · rename_i h1 h2 h3
            rw [if_neg h1, if_neg h2, if_pos h3]
            simp only [Bool.and_eq_true, decide_eq_true_eq, beq_iff_eq] at h3
            exact valid_cut h (by omega) h3.2 (by decide)
          · simp at hs

theorem valid_trimSpace {s : Bytes} (h : ValidUtf8 s) : ValidUtf8 (trimSpace s) :=
  valid_trimRight _ _ (valid_trimLeft _ _ h)

theorem valid_splitEq {s k v : Bytes} (h : ValidUtf8 s) (hs : splitEq s = some (k, v)) : ValidUtf8 k ∧ ValidUtf8 v := by
  unfold splitEq at hs
  split at hs
  · rename_i hm
    simp only [Option.some.injEq, Prod.mk.injEq] at hs
    obtain ⟨rfl, rfl⟩ := hs
    have e : ∃ t, s.dropWhile (fun x => decide (x ≠ 61)) = 61 :: t := by
      clear h
      induction s with
      | nil => simp at hm
      | cons a s ih =>
        by_cases ha : a = 61
        · subst ha; exact ⟨s, by simp⟩
        · rcases List.mem_cons.mp hm with h | h
          · exact absurd h.symm ha
          · obtain ⟨t, ht⟩ := ih h
            exact ⟨t, by rw [List.dropWhile_cons_of_pos (by simpa using ha)]; exact ht⟩
    obtain ⟨t, ht⟩ := e
    have hv : ValidUtf8 (s.takeWhile (fun x => decide (x ≠ 61)) ++ s.dropWhile (fun x => decide (x ≠ 61))) := by
      rwa [List.takeWhile_append_dropWhile]
    have := valid_split _ _ _ (Nat.le_refl _) hv (by rw [ht]; intro x hx; simp at hx; subst hx; rfl)
    refine ⟨this.1, ?_⟩
    have h2 := this.2
    rw [ht] at h2 ⊢
    exact (valid_drop_rune (s := 61 :: t) (k := 1) rfl).mp h2
  · simp at hs

end Verif.Proofs.Strings
