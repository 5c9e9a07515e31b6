import Verif.Go.Strings
/-! Words and the spaces between them: `strings.Fields` (Go/Strings). -/

namespace Verif.Proofs.Fields
open Verif Verif.Go

/-- Not empty, and no white space in it. -/
def Word (w : Bytes) : Prop := w ≠ [] ∧ ∀ t, t <:+ w → spaceLen t = 0

/-- Tab, newline or space. -/
def Blank (c : UInt8) : Prop := c = 9 ∨ c = 10 ∨ c = 32

theorem spaceLen_le (s : Bytes) : spaceLen s ≤ s.length := by
  match s with
  | [] => simp [spaceLen]
  | [a] => unfold spaceLen; dsimp only; split <;> simp
  | [a, b] => unfold spaceLen; dsimp only; simp only [List.length_cons, List.length_nil]; repeat' split
              all_goals omega
  | a :: b :: c :: r =>
    unfold spaceLen
    dsimp only
    simp only [List.length_cons]
    repeat' split
    all_goals omega

theorem spaceLen_blank {c : UInt8} (h : Blank c) (s : Bytes) : spaceLen (c :: s) = 1 := by
  rcases h with rfl | rfl | rfl <;> · unfold spaceLen; dsimp only; rw [if_pos (by decide)]

/-- What comes after a word does not make it white space. -/
theorem spaceLen_append {w : Bytes} (hw : w ≠ []) (h : spaceLen w = 0) {c : UInt8} (hc : Blank c) (s : Bytes) : spaceLen (w ++ c :: s) = 0 := by
  match w, hw with
  | [a], _ =>
    unfold spaceLen at h
    dsimp only at h
    have h1 : ¬ (a == 0x20 || (0x09 ≤ a && a ≤ 0x0D)) = true := by
      intro h1; rw [if_pos h1] at h; cases h
    have e : spaceLen (a :: c :: s) = 0 := by
      unfold spaceLen
      dsimp only
      rw [if_neg h1]
      rcases hc with rfl | rfl | rfl
      all_goals
        rw [if_neg (by simp)]
        cases s with
        | nil => rfl
        | cons d s =>
          dsimp only
          simp
    exact e
  | [a, b], _ =>
    have e : spaceLen (a :: b :: c :: s) = 0 := by
      unfold spaceLen at h ⊢
      dsimp only at h ⊢
      have h1 : ¬ (a == 0x20 || (0x09 ≤ a && a ≤ 0x0D)) = true := by
        intro h1; rw [if_pos h1] at h; cases h
      rw [if_neg h1] at h ⊢
      have h2 : ¬ (a == 0xC2 && (b == 0x85 || b == 0xA0)) = true := by
        intro h2; rw [if_pos h2] at h; cases h
      rw [if_neg h2]
      rcases hc with rfl | rfl | rfl <;> simp
    exact e
  | a :: b :: d :: r, _ =>
    have e : spaceLen (a :: b :: d :: (r ++ c :: s)) = spaceLen (a :: b :: d :: r) := by unfold spaceLen; rfl
    exact e.trans h

/-- Enough fuel is enough. -/
theorem fieldsF_fuel (n : Nat) : ∀ (cur s : Bytes) (k : Nat), s.length < n → s.length < k → fieldsF n cur s = fieldsF k cur s := by
  induction n with
  | zero => intro cur s k h; omega
  | succ n ih =>
    intro cur s k h hk
    obtain ⟨k, rfl⟩ : ∃ j, k = j + 1 := ⟨k - 1, by omega⟩
    cases s with
    | nil => rfl
    | cons b s =>
      simp only [List.length_cons] at h hk
      rw [fieldsF, fieldsF]
      split
      · exact ih _ _ _ (by omega) (by omega)
      · rename_i h0
        have : ((b :: s).drop (spaceLen (b :: s))).length < s.length + 1 := by
          rw [List.length_drop, List.length_cons]; omega
        rw [ih [] _ k (by omega) (by omega)]

theorem fields_nil : fields [] = [] := rfl

theorem fields_blank {c : UInt8} (h : Blank c) (s : Bytes) : fields (c :: s) = fields s := by
  unfold fields
  rw [List.length_cons, fieldsF, spaceLen_blank h, if_neg (by simp), if_pos rfl]
  rfl

theorem fields_blanks {c : UInt8} (h : Blank c) (n : Nat) (s : Bytes) : fields (List.replicate n c ++ s) = fields s := by
  induction n with
  | zero => rfl
  | succ n ih => rw [List.replicate_succ, List.cons_append, fields_blank h, ih]

theorem fieldsF_word (n : Nat) (c : UInt8) (hc : Blank c) (s : Bytes) : ∀ (w cur : Bytes), (∀ t, t <:+ w → spaceLen t = 0) → cur.reverse ++ w ≠ [] → w.length + 1 + s.length < n →
    fieldsF n cur (w ++ c :: s) = (cur.reverse ++ w) :: fields s := by
  induction n with
  | zero => intro w cur _ _ h; omega
  | succ n ih =>
    intro w cur hw hne hn
    cases w with
    | nil =>
      rw [List.nil_append, fieldsF, spaceLen_blank hc, if_neg (by simp)]
      have : cur ≠ [] := by simpa using hne
      rw [if_neg this, List.append_nil]
      simp only [List.length_nil] at hn
      show [cur.reverse] ++ fieldsF n [] s = _
      rw [fieldsF_fuel n [] s (s.length + 1) (by omega) (by omega)]
      rfl
    | cons a w =>
      simp only [List.length_cons] at hn
      have h0 : spaceLen (a :: w ++ c :: s) = 0 := spaceLen_append (by simp) (hw _ (List.suffix_refl _)) hc s
      rw [List.cons_append] at h0 ⊢
      rw [fieldsF, if_pos h0, ih w (a :: cur) (fun t ht => hw t (ht.trans (List.suffix_cons _ _))) (by simp) (by omega)]
      simp

/-- A word that is followed by a blank. -/
theorem fields_word {w : Bytes} (h : Word w) {c : UInt8} (hc : Blank c) (s : Bytes) : fields (w ++ c :: s) = w :: fields s := by
  unfold fields
  rw [fieldsF_word _ c hc s w [] h.2 (by simpa using h.1) (by rw [List.length_append, List.length_cons]; omega)]
  rfl

/-- White space is white space whatever comes after it. -/
theorem spaceLen_more {t : Bytes} (h : spaceLen t ≠ 0) (r : Bytes) : spaceLen (t ++ r) = spaceLen t := by
  match t with
  | [] => exact absurd rfl h
  | [a] =>
    unfold spaceLen at h ⊢
    simp only [List.cons_append, List.nil_append]
    dsimp only at h ⊢
    split
    · rfl
    · rename_i h1; rw [if_neg h1] at h; exact absurd rfl h
  | [a, b] =>
    unfold spaceLen at h ⊢
    simp only [List.cons_append, List.nil_append]
    dsimp only at h ⊢
    split
    · rfl
    · rename_i h1
      rw [if_neg h1] at h
      split
      · rfl
      · rename_i h2; rw [if_neg h2] at h; exact absurd rfl h
  | a :: b :: c :: r' => rfl

theorem suffix_snoc {t w : Bytes} {b : UInt8} (h : t <:+ w ++ [b]) : t = [] ∨ ∃ u, t = u ++ [b] ∧ u <:+ w := by
  obtain ⟨p, hp⟩ := h
  rcases List.eq_nil_or_concat t with h | ⟨u, c, h⟩
  · exact .inl h
  · rw [h, List.concat_eq_append, ← List.append_assoc] at hp
    obtain ⟨h1, h2⟩ := List.append_inj' hp rfl
    cases h2
    exact .inr ⟨u, by rw [h, List.concat_eq_append], p, h1⟩

theorem fieldsF_words (n : Nat) : ∀ (cur s : Bytes), s.length < n → (∀ t, t <:+ cur.reverse → t ≠ [] → spaceLen (t ++ s) = 0) → ∀ w ∈ fieldsF n cur s, Word w := by
  induction n with
  | zero => intro cur s h; omega
  | succ n ih =>
    intro cur s hn hcur
    have done : (∀ w ∈ (if cur = [] then [] else [cur.reverse]), Word w) := by
      intro w hw
      split at hw
      · cases hw
      · rename_i hne
        rw [List.mem_singleton.mp hw]
        refine ⟨by simpa using hne, fun t ht => ?_⟩
        by_cases h0 : t = []
        · rw [h0]; rfl
        · have := hcur t ht h0
          refine Decidable.byContradiction fun h1 => ?_
          rw [spaceLen_more h1] at this
          exact h1 this
    cases s with
    | nil => intro w hw; rw [fieldsF] at hw; exact done w hw
    | cons b s =>
      intro w hw
      simp only [List.length_cons] at hn
      rw [fieldsF] at hw
      split at hw
      · rename_i h0
        refine ih (b :: cur) s (by omega) ?_ w hw
        intro t ht hne
        rw [List.reverse_cons] at ht
        rcases suffix_snoc ht with h | ⟨u, h, hu⟩
        · exact absurd h hne
        · rw [h, List.append_assoc, List.singleton_append]
          by_cases h1 : u = []
          · rw [h1]; exact h0
          · exact hcur u hu h1
      · rcases List.mem_append.mp hw with h | h
        · exact done w h
        · refine ih [] _ ?_ ?_ w h
          · have := spaceLen_le (b :: s)
            simp only [List.length_drop, List.length_cons]; omega
          · intro t ht hne
            exact absurd (List.suffix_nil.mp ht) hne

/-- What strings.Fields returns are words. -/
theorem fields_words {s w : Bytes} (h : w ∈ fields s) : Word w :=
  fieldsF_words _ [] s (Nat.lt_succ_self _) (fun t ht hne => absurd (List.suffix_nil.mp ht) hne) w h

end Verif.Proofs.Fields
