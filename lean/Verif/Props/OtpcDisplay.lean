import Verif.Model.OtpcDisplay
/-! How current the codes displayed by otpc are (C111, C112). -/

namespace Verif.Props.OtpcDisplay
open Verif Verif.Go Verif.Model.OtpcDisplay

/-- The last of the times, or the one given. -/
def lastOr (last : Nat) (l : List Nat) : Nat := l.getLast?.getD last

theorem lastOr_cons (a t : Nat) (l : List Nat) : lastOr a (t :: l) = lastOr t l := by
  cases l with
  | nil => rfl
  | cons b r => simp only [lastOr, List.getLast?_cons_cons]; rw [List.getLast?_cons]; rfl

theorem gtotp_ge (late : Nat → Nat) (n : Nat) : ∀ k t p, p ∈ gtotpLoop late n k t → t ≤ p := by
  induction n with
  | zero => intro k t p h; simp [gtotpLoop] at h
  | succ n ih =>
    intro k t p h
    rw [gtotpLoop] at h
    split at h
    · rcases List.mem_cons.mp h with rfl | h
      · exact Nat.le_refl _
      · have := ih _ _ _ h; omega
    · have := ih _ _ _ h; omega

theorem second_iff (t : Nat) : (second t = 0 ∨ second t = 30) ↔ t % 30000 < 1000 := by
  unfold second
  omega

theorem gtotp_exact (late : Nat → Nat) (hl : ∀ k, late k = 0) (T : Nat) (hT : 1000 ≤ T % 30000) (n : Nat) :
    ∀ k t last, t ≤ T → T - t < n * 1000 → (t % 30000 < 1000 ∨ last / 30000 = t / 30000) →
      lastOr last ((gtotpLoop late n k t).filter (· ≤ T)) / 30000 = T / 30000 := by
  induction n with
  | zero => intro k t last h1 h2; omega
  | succ n ih =>
    intro k t last h1 h2 h3
    have none_later : ∀ t2, T < t2 → (gtotpLoop late n (k + 1) t2).filter (· ≤ T) = [] := by
      intro t2 ht
      rw [List.filter_eq_nil_iff]
      intro p hp
      have := gtotp_ge late n _ _ p hp
      simp only [decide_eq_true_eq]
      omega
    rw [gtotpLoop]
    by_cases hs : second t = 0 ∨ second t = 30
    · rw [if_pos hs, List.filter_cons_of_pos (by simpa using h1), lastOr_cons, hl]
      rw [second_iff] at hs
      by_cases h4 : t + 30000 + 0 ≤ T
      · exact ih _ _ _ h4 (by omega) (Or.inl (by omega))
      · rw [none_later _ (by omega)]
        simp only [lastOr, List.getLast?_nil, Option.getD_none]
        omega
    · rw [if_neg hs, hl]
      rw [second_iff] at hs
      have h5 := h3.resolve_left hs
      by_cases h4 : t + 1000 + 0 ≤ T
      · refine ih _ _ _ h4 (by omega) ?_
        by_cases h6 : (t + 1000 + 0) % 30000 < 1000
        · exact Or.inl h6
        · right; omega
      · rw [none_later _ (by omega)]
        simp only [lastOr, List.getLast?_nil, Option.getD_none]
        omega

/-- The time whose code is on the screen at time `T`. -/
def onScreen (l : List Nat) (T : Nat) : Option Nat := (l.filter (· ≤ T)).getLast?

/-- When every wait takes exactly as long as asked for, the code on the screen is the current one,
except possibly during the first second of a period. Missing from the property: waits that take
longer, as waits do. -/
theorem C111_exact_partial (late : Nat → Nat) (hl : ∀ k, late k = 0) (t T turns : Nat) (hT : t ≤ T) (h1 : 1000 ≤ T % 30000)
    (hn : T - t < turns * 1000) : ∃ p, onScreen (printGTOTP late turns t) T = some p ∧ p ≤ T ∧ p / 30000 = T / 30000 := by
  have := gtotp_exact late hl T h1 turns 0 t t hT hn (Or.inr rfl)
  refine ⟨lastOr t ((gtotpLoop late turns 0 t).filter (· ≤ T)), ?_, ?_, this⟩
  · unfold onScreen printGTOTP lastOr
    rw [List.filter_cons_of_pos (by simpa using hT), List.getLast?_cons]
  · unfold lastOr
    cases hg : ((gtotpLoop late turns 0 t).filter (· ≤ T)).getLast? with
    | none => exact hT
    | some p =>
      have := List.mem_of_getLast? hg
      simpa using (List.mem_filter.mp this).2

/-- Started at second 12, otpc has the right code on the screen at second 47. -/
example : onScreen (printGTOTP (fun _ => 0) 100 12345) 47000 = some 30345 := by decide

/-- One wait ends a millisecond late, and for the whole of the next period the code on the screen
is the old one. -/
theorem C111_late_violated : ∃ (late : Nat → Nat) (t : Nat), (∀ k, late k ≤ 1) ∧
    ∀ T, 30000 ≤ T → T < 60000 → ∀ turns, ∃ p, onScreen (printGTOTP late turns t) T = some p ∧ p / 30000 ≠ T / 30000 := by
  refine ⟨fun k => if k = 0 then 1 else 0, 29999, fun k => by dsimp only; split <;> omega, fun T h1 h2 turns => ⟨29999, ?_, by omega⟩⟩
  have key : ∀ n k t, 1 ≤ k → 31000 ≤ t → t % 1000 = 0 → ∀ p ∈ gtotpLoop (fun k => if k = 0 then 1 else 0) n k t, 60000 ≤ p := by
    intro n
    induction n with
    | zero => intro k t _ _ _ p hp; simp [gtotpLoop] at hp
    | succ n ih =>
      intro k t hk ht hm p hp
      have hk0 : (if k = 0 then 1 else 0) = 0 := if_neg (by omega)
      rw [gtotpLoop, hk0] at hp
      split at hp
      · rename_i hs
        rw [second_iff] at hs
        rcases List.mem_cons.mp hp with rfl | hp
        · omega
        · exact ih _ _ (by omega) (by omega) (by omega) p hp
      · exact ih _ _ (by omega) (by omega) (by omega) p hp
  have hnil : (gtotpLoop (fun k => if k = 0 then 1 else 0) turns 0 29999).filter (· ≤ T) = [] := by
    rw [List.filter_eq_nil_iff]
    intro p hp
    cases turns with
    | zero => simp [gtotpLoop] at hp
    | succ n =>
      rw [gtotpLoop, if_neg (by decide)] at hp
      have := key n 1 31000 (Nat.le_refl _) (Nat.le_refl _) rfl p hp
      simp only [decide_eq_true_eq]
      omega
  unfold onScreen printGTOTP
  rw [List.filter_cons_of_pos (by simp only [decide_eq_true_eq]; omega), hnil]
  rfl

/-! ### printTOTP -/

/-- The code on the screen at time `T`. -/
def codeOnScreen (l : List (Nat × Bytes)) (T : Nat) : Option Bytes := ((l.filter (·.1 ≤ T)).getLast?).map Prod.snd

theorem totp_ge (code : Nat → Bytes) (late : Nat → Nat) (n : Nat) : ∀ k t last p, p ∈ totpLoop code late n k t last → t ≤ p.1 := by
  induction n with
  | zero => intro k t last p h; simp [totpLoop] at h
  | succ n ih =>
    intro k t last p h
    rw [totpLoop] at h
    split at h
    · rcases List.mem_cons.mp h with rfl | h
      · exact Nat.le_refl _
      · have := ih _ _ _ _ h; omega
    · have := ih _ _ _ _ h; omega

def codeOr (last : Bytes) (l : List (Nat × Bytes)) : Bytes := (l.getLast?.map Prod.snd).getD last

theorem codeOr_cons (a : Bytes) (x : Nat × Bytes) (l : List (Nat × Bytes)) : codeOr a (x :: l) = codeOr x.2 l := by
  cases l with
  | nil => rfl
  | cons b r => simp only [codeOr, List.getLast?_cons_cons]; rw [List.getLast?_cons]; rfl

theorem totp_current (code : Nat → Bytes) (late : Nat → Nat) (d : Nat) (hl : ∀ k, late k ≤ d) (T : Nat) (n : Nat) :
    ∀ k t last, t ≤ T → T - t < n * 1000 →
      ∃ p, t ≤ p ∧ p ≤ T ∧ T < p + 1000 + d ∧ codeOr last ((totpLoop code late n k t last).filter (·.1 ≤ T)) = code p := by
  induction n with
  | zero => intro k t last h1 h2; omega
  | succ n ih =>
    intro k t last h1 h2
    have none_later : ∀ t2 last, T < t2 → (totpLoop code late n (k + 1) t2 last).filter (·.1 ≤ T) = [] := by
      intro t2 last ht
      rw [List.filter_eq_nil_iff]
      intro p hp
      have := totp_ge code late n _ _ _ p hp
      simp only [decide_eq_true_eq]
      omega
    have rest : ∃ p, t ≤ p ∧ p ≤ T ∧ T < p + 1000 + d ∧
        codeOr (code t) ((totpLoop code late n (k + 1) (t + 1000 + late k) (code t)).filter (·.1 ≤ T)) = code p := by
      by_cases h4 : t + 1000 + late k ≤ T
      · obtain ⟨p, q1, q2, q3, q4⟩ := ih (k + 1) (t + 1000 + late k) (code t) h4 (by omega)
        exact ⟨p, by omega, q2, q3, q4⟩
      · have := hl k
        refine ⟨t, Nat.le_refl _, h1, by omega, ?_⟩
        rw [none_later _ _ (by omega)]
        rfl
    rw [totpLoop]
    by_cases hc : code t ≠ last
    · rw [if_pos hc, List.filter_cons_of_pos (by simpa using h1), codeOr_cons]
      exact rest
    · rw [if_neg hc]
      have hc : code t = last := Decidable.not_not.mp hc
      rw [← hc]
      exact rest

/-- `printTOTP` is at most a second behind, and as much more as a wait may take too long. -/
theorem C112_current (code : Nat → Bytes) (late : Nat → Nat) (d : Nat) (hl : ∀ k, late k ≤ d) (t T turns : Nat) (hT : t ≤ T)
    (hn : T - t < turns * 1000) :
    ∃ p, t ≤ p ∧ p ≤ T ∧ T < p + 1000 + d ∧ codeOnScreen (printTOTP code late turns t) T = some (code p) := by
  obtain ⟨p, h1, h2, h3, h4⟩ := totp_current code late d hl T turns 0 t (code t) hT hn
  refine ⟨p, h1, h2, h3, ?_⟩
  unfold codeOnScreen printTOTP
  rw [List.filter_cons_of_pos (by simpa using hT), List.getLast?_cons, ← h4]
  unfold codeOr
  cases ((totpLoop code late turns 0 t (code t)).filter (·.1 ≤ T)).getLast? <;> rfl

/-- Waits up to 20 ms too long. -/
example : codeOnScreen (printTOTP (fun t => [UInt8.ofNat (t / 30000)]) (fun k => k % 21) 20 12345) 31999 = some [1] := by decide

end Verif.Props.OtpcDisplay
