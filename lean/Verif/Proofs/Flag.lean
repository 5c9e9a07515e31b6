import Verif.Spec.Flag
/-! `flag.Parse` reads command lines by the grammar. -/

namespace Verif.Proofs.Flag
open Verif Verif.Go Verif.Go.Flag Verif.Spec.Flag

/-- An equals sign and the value, if there is one. -/
def eqValue : Option Bytes → Bytes
  | none => []
  | some v => 61 :: v

theorem parseBool_iff (v : Bytes) (b : Bool) : parseBool v = some b ↔ Truth v b := by
  unfold parseBool Truth
  cases b with
  | true =>
    simp only [if_true]
    constructor
    · intro h
      split at h
      · assumption
      · split at h <;> simp at h
    · intro h
      exact if_pos h
  | false =>
    simp only [Bool.false_eq_true, if_false]
    constructor
    · intro h
      split at h
      · simp at h
      · split at h
        · assumption
        · simp at h
    · intro h
      have : v ∉ [ascii "1", ascii "t", ascii "T", ascii "TRUE", ascii "true", ascii "True"] := by
        simp only [List.map_cons, List.map_nil, List.mem_cons, List.not_mem_nil, or_false] at h
        rcases h with rfl | rfl | rfl | rfl | rfl | rfl <;> decide
      rw [if_neg this]
      exact if_pos h

theorem convert_iff (dur : Bytes → Option Int) (k : Kind) (v : Bytes) (x : Val) : convert dur k v = some x ↔ Text dur k v x := by
  cases k with
  | bool =>
    simp only [convert, Option.map_eq_some_iff]
    constructor
    · rintro ⟨b, h, rfl⟩; exact .bool ((parseBool_iff v b).mp h)
    · rintro (@⟨v, b, h⟩); exact ⟨b, (parseBool_iff v b).mpr h, rfl⟩
  | str =>
    simp only [convert, Option.some.injEq]
    constructor
    · rintro rfl; exact .str v
    · rintro ⟨⟩; rfl
  | dur =>
    simp only [convert, Option.map_eq_some_iff]
    constructor
    · rintro ⟨d, h, rfl⟩; exact .dur h
    · rintro (_ | _ | @⟨v, d, h⟩); exact ⟨d, h, rfl⟩

theorem cutEq_none {s : Bytes} (h : (61 : UInt8) ∉ s) : cutEq s = (s, none) := by
  induction s with
  | nil => rfl
  | cons b s ih =>
    simp only [List.mem_cons, not_or] at h
    rw [cutEq, if_neg (Ne.symm h.1), ih h.2]

theorem cutEq_some {n : Bytes} (v : Bytes) (h : (61 : UInt8) ∉ n) : cutEq (n ++ 61 :: v) = (n, some v) := by
  induction n with
  | nil => rfl
  | cons b s ih =>
    simp only [List.mem_cons, not_or] at h
    rw [List.cons_append, cutEq, if_neg (Ne.symm h.1), ih h.2]

theorem cutEq_inv (s : Bytes) : (61 : UInt8) ∉ (cutEq s).1 ∧
    s = (cutEq s).1 ++ eqValue (cutEq s).2 := by
  induction s with
  | nil => simp [cutEq, eqValue]
  | cons b s ih =>
    rw [cutEq]
    split
    · rename_i h; subst h; simp [eqValue]
    · rename_i h
      exact ⟨by simp only [List.mem_cons, not_or]; exact ⟨Ne.symm h, ih.1⟩, by simp only [List.cons_append, List.cons.injEq, true_and]; exact ih.2⟩

theorem nameOf_flag {n : Bytes} (h : Name n) : nameOf n = .flag n none := by
  obtain ⟨h1, h2, h3⟩ := h
  cases n with
  | nil => exact absurd rfl h1
  | cons b s =>
    simp only [List.mem_cons, not_or] at h2
    simp only [List.head?_cons, ne_eq, Option.some.injEq] at h3
    rw [nameOf, if_neg (by rintro (h | h); exact h3 h; exact h2.1 h.symm), cutEq_none h2.2]

theorem nameOf_joined {n : Bytes} (v : Bytes) (h : Name n) : nameOf (n ++ 61 :: v) = .flag n (some v) := by
  obtain ⟨h1, h2, h3⟩ := h
  cases n with
  | nil => exact absurd rfl h1
  | cons b s =>
    simp only [List.mem_cons, not_or] at h2
    simp only [List.head?_cons, ne_eq, Option.some.injEq] at h3
    rw [List.cons_append, nameOf, if_neg (by rintro (h | h); exact h3 h; exact h2.1 h.symm), cutEq_some v h2.2]

theorem nameOf_inv {s n : Bytes} {v : Option Bytes} (h : nameOf s = .flag n v) :
    Name n ∧ s = n ++ eqValue v := by
  cases s with
  | nil => simp [nameOf] at h
  | cons b s =>
    rw [nameOf] at h
    split at h
    · cases h
    · rename_i hb
      cases h
      have := cutEq_inv s
      refine ⟨⟨by simp, ?_, ?_⟩, ?_⟩
      · simp only [List.mem_cons, not_or]
        exact ⟨fun h => hb (Or.inr h.symm), this.1⟩
      · simp only [List.head?_cons, ne_eq, Option.some.injEq]
        exact fun h => hb (Or.inl h)
      · simp only [List.cons_append, List.cons.injEq, true_and]
        exact this.2

theorem nameOf_ne_arg (s : Bytes) : nameOf s ≠ .arg ∧ nameOf s ≠ .stop := by
  cases s with
  | nil => simp [nameOf]
  | cons b s => rw [nameOf]; split <;> simp

theorem word_dashes {d s : Bytes} (hd : Dashes d) (hs : s ≠ []) (hh : s.head? ≠ some 45) : word (d ++ s) = nameOf s := by
  cases s with
  | nil => exact absurd rfl hs
  | cons b s =>
    simp only [List.head?_cons, ne_eq, Option.some.injEq] at hh
    rcases hd with rfl | rfl
    · show word (45 :: b :: s) = _
      unfold word
      split
      · rename_i h; cases h; exact absurd rfl hh
      · rename_i h; cases h; exact absurd rfl hh
      · rename_i h; cases h; rfl
      · rename_i h; exact absurd rfl (h _ _)
    · rfl

theorem word_arg {s : Bytes} : word s = .arg ↔ Plain s := by
  unfold word
  split
  · simp only [reduceCtorEq, false_iff]
    rintro (h | h)
    · exact absurd h (by decide)
    · exact h rfl
  · rename_i s _
    constructor
    · intro h; exact absurd h (nameOf_ne_arg _).1
    · rintro (h | h)
      · cases h
      · exact absurd rfl h
  · rename_i b s _
    constructor
    · intro h; exact absurd h (nameOf_ne_arg _).1
    · rintro (h | h)
      · cases h
      · exact absurd rfl h
  · rename_i h1 h2 h3
    simp only [true_iff]
    cases s with
    | nil => exact Or.inr (by simp)
    | cons b s =>
      by_cases hb : b = 45
      · subst hb
        cases s with
        | nil => exact Or.inl rfl
        | cons c s => exact absurd rfl (h3 c s)
      · exact Or.inr (by simpa using hb)

theorem word_stop {s : Bytes} : word s = .stop ↔ s = ascii "--" := by
  constructor
  · intro h
    unfold word at h
    split at h
    · rfl
    · exact absurd h (nameOf_ne_arg _).2
    · exact absurd h (nameOf_ne_arg _).2
    · cases h
  · rintro rfl; rfl

theorem word_inv {s n : Bytes} {v : Option Bytes} (h : word s = .flag n v) :
    ∃ d, Dashes d ∧ Name n ∧ s = d ++ n ++ eqValue v := by
  unfold word at h
  split at h
  · cases h
  · obtain ⟨h1, h2⟩ := nameOf_inv h
    exact ⟨ascii "--", Or.inr rfl, h1, by rw [h2]; rfl⟩
  · obtain ⟨h1, h2⟩ := nameOf_inv h
    exact ⟨ascii "-", Or.inl rfl, h1, by rw [h2]; rfl⟩
  · cases h

variable {dur : Bytes → Option Int} {decl : Bytes → Option Kind}

theorem word_on {d n : Bytes} (hd : Dashes d) (hn : Name n) : word (d ++ n) = .flag n none := by
  rw [word_dashes hd hn.1 hn.2.2, nameOf_flag hn]

theorem word_joined {d n : Bytes} (v : Bytes) (hd : Dashes d) (hn : Name n) : word (d ++ n ++ ascii "=" ++ v) = .flag n (some v) := by
  have hj := nameOf_joined v hn
  have : d ++ n ++ ascii "=" ++ v = d ++ (n ++ 61 :: v) := by
    rw [show ascii "=" = [61] by decide, List.append_assoc, List.append_assoc]; rfl
  rw [this, word_dashes hd (by cases n <;> simp) ?_, hj]
  cases n with
  | nil => exact absurd rfl hn.1
  | cons b s => exact hn.2.2

/-- What is read by the grammar is what `flag.Parse` gives. -/
theorem parse_of_reads {argv : List Bytes} {s : List (Bytes × Val)} {as : List Bytes} (h : Reads dur decl argv s as) :
    parse dur decl argv = some (s, as) := by
  induction h with
  | nil => rfl
  | args h => rw [parse, word_arg.mpr h]
  | stop => rw [parse, word_stop.mpr rfl]
  | on hd hn hk _ ih =>
    unfold parse
    rw [word_on hd hn]
    simp only [hk, Option.getD_none]
    rw [show parseBool (ascii "true") = some true by decide, ih]
    rfl
  | @joined d n k v x argv s as hd hn hk ht _ ih =>
    have hc := (convert_iff dur k v x).mpr ht
    unfold parse
    rw [word_joined v hd hn]
    cases k with
    | bool =>
      simp only [hk, Option.getD_some]
      simp only [convert, Option.map_eq_some_iff] at hc
      obtain ⟨b, hb, rfl⟩ := hc
      rw [hb, ih]
      rfl
    | str => simp only [hk]; rw [hc, ih]; rfl
    | dur => simp only [hk]; rw [hc, ih]; rfl
  | @apart d n k v x argv s as hd hn hk hb ht _ ih =>
    have hc := (convert_iff dur k v x).mpr ht
    unfold parse
    rw [word_on hd hn]
    cases k with
    | bool => exact absurd rfl hb
    | str => simp only [hk]; rw [hc, ih]; rfl
    | dur => simp only [hk]; rw [hc, ih]; rfl

/-- What `flag.Parse` gives is read by the grammar. -/
theorem reads_of_parse : ∀ (m : Nat) {argv : List Bytes} {s : List (Bytes × Val)} {as : List Bytes}, argv.length ≤ m →
    parse dur decl argv = some (s, as) → Reads dur decl argv s as := by
  intro m
  induction m with
  | zero =>
    intro argv s as hl h
    cases argv with
    | nil => cases h; exact .nil
    | cons a argv => simp at hl
  | succ m ih =>
    intro argv s as hl h
    cases argv with
    | nil => cases h; exact .nil
    | cons a argv =>
      simp only [List.length_cons] at hl
      unfold parse at h
      cases hw : word a with
      | arg => rw [hw] at h; cases h; exact .args (word_arg.mp hw)
      | stop => rw [hw] at h; cases h; rw [word_stop.mp hw]; exact .stop
      | bad => rw [hw] at h; cases h
      | flag n v =>
        rw [hw] at h
        obtain ⟨d, hd, hn, ha⟩ := word_inv hw
        cases hk : decl n with
        | none => simp [hk] at h
        | some k =>
          cases v with
          | some v =>
            have key : ∃ x p, convert dur k v = some x ∧ parse dur decl argv = some p ∧ s = (n, x) :: p.1 ∧ as = p.2 := by
              cases k with
              | bool =>
                simp only [hk, Option.getD_some] at h
                split at h
                · cases h
                · rename_i b hb
                  simp only [Option.map_eq_some_iff] at h
                  obtain ⟨p, hp, hq⟩ := h
                  cases hq
                  exact ⟨_, p, by simp only [convert, hb, Option.map_some], hp, rfl, rfl⟩
              | str =>
                simp only [hk] at h
                split at h
                · cases h
                · rename_i x hx
                  simp only [Option.map_eq_some_iff] at h
                  obtain ⟨p, hp, hq⟩ := h
                  cases hq
                  exact ⟨_, p, hx, hp, rfl, rfl⟩
              | dur =>
                simp only [hk] at h
                split at h
                · cases h
                · rename_i x hx
                  simp only [Option.map_eq_some_iff] at h
                  obtain ⟨p, hp, hq⟩ := h
                  cases hq
                  exact ⟨_, p, hx, hp, rfl, rfl⟩
            obtain ⟨x, p, hx, hp, rfl, rfl⟩ := key
            have : a = d ++ n ++ ascii "=" ++ v := by
              rw [ha, show ascii "=" = [61] by decide]; simp [eqValue]
            rw [this]
            exact .joined hd hn hk ((convert_iff dur k v x).mp hx) (ih (by omega) hp)
          | none =>
            have ha' : a = d ++ n := by rw [ha]; simp [eqValue]
            cases k with
            | bool =>
              simp only [hk, Option.getD_none] at h
              rw [show parseBool (ascii "true") = some true by decide] at h
              simp only [Option.map_eq_some_iff] at h
              obtain ⟨p, hp, hq⟩ := h
              cases hq
              rw [ha']
              exact .on hd hn hk (ih (by omega) hp)
            | str =>
              cases argv with
              | nil => simp [hk] at h
              | cons v argv =>
                simp only [List.length_cons] at hl
                simp only [hk] at h
                split at h
                · cases h
                · rename_i x hx
                  simp only [Option.map_eq_some_iff] at h
                  obtain ⟨p, hp, hq⟩ := h
                  cases hq
                  rw [ha']
                  exact .apart hd hn hk (by simp) ((convert_iff dur _ v x).mp hx) (ih (by omega) hp)
            | dur =>
              cases argv with
              | nil => simp [hk] at h
              | cons v argv =>
                simp only [List.length_cons] at hl
                simp only [hk] at h
                split at h
                · cases h
                · rename_i x hx
                  simp only [Option.map_eq_some_iff] at h
                  obtain ⟨p, hp, hq⟩ := h
                  cases hq
                  rw [ha']
                  exact .apart hd hn hk (by simp) ((convert_iff dur _ v x).mp hx) (ih (by omega) hp)

theorem parse_iff {argv : List Bytes} {s : List (Bytes × Val)} {as : List Bytes} :
    parse dur decl argv = some (s, as) ↔ Reads dur decl argv s as :=
  ⟨reads_of_parse _ (Nat.le_refl _), parse_of_reads⟩

end Verif.Proofs.Flag
