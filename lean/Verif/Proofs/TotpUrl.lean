import Verif.Model.TotpUrl
import Verif.Spec.TotpUrl
import Verif.Proofs.Auth
/-! Lemmas about the URLs of common/auth/totp.go. -/

namespace Verif.Proofs.TotpUrl
open Verif Verif.Go Verif.Model.Auth Verif.Spec.TotpUrl

theorem hexVal_upper (n : Nat) (h : n < 16) : hexVal (upperHex n) = some n := by
  have : ∀ n, n < 16 → hexVal (upperHex n) = some n := by decide
  exact this n h

theorem pctDecode_cons (c : UInt8) (r : Bytes) (h : c ≠ 37) :
    pctDecode (c :: r) = (pctDecode r).map (c :: ·) := by
  match r with
  | [] => simp [pctDecode, Ne.symm h]
  | [a] =>
    by_cases ha : a = 37
    · simp [pctDecode, ha]
    · simp [pctDecode, Ne.symm h, Ne.symm ha]
  | a :: b :: r => rw [pctDecode, if_neg h]

theorem pctDecode_pct (c : UInt8) (r : Bytes) :
    pctDecode (pct c ++ r) = (pctDecode r).map (c :: ·) := by
  unfold pct
  have hc := c.toNat_lt
  rw [List.cons_append, List.cons_append, List.cons_append, List.nil_append, pctDecode, if_pos rfl,
    hexVal_upper _ (by omega), hexVal_upper _ (by omega)]
  have : UInt8.ofNat (16 * (c.toNat / 16) + c.toNat % 16) = c := by
    rw [Nat.div_add_mod]; exact UInt8.ofNat_toNat
  cases pctDecode r <;> simp [this]

theorem pctDecode_flatMap (f : UInt8 → Bytes) (hf : ∀ c, (f c = [c] ∧ c ≠ 37) ∨ f c = pct c) (b : Bytes) :
    pctDecode (b.flatMap f) = some b := by
  induction b with
  | nil => simp [pctDecode]
  | cons c b ih =>
    rw [List.flatMap_cons]
    rcases hf c with ⟨h1, h2⟩ | h1
    · rw [h1, List.singleton_append, pctDecode_cons _ _ h2, ih]; rfl
    · rw [h1, pctDecode_pct, ih]; rfl

theorem unreserved_ne {c : UInt8} (h : unreserved c = true) (d : UInt8)
    (hd : unreserved d = false) : c ≠ d := by
  rintro rfl; rw [h] at hd; cases hd

theorem pathSafe_ne {c : UInt8} (h : (unreserved c || pathSafe c) = true) (d : UInt8)
    (hd : (unreserved d || pathSafe d) = false) : c ≠ d := by
  rintro rfl; rw [h] at hd; cases hd

theorem pctDecode_path (b : Bytes) : pctDecode (escapedPath b) = some b := by
  unfold escapedPath
  split
  · rename_i h; subst h; decide
  · refine pctDecode_flatMap _ (fun c => ?_) b
    by_cases h : (unreserved c || pathSafe c) = true
    · simp only [h, if_true]
      exact Or.inl ⟨trivial, pathSafe_ne h 37 (by decide)⟩
    · simp only [h]
      exact Or.inr rfl

theorem upperHex_cases (n : Nat) (h : n < 16) : unreserved (upperHex n) = true := by
  have : ∀ n, n < 16 → unreserved (upperHex n) = true := by decide
  exact this n h

/-- What occurs in escaped text. -/
theorem mem_pct {c x : UInt8} (h : x ∈ pct c) : x = 37 ∨ unreserved x = true := by
  have hc := c.toNat_lt
  simp only [pct, List.mem_cons, List.not_mem_nil, or_false] at h
  rcases h with h | h | h
  · exact Or.inl h
  · exact Or.inr (h ▸ upperHex_cases _ (by omega))
  · exact Or.inr (h ▸ upperHex_cases _ (by omega))

theorem formDecode_query (b : Bytes) : formDecode (queryEscape b) = some b := by
  unfold formDecode queryEscape
  rw [List.map_flatMap]
  refine pctDecode_flatMap _ (fun c => ?_) b
  by_cases h : unreserved c = true
  · simp only [h, if_true, List.map_cons, List.map_nil, if_neg (unreserved_ne h 43 (by decide))]
    exact Or.inl ⟨trivial, unreserved_ne h 37 (by decide)⟩
  · simp only [h]
    by_cases h2 : (c == 32) = true
    · simp only [h2, if_true]
      exact Or.inl ⟨by simp_all, by intro h3; rw [h3] at h2; exact absurd h2 (by decide)⟩
    · simp only [h2]
      refine Or.inr ?_
      simp only [Bool.false_eq_true, if_false]
      refine (List.map_congr_left fun x hx => ?_).trans (List.map_id _)
      rcases mem_pct hx with h | h
      · subst h; rfl
      · simp [unreserved_ne h 43 (by decide)]

theorem mem_query {b : Bytes} {x : UInt8} (h : x ∈ queryEscape b) : x = 37 ∨ x = 43 ∨ unreserved x = true := by
  unfold queryEscape at h
  rw [List.mem_flatMap] at h
  obtain ⟨c, -, h⟩ := h
  split at h
  · simp only [List.mem_singleton] at h; subst h; rename_i h; exact Or.inr (Or.inr h)
  · split at h
    · simp only [List.mem_singleton] at h; exact Or.inr (Or.inl h)
    · rcases mem_pct h with h | h
      · exact Or.inl h
      · exact Or.inr (Or.inr h)

theorem query_ne {b : Bytes} (d : UInt8) (h1 : d ≠ 37) (h2 : d ≠ 43) (h3 : unreserved d = false) :
    d ∉ queryEscape b := by
  intro h
  rcases mem_query h with h | h | h
  · exact h1 h
  · exact h2 h
  · rw [h3] at h; cases h

theorem path_ne (b : Bytes) : (63 : UInt8) ∉ escapedPath b := by
  intro h
  unfold escapedPath at h
  split at h
  · rename_i hb; subst hb; exact absurd h (by decide)
  · rw [List.mem_flatMap] at h
    obtain ⟨c, -, h⟩ := h
    split at h
    · simp only [List.mem_singleton] at h; subst h; rename_i h; exact absurd h (by decide)
    · rcases mem_pct h with h | h
      · exact absurd h (by decide)
      · exact absurd h (by decide)

theorem cut_append {sep : UInt8} {a : Bytes} (h : sep ∉ a) (r : Bytes) : cut sep (a ++ sep :: r) = (a, r) := by
  unfold cut
  have hp : ∀ x ∈ a, decide (x ≠ sep) = true := by
    intro x hx; simp only [ne_eq, decide_not, Bool.not_eq_eq_eq_not, Bool.not_true, decide_eq_false_iff_not]
    rintro rfl; exact h hx
  rw [List.takeWhile_append_of_pos hp, List.dropWhile_append_of_pos hp]
  simp

theorem parts_single {sep : UInt8} {a : Bytes} (h : sep ∉ a) : parts sep a = [a] := by
  induction a with
  | nil => rfl
  | cons c a ih =>
    rw [List.mem_cons, not_or] at h
    rw [parts, if_neg (fun e => h.1 e.symm), ih h.2]

theorem parts_append {sep : UInt8} {a : Bytes} (h : sep ∉ a) (r : Bytes) :
    parts sep (a ++ sep :: r) = a :: parts sep r := by
  induction a with
  | nil => rw [List.nil_append, parts, if_pos rfl]
  | cons c a ih =>
    rw [List.mem_cons, not_or] at h
    rw [List.cons_append, parts, if_neg (fun e => h.1 e.symm), ih h.2]

theorem readParam_eq (k v : Bytes) : readParam (queryEscape k ++ 61 :: queryEscape v) = some (k, v) := by
  unfold readParam
  rw [cut_append (query_ne 61 (by decide) (by decide) (by decide)), formDecode_query, formDecode_query]

theorem amp_ne (k v : Bytes) : (38 : UInt8) ∉ queryEscape k ++ 61 :: queryEscape v := by
  rw [List.mem_append, List.mem_cons]
  rintro (h | h | h)
  · exact query_ne 38 (by decide) (by decide) (by decide) h
  · exact absurd h (by decide)
  · exact query_ne 38 (by decide) (by decide) (by decide) h

theorem readParams (vs : List (Bytes × Bytes)) (h : vs ≠ []) :
    (parts 38 (encodeValues vs)).mapM readParam = some vs := by
  induction vs with
  | nil => exact absurd rfl h
  | cons p vs ih =>
    obtain ⟨k, v⟩ := p
    cases vs with
    | nil =>
      rw [encodeValues, parts_single (amp_ne k v)]
      simp [readParam_eq]
    | cons q vs =>
      rw [encodeValues]
      · rw [show queryEscape k ++ 61 :: (queryEscape v ++ 38 :: encodeValues (q :: vs)) =
            (queryEscape k ++ 61 :: queryEscape v) ++ 38 :: encodeValues (q :: vs) by simp,
          parts_append (amp_ne k v), List.mapM_cons, readParam_eq, ih (by simp)]
        rfl
      · simp

theorem encodeValues_ne (vs : List (Bytes × Bytes)) (h : vs ≠ []) : encodeValues vs ≠ [] := by
  match vs with
  | [] => exact absurd rfl h
  | [(k, v)] => simp [encodeValues]
  | (k, v) :: q :: vs => simp [encodeValues]

theorem escapedPath_head (c : UInt8) (b : Bytes) :
    (escapedPath (c :: b)).head? = some 47 ↔ c = 47 := by
  unfold escapedPath
  split
  · rename_i h
    simp
  · rw [List.flatMap_cons]
    split
    · simp
    · rename_i h
      constructor
      · intro h'; exact absurd h' (by simp [pct])
      · rintro rfl; exact absurd h (by decide)

theorem escapedPath_slash (b : Bytes) : escapedPath (47 :: b) =
    47 :: b.flatMap (fun c => if unreserved c || pathSafe c then [c] else pct c) := by
  unfold escapedPath
  rw [if_neg (by simp), List.flatMap_cons]
  rfl

theorem escapedPath_ne (b : Bytes) (h : b ≠ []) : escapedPath b ≠ [] := by
  intro h'
  have := pctDecode_path b
  rw [h'] at this
  simp only [pctDecode] at this
  exact h (by simpa using this.symm)

/-- Reading a URL with a path and at least one parameter: one slash before the label goes. -/
theorem readUri_eq (path : Bytes) (hp : path ≠ []) (vs : List (Bytes × Bytes)) (hv : vs ≠ []) :
    readUri (urlString (ascii "otpauth") (ascii "totp") path (encodeValues vs)) =
      some ⟨if path.head? = some 47 then path.drop 1 else path, vs⟩ := by
  obtain ⟨c, b, rfl⟩ := List.exists_cons_of_ne_nil hp
  have key : ∀ p l : Bytes, (63 : UInt8) ∉ p → pctDecode p = some l →
      readUri (ascii "otpauth" ++ 58 :: 47 :: 47 :: (ascii "totp" ++ (47 :: p ++ 63 :: encodeValues vs))) =
        some ⟨l, vs⟩ := by
    intro p l h1 h2
    have e : ascii "otpauth" ++ 58 :: 47 :: 47 :: (ascii "totp" ++ (47 :: p ++ 63 :: encodeValues vs)) =
        ascii "otpauth://totp/" ++ (p ++ 63 :: encodeValues vs) := by
      have : ascii "otpauth://totp/" = ascii "otpauth" ++ 58 :: 47 :: 47 :: (ascii "totp" ++ [47]) := by decide
      rw [this]; simp
    unfold readUri
    rw [e, if_pos (by rw [List.isPrefixOf_iff_prefix]; exact List.prefix_append _ _), List.drop_left]
    simp only [cut_append h1, h2, readParams vs hv]
  unfold urlString
  simp only [if_pos (encodeValues_ne vs hv)]
  by_cases hc : c = 47
  · subst hc
    rw [if_neg (fun h => h.2 ((escapedPath_head 47 b).mpr rfl))]
    rw [escapedPath_slash b]
    rw [key _ b]
    · simp
    · have := path_ne (47 :: b)
      rw [escapedPath_slash b, List.mem_cons, not_or] at this
      exact this.2
    · have := pctDecode_path (47 :: b)
      rw [escapedPath_slash b, pctDecode_cons _ _ (by decide)] at this
      cases h : pctDecode (b.flatMap (fun c => if unreserved c || pathSafe c then [c] else pct c)) with
      | none => rw [h] at this; simp at this
      | some x => rw [h] at this; simpa using this
  · rw [if_pos ⟨escapedPath_ne _ hp, by rw [ne_eq, escapedPath_head]; exact hc⟩,
      key _ (c :: b) (path_ne _) (pctDecode_path _)]
    simp [hc]

end Verif.Proofs.TotpUrl
