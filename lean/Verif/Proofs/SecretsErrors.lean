import Verif.Spec.SecretsErrors
import Verif.Proofs.SecretsOutput
/-! What cmd/secrets writes to standard error: lemmas. -/

namespace Verif.Proofs.SecretsErrors
open Verif Verif.Go Verif.Model.Util Verif.Model.SecretStore Verif.Model.Secrets Verif.Model.SecretsErrors
open Verif.Spec.SecretStore Verif.Spec.Secrets Verif.Spec.SecretsErrors Verif.Proofs.SecretStore Verif.Proofs.Secrets

variable (T : Texts) (C : Crypto) (J : Json)

theorem errorf_eq (m : Bytes) : errorf m = report m := rfl

theorem exist_read {w : World} {path : Bytes} (h : w.exist path = true) : w.readFile path ≠ none := by
  unfold World.readFile
  split
  · simp
  · unfold World.exist at h
    intro hn
    simp [hn] at h

/-- A store was opened: nothing has been said. -/
theorem loadErr_some {w w1 : World} {path : Bytes} {mode : Int} {s : SecretStore} (h : loadStore C J w path mode = .ok (some s, w1)) :
    loadErr T w path = [] := by
  unfold loadStore at h
  unfold loadErr
  cases hr : w.term.read with
  | mk p t =>
    rw [hr] at h
    cases p with
    | none => simp at h
    | some p =>
      dsimp only at h ⊢
      cases he : w.exist path with
      | false =>
        have he' : ({ w with term := t } : World).exist path = false := he
        simp [he'] at h
      | true =>
        simp only [if_true]
        have := exist_read he
        cases hf : w.readFile path with
        | none => exact absurd hf this
        | some b => rfl

theorem loadErr_mem {w : World} {path x : Bytes} (h : x ∈ loadErr T w path) :
    x = report (ascii "Failed to read passphrase: " ++ T.prompt) ∨ x = report (ascii "could not find " ++ path) := by
  unfold loadErr at h
  split at h
  · left; simpa [errorf_eq] using h
  · split at h
    · rename_i he
      split at h
      · rename_i hn
        exact absurd hn (exist_read he)
      · simp at h
    · right; simpa [errorf_eq] using h

theorem writeErr_mem {w : World} {ps : SecretStore} {path x : Bytes} {mode : Int} (h : x ∈ writeErr T C J w ps path mode) :
    x = report (ascii "Write failed: " ++ T.write path) := by
  unfold writeErr at h
  split at h
  · split at h
    · simp at h
    · simpa [errorf_eq] using h
  · simp at h

/-- A store was written: nothing has been said. -/
theorem writeErr_ok {w w' : World} {ps : SecretStore} {path : Bytes} {mode : Int} (h : writeStore C J w ps path mode = .ok (w', true)) :
    writeErr T C J w ps path mode = [] := by
  unfold writeStore at h
  unfold writeErr
  obtain ⟨⟨out, s2, rng⟩, h3, h4⟩ := Res.bind_eq_ok.mp h
  rw [h3]
  cases out with
  | none => simp at h4
  | some out =>
    simp only [Res.pure_eq, Res.ok.injEq] at h4
    dsimp only
    rw [h4]
    rfl

/-! ### What the commands say -/

theorem metaLoopErr_mem {as : List (Option Bytes)} {x : Bytes} (h : x ∈ (metaLoopErr T as).msgs) :
    x = report (ascii "Metadata should be in the form 'key=value'") := by
  induction as with
  | nil => simp [metaLoopErr] at h
  | cons a as ih =>
    cases a with
    | none => simp [metaLoopErr] at h
    | some line =>
      unfold metaLoopErr at h
      split at h
      · simp at h
      · split at h
        · rcases List.mem_cons.mp h with h | h
          · exact h
          · exact ih h
        · exact ih h

theorem metaLoopErr_error {as : List (Option Bytes)} {md : Map Bytes} (h : (metaLoop md as).2.1 = false) :
    (metaLoopErr T as).error = T.prompt := by
  induction as generalizing md with
  | nil => rfl
  | cons a as ih =>
    cases a with
    | none => rfl
    | some line =>
      unfold metaLoopErr
      unfold metaLoop at h
      split
      · rename_i hl; rw [if_pos hl] at h; simp at h
      · rename_i hl
        rw [if_neg hl] at h
        cases hs : splitEq line with
        | none => rw [hs] at h; exact ih h
        | some kv => rw [hs] at h; exact ih h

theorem addPlainErr_mem {w : World} {ps : SecretStore} {label x : Bytes} {ow : Bool} (h : x ∈ (addPlainErr T w ps label ow).msgs) :
    x = warning ∧ ow = true ∧ ps.has label = true := by
  unfold addPlainErr at h
  split at h
  · simp at h
  · rename_i h0
    have : x ∈ (if ps.has label then [errorf (ascii "*** WARNING: overwriting password")] else []) := by
      revert h
      dsimp only
      split <;> exact id
    cases hh : ps.has label with
    | false => simp [hh] at this
    | true =>
      simp only [hh, if_true, List.mem_singleton] at this
      refine ⟨this, ?_, rfl⟩
      cases ow with
      | true => rfl
      | false => simp [hh] at h0

theorem editMetaErr_mem {w : World} {ps : SecretStore} {label x : Bytes} (h : x ∈ (editMetaErr T w ps label).msgs) :
    x = report (ascii "Metadata should be in the form 'key=value'") := by
  unfold editMetaErr at h
  split at h
  · simp at h
  · exact metaLoopErr_mem T h

theorem addErr_mem {w : World} {ps : SecretStore} {cfg : Config} {label x : Bytes} (h : x ∈ (addErr T w ps cfg label).msgs) :
    (x = warning ∧ cfg.overwrite = true) ∨ x = report (ascii "Metadata should be in the form 'key=value'") := by
  unfold addErr at h
  split at h
  · split at h
    · exact Or.inr (editMetaErr_mem T h)
    · dsimp only at h
      split at h
      · rcases List.mem_append.mp h with h | h
        · exact Or.inl ⟨(addPlainErr_mem T h).1, (addPlainErr_mem T h).2.1⟩
        · exact Or.inr (editMetaErr_mem T h)
      · exact Or.inl ⟨(addPlainErr_mem T h).1, (addPlainErr_mem T h).2.1⟩
  · exact Or.inl ⟨(addPlainErr_mem T h).1, (addPlainErr_mem T h).2.1⟩

theorem removeMetaLoopErr_mem {n : Nat} {as : List (Option Bytes)} {x : Bytes} (h : x ∈ removeMetaLoopErr T n as) :
    x = report (ascii "Failed to read key: " ++ T.prompt) := by
  induction n generalizing as with
  | zero => simp [removeMetaLoopErr] at h
  | succ n ih =>
    match as with
    | [] =>
      rcases List.mem_cons.mp h with h | h
      · exact h
      · exact ih h
    | none :: as =>
      rcases List.mem_cons.mp h with h | h
      · exact h
      · exact ih h
    | some key :: as =>
      unfold removeMetaLoopErr at h
      split at h
      · simp at h
      · exact ih h

theorem removeErr_mem {n : Nat} {w : World} {ps : SecretStore} {cfg : Config} {label x : Bytes}
    (h : x ∈ (removeErr T n w ps cfg label).msgs) : x = report (ascii "Failed to read key: " ++ T.prompt) := by
  unfold removeErr at h
  split at h
  · simp at h
  · split at h
    · split at h
      · simp at h
      · exact removeMetaLoopErr_mem T h
    · simp at h

theorem multiLoopErr_mem (ow : Bool) (n : Nat) : ∀ (as : List (Option Bytes)) (ck : Nat → BitVec 64) (ps : SecretStore) (x : Bytes),
    as.length ≤ n → x ∈ (multiLoopErr T ow as ck ps).msgs →
    (x = warning ∧ ow = true) ∨ x = report (ascii "Entry exists, not forcing overwrite.") ∨ x = report (ascii "No password entered.") := by
  induction n with
  | zero =>
    intro as ck ps x hn h
    cases as with
    | nil => simp [multiLoopErr] at h
    | cons => simp at hn
  | succ n ih =>
    intro as ck ps x hn h
    match as with
    | [] => simp [multiLoopErr] at h
    | none :: as => simp [multiLoopErr] at h
    | some name :: as =>
      rw [multiLoopErr.eq_def] at h
      dsimp only at h
      split at h
      · simp at h
      · split at h
        · rcases List.mem_cons.mp h with h | h
          · exact Or.inr (Or.inl h)
          · exact ih _ _ _ _ (by simp at hn; omega) h
        · rename_i hov
          have hw : x ∈ (if ps.has name = true then [errorf (ascii "*** WARNING: overwriting password")] else []) → x = warning ∧ ow = true := by
            intro hx
            cases hh : ps.has name with
            | false => simp [hh] at hx
            | true =>
              simp only [hh, if_true, List.mem_singleton] at hx
              refine ⟨hx, ?_⟩
              cases ow with
              | true => rfl
              | false => simp [hh] at hov
          match as with
          | [] => exact Or.inl (hw h)
          | none :: as => exact Or.inl (hw h)
          | some pw :: as =>
            dsimp only at h
            split at h
            · rcases List.mem_append.mp h with h | h
              · exact Or.inl (hw h)
              · rcases List.mem_cons.mp h with h | h
                · exact Or.inr (Or.inr h)
                · exact ih _ _ _ _ (by simp at hn; omega) h
            · split at h
              · exact Or.inl (hw h)
              · rcases List.mem_append.mp h with h | h
                · exact Or.inl (hw h)
                · exact ih _ _ _ _ (by simp at hn; omega) h

/-! ### Why the commands fail -/

theorem multiLoopErr_error (ow : Bool) (n : Nat) : ∀ (as : List (Option Bytes)) (ck : Nat → BitVec 64) (ps ps' : SecretStore) (t : Term),
    as.length ≤ n → multiLoop ow as ck ps = .ok (false, ps', t) → (multiLoopErr T ow as ck ps).error = T.prompt := by
  induction n with
  | zero =>
    intro as ck ps ps' t hn h
    cases as with
    | nil => rfl
    | cons => simp at hn
  | succ n ih =>
    intro as ck ps ps' t hn h
    match as with
    | [] => rfl
    | none :: as => rfl
    | some name :: as =>
      rw [multiLoopErr.eq_def]
      rw [multiLoop.eq_def] at h
      dsimp only at h ⊢
      split at h
      · simp at h
      · rename_i hne
        rw [if_neg hne]
        split at h
        · rename_i hov
          rw [if_pos hov]
          exact ih _ _ _ _ _ (by simp at hn; omega) h
        · rename_i hov
          rw [if_neg hov]
          match as with
          | [] => rfl
          | none :: as => rfl
          | some pw :: as =>
            dsimp only at h ⊢
            split at h
            · rename_i hp
              rw [if_pos hp]
              exact ih _ _ _ _ _ (by simp at hn; omega) h
            · rename_i hp
              rw [if_neg hp]
              cases hh : ps.has name with
              | true =>
                simp only [hh, if_true] at h ⊢
                obtain ⟨r, h1, h2⟩ := Res.bind_eq_ok.mp h
                obtain ⟨ps1, h3, h4⟩ := Res.bind_eq_ok.mp h2
                rw [h1, Res.ok_bind, h3]
                exact ih _ _ _ _ _ (by simp at hn; omega) h4
              | false =>
                simp only [hh, Bool.false_eq_true, if_false] at h ⊢
                obtain ⟨r, h1, h2⟩ := Res.bind_eq_ok.mp h
                obtain ⟨ps1, h3, h4⟩ := Res.bind_eq_ok.mp h2
                rw [h1, Res.ok_bind, h3]
                exact ih _ _ _ _ _ (by simp at hn; omega) h4

theorem addPlainErr_error {w : World} {ps : SecretStore} {label : Bytes} {ow : Bool} {args : List Bytes} {path : Bytes} :
    (addPlainErr T w ps label ow).error ∈ reasons T args path := by
  unfold addPlainErr
  split
  · simp [reasons]
  · dsimp only
    split <;> simp [reasons]

theorem editMetaErr_error {w w' : World} {ps ps' : SecretStore} {label : Bytes} (h : editMeta w ps label = .ok (false, ps', w')) :
    (editMetaErr T w ps label).error = T.prompt := by
  unfold editMeta at h
  unfold editMetaErr
  obtain ⟨r, h1, h2⟩ := Res.bind_eq_ok.mp h
  rw [h1]
  dsimp only at h2 ⊢
  cases hm : (metaLoop (r.metadata.getD Map.empty) w.term.answers).2.1 with
  | false => exact metaLoopErr_error T hm
  | true =>
    rw [hm] at h2
    simp only [Bool.not_true, Bool.false_eq_true, if_false] at h2
    obtain ⟨ps1, -, h4⟩ := Res.bind_eq_ok.mp h2
    simp at h4

theorem addErr_error {w w' : World} {ps ps' : SecretStore} {cfg : Config} {label : Bytes} {args : List Bytes} {path : Bytes}
    (h : addSecret w ps cfg label = .ok (false, ps', w')) :
    (addErr T w ps cfg label).error ∈ reasons T args path := by
  unfold addSecret addMeta at h
  unfold addErr
  split
  · rename_i hm
    rw [if_pos hm] at h
    split
    · rename_i hh
      rw [if_pos hh] at h
      rw [editMetaErr_error T h]
      simp [reasons]
    · rename_i hh
      rw [if_neg hh] at h
      dsimp only
      cases ha : addPlain w ps label cfg.overwrite with
      | panic => exact addPlainErr_error T
      | ok res =>
        obtain ⟨b, ps1, w1⟩ := res
        cases b with
        | false => exact addPlainErr_error T
        | true =>
          rw [ha] at h
          dsimp only at h ⊢
          rw [editMetaErr_error T h]
          simp [reasons]
  · exact addPlainErr_error T

/-- Whatever command fails has one of the reasons. -/
theorem cmdErr_error {ord : Map (Option SecretRecord) → List Bytes} {fuel : Nat} {c : Cmd} {w w' : World} {ps ps' : SecretStore} {cfg : Config} {mode : Int} {path : Bytes}
    (h : Cmd.run C J ord fuel c w ps cfg mode = some (.ok (false, ps', w'))) :
    (cmdErr T fuel c w ps cfg).error ∈ reasons T cfg.args path := by
  unfold Cmd.run at h
  unfold cmdErr
  cases c with
  | «show» => simp [showErr, reasons]
  | store => exact addErr_error T (Option.some.inj h)
  | list => simp at h
  | passwd =>
    dsimp only
    unfold chpassErr
    split <;> simp [reasons]
  | remove =>
    dsimp only at h ⊢
    unfold removeErr
    split
    · simp [reasons]
    · rename_i hh
      unfold Model.Secrets.remove at h
      split at h
      · exfalso
        unfold removeMeta at h
        rw [if_neg hh] at h
        split at h
        · simp at h
        · split at h
          · simp at h
          · obtain ⟨x, -, h2⟩ := Res.bind_eq_ok.mp (Option.some.inj h)
            simp at h2
      · simp at h
  | multi =>
    dsimp only at h ⊢
    unfold Model.Secrets.multi at h
    obtain ⟨⟨ok, ps1, t1⟩, hl, hr⟩ := Res.bind_eq_ok.mp (Option.some.inj h)
    simp only [Res.pure_eq, Res.ok.injEq, Prod.mk.injEq] at hr
    obtain ⟨rfl, -, -⟩ := hr
    rw [multiLoopErr_error T _ _ _ _ _ _ _ (Nat.le_refl _) hl]
    simp [reasons]
  | merge =>
    dsimp only
    unfold mergeErr
    dsimp only
    split
    · simp [reasons]
    · split <;> simp [reasons]

/-- What the commands say in passing. -/
theorem cmdErr_mem {fuel : Nat} {c : Cmd} {w : World} {ps : SecretStore} {cfg : Config} {x : Bytes} (h : x ∈ (cmdErr T fuel c w ps cfg).msgs) :
    x ∈ notes T ∧ (x = warning → cfg.overwrite = true) ∧ (c = .store ∨ c = .multi ∨ c = .remove) := by
  have h1 : report (ascii "Metadata should be in the form 'key=value'") ≠ warning := by decide
  have h2 : report (ascii "Entry exists, not forcing overwrite.") ≠ warning := by decide
  have h3 : report (ascii "No password entered.") ≠ warning := by decide
  have h4 : report (ascii "Failed to read key: " ++ T.prompt) ≠ warning := by
    simp [report, warning, ascii]
  unfold cmdErr at h
  cases c with
  | «show» => simp [showErr] at h
  | store =>
    rcases addErr_mem T h with ⟨rfl, how⟩ | rfl
    · exact ⟨by simp [notes], fun _ => how, Or.inl rfl⟩
    · exact ⟨by simp [notes], fun e => absurd e h1, Or.inl rfl⟩
  | list => simp at h
  | passwd =>
    dsimp only at h
    unfold chpassErr at h
    split at h <;> simp at h
  | remove =>
    rw [removeErr_mem T h]
    exact ⟨by simp [notes], fun e => absurd e h4, Or.inr (Or.inr rfl)⟩
  | multi =>
    rcases multiLoopErr_mem T _ _ _ _ _ _ (Nat.le_refl _) h with ⟨rfl, how⟩ | rfl | rfl
    · exact ⟨by simp [notes], fun _ => how, Or.inr (Or.inl rfl)⟩
    · exact ⟨by simp [notes], fun e => absurd e h2, Or.inr (Or.inl rfl)⟩
    · exact ⟨by simp [notes], fun e => absurd e h3, Or.inr (Or.inl rfl)⟩
  | merge =>
    dsimp only at h
    unfold mergeErr at h
    dsimp only at h
    split at h
    · simp at h
    · split at h <;> simp at h

/-! ### Overwritten secrets -/

theorem has_of_isSome {s : SecretStore} {k : Bytes} (h : (lookup s k).isSome = true) : s.has k = true := by
  cases hl : lookup s k with
  | none => simp [hl] at h
  | some r => exact Verif.Proofs.SecretsOutput.has_of_lookup hl

theorem secretOf_set {ps : SecretStore} {m : Map (Option SecretRecord)} (hm : ps.store = some m) {label k : Bytes} (r : SecretRecord) (hk : k ≠ label) :
    lookup { ps with store := some (m.set label (some r)) } k = lookup ps k := by
  rw [lookup_set hm, if_neg hk]

/-- There is a warning for every secret that a run of `multi` replaces. -/
theorem multi_warns (ow : Bool) (n : Nat) : ∀ (as : List (Option Bytes)) (ck : Nat → BitVec 64) (ps ps' : SecretStore) (b : Bool) (t : Term),
    as.length ≤ n → multiLoop ow as ck ps = .ok (b, ps', t) → ∀ changed : List Bytes, changed.Nodup →
    (∀ k ∈ changed, (lookup ps k).isSome = true ∧ secretOf ps' k ≠ secretOf ps k) →
    changed.length ≤ (multiLoopErr T ow as ck ps).msgs.count warning := by
  have same : ∀ (ps : SecretStore) (changed : List Bytes) (c : Nat),
      (∀ k ∈ changed, (lookup ps k).isSome = true ∧ secretOf ps k ≠ secretOf ps k) → changed.length ≤ c := by
    intro ps changed c h
    cases changed with
    | nil => simp
    | cons k l => exact absurd rfl (h k (by simp)).2
  induction n with
  | zero =>
    intro as ck ps ps' b t hn h changed hnd hc
    cases as with
    | nil =>
      simp only [multiLoop, Res.ok.injEq, Prod.mk.injEq] at h
      obtain ⟨-, rfl, -⟩ := h
      exact same _ _ _ hc
    | cons => simp at hn
  | succ n ih =>
    intro as ck ps ps' b t hn h changed hnd hc
    match as with
    | [] =>
      simp only [multiLoop, Res.ok.injEq, Prod.mk.injEq] at h
      obtain ⟨-, rfl, -⟩ := h
      exact same _ _ _ hc
    | none :: as =>
      simp only [multiLoop, Res.ok.injEq, Prod.mk.injEq] at h
      obtain ⟨-, rfl, -⟩ := h
      exact same _ _ _ hc
    | some name :: as =>
      rw [multiLoop.eq_def] at h
      rw [multiLoopErr.eq_def]
      dsimp only at h ⊢
      split at h
      · simp only [Res.ok.injEq, Prod.mk.injEq] at h
        obtain ⟨-, rfl, -⟩ := h
        exact same _ _ _ hc
      · rename_i hne
        rw [if_neg hne]
        split at h
        · rename_i hov
          rw [if_pos hov]
          refine Nat.le_trans (ih _ _ _ _ _ _ (by simp at hn; omega) h changed hnd hc) ?_
          exact List.count_le_count_cons
        · rename_i hov
          rw [if_neg hov]
          match as with
          | [] =>
            simp only [Res.ok.injEq, Prod.mk.injEq] at h
            obtain ⟨-, rfl, -⟩ := h
            exact same _ _ _ hc
          | none :: as =>
            simp only [Res.ok.injEq, Prod.mk.injEq] at h
            obtain ⟨-, rfl, -⟩ := h
            exact same _ _ _ hc
          | some pw :: as =>
            dsimp only at h ⊢
            split at h
            · rename_i hp
              rw [if_pos hp]
              refine Nat.le_trans (ih _ _ _ _ _ _ (by simp at hn; omega) h changed hnd hc) ?_
              dsimp only
              rw [List.count_append]
              exact Nat.le_trans List.count_le_count_cons (Nat.le_add_left _ _)
            · rename_i hp
              rw [if_neg hp]
              cases hh : ps.has name with
              | true =>
                simp only [hh, if_true] at h ⊢
                obtain ⟨r, h1, h2⟩ := Res.bind_eq_ok.mp h
                obtain ⟨ps1, h3, h4⟩ := Res.bind_eq_ok.mp h2
                rw [h1, Res.ok_bind, h3]
                obtain ⟨m, hm, rfl⟩ := assign_eq.mp h3
                have := ih _ _ _ _ _ _ (by simp at hn; omega) h4 (changed.erase name) (hnd.erase _) (by
                  intro k hk
                  have hkn : k ≠ name := fun e => by
                    subst e
                    exact (List.Nodup.mem_erase_iff hnd |>.mp hk).1 rfl
                  have hkc := List.mem_of_mem_erase hk
                  have e1 := secretOf_set hm { r with secret := pw, timestamp := ck 0 } hkn
                  unfold secretOf
                  rw [e1]
                  exact hc k hkc)
                dsimp only
                rw [List.count_append]
                have e : List.count warning [errorf (ascii "*** WARNING: overwriting password")] = 1 := by
                  rw [errorf_eq]; simp [warning]
                rw [e]
                have hle : changed.length ≤ (changed.erase name).length + 1 := by
                  rw [List.length_erase]
                  split <;> omega
                omega
              | false =>
                simp only [hh, Bool.false_eq_true, if_false] at h ⊢
                obtain ⟨r, h1, h2⟩ := Res.bind_eq_ok.mp h
                obtain ⟨ps1, h3, h4⟩ := Res.bind_eq_ok.mp h2
                rw [h1, Res.ok_bind, h3]
                obtain ⟨m, hm, rfl⟩ := assign_eq.mp h3
                dsimp only
                rw [List.nil_append]
                refine ih _ _ _ _ _ _ (by simp at hn; omega) h4 changed hnd (by
                  intro k hk
                  have hkn : k ≠ name := fun e => by
                    subst e
                    have := has_of_isSome (hc k hk).1
                    rw [hh] at this
                    simp at this
                  have e1 := secretOf_set hm { r with secret := pw, timestamp := ck 0 } hkn
                  unfold secretOf
                  rw [e1]
                  exact hc k hk)

end Verif.Proofs.SecretsErrors
