import Verif.Spec.OtpcErrors
import Verif.Spec.JournalErrors
import Verif.Proofs.SecretsErrors
import Verif.Proofs.Journal
/-! What cmd/otpc and cmd/journal write to standard error: lemmas. -/

namespace Verif.Proofs.OtpcErrors
open Verif Verif.Go Verif.Model.Util Verif.Model.SecretStore
open Verif.Model.Secrets (World loadStore writeStore fetch assign dash)
open Verif.Model.SecretsErrors (errorf writeErr loadErr)
open Verif.Model.OtpcErrors
open Verif.Spec.SecretStore Verif.Spec.Secrets
open Verif.Spec.SecretsErrors (report)
open Verif.Proofs.SecretStore Verif.Proofs.Secrets Verif.Proofs.SecretsErrors

variable (T : Model.SecretsErrors.Texts) (C : Crypto) (J : Json)

/-- The reason for which no store was created. -/
theorem initErr_error {w w' : World} {path : Bytes} {mode : Int} (h : Model.Otpc.initStore C J w path mode = .ok (false, w')) :
    (initErr T C J w path mode).error ∈ [T.prompt, T.write path, ascii "failed to marshal store", ascii "failed to unmarshal store"] := by
  unfold initErr
  dsimp only
  split
  · simp
  · split
    · simp
    · split <;> simp
    · rename_i hpanic
      exact absurd hpanic (marshal_no_panic C J _ _ _)

theorem initErr_ok {w w' : World} {path : Bytes} {mode : Int} (h : Model.Otpc.initStore C J w path mode = .ok (true, w')) :
    (initErr T C J w path mode).msgs = [] := by
  unfold Model.Otpc.initStore at h
  unfold initErr
  dsimp only at h ⊢
  split
  · rename_i hp
    rw [hp] at h
    simp at h
  · split
    · rfl
    · split <;> rfl
    · rfl

theorem initErr_mem {w : World} {path x : Bytes} {mode : Int} (h : x ∈ (initErr T C J w path mode).msgs) :
    x = report (ascii "Failed to read passphrase: " ++ T.prompt) := by
  unfold initErr at h
  dsimp only at h
  split at h
  · simpa [errorf_eq] using h
  · split at h
    · simp at h
    · split at h <;> simp at h
    · simp at h

theorem initMainErr_mem {w : World} {path x : Bytes} {mode : Int} (h : x ∈ initMainErr T C J path mode w) :
    x = report (ascii "Failed to read passphrase: " ++ T.prompt) ∨
    ∃ r ∈ [T.prompt, T.write path, ascii "failed to marshal store", ascii "failed to unmarshal store"], x = report (ascii "Failed: " ++ r) := by
  unfold initMainErr at h
  dsimp only at h
  rcases List.mem_append.mp h with h | h
  · exact Or.inl (initErr_mem T C J h)
  · split at h
    · rename_i hi
      exact Or.inr ⟨_, initErr_error T C J hi, List.mem_singleton.mp h⟩
    · simp at h

/-- The passphrase does not open the file. -/
theorem load_shut {path pass b : Bytes} {mode : Int} {rest : List (Option Bytes)} {w : World} (hd : path ≠ dash)
    (ha : w.term.answers = some pass :: rest) (hb : w.fs path = some b) (hu : ∀ s, ¬ Opens C J w.fs path pass mode s) :
    loadStore C J w path mode = .ok (none, { w with term := { w.term with answers := rest } }) ∧ loadErr T w path = [] := by
  have hun : unmarshalSecretStore C J b pass mode = .ok none := by
    cases h : unmarshalSecretStore C J b pass mode with
    | panic => exact absurd h (unmarshal_no_panic C J b pass mode)
    | ok o =>
      cases o with
      | none => rfl
      | some s => exact absurd ⟨b, hb, h⟩ (hu s)
  constructor
  · unfold loadStore Term.read
    simp [ha, World.exist, hb, World.readFile, hd, hun]
  · unfold loadErr Term.read
    simp [ha, World.exist, hb, World.readFile, hd]

/-! ### journal -/

section Journal
open Verif.Model.Journal Verif.Model.JournalErrors Verif.Spec.JournalErrors

variable (TJ : Model.JournalErrors.Texts)

theorem editorErr_mem (e : Env) (w : World) (data path : Bytes) : editorErr TJ e w data ∈ reasons TJ path := by
  unfold editorErr
  split
  · simp [reasons]
  · split <;> simp [reasons]

theorem newEntryErr_mem (e : Env) (w : World) (title path : Bytes) : newEntryErr TJ e w title ∈ reasons TJ path :=
  editorErr_mem TJ e _ _ path

theorem editEntryErr_mem {e : Env} {w w' : World} {ps ps' : SecretStore} {title path : Bytes}
    (h : editEntry e w ps title = .ok (false, ps', w')) : editEntryErr TJ e w ps title ∈ reasons TJ path := by
  unfold editEntry at h
  unfold editEntryErr
  split
  · simp [reasons]
  · rename_i hh
    rw [if_neg hh] at h
    split
    · simp [reasons]
    · rename_i ht
      rw [ht] at h
      split
      · rename_i hf
        rw [hf] at h
        simp at h
      · exact editorErr_mem TJ e _ _ path

theorem writeNewErr_mem {e : Env} {w w' : World} {ps ps' : SecretStore} {arg path : Bytes}
    (h : writeNew e w ps arg = .ok (false, ps', w')) : writeNewErr TJ e w ps arg ∈ reasons TJ path := by
  unfold writeNew at h
  unfold writeNewErr
  dsimp only at h ⊢
  split
  · rename_i hh
    rw [if_pos hh] at h
    split
    · simp [reasons]
    · rename_i y hy
      rw [hy] at h
      dsimp only at h
      split
      · rename_i hyes
        rw [if_pos hyes] at h
        exact editEntryErr_mem TJ h
      · split
        · simp [reasons]
        · split
          · simp [reasons]
          · exact newEntryErr_mem TJ e _ _ path
  · exact newEntryErr_mem TJ e _ _ path

theorem runErr_mem {e : Env} {f : Flags} {args : List Bytes} {path x : Bytes} {w : World} {ps : SecretStore}
    (h : x ∈ Model.JournalErrors.runErr TJ C J e f args path w ps) : x ∈ vocabulary TJ path := by
  have hfail : ∀ r ∈ reasons TJ path, report (ascii "Failed: " ++ r) ∈ vocabulary TJ path := fun r hr =>
    List.mem_append_left _ (List.mem_map.mpr ⟨r, hr, rfl⟩)
  have hfin : ∀ (mode : Int) (err : Bytes) (r : Res (Bool × SecretStore × World)), (∀ ps' w', r = .ok (false, ps', w') → err ∈ reasons TJ path) →
      x ∈ finishErr TJ C J path mode err r → x ∈ vocabulary TJ path := by
    intro mode err r hr hx
    unfold finishErr at hx
    split at hx
    · simp at hx
    · rw [List.mem_singleton.mp hx]
      exact hfail _ (hr _ _ rfl)
    · dsimp only at hx
      rcases List.mem_append.mp hx with hx | hx
      · rw [writeErr_mem _ C J hx]; simp [vocabulary]
      · split at hx
        · rw [List.mem_singleton.mp hx, errorf_eq]; simp [vocabulary]
        · simp at hx
  unfold Model.JournalErrors.runErr at h
  split at h
  · exact hfin _ _ _ (fun ps' w' h' => editEntryErr_mem TJ h') h
  · split at h
    · simp at h
    · split at h
      · exact hfin _ _ _ (fun ps' w' h' => writeNewErr_mem TJ h') h
      · split at h
        · simp at h
        · rw [List.mem_singleton.mp h]
          exact hfail _ (by simp [reasons])

end Journal

/-! ### otpc -/

section Otpc
open Verif.Model.Otpc Verif.Spec.OtpcErrors

variable (E : Model.OtpcErrors.Texts) (F : TwoFactor) (U : Case)

/-- The reason is one that is known, or comes from a library. -/
theorem makeErr_known {w w' : World} {k : Kind} {label secret path : Bytes} {args : List Bytes} (h : makeRecord F w k label secret = .ok (none, w')) :
    makeErr E F w k secret ∈ reasons E args path ∨ Library E (makeErr E F w k secret) := by
  unfold makeErr
  cases k with
  | hotp =>
    dsimp only
    unfold addHotpErr
    dsimp only
    repeat' split
    all_goals first
      | (left; simp [reasons]; done)
      | (right; exact ⟨_, Or.inl rfl⟩)
      | (right; exact ⟨_, Or.inr (Or.inr (Or.inl rfl))⟩)
  | totp =>
    dsimp only
    unfold addTotpErr
    dsimp only
    repeat' split
    all_goals first
      | (left; simp [reasons]; done)
      | (right; exact ⟨_, Or.inl rfl⟩)
      | (right; exact ⟨_, Or.inr (Or.inl rfl)⟩)
      | (right; exact ⟨_, Or.inr (Or.inr (Or.inl rfl))⟩)
  | google => exact Or.inr ⟨_, Or.inr (Or.inr (Or.inr (Or.inl rfl)))⟩
  | unknown => left; simp [reasons]

theorem addErr_known {w w' : World} {ps ps' : SecretStore} {cfg : Config} {label path : Bytes} {args : List Bytes}
    (h : addSecret F U w ps cfg label = .ok (none, ps', w')) :
    (addErr E F U w ps cfg label).error ∈ reasons E args path ∨ Library E (addErr E F U w ps cfg label).error := by
  unfold addSecret at h
  unfold addErr
  split
  · left; simp [reasons]
  · rename_i hh
    rw [if_neg hh] at h
    dsimp only at h ⊢
    split
    · left; simp [reasons]
    · rename_i sec hs
      rw [hs] at h
      dsimp only at h ⊢
      obtain ⟨⟨x, w1⟩, h1, h2⟩ := Res.bind_eq_ok.mp h
      cases x with
      | none => exact makeErr_known E F h1
      | some x =>
        dsimp only at h2
        obtain ⟨y, -, h3⟩ := Res.bind_eq_ok.mp h2
        simp at h3

theorem addErr_quiet {w : World} {ps : SecretStore} {cfg : Config} {label : Bytes} (ho : cfg.overwrite = false) :
    (addErr E F U w ps cfg label).msgs = [] := by
  unfold addErr
  rw [ho]
  cases hh : ps.has label with
  | true => rfl
  | false =>
    simp only [Bool.not_false, Bool.and_true, Bool.false_eq_true, if_false]
    split <;> rfl

theorem qrErr_known {w w' : World} {ps : SecretStore} {label path : Bytes} {args : List Bytes}
    (h : showQR F w ps label (args.tail.headD []) = .ok (false, w')) :
    qrErr E F ps label (args.tail.headD []) ∈ reasons E args path ∨ Library E (qrErr E F ps label (args.tail.headD [])) := by
  unfold showQR at h
  unfold qrErr
  split
  · left; simp [reasons]
  · rename_i hh
    rw [if_neg hh] at h
    split
    · rename_i hf
      rw [hf] at h
      simp at h
    · split
      · exact Or.inr ⟨_, Or.inr (Or.inr (Or.inr (Or.inr rfl)))⟩
      · split
        · left; simp [reasons]
        · left; simp [reasons]

theorem showErr_known {w w' : World} {ps ps' : SecretStore} {label path : Bytes} {args : List Bytes}
    (h : showSecret F w ps label = .ok (.failed, ps', w')) :
    showErr E F ps label ∈ reasons E args path ∨ Library E (showErr E F ps label) := by
  unfold showSecret at h
  unfold showErr
  split
  · left; simp [reasons]
  · rename_i hh
    rw [if_neg hh] at h
    split
    · rename_i hf
      rw [hf] at h
      simp at h
    · split
      · exact Or.inr ⟨_, Or.inr (Or.inr (Or.inr (Or.inr rfl)))⟩
      · left; simp [reasons]

theorem saveErr_mem {w : World} {ps : SecretStore} {path x : Bytes} {mode : Int} (h : x ∈ saveErr E C J w ps path mode) : x ∈ lines E path := by
  unfold saveErr at h
  dsimp only at h
  rcases List.mem_append.mp h with h | h
  · rw [writeErr_mem _ C J h]; simp [lines]
  · split at h
    · rw [List.mem_singleton.mp h, errorf_eq]; simp [lines]
    · simp at h

/-- What the commands can say. -/
theorem otpcRun_mem {f : Flags} {args : List Bytes} {path x : Bytes} {w : World} {ps : SecretStore}
    (h : x ∈ Model.OtpcErrors.runErr E C J F U f args path w ps) :
    x ∈ lines E path ∨ ∃ r, (r ∈ reasons E args path ∨ Library E r) ∧ x = report (ascii "Failed: " ++ r) := by
  unfold Model.OtpcErrors.runErr at h
  dsimp only at h
  split at h
  · rcases List.mem_append.mp h with h | h
    · rw [addErr_quiet E F U rfl] at h
      simp at h
    · split at h
      · simp at h
      · rename_i ha
        exact Or.inr ⟨_, addErr_known E F U ha, List.mem_singleton.mp h⟩
      · exact Or.inl (saveErr_mem C J E h)
  · split at h
    · split at h
      · rename_i ha
        exact Or.inr ⟨_, qrErr_known E F ha, List.mem_singleton.mp h⟩
      · simp at h
    · split at h
      · rename_i ha
        exact Or.inr ⟨_, showErr_known E F ha, List.mem_singleton.mp h⟩
      · exact Or.inl (saveErr_mem C J E h)
      · simp at h

end Otpc

end Verif.Proofs.OtpcErrors
