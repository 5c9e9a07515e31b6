import Verif.Spec.FcryptOutput
import Verif.Proofs.Fcrypt
/-! Lemmas about what fcrypt prints. -/

namespace Verif.Proofs.FcryptOutput
open Verif Verif.Go Verif.Model.Util Verif.Model.Public Verif.Model.KeyStore Verif.Model.Fcrypt Verif.Model.FcryptOutput
open Verif.Spec.KeyStore Verif.Spec.Fcrypt Verif.Spec.FcryptOutput Verif.Proofs.Fcrypt

variable (T : Bytes) (M : Map (Option PublicKeyRecord) → Bytes) (C : Crypto) (A : Asn1) (P : Armour) (J : KeyJson)

theorem isError (t : Bytes) : IsError (errorf t) := ⟨t, rfl⟩

theorem load_text {w w1 : World} {path : Bytes} {ks : KeyStore} (h : loadStore C A P J w path = .ok (some ks, w1)) :
    loadText T M C A P J w path = [] := by
  unfold loadStore at h
  unfold loadText
  simp only at h ⊢
  obtain ⟨⟨o, rng⟩, h1, h⟩ := Res.bind_eq_ok.mp h
  rw [h1]
  cases o with
  | none => cases h
  | some k =>
    simp only at h ⊢
    obtain ⟨v, h2, h⟩ := Res.bind_eq_ok.mp h
    rw [h2]
    cases v with
    | false => cases h
    | true =>
      simp only [Bool.not_true, Bool.false_eq_true, if_false] at h ⊢
      split at h
      · rw [if_pos ‹_›]
      · rw [if_neg ‹_›]
        generalize World.read _ = x at h ⊢
        obtain ⟨pass, w2⟩ := x
        cases pass with
        | none => cases h
        | some pass =>
          simp only at h ⊢
          obtain ⟨⟨k2, ok, rng2⟩, h3, h⟩ := Res.bind_eq_ok.mp h
          rw [h3]
          cases ok with
          | false => cases h
          | true =>
            simp only [Bool.not_true, Bool.false_eq_true, if_false] at h ⊢
            obtain ⟨⟨k3, ok⟩, h4, h⟩ := Res.bind_eq_ok.mp h
            rw [h4]
            cases ok with
            | false => cases h
            | true => rfl

/-- What `Unlock` prints. -/
def built (ks : KeyStore) (w : World) : List Piece :=
  if !ks.locked then []
  else match w.read with
    | (some pass, _) => if ks.builds C pass then [.out building] else []
    | (none, _) => []

theorem built_quiet (ks : KeyStore) (w : World) : ∀ x ∈ built C ks w, IsOutput x := by
  intro x hx
  unfold built at hx
  split at hx
  · cases hx
  · split at hx
    · split at hx
      · rw [List.mem_singleton] at hx; exact ⟨_, hx⟩
      · cases hx
    · cases hx

theorem unlock_text {ks ks1 : KeyStore} {w w1 : World} (h : unlockStore C A P ks w = .ok (true, ks1, w1)) :
    unlockText T C A P ks w = built C ks w := by
  unfold unlockStore at h
  unfold unlockText built
  split at h
  · rw [if_pos ‹_›, if_pos ‹_›]
  · rw [if_neg ‹_›, if_neg ‹_›]
    generalize w.read = x at h ⊢
    obtain ⟨pass, w2⟩ := x
    cases pass with
    | none => cases h
    | some pass =>
      simp only at h ⊢
      obtain ⟨⟨k3, ok⟩, h4, h⟩ := Res.bind_eq_ok.mp h
      rw [h4]
      cases ok with
      | false => cases h
      | true => exact List.append_nil _

theorem unlock_text_fails {ks ks1 : KeyStore} {w w1 : World} (h : unlockStore C A P ks w = .ok (false, ks1, w1)) :
    ∃ pre t, unlockText T C A P ks w = pre ++ [errorf t] := by
  unfold unlockStore at h
  unfold unlockText
  split at h
  · cases h
  · rw [if_neg ‹_›]
    generalize w.read = x at h ⊢
    obtain ⟨pass, w2⟩ := x
    cases pass with
    | none => exact ⟨[], _, rfl⟩
    | some pass =>
      simp only at h ⊢
      obtain ⟨⟨k3, ok⟩, h4, h⟩ := Res.bind_eq_ok.mp h
      rw [h4]
      cases ok with
      | false => exact ⟨_, _, rfl⟩
      | true => cases h

/-- How the end of `main` and what it prints go together. -/
theorem finish_text (f : Flags) (sw u : Bool) (ks : KeyStore) (w : World) :
    (∀ w', finish J f sw u ks w = (.err, w') → ∃ pre t, finishText T J f sw ks w = pre ++ [errorf t]) ∧
    (∀ w', finish J f sw u ks w = (.ok, w') → ∀ x ∈ finishText T J f sw ks w, IsOutput x) := by
  unfold finish finishText
  simp only
  by_cases hc : (sw || (w.fs f.path).isNone) = true
  · rw [if_pos hc, if_pos hc]
    rw [now_eq]
    simp only [writeStore, writeText, World.print]
    have e : ∀ (k : KeyStore), dumpKeyStore J k ≠ .panic ∨ dumpKeyStore J k = .panic := fun k => by
      cases dumpKeyStore J k <;> simp
    cases hd : dumpKeyStore J { ks with timestamp := w.term.clock 0 } with
    | panic =>
      constructor
      · intro w' h; cases h
      · intro w' h; cases h
    | ok x =>
      obtain ⟨data, k2⟩ := x
      simp only [Res.ok_bind, Res.pure_eq]
      have hs : (World.save { later w 1 with stdout := (later w 1).stdout ++ ascii "Writing keystore.\n" } f.path data).1 =
          ((later w 1).save f.path data).1 := rfl
      cases hb : ((later w 1).save f.path data).1 with
      | true =>
        rw [hb] at hs
        simp only [hs, if_true]
        constructor
        · intro w' h
          split at h
          · cases hl : k2.lock with
            | panic => rw [hl] at h; cases h
            | ok _ => rw [hl] at h; cases h
          · cases h
        · intro w' _ x hx
          rw [List.mem_singleton] at hx
          exact ⟨_, hx⟩
      | false =>
        rw [hb] at hs
        simp only [hs, Bool.false_eq_true, if_false]
        exact ⟨fun w' _ => ⟨[_], _, rfl⟩, fun w' h => by cases h⟩
  · rw [if_neg hc, if_neg hc]
    constructor
    · intro w' h
      split at h
      · cases hl : ks.lock with
        | panic => rw [hl] at h; cases h
        | ok _ => rw [hl] at h; cases h
      · cases h
    · intro w' _ x hx; cases hx

/-- A command that does not print errors. -/
def Quiet (speech : Says) : Prop := ∀ ks cfg w, ∀ x ∈ (speech ks cfg w).text, IsOutput x

theorem output_quiet (path data : Bytes) : ∀ x ∈ (outputText T path data).text, IsOutput x := by
  intro x hx
  unfold outputText at hx
  simp only at hx
  split at hx
  · rw [List.mem_singleton] at hx; exact ⟨_, hx⟩
  · cases hx

theorem label_quiet (l : Bytes) : ∀ x ∈ labelText l, IsOutput x := by
  intro x hx
  unfold labelText at hx
  split at hx
  · rw [List.mem_singleton] at hx; exact ⟨_, hx⟩
  · cases hx

theorem single_quiet {t : Bytes} : ∀ x ∈ [println t], IsOutput x := by
  intro x hx
  rw [List.mem_singleton] at hx; exact ⟨_, hx⟩

theorem nil_quiet : ∀ x ∈ ([] : List Piece), IsOutput x := by
  intro x hx; cases hx

theorem append_quiet {a b : List Piece} (ha : ∀ x ∈ a, IsOutput x) (hb : ∀ x ∈ b, IsOutput x) : ∀ x ∈ a ++ b, IsOutput x := by
  intro x hx
  rcases List.mem_append.1 hx with h | h
  · exact ha x h
  · exact hb x h

theorem cons_quiet {t : Bytes} {b : List Piece} (hb : ∀ x ∈ b, IsOutput x) : ∀ x ∈ .out t :: b, IsOutput x := by
  intro x hx
  rcases List.mem_cons.1 hx with h | h
  · exact ⟨_, h⟩
  · exact hb x h

theorem check_quiet {e : Env} {ks ks' : KeyStore} {cfg : Config} {w w' : World} (h : checkStore C e ks cfg w = (.ok, ks', w')) :
    ∀ x ∈ (checkText C e ks cfg w).text, IsOutput x := by
  unfold checkStore at h
  unfold checkText
  split at h
  · cases h
  rw [if_neg ‹_›]
  cases hv : ks.valid with
  | panic => exact nil_quiet
  | ok v =>
    rw [hv] at h
    cases v with
    | false => exact nil_quiet
    | true =>
      simp only [after, Bool.not_true, Bool.false_eq_true, if_false] at h ⊢
      cases hk : ks.keyAudit C (e.order 0 (ks.keys.getD Map.empty)) (fun l i => e.walk l i (ks.keys.getD Map.empty)) e.fuel with
      | none => rw [hk] at h; cases h
      | some r =>
        cases r with
        | panic => rw [hk] at h; cases h
        | ok b =>
          cases b with
          | false => rw [hk] at h; cases h
          | true => exact single_quiet

theorem encrypt_quiet : Quiet (encryptText T C P) := by
  intro ks cfg w
  unfold encryptText
  repeat' split
  all_goals first | exact nil_quiet | exact output_quiet T _ _

theorem decrypt_quiet : Quiet (decryptText T C P) := by
  intro ks cfg w
  unfold decryptText
  repeat' split
  all_goals first | exact nil_quiet | exact output_quiet T _ _ | exact cons_quiet (output_quiet T _ _)

theorem sign_quiet : Quiet (signText T C P) := by
  intro ks cfg w
  unfold signText
  repeat' split
  all_goals first | exact nil_quiet | exact output_quiet T _ _

theorem verify_quiet : Quiet (verifyText T C P) := by
  intro ks cfg w
  unfold verifyText
  repeat' split
  all_goals first | exact nil_quiet | exact single_quiet

theorem exportSelf_quiet : Quiet (exportSelfText T) := by
  intro ks cfg w
  unfold exportSelfText
  repeat' split
  all_goals first | exact nil_quiet | exact output_quiet T _ _

theorem export_quiet (e : Env) : Quiet (exportText T C A P e) := by
  intro ks cfg w
  unfold exportText
  simp only
  repeat' split
  all_goals first | exact nil_quiet | exact output_quiet T _ _

theorem import_quiet (e : Env) : Quiet (importText T C A P e) := by
  intro ks cfg w
  unfold importText
  simp only
  repeat' split
  all_goals first | exact nil_quiet | exact label_quiet _ | exact append_quiet (label_quiet _) single_quiet

theorem confirm_quiet (as : List (Option Bytes)) : ∀ x ∈ confirmText as, IsOutput x := by
  induction as with
  | nil => exact cons_quiet nil_quiet
  | cons a as ih =>
    cases a with
    | none => exact cons_quiet nil_quiet
    | some line =>
      unfold confirmText
      refine cons_quiet ?_
      split
      · exact single_quiet
      · split
        · exact nil_quiet
        · exact cons_quiet ih

theorem warning_quiet : ∀ x ∈ warning, IsOutput x := cons_quiet (cons_quiet (cons_quiet nil_quiet))

theorem uimport_quiet (e : Env) : Quiet (uimportText T C A P e) := by
  intro ks cfg w
  have h : ∀ (a b : Bytes) (as : List (Option Bytes)), ∀ x ∈ warning ++ [println a, println b] ++ confirmText as, IsOutput x :=
    fun a b as => append_quiet (append_quiet warning_quiet (cons_quiet (cons_quiet nil_quiet))) (confirm_quiet as)
  unfold uimportText
  simp only
  repeat' split
  all_goals first | exact warning_quiet | exact h _ _ _ | exact append_quiet (h _ _ _) (label_quiet _)

theorem remove_quiet : Quiet removeText := by
  intro ks cfg w
  unfold removeText
  repeat' split
  all_goals first | exact nil_quiet | exact single_quiet

theorem list_quiet (e : Env) (ks : KeyStore) : ∀ (l : List Bytes) (n : Nat), ∀ x ∈ listText e ks n l, IsOutput x
  | [], _ => nil_quiet
  | k :: rest, n => by
    unfold listText
    refine cons_quiet ?_
    split
    · exact nil_quiet
    · split
      · exact nil_quiet
      · exact cons_quiet (list_quiet e ks rest _)

theorem keys_quiet (e : Env) : Quiet (keysText e) := by
  intro ks cfg w
  unfold keysText
  simp only
  refine append_quiet (cons_quiet (cons_quiet (cons_quiet (cons_quiet nil_quiet)))) ?_
  split
  · exact cons_quiet (list_quiet e ks _ _)
  · exact nil_quiet

/-- What a command prints when it succeeds and all files were written. -/
theorem cryptsign_quiet {ks ks' : KeyStore} {cfg : Config} {w w' : World} {r : Ret}
    (h : cryptSignFile C P ks cfg w = (r, ks', w')) (hr : r = .ok) (hf : w'.failed = w.failed) :
    ∀ x ∈ (cryptSignText T C P ks cfg w).text, IsOutput x := by
  subst hr
  unfold cryptSignFile at h
  unfold cryptSignText
  split at h
  · rename_i src dst tail hargs
    rw [hargs]
    simp only at h ⊢
    have hread : ∀ o w1, w.readFile src = (o, w1) → w1.failed = w.failed := by
      intro o w1 h
      unfold World.readFile at h
      split at h <;> (cases h; rfl)
    rcases hq : w.readFile src with ⟨o, w1⟩
    have hw1 := hread _ _ hq
    rw [hq] at h
    cases o with
    | none => cases h
    | some message =>
      simp only at h ⊢
      cases hx : ks.encryptAndSignTo C cfg.label message w1.rng with
      | panic => exact nil_quiet
      | ok x =>
        obtain ⟨out, rng⟩ := x
        rw [hx] at h
        cases out with
        | none => cases h
        | some out =>
          simp only [after] at h ⊢
          refine append_quiet (output_quiet T _ _) ?_
          rcases hy : World.writeFile { w1 with rng := rng } dst (if cfg.armour = true then P.enc signedAndEncryptedType out else out) with ⟨b, w2⟩
          cases b with
          | true => exact nil_quiet
          | false =>
            exfalso
            rw [hy] at h
            cases h
            unfold World.writeFile at hy
            split at hy
            · cases hy
            · unfold World.save at hy
              simp only at hy
              obtain ⟨h1, h2⟩ := Prod.mk.inj hy
              rw [h1] at h2
              rw [← h2] at hf
              simp only [Bool.false_eq_true, if_false, hw1] at hf
              omega
  · cases h

/-- Every command has its texts. -/
theorem select_said {e : Env} {f : Flags} {cmd : Command} (h : select C A P e f = some cmd) :
    ∃ names speech, selectText T C A P e f = some (names, speech) ∧
      ((∀ ks cfg w ks' w', cmd.run ks cfg w = (.ok, ks', w') → ∀ x ∈ (speech ks cfg w).text, IsOutput x) ∨ SignsEncrypted f ∧ cmd = ⟨true, false, 2, cryptSignFile C P⟩ ∧ speech = cryptSignText T C P) := by
  unfold select at h
  unfold selectText
  cases h1 : f.check with
  | true =>
    rw [h1] at h
    cases h
    exact ⟨_, _, rfl, .inl fun ks cfg w _ _ h => check_quiet C h⟩
  | false =>
  rw [h1] at h
  cases h2 : f.sign with
  | true =>
    rw [h2] at h
    cases h3 : f.encrypt with
    | true =>
      rw [h3] at h
      cases h
      exact ⟨_, _, rfl, .inr ⟨⟨h1, h2, h3⟩, rfl, rfl⟩⟩
    | false => exact ⟨_, _, rfl, .inl fun ks cfg w _ _ _ => sign_quiet T C P ks cfg w⟩
  | false =>
  rw [h2] at h
  cases h4 : f.verify with
  | true => exact ⟨_, _, rfl, .inl fun ks cfg w _ _ _ => verify_quiet T C P ks cfg w⟩
  | false =>
  rw [h4] at h
  cases h3 : f.encrypt with
  | true => exact ⟨_, _, rfl, .inl fun ks cfg w _ _ _ => encrypt_quiet T C P ks cfg w⟩
  | false =>
  rw [h3] at h
  cases h5 : f.decrypt with
  | true => exact ⟨_, _, rfl, .inl fun ks cfg w _ _ _ => decrypt_quiet T C P ks cfg w⟩
  | false =>
  rw [h5] at h
  cases h6 : f.remove with
  | true => exact ⟨_, _, rfl, .inl fun ks cfg w _ _ _ => remove_quiet ks cfg w⟩
  | false =>
  rw [h6] at h
  cases h7 : f.list with
  | true => exact ⟨_, _, rfl, .inl fun ks cfg w _ _ _ => keys_quiet e ks cfg w⟩
  | false =>
  rw [h7] at h
  cases h8 : f.export_ with
  | true =>
    cases hl : f.label == self with
    | true => exact ⟨_, _, rfl, .inl fun ks cfg w _ _ _ => exportSelf_quiet T ks cfg w⟩
    | false => exact ⟨_, _, rfl, .inl fun ks cfg w _ _ _ => export_quiet T C A P e ks cfg w⟩
  | false =>
  rw [h8] at h
  cases h9 : f.import_ with
  | true =>
    cases hu : f.untrusted with
    | true => exact ⟨_, _, rfl, .inl fun ks cfg w _ _ _ => uimport_quiet T C A P e ks cfg w⟩
    | false => exact ⟨_, _, rfl, .inl fun ks cfg w _ _ _ => import_quiet T C A P e ks cfg w⟩
  | false =>
  rw [h9] at h
  cases h

theorem select_commanded {e : Env} {f : Flags} (h : Commanded f) : ∃ cmd, select C A P e f = some cmd := by
  unfold select
  cases h1 : f.check with
  | true => exact ⟨_, rfl⟩
  | false =>
  cases h2 : f.sign with
  | true => cases h3 : f.encrypt <;> exact ⟨_, rfl⟩
  | false =>
  cases h4 : f.verify with
  | true => exact ⟨_, rfl⟩
  | false =>
  cases h3 : f.encrypt with
  | true => exact ⟨_, rfl⟩
  | false =>
  cases h5 : f.decrypt with
  | true => exact ⟨_, rfl⟩
  | false =>
  cases h6 : f.remove with
  | true => exact ⟨_, rfl⟩
  | false =>
  cases h7 : f.list with
  | true => exact ⟨_, rfl⟩
  | false =>
  cases h8 : f.export_ with
  | true => cases hl : f.label == self <;> exact ⟨_, rfl⟩
  | false =>
  cases h9 : f.import_ with
  | true => cases hu : f.untrusted <;> exact ⟨_, rfl⟩
  | false =>
    unfold Commanded at h
    rw [h1, h2, h3, h4, h5, h6, h7, h8, h9] at h
    simp at h

theorem select_none {e : Env} {f : Flags} (h : ¬ Commanded f) : select C A P e f = none ∧ selectText T C A P e f = none := by
  unfold Commanded at h
  simp only [not_or, Bool.not_eq_true] at h
  obtain ⟨h1, h2, h3, h4, h5, h6, h7, h8, h9⟩ := h
  unfold select selectText
  rw [h1, h2, h3, h4, h5, h6, h7, h8, h9]
  exact ⟨rfl, rfl⟩

end Verif.Proofs.FcryptOutput
