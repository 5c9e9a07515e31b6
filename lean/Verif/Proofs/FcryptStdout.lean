import Verif.Model.FcryptOutput
/-!
The two models of fcrypt agree: the standard output of Model/Fcrypt is what Model/FcryptOutput says is printed
there, in every run that ends and does not import a key (of whose prompts Model/Fcrypt has only the fingerprint).
-/

namespace Verif.Proofs.FcryptStdout
open Verif Verif.Go Verif.Model.Util Verif.Model.Public Verif.Model.KeyStore Verif.Model.Fcrypt Verif.Model.FcryptOutput

variable (T : Bytes) (M : Map (Option PublicKeyRecord) → Bytes) (C : Crypto) (A : Asn1) (P : Armour) (J : KeyJson)

/-- What goes to standard output. -/
def outs (ps : List Piece) : Bytes := ps.flatMap fun | .out b => b | .err _ => []

theorem outs_append (a b : List Piece) : outs (a ++ b) = outs a ++ outs b := by simp [outs]
@[simp] theorem outs_nil : outs [] = [] := rfl
@[simp] theorem outs_out (b : Bytes) (ps : List Piece) : outs (.out b :: ps) = b ++ outs ps := rfl
@[simp] theorem outs_err (b : Bytes) (ps : List Piece) : outs (.err b :: ps) = outs ps := rfl
@[simp] theorem outs_println (b : Bytes) (ps : List Piece) : outs (println b :: ps) = b ++ [10] ++ outs ps := rfl
@[simp] theorem outs_errorf (b : Bytes) (ps : List Piece) : outs (errorf b :: ps) = outs ps := rfl

/-- A command ended, and not by a panic. -/
def Ended (r : Ret) : Prop := r = .ok ∨ r = .err

@[simp] theorem print_stdout (w : World) (b : Bytes) : (w.print b).stdout = w.stdout ++ b := rfl
@[simp] theorem now_stdout (w : World) : w.now.2.stdout = w.stdout := rfl
@[simp] theorem read_stdout (w : World) : w.read.2.stdout = w.stdout := rfl
@[simp] theorem save_stdout (w : World) (p d : Bytes) : (w.save p d).2.stdout = w.stdout := rfl
theorem file_stdout {w w1 : World} {p : Bytes} {x : Option Bytes} (h : w.readFile p = (x, w1)) : w1.stdout = w.stdout := by
  unfold World.readFile at h
  split at h <;> cases h <;> rfl

/-- What the command prints is what is said. -/
def Agrees (c : Cmd) (s : Says) : Prop := ∀ ks cfg w r ks' w', c ks cfg w = (r, ks', w') → Ended r →
  w'.stdout = w.stdout ++ outs (s ks cfg w).text

theorem output_agrees {ks ks' : KeyStore} {w w' : World} {p d : Bytes} {r : Ret} (h : output ks w p d = (r, ks', w')) :
    w'.stdout = w.stdout ++ outs (outputText T p d).text := by
  unfold output World.writeFile at h
  unfold outputText
  by_cases hp : p = dash
  · rw [if_pos hp] at h
    simp only [Prod.mk.injEq] at h
    rw [← h.2.2, if_pos hp]
    simp
  · rw [if_neg hp] at h
    rw [if_neg hp]
    generalize hs : w.save p d = x at h
    obtain ⟨b, w1⟩ := x
    have := save_stdout w p d
    rw [hs] at this
    cases b <;> simp only [Prod.mk.injEq] at h <;> rw [← h.2.2] <;> simpa using this

theorem not_panic {ks ks' : KeyStore} {w w' : World} {r : Ret} {p : Prop} (h : ((Ret.panic, ks, w) : Ret × KeyStore × World) = (r, ks', w'))
    (he : Ended r) : p := by
  simp only [Prod.mk.injEq] at h
  rcases he with rfl | rfl <;> cases h.1

theorem check_agrees (e : Env) : Agrees (checkStore C e) (checkText C e) := by
  intro ks cfg w r ks' w' h he
  unfold checkStore at h
  unfold checkText
  split at h
  · rename_i hl
    simp only [Prod.mk.injEq] at h
    rw [if_pos hl, ← h.2.2]; simp
  · rename_i hl
    rw [if_neg hl]
    unfold after at h
    cases hv : ks.valid with
    | panic => rw [hv] at h; exact not_panic h he
    | ok v =>
      rw [hv] at h
      cases v with
      | false => simp only [Bool.not_false, if_true, Prod.mk.injEq] at h; rw [← h.2.2]; simp
      | true =>
        simp only [Bool.not_true, Bool.false_eq_true, if_false] at h ⊢
        have ha : ∀ ls, outs (auditText C ks.toKeyFields (fun l i => e.walk l i (ks.keys.getD Map.empty)) e.fuel ls) = [] := by
          intro ls
          induction ls with
          | nil => rfl
          | cons l ls ih => unfold auditText; split <;> simp [ih]
        split at h
        · simp only [Prod.mk.injEq] at h; rcases he with rfl | rfl <;> cases h.1
        · exact not_panic h he
        · rename_i hk; rw [hk]; simp only [Prod.mk.injEq] at h; rw [← h.2.2]; simp [ha]
        · rename_i hk; rw [hk]; simp only [Prod.mk.injEq] at h; rw [← h.2.2]; rfl

theorem encrypt_agrees : Agrees (encryptFile C P) (encryptText T C P) := by
  intro ks cfg w r ks' w' h he
  unfold encryptFile at h
  unfold encryptText
  split at h
  · rename_i hargs
    simp only [hargs]
    split at h
    · rename_i w1 hr
      simp only [hr] ; simp only [Prod.mk.injEq] at h; rw [← h.2.2, file_stdout hr]; simp
    · rename_i msg w1 hr
      simp only [hr]
      unfold after at h
      split at h
      · exact not_panic h he
      · rename_i x hx
        obtain ⟨out, rng⟩ := x
        rw [hx]
        cases out with
        | none => simp only [Prod.mk.injEq] at h; rw [← h.2.2]; simp [file_stdout hr]
        | some out => rw [output_agrees T h]; simp [file_stdout hr]
  · exact not_panic h he

theorem decrypt_agrees : Agrees (decryptFile C P) (decryptText T C P) := by
  intro ks cfg w r ks' w' h he
  unfold decryptFile at h
  unfold decryptText
  split at h
  · rename_i hargs
    simp only [hargs]
    split at h
    · rename_i w1 hr
      simp only [hr] ; simp only [Prod.mk.injEq] at h; rw [← h.2.2, file_stdout hr]; simp
    · rename_i msg w1 hr
      simp only [hr]
      cases ho : openMessage P msg with
      | none => rw [ho] at h; simp only [Prod.mk.injEq] at h; rw [← h.2.2, file_stdout hr]; simp
      | some x =>
        obtain ⟨v, b⟩ := x
        rw [ho] at h
        cases v with
        | false =>
          simp only [Bool.not_false, if_true] at h ⊢
          unfold after at h
          split at h
          · exact not_panic h he
          · rename_i x hx
            rw [hx]
            cases x with
            | none => simp only [Prod.mk.injEq] at h; rw [← h.2.2]; simp [file_stdout hr]
            | some out => rw [output_agrees T h]; simp [file_stdout hr]
        | true =>
          simp only [Bool.not_true, Bool.false_eq_true, if_false] at h ⊢
          unfold after at h
          split at h
          · exact not_panic h he
          · rename_i x hx
            rw [hx]
            cases x with
            | none => simp only [Prod.mk.injEq] at h; rw [← h.2.2]; simp [file_stdout hr]
            | some out =>
              rw [output_agrees T h]
              simp only [print_stdout, file_stdout hr, outs_println, List.append_assoc]
              rfl
  · exact not_panic h he

theorem sign_agrees : Agrees (signFile C P) (signText T C P) := by
  intro ks cfg w r ks' w' h he
  unfold signFile at h
  unfold signText
  split at h
  · rename_i hargs
    simp only [hargs]
    split at h
    · rename_i w1 hr
      simp only [hr] ; simp only [Prod.mk.injEq] at h; rw [← h.2.2, file_stdout hr]; simp
    · rename_i msg w1 hr
      simp only [hr]
      unfold after at h
      split at h
      · exact not_panic h he
      · rename_i x hx
        rw [hx]
        cases x with
        | none => simp only [Prod.mk.injEq] at h; rw [← h.2.2]; simp [file_stdout hr]
        | some out => rw [output_agrees T h]; simp [file_stdout hr]
  · exact not_panic h he

theorem verify_agrees : Agrees (verifyFile C P) (verifyText T C P) := by
  intro ks cfg w r ks' w' h he
  unfold verifyFile at h
  unfold verifyText
  split at h
  · rename_i hargs
    simp only [hargs]
    split at h
    · rename_i w1 hr
      simp only [hr] ; simp only [Prod.mk.injEq] at h; rw [← h.2.2, file_stdout hr]; simp
    · rename_i msg w1 hr
      simp only [hr]
      split at h
      · rename_i w2 hr2
        simp only [hr2] ; simp only [Prod.mk.injEq] at h; rw [← h.2.2, file_stdout hr2, file_stdout hr]; simp
      · rename_i sig w2 hr2
        simp only [hr2]
        split at h
        · rename_i ho; simp only [ho]; simp only [Prod.mk.injEq] at h; rw [← h.2.2, file_stdout hr2, file_stdout hr]; simp
        · rename_i ho
          simp only [ho]
          unfold after at h
          split at h
          · exact not_panic h he
          · rename_i x hx
            rw [hx]
            simp only [Prod.mk.injEq] at h
            rw [← h.2.2]
            cases x <;> simp [file_stdout hr2, file_stdout hr] <;> rfl
  · exact not_panic h he

theorem cryptSign_agrees : Agrees (cryptSignFile C P) (cryptSignText T C P) := by
  intro ks cfg w r ks' w' h he
  unfold cryptSignFile at h
  unfold cryptSignText
  split at h
  · rename_i hargs
    simp only [hargs]
    split at h
    · rename_i w1 hr
      simp only [hr] ; simp only [Prod.mk.injEq] at h; rw [← h.2.2, file_stdout hr]; simp
    · rename_i msg w1 hr
      simp only [hr]
      unfold after at h
      split at h
      · exact not_panic h he
      · rename_i x hx
        obtain ⟨out, rng⟩ := x
        rw [hx]
        cases out with
        | none => simp only [Prod.mk.injEq] at h; rw [← h.2.2]; simp [file_stdout hr]
        | some out =>
          simp only at h ⊢
          generalize hd : (if cfg.armour = true then P.enc signedAndEncryptedType out else out) = data at h ⊢
          have ho : ∀ b w2, ({ w1 with rng := rng } : World).writeFile (cfg.args.tail.headD []) data = (b, w2) →
              w2.stdout = w1.stdout ++ outs (outputText T (cfg.args.tail.headD []) data).text := by
            intro b w2 hw
            have : output ks { w1 with rng := rng } (cfg.args.tail.headD []) data = (if b then .ok else .err, ks, w2) := by
              unfold output; rw [hw]; cases b <;> rfl
            exact (output_agrees T this :)
          rw [hargs] at ho
          simp only [List.tail_cons, List.headD_cons] at ho
          split at h <;> rename_i w2 hw <;> simp only [Prod.mk.injEq] at h <;> rw [← h.2.2, ho _ _ hw, outs_append, file_stdout hr] <;>
            split <;> simp
  · exact not_panic h he

theorem exportSelf_agrees : Agrees exportSelf (exportSelfText T) := by
  intro ks cfg w r ks' w' h he
  unfold exportSelf at h
  unfold exportSelfText
  split at h
  · rename_i hk; rw [hk]; simp only [Prod.mk.injEq] at h; rw [← h.2.2]; simp
  · rename_i key hk
    rw [hk]
    split at h
    · rename_i hargs
      simp only [hargs]
      exact output_agrees T h
    · exact not_panic h he

theorem export_agrees (e : Env) : Agrees (exportVerified C A P e) (exportText T C A P e) := by
  intro ks cfg w r ks' w' h he
  unfold exportVerified at h
  unfold exportText
  simp only at h ⊢
  split at h
  · simp only [Prod.mk.injEq] at h; rcases he with rfl | rfl <;> cases h.1
  · exact not_panic h he
  · rename_i hk; rw [hk]; simp only [Prod.mk.injEq] at h; rw [← h.2.2]; simp
  · rename_i out hk
    rw [hk]
    split at h
    · rename_i hargs
      simp only [hargs]
      rw [output_agrees T h]; simp
    · exact not_panic h he

theorem remove_agrees : Agrees removeKey removeText := by
  intro ks cfg w r ks' w' h he
  unfold removeKey at h
  unfold removeText
  split at h
  · rename_i hargs
    simp only [hargs]
    split at h
    · rename_i hs; rw [if_pos hs]; simp only [Prod.mk.injEq] at h; rw [← h.2.2]; simp
    · rename_i hs
      rw [if_neg hs]
      split at h
      · rename_i hb; rw [if_pos hb]; simp only [Prod.mk.injEq] at h; rw [← h.2.2]; simp
      · rename_i hb; rw [if_neg hb]; simp only [Prod.mk.injEq] at h; rw [← h.2.2]; simp
  · exact not_panic h he

theorem listLoop_agrees (e : Env) (ks : KeyStore) (ls : List Bytes) : ∀ (n : Nat) (w : World) r ks' w', listLoop e ks n ls w = (r, ks', w') →
    Ended r → w'.stdout = w.stdout ++ outs (listText e ks n ls) := by
  induction ls with
  | nil =>
    intro n w r ks' w' h he
    unfold listLoop at h
    simp only [Prod.mk.injEq] at h
    rw [← h.2.2]; simp [listText]
  | cons k ls ih =>
    intro n w r ks' w' h he
    unfold listLoop at h
    unfold listText
    simp only at h
    split at h
    · exact not_panic h he
    · rename_i rec_ hg
      rw [hg]
      split at h
      · exact not_panic h he
      · rename_i signer hf
        rw [ih _ _ _ _ _ h he]
        simp [hf]

theorem keyList_agrees (e : Env) : Agrees (keyList e) (keysText e) := by
  intro ks cfg w r ks' w' h he
  unfold keyList at h
  unfold keysText
  simp only at h ⊢
  have ha : ascii "Owner public key:\n\tFingerprint: " = ascii "Owner public key:" ++ [10] ++ ascii "\tFingerprint: " := by decide
  split at h
  · rename_i hl
    rw [if_pos hl, listLoop_agrees e ks _ _ _ _ _ _ h he]
    have hb : ascii "Key store:\n" = ascii "Key store:" ++ [10] := by decide
    simp only [print_stdout, outs_append, outs_println, outs_out, outs_nil, ha, hb, List.append_assoc, List.append_nil, List.nil_append,
      List.cons_append]
  · rename_i hl
    rw [if_neg hl]
    simp only [Prod.mk.injEq] at h
    rw [← h.2.2]
    simp only [print_stdout, outs_append, outs_println, outs_out, outs_nil, ha, List.append_assoc, List.append_nil, List.nil_append,
      List.cons_append]

theorem finish_agrees (f : Flags) (sw u : Bool) (ks : KeyStore) (w w' : World) (r : Ret) (h : finish J f sw u ks w = (r, w')) (he : Ended r) :
    w'.stdout = w.stdout ++ outs (finishText T J f sw ks w) := by
  unfold finish at h
  unfold finishText
  have hleave : ∀ (ks : KeyStore) (w : World), (if u = true then match ks.lock with | .panic => (Ret.panic, w) | .ok _ => (.ok, w) else (.ok, w)) = (r, w') →
      w'.stdout = w.stdout := by
    intro ks w h
    split at h
    · split at h <;> cases h <;> rfl
    · cases h; rfl
  simp only at h
  split at h
  · rename_i hc
    rw [if_pos hc]
    have hp : ascii "Writing keystore.\n" = ascii "Writing keystore." ++ [10] := by decide
    unfold writeStore at h
    unfold writeText
    cases hd : dumpKeyStore J { ks with timestamp := w.now.1 } with
    | panic =>
      rw [hd] at h
      simp only [Res.panic_bind, Prod.mk.injEq] at h
      rcases he with rfl | rfl <;> cases h.1
    | ok x =>
      obtain ⟨data, ks2⟩ := x
      rw [hd] at h
      simp only [Res.ok_bind, Res.pure_eq] at h
      generalize hs : (w.now.2.print (ascii "Writing keystore.\n")).save f.path data = y at h
      obtain ⟨b, w2⟩ := y
      have h2 : w2.stdout = w.stdout ++ (ascii "Writing keystore." ++ [10]) := by
        have := save_stdout (w.now.2.print (ascii "Writing keystore.\n")) f.path data
        rw [hs, hp] at this
        exact this
      have htext : outs (if (w.now.2.save f.path data).1 = true then [] else [errorf T]) = [] := by split <;> rfl
      simp only [hd, outs_println, htext, List.append_nil]
      cases b with
      | true => rw [hleave _ _ h, h2]
      | false => simp only [Prod.mk.injEq] at h; rw [← h.2, h2]
  · rename_i hc
    rw [if_neg hc, hleave _ _ h]
    simp

theorem loadKeyText_outs (file : Option Bytes) (rng : Rng) : outs (loadKeyText T M C J file rng) = [] := by
  unfold loadKeyText
  split
  · unfold dataText
    split
    · rfl
    · simp only; split <;> rfl
  · split <;> rfl

theorem load_agrees {w w' : World} {path : Bytes} {x : Option KeyStore} (h : loadStore C A P J w path = .ok (x, w')) :
    w'.stdout = w.stdout ++ outs (loadText T M C A P J w path) ∧ w'.fs = w.fs := by
  unfold loadStore at h
  unfold loadText
  simp only at h ⊢
  obtain ⟨⟨ks, rng⟩, h1, h⟩ := Res.bind_eq_ok.mp h
  rw [h1]
  cases ks with
  | none =>
    simp only [Res.pure_eq, Res.ok.injEq, Prod.mk.injEq] at h
    rw [← h.2]
    simp only [outs_append, loadKeyText_outs]
    exact ⟨rfl, rfl⟩
  | some ks =>
    simp only at h ⊢
    obtain ⟨v, h2, h⟩ := Res.bind_eq_ok.mp h
    rw [h2]
    cases v with
    | false =>
      simp only [Bool.not_false, if_true, Res.pure_eq, Res.ok.injEq, Prod.mk.injEq] at h
      rw [← h.2]
      exact ⟨by simp; rfl, rfl⟩
    | true =>
      simp only [Bool.not_true, Bool.false_eq_true, if_false] at h ⊢
      split at h
      · rename_i hf
        simp only [Res.pure_eq, Res.ok.injEq, Prod.mk.injEq] at h
        rw [if_pos hf, ← h.2]
        exact ⟨by simp, rfl⟩
      · rename_i hf
        rw [if_neg hf]
        split at h
        · rename_i hp
          simp only [Res.pure_eq, Res.ok.injEq, Prod.mk.injEq] at h
          simp only [hp]
          rw [← h.2]
          exact ⟨by simp, rfl⟩
        · rename_i pass hp
          simp only [hp]
          obtain ⟨⟨ks2, ok, rng2⟩, h3, h⟩ := Res.bind_eq_ok.mp h
          simp only [h3]
          cases ok with
          | false =>
            simp only [Bool.not_false, if_true, Res.pure_eq, Res.ok.injEq, Prod.mk.injEq] at h
            rw [← h.2]
            exact ⟨by simp, rfl⟩
          | true =>
            simp only [Bool.not_true, Bool.false_eq_true, if_false] at h ⊢
            obtain ⟨⟨ks3, ok⟩, h4, h⟩ := Res.bind_eq_ok.mp h
            simp only [h4]
            cases ok with
            | false =>
              simp only [Bool.not_false, if_true, Res.pure_eq, Res.ok.injEq, Prod.mk.injEq] at h
              rw [← h.2]
              exact ⟨by simp, rfl⟩
            | true =>
              simp only [Bool.not_true, Bool.false_eq_true, if_false, Res.pure_eq, Res.ok.injEq, Prod.mk.injEq] at h
              rw [← h.2]
              exact ⟨by simp, rfl⟩

theorem unlock_agrees {ks ks' : KeyStore} {w w' : World} {ok : Bool} (h : unlockStore C A P ks w = .ok (ok, ks', w')) :
    w'.stdout = w.stdout ++ outs (unlockText T C A P ks w) := by
  unfold unlockStore at h
  unfold unlockText
  split at h
  · rename_i hl
    simp only [Res.ok.injEq, Prod.mk.injEq] at h
    rw [if_pos hl, ← h.2.2]; simp
  · rename_i hl
    rw [if_neg hl]
    simp only at h ⊢
    split at h
    · rename_i hp
      simp only [Res.ok.injEq, Prod.mk.injEq] at h
      simp only [hp]
      rw [← h.2.2]; simp
    · rename_i pass hp
      simp only [hp]
      obtain ⟨⟨ks2, ok2⟩, h1, h⟩ := Res.bind_eq_ok.mp h
      simp only [Res.pure_eq, Res.ok.injEq, Prod.mk.injEq] at h
      rw [← h.2.2]
      simp only [h1, outs_append]
      have he : outs (if (!ok2) = true then [errorf (ascii "Unlock failed (bad passphrase?)")] else []) = [] := by split <;> rfl
      rw [he]
      split <;> simp

/-- The command and what it says are chosen alike. -/
theorem select_agrees (e : Env) (f : Flags) (hf : f.import_ = false) :
    (select C A P e f = none ∧ selectText T C A P e f = none) ∨
    ∃ cmd names s, select C A P e f = some cmd ∧ selectText T C A P e f = some (names, s) ∧ Agrees cmd.run s := by
  unfold select selectText
  by_cases h : f.check = true
  · rw [if_pos h, if_pos h]; exact .inr ⟨_, _, _, rfl, rfl, check_agrees C e⟩
  rw [if_neg h, if_neg h]
  by_cases h : (f.sign && f.encrypt) = true
  · rw [if_pos h, if_pos h]; exact .inr ⟨_, _, _, rfl, rfl, cryptSign_agrees T C P⟩
  rw [if_neg h, if_neg h]
  by_cases h : f.sign = true
  · rw [if_pos h, if_pos h]; exact .inr ⟨_, _, _, rfl, rfl, sign_agrees T C P⟩
  rw [if_neg h, if_neg h]
  by_cases h : f.verify = true
  · rw [if_pos h, if_pos h]; exact .inr ⟨_, _, _, rfl, rfl, verify_agrees T C P⟩
  rw [if_neg h, if_neg h]
  by_cases h : f.encrypt = true
  · rw [if_pos h, if_pos h]; exact .inr ⟨_, _, _, rfl, rfl, encrypt_agrees T C P⟩
  rw [if_neg h, if_neg h]
  by_cases h : f.decrypt = true
  · rw [if_pos h, if_pos h]; exact .inr ⟨_, _, _, rfl, rfl, decrypt_agrees T C P⟩
  rw [if_neg h, if_neg h]
  by_cases h : f.remove = true
  · rw [if_pos h, if_pos h]; exact .inr ⟨_, _, _, rfl, rfl, remove_agrees⟩
  rw [if_neg h, if_neg h]
  by_cases h : f.list = true
  · rw [if_pos h, if_pos h]; exact .inr ⟨_, _, _, rfl, rfl, keyList_agrees e⟩
  rw [if_neg h, if_neg h]
  by_cases h : (f.export_ && f.label == self) = true
  · rw [if_pos h, if_pos h]; exact .inr ⟨_, _, _, rfl, rfl, exportSelf_agrees T⟩
  rw [if_neg h, if_neg h]
  by_cases h : f.export_ = true
  · rw [if_pos h, if_pos h]; exact .inr ⟨_, _, _, rfl, rfl, export_agrees T C A P e⟩
  rw [if_neg h, if_neg h, hf]
  exact .inl ⟨rfl, rfl⟩

/-- The two models of fcrypt agree on standard output. -/
theorem main_agrees (e : Env) (f : Flags) (args : List Bytes) (w w' : World) (r : Ret) (hf : f.import_ = false)
    (h : main C A P J e f args w = (r, w')) (he : Ended r) :
    w'.stdout = w.stdout ++ outs (mainText T M C A P J e f args w) := by
  unfold main at h
  unfold mainText
  have hpan : ∀ {w1 : World} {p : Prop}, ((Ret.panic, w1) : Ret × World) = (r, w') → p := by
    intro w1 p h
    simp only [Prod.mk.injEq] at h
    rcases he with rfl | rfl <;> cases h.1
  rcases select_agrees T C A P e f hf with ⟨h1, h2⟩ | ⟨cmd, names, s, h1, h2, ha⟩
  · simp only [h1, h2] at h ⊢
    simp only [Prod.mk.injEq] at h
    rw [← h.2]; simp
  · simp only [h1, h2] at h ⊢
    split at h
    · rename_i hl
      simp only [Prod.mk.injEq] at h
      rw [if_pos hl, ← h.2]; simp
    · rename_i hl
      rw [if_neg hl, outs_append]
      cases hld : loadStore C A P J w f.path with
      | panic => rw [hld] at h; exact hpan h
      | ok x =>
        obtain ⟨ks, w1⟩ := x
        rw [hld] at h
        have hw1 := (load_agrees T M C A P J hld).1
        cases ks with
        | none =>
          simp only [Prod.mk.injEq] at h
          rw [← h.2, hw1]; simp
        | some ks =>
          simp only at h ⊢
          rw [← List.append_assoc, ← hw1]
          unfold execute at h
          unfold executeText
          have hgo : ∀ (ks : KeyStore) (w : World) (sw : Bool),
              (match cmd.run ks (config f args) w with
                | (.ok, ks, w) => finish J f sw cmd.needsUnlock ks w
                | (r, _, w) => (r, w)) = (r, w') →
              w'.stdout = w.stdout ++ outs ((s ks (config f args) w).text ++
                match cmd.run ks (config f args) w with
                | (.ok, ks, w) => finishText T J f sw ks w
                | (.err, _, _) => [errorf (ascii "Failed: " ++ (s ks (config f args) w).error)]
                | _ => []) := by
            intro ks w sw h
            rw [outs_append]
            cases hr : cmd.run ks (config f args) w with
            | mk r1 y =>
              obtain ⟨ks1, w2⟩ := y
              rw [hr] at h
              cases r1 with
              | ok =>
                simp only at h ⊢
                rw [finish_agrees T J f _ _ _ _ _ _ h he, ha _ _ _ _ _ _ hr (.inl rfl), List.append_assoc]
              | err =>
                simp only [Prod.mk.injEq] at h ⊢
                rw [← h.2, ha _ _ _ _ _ _ hr (.inr rfl)]
                simp
              | panic => exact hpan h
              | hang =>
                simp only [Prod.mk.injEq] at h
                rcases he with rfl | rfl <;> cases h.1
          simp only at h ⊢
          split at h
          · rename_i hu
            rw [if_pos hu, outs_append]
            cases hk : unlockStore C A P ks w1 with
            | panic => rw [hk] at h; exact hpan h
            | ok y =>
              obtain ⟨ok, ks2, w2⟩ := y
              rw [hk] at h
              have hw2 := unlock_agrees T C A P hk
              cases ok with
              | false =>
                simp only [Prod.mk.injEq] at h
                rw [← h.2, hw2]; simp
              | true =>
                simp only at h ⊢
                rw [hgo _ _ _ h, hw2, List.append_assoc]
                rfl
          · rename_i hu
            rw [if_neg hu]
            exact hgo _ _ _ h

end Verif.Proofs.FcryptStdout
