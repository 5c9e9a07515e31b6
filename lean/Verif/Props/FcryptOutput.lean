import Verif.Proofs.FcryptOutput
import Verif.Props.FcryptKeys
/-! C191-C193: what fcrypt prints. -/

namespace Verif.Props.FcryptOutput
open Verif Verif.Go Verif.Model.Util Verif.Model.Public Verif.Model.KeyStore Verif.Model.Fcrypt Verif.Model.FcryptOutput
open Verif.Spec.Public Verif.Spec.KeyStore Verif.Spec.Fcrypt Verif.Spec.FcryptOutput
open Verif.Proofs.Public Verif.Proofs.KeyStore Verif.Proofs.Fcrypt Verif.Proofs.FcryptOutput
open Verif.Props.KeyTrust Verif.Props.Fcrypt Verif.Props.FcryptFiles Verif.Props.FcryptKeys

variable (T : Bytes) (M : Map (Option PublicKeyRecord) → Bytes) (C : Crypto) (A : Asn1) (P : Armour) (J : KeyJson)

/-! ### C191: errors -/

/-- What the command prints, and then `main`. -/
def concludeText (f : Flags) (sw : Bool) (said : Said) : Ret × KeyStore × World → List Piece
  | (.ok, ks, w) => said.text ++ finishText T J f sw ks w
  | (.err, _, _) => said.text ++ [errorf (ascii "Failed: " ++ said.error)]
  | _ => said.text

theorem execute_cases (f : Flags) (cmd : Command) (speech : Says) (cfg : Config) (ks : KeyStore) (w : World) :
    (execute C A P J f cmd cfg ks w).1 = .panic ∨
    ((execute C A P J f cmd cfg ks w).1 = .err ∧ ∃ pre t, executeText T C A P J f cmd speech cfg ks w = pre ++ [errorf t]) ∨
    ∃ pre ks1 w1 sw, (∀ x ∈ pre, IsOutput x) ∧ w1.failed = w.failed ∧ w1.fs = w.fs ∧ (sw = cmd.shouldWrite ∨ f.check = true) ∧
      execute C A P J f cmd cfg ks w = conclude J f sw cmd.needsUnlock (cmd.run ks1 cfg w1) ∧
      executeText T C A P J f cmd speech cfg ks w = pre ++ concludeText T J f sw (speech ks1 cfg w1) (cmd.run ks1 cfg w1) := by
  have hsw : (cmd.shouldWrite || (f.check && ks.exportKey.isNone)) = cmd.shouldWrite ∨ f.check = true := by
    cases f.check <;> simp
  unfold execute executeText
  simp only
  cases hn : cmd.needsUnlock with
  | false =>
    simp only [Bool.false_eq_true, if_false]
    refine .inr (.inr ⟨[], ks, w, _, nil_quiet, rfl, rfl, hsw, ?_, ?_⟩)
    · rcases cmd.run ks cfg w with ⟨r, k2, w2⟩
      cases r <;> rfl
    · rcases cmd.run ks cfg w with ⟨r, k2, w2⟩
      cases r <;> simp [concludeText]
  | true =>
    simp only [if_true]
    cases hu : unlockStore C A P ks w with
    | panic => exact .inl rfl
    | ok x =>
      obtain ⟨b, k1, w1⟩ := x
      cases b with
      | false =>
        obtain ⟨pre, t, ht⟩ := unlock_text_fails T C A P hu
        exact .inr (.inl ⟨rfl, pre, t, by rw [ht]; exact List.append_nil _⟩)
      | true =>
        rw [unlock_text T C A P hu]
        obtain ⟨n, -, hs⟩ := unlockStore_false C A P hu
        refine .inr (.inr ⟨_, k1, w1, _, built_quiet C ks w, hs.failed, hs.fs, hsw, ?_, ?_⟩)
        · simp only
          rcases cmd.run k1 cfg w1 with ⟨r, k2, w2⟩
          cases r <;> rfl
        · simp only
          rcases cmd.run k1 cfg w1 with ⟨r, k2, w2⟩
          cases r <;> simp [concludeText]

/-- How a run and what it prints go together. -/
theorem main_text_cases {e : Env} {f : Flags} {cmd : Command} {names : List Bytes} {speech : Says}
    (hs : select C A P e f = some cmd) (ht : selectText T C A P e f = some (names, speech)) (args : List Bytes) (w : World) :
    (main C A P J e f args w).1 = .panic ∨
    ((main C A P J e f args w).1 = .err ∧ ∃ pre t, mainText T M C A P J e f args w = pre ++ [errorf t]) ∨
    ∃ pre data ks1 w1 sw, (∀ x ∈ pre, IsOutput x) ∧ w.fs f.path = some data ∧ w1.failed = w.failed ∧ w1.fs = w.fs ∧ (sw = cmd.shouldWrite ∨ f.check = true) ∧
      main C A P J e f args w = conclude J f sw cmd.needsUnlock (cmd.run ks1 (config f args) w1) ∧
      mainText T M C A P J e f args w = pre ++ concludeText T J f sw (speech ks1 (config f args) w1) (cmd.run ks1 (config f args) w1) := by
  unfold main mainText
  rw [hs, ht]
  simp only
  by_cases ha : args.length < cmd.argc
  · rw [if_pos ha, if_pos ha]
    exact .inr (.inl ⟨rfl, [_], _, rfl⟩)
  · rw [if_neg ha, if_neg ha]
    cases hl : loadStore C A P J w f.path with
    | panic => exact .inl rfl
    | ok x =>
      obtain ⟨o, w1⟩ := x
      cases o with
      | none => exact .inr (.inl ⟨rfl, _, _, rfl⟩)
      | some ks =>
        rw [load_text T M C A P J hl]
        have hw1 : (∃ data, w.fs f.path = some data) ∧ w1 = later w 2 := by
          cases hf : w.fs f.path with
          | none =>
            obtain ⟨h1, h2⟩ := load_missing C A P J hf
            by_cases hr : 64 ≤ w.rng.length
            · rw [h1 hr] at hl; cases hl
            · obtain ⟨w', g1, -⟩ := h2 (by omega)
              rw [g1] at hl; cases hl
          | some data =>
            rcases load_file C A P J hf with ⟨n, -, -, h⟩ | ⟨ks', -, -, h⟩
            · rw [h] at hl; cases hl
            · rw [h] at hl; cases hl; exact ⟨⟨data, rfl⟩, rfl⟩
        obtain ⟨⟨data, hd⟩, rfl⟩ := hw1
        simp only [List.nil_append]
        rcases execute_cases T C A P J f cmd speech (config f args) ks (later w 2) with h | ⟨h, pre, t, h'⟩ | ⟨pre, k1, w1, sw, h0, h1, h2, h3, h4, h5⟩
        · exact .inl h
        · exact .inr (.inl ⟨h, pre, t, h'⟩)
        · exact .inr (.inr ⟨pre, data, k1, w1, sw, h0, hd, h1, h2, h3, h4, h5⟩)

/-- C191, what holds of failures: if fcrypt exits with status 1, the last thing it prints is an error message on standard
error. -/
theorem C191_failure_partial (e : Env) (f : Flags) (args : List Bytes) (w w' : World) (h : main C A P J e f args w = (.err, w')) :
    ∃ pre x, mainText T M C A P J e f args w = pre ++ [x] ∧ IsError x := by
  cases hs : select C A P e f with
  | none =>
    unfold main at h
    rw [hs] at h
    cases h
  | some cmd =>
    obtain ⟨names, speech, ht, -⟩ := select_said T C A P hs
    rcases main_text_cases T M C A P J hs ht args w with hp | ⟨-, pre, t, h1⟩ | ⟨pre0, data, ks1, w1, sw, -, -, -, -, -, h1, h2⟩
    · rw [h] at hp; cases hp
    · exact ⟨pre, _, h1, isError t⟩
    · rw [h1] at h
      rw [h2]
      rcases hr : cmd.run ks1 (config f args) w1 with ⟨r, k2, w2⟩
      rw [hr] at h
      cases r with
      | ok =>
        obtain ⟨pre, t, h3⟩ := (finish_text T J f sw cmd.needsUnlock k2 w2).1 w' h
        exact ⟨pre0 ++ (_ ++ pre), _, by rw [concludeText, h3, List.append_assoc, List.append_assoc], isError t⟩
      | err => exact ⟨pre0 ++ _, _, by rw [concludeText, List.append_assoc], isError _⟩
      | panic => cases h
      | hang => cases h

/-- C191, what holds of success: if fcrypt was given a command, exits with status 0 and all files were written, it prints nothing on
standard error. Missing: runs without a command, and files that -s -e could not write. -/
theorem C191_success_partial (e : Env) (f : Flags) (args : List Bytes) (w w' : World) (hc : Commanded f)
    (h : main C A P J e f args w = (.ok, w')) (hw : AllWritten w w') :
    ∀ x ∈ mainText T M C A P J e f args w, IsOutput x := by
  obtain ⟨cmd, hs⟩ := select_commanded C A P (e := e) hc
  obtain ⟨names, speech, ht, hq⟩ := select_said T C A P hs
  rcases main_text_cases T M C A P J hs ht args w with hp | ⟨he, -⟩ | ⟨pre, data, ks1, w1, sw, hpre, hf, hw1, hw2, hsw, h1, h2⟩
  · rw [h] at hp; cases hp
  · rw [h] at he; cases he
  · rw [h1] at h
    rw [h2]
    rcases hr : cmd.run ks1 (config f args) w1 with ⟨r, k2, w2⟩
    rw [hr] at h
    cases r with
    | err => cases h
    | panic => cases h
    | hang => cases h
    | ok =>
      refine append_quiet hpre (append_quiet ?_ ((finish_text T J f sw cmd.needsUnlock k2 w2).2 w' h))
      rcases hq with hq | ⟨hfl, rfl, rfl⟩
      · exact hq _ _ _ _ _ hr
      · refine cryptsign_quiet T C P hr rfl ?_
        have hsw' : sw = false := by
          rcases hsw with h | h
          · exact h
          · rw [hfl.1] at h; cases h
        subst hsw'
        have hst : CmdStep False (fun _ => True) w1 (cryptSignFile C P ks1 (config f args) w1) :=
          cryptSignFile_step C P ks1 _ w1 (fun h => h) (fun _ _ _ _ _ => trivial)
        have hk := hst.keeps f.path (by rw [hw2, hf]; simp)
        have hr' : cryptSignFile C P ks1 (config f args) w1 = (.ok, k2, w2) := hr
        rw [hr'] at hk
        have h' : conclude J f false true (.ok, k2, w2) = (.ok, w') := h
        rw [conclude_quiet J hk] at h'
        cases h'
        exact hw.trans hw1.symm

/-- C191 is false of a run without a command: it prints an error message and exits with status 0. -/
theorem C191_nothing_violated (e : Env) (f : Flags) (hf : ¬ Commanded f) (args : List Bytes) (w : World) :
    main C A P J e f args w = (.ok, w) ∧ mainText T M C A P J e f args w = [.err (ascii "[!] Nothing to do.\n")] := by
  obtain ⟨h1, h2⟩ := select_none T C A P (e := e) hf
  unfold main mainText
  rw [h1, h2]
  exact ⟨rfl, by rfl⟩

example : ¬ Commanded { path := [107] } := by
  unfold Commanded
  simp

/-! What is printed by commands that unlock the key store. -/

theorem text_unlocked {e : Env} {fl : Flags} {args : List Bytes} {w : World} {cmd : Command} {names : List Bytes} {speech : Says}
    {d seed pass : Bytes} {f : KeyFields} {m : Keys} {as}
    (hs : select C A P e fl = some cmd) (ht : selectText T C A P e fl = some (names, speech))
    (hk : Keyfile J w.fs fl.path (ownerOf C d seed) f m) (ho : Opens C f d seed pass)
    (hn : cmd.needsUnlock = true) (ha : cmd.argc ≤ args.length) (hp : w.term.answers = some pass :: as) :
    ∃ ks w1, w1 = (later (Proofs.Fcrypt.rest w as) 3).print (notice f) ∧ ks = opened C f m d seed (exported C A P f d seed (w.term.clock 2)) ∧
    mainText T M C A P J e fl args w =
      noticed f ++ concludeText T J fl (cmd.shouldWrite || (fl.check && f.exportKey.isNone)) (speech ks (config fl args) w1)
        (cmd.run ks (config fl args) w1) := by
  refine ⟨_, _, rfl, rfl, ?_⟩
  obtain ⟨data, h1, h2, h3⟩ := keyfile_load J hk
  unfold mainText
  rw [hs, ht]
  simp only
  rw [if_neg (by omega)]
  rcases load_file C A P J h1 with ⟨n, -, -, hl⟩ | ⟨ks, h4, h5, hl⟩
  · exfalso
    unfold loadStore at hl
    simp only [now_eq, later_later] at hl
    have e : (later w (1 + 1)).fs fl.path = some data := h1
    rw [e] at hl
    simp [loadKeyStore, h1, h2, h3] at hl
  · rw [load_text T M C A P J hl, hl]
    rw [h2] at h4
    cases h4
    simp only [List.nil_append]
    unfold executeText
    have hu := keyring_unlock C A P J (w := later w 2) (as := as) hk ho hp
    have hb : built C (loaded f m) (later w 2) = noticed f := by
      have hl : (loaded f m).locked = true := rfl
      have hr : (later w 2).read = (some pass, { later w 2 with term := { (later w 2).term with answers := as } }) := by
        unfold World.read Term.read
        have : (later w 2).term.answers = some pass :: as := hp
        rw [this]
      unfold built
      rw [hl, hr]
      simp only [Bool.not_true, Bool.false_eq_true, if_false]
      unfold noticed KeyStore.builds
      obtain ⟨box, hb, hub⟩ := ho.key
      have hq : (loaded f m).validQuick = true := (quick_iff _).mpr ⟨hk.version, hk.time, m, rfl⟩
      have hlk : (loaded f m).lockedKey.getD [] = box := by show f.lockedKey.getD [] = box; rw [hb]; rfl
      have hx : (loaded f m).exportKey = f.exportKey := rfl
      rw [hq, hl, hlk, hub, hx]
      simp only [Bool.not_true, Bool.false_eq_true, if_false, pairOf_marshal, Option.isNone_iff_eq_none]
      rfl
    simp only [hn, if_true, hu, unlock_text T C A P hu, hb]
    have e1 : (later w 2).term.clock 0 = w.term.clock 2 := rfl
    have e2 : later (Proofs.Fcrypt.rest (later w 2) as) 1 = later (Proofs.Fcrypt.rest w as) 3 := by
      have : Proofs.Fcrypt.rest (later w 2) as = later (Proofs.Fcrypt.rest w as) 2 := rfl
      rw [this, later_later]
    rw [e1, e2]
    rcases cmd.run _ _ _ with ⟨r, k2, w2⟩
    have e3 : (loaded f m).exportKey = f.exportKey := rfl
    cases r <;> simp [concludeText, e3]

/-- C191 is false of -s -e: when the file cannot be written, an error message is printed, and the exit status is 0. -/
theorem C191_signed_violated (e : Env) (fl : Flags) (hfl : SignsEncrypted fl)
    (src dst : Bytes) (rest : List Bytes) (w : World) (d seed d' seed' pass : Bytes) (f : KeyFields) (m : Keys) (as)
    (hk : Keyring C J w.fs fl.path (ownerOf C d seed) f m) (ho : Opens C f d seed pass) (ha : w.term.answers = some pass :: as)
    (hn : Names (ownerOf C d seed) m fl.label (ownerOf C d' seed'))
    (msg : Bytes) (hin : Input w src msg) (hm : msg ≠ []) (hl : msg.length < 2 ^ 31 - 69) (hr : 56 ≤ w.rng.length)
    (hd : dst ≠ [45]) (hw : w.writes 0 = .openFails) :
    (∃ w', main C A P J e fl (src :: dst :: rest) w = (.ok, w')) ∧
    mainText T M C A P J e fl (src :: dst :: rest) w = noticed f ++ [.err (ascii "[!] " ++ T ++ ascii "\n")] := by
  obtain ⟨w', hmain, -, hnot⟩ := C128_signed_violated C A P J e fl hfl src dst rest w d seed d' seed' pass f m as hk ho ha hn msg hin hm hl hr hd hw
  refine ⟨⟨w', hmain⟩, ?_⟩
  have hs := select_cryptsign C A P (e := e) hfl
  have ht : selectText T C A P e fl = some ([ascii "message", ascii "encrypted"], cryptSignText T C P) := by
    obtain ⟨h1, h2, h3⟩ := hfl
    unfold selectText
    rw [h1, h2, h3]
    rfl
  obtain ⟨ks, w1, hw1, hks, h1⟩ := text_unlocked T M C A P J (args := src :: dst :: rest) hs ht hk.keyfile ho rfl (by simp) ha
  have h2 := main_unlocked C A P J (args := src :: dst :: rest) hs hk.keyfile ho rfl (by simp) ha
  rw [← hw1, ← hks] at h2
  rw [hmain] at h2
  rw [h1]
  have hsame : Noted w (notice f) w1 := by rw [hw1]; exact ⟨rfl, rfl, rfl, rfl, rfl, rfl⟩
  obtain ⟨w2, i1, i2, -, i3, -, i4, -, i5⟩ := readFile_some (hsame.input hin)
  have hnp : w2.fs fl.path ≠ none := by
    obtain ⟨data, q, -⟩ := hk.file
    rw [i2, hsame.fs, q]
    simp
  have hw2 : w2.writes 0 = .openFails := by rw [i4, hsame.writes, hw]
  simp only [cryptSignFile, config, i1, Bool.false_or, hfl.1, Bool.false_and] at h2 ⊢
  simp only [cryptSignText, i1]
  cases hx : ks.encryptAndSignTo C fl.label msg w2.rng with
  | panic =>
    rw [hx] at h2
    cases h2
  | ok x =>
    obtain ⟨out, rng⟩ := x
    rw [hx] at h2
    cases out with
    | none => cases h2
    | some out =>
      simp only [after, outputText]
      have hwf : ∀ data, (World.writeFile { w2 with rng := rng } dst data).1 = false ∧
          (World.writeFile { w2 with rng := rng } dst data).2.fs = w2.fs := by
        intro data
        unfold World.writeFile World.save
        rw [if_neg hd]
        simp only [hw2, Go.writeFile]
        exact ⟨trivial, trivial⟩
      generalize (if (fl.armour || (!false && fl.sign && fl.encrypt)) = true then P.enc signedAndEncryptedType out else out) = data
      obtain ⟨q1, q2⟩ := hwf data
      rcases hy : World.writeFile { w2 with rng := rng } dst data with ⟨b, w3⟩
      rw [hy] at q1 q2
      simp only at q1 q2
      subst q1
      rw [if_neg hd]
      simp only [Bool.false_eq_true, if_false, concludeText, List.nil_append, finishText, Bool.false_or, q2]
      have : (w2.fs fl.path).isNone = false := by
        cases hq : w2.fs fl.path with
        | none => exact absurd hq hnp
        | some => rfl
      rw [this]
      simp only [Bool.false_eq_true, if_false, List.append_nil]
      rfl

/-- The hypotheses can be met: a disk without room. -/
example : ∃ (fl : Flags) (w : World) (d seed d' seed' pass : Bytes) (f : KeyFields) (m : Keys),
    SignsEncrypted fl ∧ Keyring C J w.fs fl.path (ownerOf C d seed) f m ∧ Opens C f d seed pass ∧
    w.term.answers = [some pass] ∧ Names (ownerOf C d seed) m fl.label (ownerOf C d' seed') ∧
    Input w [105] [104, 105] ∧ 56 ≤ w.rng.length ∧ w.writes 0 = .openFails := by
  obtain ⟨f, -, ho, hk⟩ := exKeyring C J (List.replicate 32 1) (List.replicate 32 2) [97]
    (ownerOf C (List.replicate 32 3) (List.replicate 32 4)) [112] none (by decide) (by decide) (by decide) (by decide)
  exact ⟨{ path := [107], sign := true, encrypt := true, label := [97] },
    { exWorld J f [112] [104, 105] with writes := fun _ => .openFails }, _, _, _, _, _, f, _, ⟨rfl, rfl, rfl⟩, hk _ _, ho, rfl,
    .peer (Map.set_same _ _ _) rfl, exInput J f [112] _,
    (by show 56 ≤ (List.replicate 200 (3 : UInt8)).length; rw [List.length_replicate]; decide), rfl⟩

/-- A run that succeeds, with a command and all files written. -/
example (x : Bytes) : ∃ (fl : Flags) (w : World), Commanded fl ∧
    ∀ e, ∃ w', main C A P J e fl [[111]] w = (.ok, w') ∧ AllWritten w w' := by
  obtain ⟨f, hx, ho, hk⟩ := exKeyring C J (List.replicate 32 1) (List.replicate 32 2) [97]
    (ownerOf C (List.replicate 32 3) (List.replicate 32 4)) [112] (some x) (by decide) (by decide) (by decide) (by decide)
  refine ⟨{ path := [107], export_ := true }, exWorld J f [112] [], by unfold Commanded; simp, fun e => ?_⟩
  obtain ⟨w', h1, h2⟩ := exportSelf_run C A P J (e := e) (dst := [111]) (rest := []) ⟨⟨rfl, rfl, rfl, rfl, rfl⟩, rfl, rfl, rfl⟩ rfl
      (fl := { path := [107], export_ := true }) (w := exWorld J f [112] []) (hk _ _) hx (fun _ => rfl)
  exact ⟨w', h1, C128_reported_partial C A P J e _ (fun h => by cases h.2.1) _ _ _ h1⟩

/-- A run that fails: there are too few arguments. -/
example (e : Env) (w : World) : main C A P J e { path := [107], encrypt := true } [] w = (.err, w) := rfl

/-! ### C192: importing with -u -/

theorem selfSigned_eq (v : VerifiedKey) : ∃ b, v.isSelfSigned C = .ok b ∧ (b = true ↔ SelfSigned C v) := by
  unfold VerifiedKey.isSelfSigned SelfSigned
  by_cases hp : v.pub = v.signer
  · rw [if_neg (fun h => h hp)]
    cases hu : unmarshalPublic v.signer with
    | none =>
      refine ⟨false, rfl, ?_⟩
      simp only [Bool.false_eq_true, false_iff]
      rintro ⟨⟨h1, -⟩, -⟩
      rw [hp] at h1
      rw [unmarshalPublic_of_length h1] at hu
      cases hu
    | some p =>
      obtain ⟨hl, rfl⟩ := unmarshalPublic_some hu
      simp only
      rw [verify_mk]
      refine ⟨_, rfl, ?_⟩
      unfold Signed VerifiedKey.signatureData
      rw [hp]
      constructor
      · intro h
        split at h
        · exact ⟨⟨hl, ‹_›, h⟩, rfl⟩
        · cases h
      · rintro ⟨⟨-, h2, h3⟩, -⟩
        rw [if_pos h2]
        exact h3
  · rw [if_pos hp]
    refine ⟨false, rfl, ?_⟩
    simp only [Bool.false_eq_true, false_iff]
    rintro ⟨-, h⟩
    exact hp h.symm

/-- What is printed at the questions. -/
def questions (pre : List Bytes) : List Piece := (pre.map fun _ => askedAgain).flatten

theorem confirm_text_yes {pre : List Bytes} (h : ∀ x ∈ pre, x ≠ ascii "yes" ∧ x ≠ ascii "no") (rest : List (Option Bytes)) :
    confirmText (pre.map some ++ some (ascii "yes") :: rest) = questions pre ++ [asked, .out (ascii "As you wish.\n")] := by
  induction pre with
  | nil => rfl
  | cons x pre ih =>
    have hx := h x (List.mem_cons_self ..)
    simp only [List.map_cons, List.cons_append, confirmText]
    rw [if_neg hx.1, if_neg hx.2, ih fun y hy => h y (List.mem_cons_of_mem _ hy)]
    rfl

theorem confirm_text_no {pre : List Bytes} (h : ∀ x ∈ pre, x ≠ ascii "yes" ∧ x ≠ ascii "no") (rest : List (Option Bytes)) :
    confirmText (pre.map some ++ some (ascii "no") :: rest) = questions pre ++ [asked] ∧
    (confirm (pre.map some ++ some (ascii "no") :: rest)).1 = some .err := by
  induction pre with
  | nil => exact ⟨rfl, rfl⟩
  | cons x pre ih =>
    have hx := h x (List.mem_cons_self ..)
    obtain ⟨h1, h2⟩ := ih fun y hy => h y (List.mem_cons_of_mem _ hy)
    constructor
    · simp only [List.map_cons, List.cons_append, confirmText]
      rw [if_neg hx.1, if_neg hx.2, h1]
      rfl
    · simp only [List.map_cons, List.cons_append, confirm]
      rw [if_neg hx.1, if_neg hx.2, h2]

theorem confirm_text_begins (as : List (Option Bytes)) : ∃ rest, confirmText as = asked :: rest := by
  cases as with
  | nil => exact ⟨_, rfl⟩
  | cons a as =>
    cases a with
    | none => exact ⟨_, rfl⟩
    | some line => exact ⟨_, rfl⟩

theorem confirm_text_unanswered {as : List (Option Bytes)} (h : ∀ as2, confirm as ≠ (none, as2)) :
    Piece.out (ascii "As you wish.\n") ∉ confirmText as := by
  have no : Piece.out (ascii "As you wish.\n") ≠ asked := by decide
  have no2 : Piece.out (ascii "As you wish.\n") ≠ println (ascii "Please enter either 'yes' or 'no'.") := by decide
  induction as with
  | nil =>
    intro hx
    exact no (List.mem_singleton.1 hx)
  | cons a as ih =>
    cases a with
    | none =>
      intro hx
      exact no (List.mem_singleton.1 hx)
    | some line =>
      rw [confirm] at h
      unfold confirmText
      intro hx
      rcases List.mem_cons.1 hx with hx | hx
      · exact no hx
      · by_cases h1 : line = ascii "yes"
        · rw [if_pos h1] at h
          exact h as rfl
        · rw [if_neg h1] at h hx
          by_cases h2 : line = ascii "no"
          · rw [if_pos h2] at hx
            cases hx
          · rw [if_neg h2] at h hx
            rcases List.mem_cons.1 hx with hx | hx
            · exact no2 hx
            · exact ih h hx

/-- The line on the signature. -/
def signatureLine (b : Bool) : Bytes := if b then ascii "Key is self-signed.\n" else ascii "Unrecognised signature.\n"

theorem select_text_uimport {e : Env} {fl : Flags} (h : Imports fl) (hu : fl.untrusted = true) :
    selectText T C A P e fl = some ([ascii "signed key"], uimportText T C A P e) := by
  obtain ⟨⟨h1, h2, h3, h4, h5⟩, h6, h7, h8, h9⟩ := h
  unfold selectText
  rw [h1, h2, h3, h4, h5, h6, h7, h8, h9, hu]
  rfl

/-- All that the command prints. -/
theorem uimport_text {e : Env} {fl : Flags} {src : Bytes} {rest : List Bytes} {ks : KeyStore} {w : World} {input : Bytes} {v : VerifiedKey}
    {b : Bool} (hin : Input w src input) (hv : Holds A P input v) (hb : v.isSelfSigned C = .ok b) :
    (uimportText T C A P e ks (config fl (src :: rest)) w).text =
        announced (signatureLine b) (hexEncode (e.sha256 v.pub)) ++ confirmText w.term.answers ++
          (if (confirm w.term.answers).1 = none then labelText fl.label else []) ∧
      ((confirm w.term.answers).1 = some .err →
        (uimportText T C A P e ks (config fl (src :: rest)) w).error = ascii "canceled by user" ∧
        ∃ ks' w', importUntrusted C A P e ks (config fl (src :: rest)) w = (.err, ks', w')) := by
  obtain ⟨w1, i1, i2, i3, i4, i5, i6, -⟩ := readFile_some hin
  have hpv := (parse_iff A P input v).mpr hv
  have hline : println (if b = true then ascii "Key is self-signed." else ascii "Unrecognised signature.") = Piece.out (signatureLine b) := by
    cases b <;> decide
  have hfp : println (ascii "Fingerprint: " ++ hexEncode (e.sha256 v.pub)) =
      Piece.out (ascii "Fingerprint: " ++ hexEncode (e.sha256 v.pub) ++ ascii "\n") := rfl
  have hwarn : warning = [Piece.out (ascii "*****************************************\n"),
    Piece.out (ascii "*** WARNING: IMPORTING UNTRUSTED KEYS ***\n"), Piece.out (ascii "*****************************************\n")] := by decide
  have hann : warning ++ [println (if b = true then ascii "Key is self-signed." else ascii "Unrecognised signature."),
      println (ascii "Fingerprint: " ++ hexEncode (e.sha256 v.pub))] = announced (signatureLine b) (hexEncode (e.sha256 v.pub)) := by
    rw [hline, hfp, hwarn]
    rfl
  have hpr : ∀ t, (w1.print t).term.answers = w.term.answers := by
    intro t
    show w1.term.answers = _
    rw [i5]
  unfold uimportText importUntrusted
  simp only [config, i1, hpv, hb, after, hann, i5, hpr]
  rcases hc : confirm w.term.answers with ⟨r, as2⟩
  cases r with
  | some r =>
    refine ⟨by simp, ?_⟩
    intro hr
    cases hr
    exact ⟨rfl, _, _, rfl⟩
  | none =>
    simp only
    generalize askLabel fl.label _ = x
    obtain ⟨o, w3⟩ := x
    cases o with
    | none => exact ⟨by simp, fun h => by cases h⟩
    | some l => exact ⟨by simp, fun h => by cases h⟩

variable (e : Env) (fl : Flags) (src : Bytes) (rest : List Bytes)

/-- What is printed by a run with -import -u. -/
theorem uimport_main {w : World} {d seed pass : Bytes} {f : KeyFields} {m : Keys} {as : List (Option Bytes)} {input : Bytes} {v : VerifiedKey} {b : Bool}
    (hfl : Imports fl) (hu : fl.untrusted = true)
    (hk : Keyring C J w.fs fl.path (ownerOf C d seed) f m) (ho : Opens C f d seed pass) (ha : w.term.answers = some pass :: as)
    (hin : Input w src input) (hv : Holds A P input v) (hb : v.isSelfSigned C = .ok b) :
    ∃ tail, mainText T M C A P J e fl (src :: rest) w =
        noticed f ++ announced (signatureLine b) (hexEncode (e.sha256 v.pub)) ++ confirmText as ++
          (if (confirm as).1 = none then labelText fl.label else []) ++ tail ∧
      ((confirm as).1 = some .err → tail = [errorf (ascii "Failed: canceled by user")] ∧
        ∃ w', main C A P J e fl (src :: rest) w = (.err, w')) ∧
      Piece.out (ascii "As you wish.\n") ∉ tail := by
  have hs := select_uimport C A P (e := e) hfl hu
  obtain ⟨ks, w1, hw1, hks, h1⟩ := text_unlocked T M C A P J (args := src :: rest) hs (select_text_uimport T C A P (e := e) hfl hu)
    hk.keyfile ho rfl (by simp) ha
  have h2 := main_unlocked C A P J (args := src :: rest) hs hk.keyfile ho rfl (by simp) ha
  rw [← hw1, ← hks] at h2
  have hsame : Noted w (notice f) w1 := by rw [hw1]; exact ⟨rfl, rfl, rfl, rfl, rfl, rfl⟩
  have hans : w1.term.answers = as := by rw [hw1]; rfl
  obtain ⟨g1, g3⟩ := uimport_text T C A P (e := e) (fl := fl) (rest := rest) (ks := ks) (hsame.input hin) hv hb
  rw [hans] at g1 g3
  simp only at h1 h2
  have hfin : ∀ sw k (w : World), Piece.out (ascii "As you wish.\n") ∉ finishText T J fl sw k w := by
    intro sw k w hx
    unfold finishText at hx
    split at hx
    · rcases List.mem_cons.1 hx with hx | hx
      · revert hx; decide
      · unfold writeText at hx
        split at hx
        · cases hx
        · split at hx
          · cases hx
          · cases List.mem_singleton.1 hx
    · cases hx
  rw [h1]
  rcases hr : importUntrusted C A P e ks (config fl (src :: rest)) w1 with ⟨r, k2, w2⟩
  rw [hr] at h2 g3
  have hno : (confirm as).1 = some .err → r = .err := by
    intro h
    obtain ⟨-, k, w, h⟩ := g3 h
    cases h
    rfl
  cases r with
  | ok =>
    refine ⟨finishText T J fl (true || fl.check && f.exportKey.isNone) k2 w2, by rw [concludeText, g1]; simp only [List.append_assoc],
      fun h => ?_, hfin _ _ _⟩
    cases hno h
  | err =>
    refine ⟨[errorf (ascii "Failed: " ++ (uimportText T C A P e ks (config fl (src :: rest)) w1).error)], by rw [concludeText, g1]; simp only [List.append_assoc],
      fun h => ⟨by rw [(g3 h).1]; rfl, w2, h2⟩, fun hx => ?_⟩
    cases List.mem_singleton.1 hx
  | panic =>
    refine ⟨[], by simp only [concludeText, g1, List.append_nil, List.append_assoc], fun h => ?_, fun hx => by cases hx⟩
    cases hno h
  | hang =>
    refine ⟨[], by simp only [concludeText, g1, List.append_nil, List.append_assoc], fun h => ?_, fun hx => by cases hx⟩
    cases hno h

/-- C192, what holds: before it asks for the first time, fcrypt has shown the warning, the fingerprint of the key, and whether the key
is signed with itself. Missing: whether anybody on record has signed it. -/
theorem C192_shown_partial (w : World) (d seed pass : Bytes) (f : KeyFields) (m : Keys) (as : List (Option Bytes)) (input : Bytes) (v : VerifiedKey)
    (hfl : Imports fl) (hu : fl.untrusted = true)
    (hk : Keyring C J w.fs fl.path (ownerOf C d seed) f m) (ho : Opens C f d seed pass) (ha : w.term.answers = some pass :: as)
    (hin : Input w src input) (hv : Holds A P input v) :
    ∃ line tail, mainText T M C A P J e fl (src :: rest) w = noticed f ++ announced line (hexEncode (e.sha256 v.pub)) ++ asked :: tail ∧
      (SelfSigned C v → line = ascii "Key is self-signed.\n") ∧ (¬ SelfSigned C v → line = ascii "Unrecognised signature.\n") := by
  obtain ⟨b, hb, hb'⟩ := selfSigned_eq C v
  obtain ⟨tail, h1, -⟩ := uimport_main T M C A P J e fl src rest hfl hu hk ho ha hin hv hb
  obtain ⟨more, h2⟩ := confirm_text_begins as
  refine ⟨signatureLine b, more ++ ((if (confirm as).1 = none then labelText fl.label else []) ++ tail),
    by rw [h1, h2]; simp only [List.append_assoc, List.cons_append], fun h => ?_, fun h => ?_⟩
  · rw [signatureLine, if_pos (hb'.2 h)]
  · rw [signatureLine, if_neg (fun h' => h (hb'.1 h'))]

/-- C192: fcrypt asks until the answer is yes or no. On no it says that it was cancelled, exits with status 1, and has changed no file. -/
theorem C192_no (w : World) (d seed pass : Bytes) (f : KeyFields) (m : Keys) (pre : List Bytes) (after : List (Option Bytes)) (input : Bytes)
    (v : VerifiedKey) (hfl : Imports fl) (hu : fl.untrusted = true)
    (hk : Keyring C J w.fs fl.path (ownerOf C d seed) f m) (ho : Opens C f d seed pass)
    (ha : w.term.answers = some pass :: (pre.map some ++ some (ascii "no") :: after)) (hpre : ∀ x ∈ pre, x ≠ ascii "yes" ∧ x ≠ ascii "no")
    (hin : Input w src input) (hv : Holds A P input v) (hw : ∀ i k, w.writes i ≠ .failsAfter k) :
    ∃ line w', main C A P J e fl (src :: rest) w = (.err, w') ∧ w'.fs = w.fs ∧
      mainText T M C A P J e fl (src :: rest) w = noticed f ++ announced line (hexEncode (e.sha256 v.pub)) ++ (pre.map fun _ => askedAgain).flatten ++
        [asked, .err (ascii "[!] Failed: canceled by user\n")] := by
  obtain ⟨b, hb, -⟩ := selfSigned_eq C v
  obtain ⟨tail, h1, h2, -⟩ := uimport_main T M C A P J e fl src rest hfl hu hk ho ha hin hv hb
  obtain ⟨h3, h4⟩ := confirm_text_no hpre after
  obtain ⟨h5, w', h6⟩ := h2 h4
  refine ⟨signatureLine b, w', h6, C129_failure_partial C A P J e fl (src :: rest) w w' .err h6 (by simp) hw, ?_⟩
  rw [h1, h3, h4, h5, if_neg (by simp)]
  simp only [List.append_nil, List.append_assoc, List.cons_append, List.nil_append]
  rfl

/-- C192: on yes it says so, and asks for the label if none was given. -/
theorem C192_yes (w : World) (d seed pass : Bytes) (f : KeyFields) (m : Keys) (pre : List Bytes) (after : List (Option Bytes)) (input : Bytes)
    (v : VerifiedKey) (hfl : Imports fl) (hu : fl.untrusted = true)
    (hk : Keyring C J w.fs fl.path (ownerOf C d seed) f m) (ho : Opens C f d seed pass)
    (ha : w.term.answers = some pass :: (pre.map some ++ some (ascii "yes") :: after)) (hpre : ∀ x ∈ pre, x ≠ ascii "yes" ∧ x ≠ ascii "no")
    (hin : Input w src input) (hv : Holds A P input v) :
    ∃ line tail, mainText T M C A P J e fl (src :: rest) w = noticed f ++ announced line (hexEncode (e.sha256 v.pub)) ++ (pre.map fun _ => askedAgain).flatten ++
        [asked, .out (ascii "As you wish.\n")] ++ (if fl.label = ascii "self" then [.out (ascii "Label: ")] else []) ++ tail := by
  obtain ⟨b, hb, -⟩ := selfSigned_eq C v
  obtain ⟨tail, h1, -, -⟩ := uimport_main T M C A P J e fl src rest hfl hu hk ho ha hin hv hb
  refine ⟨signatureLine b, tail, ?_⟩
  rw [h1, confirm_text_yes hpre after, confirm_yes ⟨pre, rfl, hpre⟩, if_pos rfl]
  simp only [questions, List.append_assoc]
  rfl

/-- C192: it says "As you wish." only if the answer was yes. -/
theorem C192_wished (w : World) (d seed pass : Bytes) (f : KeyFields) (m : Keys) (as : List (Option Bytes)) (input : Bytes)
    (v : VerifiedKey) (hfl : Imports fl) (hu : fl.untrusted = true)
    (hk : Keyring C J w.fs fl.path (ownerOf C d seed) f m) (ho : Opens C f d seed pass) (ha : w.term.answers = some pass :: as)
    (hin : Input w src input) (hv : Holds A P input v)
    (h : Piece.out (ascii "As you wish.\n") ∈ mainText T M C A P J e fl (src :: rest) w) :
    ∃ (pre : List Bytes) (after : List (Option Bytes)), as = pre.map some ++ some (ascii "yes") :: after := by
  obtain ⟨b, hb, -⟩ := selfSigned_eq C v
  obtain ⟨tail, h1, -, h2⟩ := uimport_main T M C A P J e fl src rest hfl hu hk ho ha hin hv hb
  have h3 : Piece.out (ascii "As you wish.\n") ∉ announced (signatureLine b) (hexEncode (e.sha256 v.pub)) := by
    intro hx
    have hl : Piece.out (ascii "As you wish.\n") ≠ .out (signatureLine b) := by cases b <;> decide
    rcases List.mem_cons.1 hx with hx | hx
    · revert hx; decide
    rcases List.mem_cons.1 hx with hx | hx
    · revert hx; decide
    rcases List.mem_cons.1 hx with hx | hx
    · revert hx; decide
    rcases List.mem_cons.1 hx with hx | hx
    · exact hl hx
    cases List.mem_singleton.1 hx
  have h0 : Piece.out (ascii "As you wish.\n") ∉ noticed f := by
    unfold noticed
    split <;> decide
  have h4 : Piece.out (ascii "As you wish.\n") ∉ (if (confirm as).1 = none then labelText fl.label else []) := by
    unfold labelText
    split
    · split <;> decide
    · exact fun hx => by cases hx
  rw [h1] at h
  rcases List.mem_append.1 h with h | h
  · rcases List.mem_append.1 h with h | h
    · rcases List.mem_append.1 h with h | h
      · rcases List.mem_append.1 h with h | h
        · exact absurd h h0
        · exact absurd h h3
      · by_cases hc : ∃ as2, confirm as = (none, as2)
        · obtain ⟨as2, hc⟩ := hc
          obtain ⟨pre, hp, -⟩ := confirm_none hc
          exact ⟨pre, as2, hp⟩
        · exact absurd h (confirm_text_unanswered fun as2 h' => hc ⟨as2, h'⟩)
    · exact absurd h h4
  · exact absurd h h2

/-- C192: whenever a key is imported with -u, its fingerprint was shown, then the question was asked, and then the answer was yes. -/
theorem C192_imported_partial (w w' : World) (r : Ret) (d seed pass : Bytes) (f : KeyFields) (m : Keys) (as : List (Option Bytes)) (input : Bytes)
    (hfl : Imports fl) (hu : fl.untrusted = true)
    (hk : Keyring C J w.fs fl.path (ownerOf C d seed) f m) (ho : Opens C f d seed pass) (ha : w.term.answers = some pass :: as)
    (hin : Input w src input) (hw : ∀ k, w.writes 0 ≠ .failsAfter k) (hclk : ∀ n, w.term.clock n ≠ 0)
    (hm : main C A P J e fl (src :: rest) w = (r, w')) :
    w'.fs = w.fs ∨ Replaced C J w fl.path (ownerOf C d seed) f m w' ∨
    ∃ (label : Bytes) (rec : PublicKeyRecord) (k line : Bytes) (pre : List Bytes) (tail : List Piece), rec.keys = some k ∧ Replaced C J w fl.path (ownerOf C d seed) f (m.set label (some rec)) w' ∧
      mainText T M C A P J e fl (src :: rest) w = noticed f ++ announced line (hexEncode (e.sha256 k)) ++
        (pre.map fun _ => askedAgain).flatten ++ [asked, .out (ascii "As you wish.\n")] ++ tail ∧
      ∃ after, as = pre.map some ++ some (ascii "yes") :: after := by
  rcases C130_untrusted_partial C A P J e fl hfl hu src rest w w' r d seed pass f m as input hk ho ha hin hw hclk hm with
    ⟨-, h⟩ | ⟨-, -, h⟩ | ⟨-, as2, label, v, rec, ⟨pre, hc, hpre⟩, -, -, -, hv, -, h1, -, -, h2⟩
  · exact .inl h
  · exact .inr (.inl h)
  · subst hc
    obtain ⟨line, tail, h3⟩ := C192_yes T M C A P J e fl src rest w d seed pass f m pre as2 input v hfl hu hk ho ha hpre hin hv
    refine .inr (.inr ⟨label, rec, v.pub, line, pre, (if fl.label = ascii "self" then [.out (ascii "Label: ")] else []) ++ tail,
      h1, h2, ?_, as2, rfl⟩)
    rw [h3, List.append_assoc _ _ tail]

/-- C192 is false: a key that the owner, or someone on record, has signed is announced like one that nobody known has. -/
theorem C192_known_violated (w : World) (d seed pass : Bytes) (f : KeyFields) (m : Keys) (as : List (Option Bytes)) (input : Bytes) (v : VerifiedKey)
    (hfl : Imports fl) (hu : fl.untrusted = true)
    (hk : Keyring C J w.fs fl.path (ownerOf C d seed) f m) (ho : Opens C f d seed pass) (ha : w.term.answers = some pass :: as)
    (hin : Input w src input) (hv : Holds A P input v) (_hvouch : Vouched C (ownerOf C d seed) m v) (hne : v.signer ≠ v.pub) :
    ∃ tail, mainText T M C A P J e fl (src :: rest) w =
      noticed f ++ announced (ascii "Unrecognised signature.\n") (hexEncode (e.sha256 v.pub)) ++ asked :: tail := by
  obtain ⟨line, tail, h1, -, h2⟩ := C192_shown_partial T M C A P J e fl src rest w d seed pass f m as input v hfl hu hk ho ha hin hv
  have := h2 (fun h => hne h.2)
  subst this
  exact ⟨tail, h1⟩

/-- The hypotheses can be met: the owner has signed a key that is imported with -u, after an answer that is neither yes nor no. -/
example (answer : Bytes) : ∃ (fl : Flags) (w : World) (d seed pass : Bytes) (f : KeyFields) (m : Keys) (input : Bytes) (v : VerifiedKey),
    Imports fl ∧ fl.untrusted = true ∧ Keyring C J w.fs fl.path (ownerOf C d seed) f m ∧ Opens C f d seed pass ∧
    w.term.answers = some pass :: ([ascii "maybe"].map some ++ some answer :: []) ∧ (∀ x ∈ [ascii "maybe"], x ≠ ascii "yes" ∧ x ≠ ascii "no") ∧
    Input w [105] input ∧ Holds A P input v ∧ Vouched C (ownerOf C d seed) m v ∧ v.signer ≠ v.pub := by
  obtain ⟨f, -, ho, hk⟩ := exKeyring C J (List.replicate 32 1) (List.replicate 32 2) [97] (ownerOf C (List.replicate 32 3) (List.replicate 32 4))
    [112] none (by decide) (by decide) (by decide) (by decide)
  refine ⟨{ path := [107], import_ := true, untrusted := true, label := [98] },
    { exWorld J f [112] (P.enc (ascii "CRYPTUTIL VERIFIED KEY") (A.enc (statement C (List.replicate 32 1) (List.replicate 32 2) [1] 7))) with
      term := { answers := [some [112], some (ascii "maybe"), some answer], clock := fun _ => 100 } },
    _, _, _, f, _, _, _, ⟨⟨rfl, rfl, rfl, rfl, rfl⟩, rfl, rfl, rfl, rfl⟩, rfl, hk _ _, ho, rfl, by decide,
    exInput J f [112] _, enc_holds A P _, ⟨Or.inl rfl, statement_signed C _ _ _ _ (by decide)⟩, ?_⟩
  intro h
  have h1 : (statement C (List.replicate 32 1) (List.replicate 32 2) [1] 7).signer.length = 64 := ownerOf_length C _ _
  rw [h] at h1
  cases h1

/-! ### C193: nothing of messages and keys -/

/-- In the list, and then also all that is in the rest. -/
def Within (l : List Piece) : Prop := ∀ x ∈ l, x ∈ fixedText T

theorem within_nil : Within T [] := fun x hx => by cases hx

theorem within_cons {x : Piece} {l : List Piece} (hx : x ∈ fixedText T) (hl : Within T l) : Within T (x :: l) := by
  intro y hy
  rcases List.mem_cons.1 hy with h | h
  · rw [h]; exact hx
  · exact hl y h

theorem within_append {a b : List Piece} (ha : Within T a) (hb : Within T b) : Within T (a ++ b) := by
  intro y hy
  rcases List.mem_append.1 hy with h | h
  · exact ha y h
  · exact hb y h

macro "piece" : tactic => `(tactic| first | (simp [fixedText, println, ascii]; done) | (simp [fixedText, errorf, ascii]; done))

theorem within_load {w : World} {path : Bytes} (hl : Loads J w.fs path) : Within T (loadText T M C A P J w path) := by
  have hd : Within T (loadKeyText T M C J (w.now.2.now.2.fs path) w.now.2.now.2.rng) := by
    unfold loadKeyText
    cases hf : w.now.2.now.2.fs path with
    | none =>
      simp only
      repeat' split
      all_goals first | exact within_nil T | exact within_cons T (by piece) (within_nil T)
    | some data =>
      simp only [dataText]
      cases hj : J.dec data with
      | none => exact within_cons T (by piece) (within_nil T)
      | some f =>
        obtain ⟨h1, h2⟩ := hl data f hf hj
        have hq := (quick_iff { f with keys := some (f.keys.getD Map.empty) }).mpr ⟨h1, h2, _, rfl⟩
        simp only [hq]
        exact within_nil T
  unfold loadText
  simp only
  repeat' split
  all_goals first
    | exact within_nil T
    | exact within_cons T (by piece) (within_nil T)
    | exact within_append T hd (within_cons T (by piece) (within_nil T))

theorem within_unlock (ks : KeyStore) (w : World) : Within T (unlockText T C A P ks w) := by
  have hb : ∀ b : Bool, Within T (if b = true then [Piece.out building] else []) := by
    intro b
    cases b
    · exact within_nil T
    · exact within_cons T (by simp [fixedText, building]) (within_nil T)
  unfold unlockText
  simp only
  split
  · exact within_nil T
  · split
    · exact within_cons T (by piece) (within_nil T)
    · refine within_append T (hb _) ?_
      repeat' split
      all_goals first | exact within_nil T | exact within_cons T (by piece) (within_nil T)

theorem within_finish (f : Flags) (sw : Bool) (ks : KeyStore) (w : World) : Within T (finishText T J f sw ks w) := by
  unfold finishText writeText
  simp only
  repeat' split
  all_goals first
    | exact within_nil T
    | exact within_cons T (by piece) (within_nil T)
    | exact within_cons T (by piece) (within_cons T (by piece) (within_nil T))

theorem output_nothing {path : Bytes} (h : path ≠ dash) (data : Bytes) : (outputText T path data).text = [] := if_neg h

/-- What a command prints, and the error it returns, are in the list. -/
def Plain (speech : Says) (run : Cmd) : Prop := ∀ ks src dst rest label armour w, dst ≠ dash →
  let cfg : Config := { args := src :: dst :: rest, label := label, armour := armour }
  Within T (speech ks cfg w).text ∧
  ((run ks cfg w).1 = .err → errorf (ascii "Failed: " ++ (speech ks cfg w).error) ∈ fixedText T)

theorem armour_error (b : Bytes) : errorf (ascii "Failed: " ++ armourError P b) ∈ fixedText T := by
  unfold armourError
  split <;> simp [fixedText, errorf, ascii]

theorem encrypt_plain : Plain T (encryptText T C P) (encryptFile C P) := by
  intro ks src dst rest label armour w hd
  simp only [encryptText, encryptFile]
  rcases w.readFile src with ⟨o, w1⟩
  cases o with
  | none => exact ⟨within_nil T, fun _ => by piece⟩
  | some message =>
    simp only
    cases ks.encryptTo C label message w1.rng with
    | panic => exact ⟨within_nil T, fun h => by cases h⟩
    | ok x =>
      obtain ⟨out, rng⟩ := x
      cases out with
      | none => exact ⟨within_nil T, fun _ => by piece⟩
      | some out => exact ⟨by rw [output_nothing T hd]; exact within_nil T, fun _ => by simp [fixedText, errorf, ascii, outputText]⟩

theorem sign_plain : Plain T (signText T C P) (signFile C P) := by
  intro ks src dst rest label armour w hd
  simp only [signText, signFile]
  rcases w.readFile src with ⟨o, w1⟩
  cases o with
  | none => exact ⟨within_nil T, fun _ => by piece⟩
  | some message =>
    simp only
    cases ks.sign C message with
    | panic => exact ⟨within_nil T, fun h => by cases h⟩
    | ok out =>
      cases out with
      | none => exact ⟨within_nil T, fun _ => by piece⟩
      | some out => exact ⟨by rw [output_nothing T hd]; exact within_nil T, fun _ => by simp [fixedText, errorf, ascii, outputText]⟩

theorem decrypt_plain : Plain T (decryptText T C P) (decryptFile C P) := by
  intro ks src dst rest label armour w hd
  simp only [decryptText, decryptFile]
  rcases w.readFile src with ⟨o, w1⟩
  cases o with
  | none => exact ⟨within_nil T, fun _ => by piece⟩
  | some message =>
    simp only
    cases openMessage P message with
    | none => exact ⟨within_nil T, fun _ => armour_error T P message⟩
    | some x =>
      obtain ⟨b, message⟩ := x
      cases b with
      | false =>
        simp only
        cases ks.decrypt C message with
        | panic => exact ⟨within_nil T, fun h => by cases h⟩
        | ok out =>
          cases out with
          | none => exact ⟨within_nil T, fun _ => by piece⟩
          | some out => exact ⟨by rw [output_nothing T hd]; exact within_nil T, fun _ => by simp [fixedText, errorf, ascii, outputText]⟩
      | true =>
        simp only
        cases ks.decryptAndVerify C label message with
        | panic => exact ⟨within_nil T, fun h => by cases h⟩
        | ok out =>
          cases out with
          | none => exact ⟨within_nil T, fun _ => by piece⟩
          | some out =>
            refine ⟨?_, fun _ => by piece⟩
            change Within T (println (ascii "Valid signature.") :: (outputText T dst out).text)
            rw [output_nothing T hd]
            exact within_cons T (by piece) (within_nil T)
theorem verify_plain : Plain T (verifyText T C P) (verifyFile C P) := by
  intro ks src dst rest label armour w hd
  simp only [verifyText, verifyFile]
  rcases w.readFile src with ⟨o, w1⟩
  cases o with
  | none => exact ⟨within_nil T, fun _ => by piece⟩
  | some message =>
    simp only
    rcases w1.readFile dst with ⟨o, w2⟩
    cases o with
    | none => exact ⟨within_nil T, fun _ => by piece⟩
    | some sig =>
      simp only
      cases openSignature P sig with
      | none => exact ⟨within_nil T, fun _ => armour_error T P sig⟩
      | some sig =>
        simp only
        cases ks.verify C label message sig with
        | panic => exact ⟨within_nil T, fun h => by cases h⟩
        | ok b =>
          cases b
          · exact ⟨within_cons T (by piece) (within_nil T), fun h => by cases h⟩
          · exact ⟨within_cons T (by piece) (within_nil T), fun h => by cases h⟩

theorem cryptsign_plain : Plain T (cryptSignText T C P) (cryptSignFile C P) := by
  intro ks src dst rest label armour w hd
  simp only [cryptSignText, cryptSignFile]
  rcases w.readFile src with ⟨o, w1⟩
  cases o with
  | none => exact ⟨within_cons T (by piece) (within_nil T), fun _ => by piece⟩
  | some message =>
    simp only
    cases ks.encryptAndSignTo C label message w1.rng with
    | panic => exact ⟨within_nil T, fun h => by cases h⟩
    | ok x =>
      obtain ⟨out, rng⟩ := x
      cases out with
      | none => exact ⟨within_cons T (by piece) (within_nil T), fun _ => by piece⟩
      | some out =>
        simp only [after]
        rcases World.writeFile { w1 with rng := rng } dst (if armour = true then P.enc signedAndEncryptedType out else out) with ⟨b, w2⟩
        rw [output_nothing T hd]
        cases b with
        | true => exact ⟨within_nil T, fun h => by cases h⟩
        | false => exact ⟨within_cons T (by piece) (within_nil T), fun h => by cases h⟩

theorem select_plain {e : Env} {f : Flags} (h : Works f) :
    ∃ cmd names speech, select C A P e f = some cmd ∧ selectText T C A P e f = some (names, speech) ∧ cmd.argc = 2 ∧ Plain T speech cmd.run := by
  unfold select selectText
  rcases h with ⟨h1, h2, h3⟩ | ⟨h1, h2, h3⟩ | ⟨h1, h2, h3⟩ | ⟨h1, h2, h3, h4⟩ | ⟨h1, h2, h3, h4, h5⟩
  · rw [h1, h2, h3]; exact ⟨_, _, _, rfl, rfl, rfl, cryptsign_plain T C P⟩
  · rw [h1, h2, h3]; exact ⟨_, _, _, rfl, rfl, rfl, sign_plain T C P⟩
  · rw [h1, h2, h3]; exact ⟨_, _, _, rfl, rfl, rfl, verify_plain T C P⟩
  · rw [h1, h2, h3, h4]; exact ⟨_, _, _, rfl, rfl, rfl, encrypt_plain T C P⟩
  · rw [h1, h2, h3, h4, h5]; exact ⟨_, _, _, rfl, rfl, rfl, decrypt_plain T C P⟩

theorem within_execute (f : Flags) {cmd : Command} {speech : Says} (hp : Plain T speech cmd.run) (src : Bytes) {dst : Bytes} (hd : dst ≠ dash)
    (rest : List Bytes) (ks : KeyStore) (w : World) : Within T (executeText T C A P J f cmd speech (config f (src :: dst :: rest)) ks w) := by
  have hgo : ∀ (sw : Bool) (ks : KeyStore) (w : World), Within T ((speech ks (config f (src :: dst :: rest)) w).text ++
      match cmd.run ks (config f (src :: dst :: rest)) w with
      | (.ok, ks, w) => finishText T J f sw ks w
      | (.err, _, _) => [errorf (ascii "Failed: " ++ (speech ks (config f (src :: dst :: rest)) w).error)]
      | _ => []) := by
    intro sw ks w
    obtain ⟨h1, h2⟩ := hp ks src dst rest _ _ w hd
    refine within_append T h1 ?_
    change (cmd.run ks (config f (src :: dst :: rest)) w).1 = .err → _ at h2
    rcases hr : cmd.run ks (config f (src :: dst :: rest)) w with ⟨r, k2, w2⟩
    rw [hr] at h2
    cases r with
    | ok => exact within_finish T J f sw k2 w2
    | err => exact within_cons T (h2 rfl) (within_nil T)
    | panic => exact within_nil T
    | hang => exact within_nil T
  unfold executeText
  simp only
  split
  · refine within_append T (within_unlock T C A P ks w) ?_
    split
    · exact hgo _ _ _
    · exact within_nil T
  · exact hgo _ _ _

/-- C193, what holds: when it encrypts, decrypts, signs or verifies, and writes to a file, fcrypt prints only what is in a fixed list,
whatever the message, the keys, the labels and the passphrase are. Missing: key store files of another version, or without a time. -/
theorem C193_fixed_partial (e : Env) (f : Flags) (src dst : Bytes) (rest : List Bytes) (w : World) (h : Works f) (hd : dst ≠ ascii "-")
    (hl : Loads J w.fs f.path) : ∀ x ∈ mainText T M C A P J e f (src :: dst :: rest) w, x ∈ fixedText T := by
  obtain ⟨cmd, names, speech, h1, h2, h3, h4⟩ := select_plain T C A P (e := e) h
  unfold mainText
  rw [h1, h2]
  simp only
  rw [if_neg (by rw [h3]; simp)]
  refine within_append T (within_load T M C A P J hl) ?_
  split
  · exact within_nil T
  · exact within_cons T (by piece) (within_nil T)
  · exact within_execute T C A P J f h4 src hd rest _ _

/-- The hypotheses can be met, and something is printed: without a key store, and without randomness to make one. -/
example (e : Env) : ∃ (f : Flags) (w : World), Works f ∧ [111] ≠ ascii "-" ∧ Loads J w.fs f.path ∧
    mainText T M C A P J e f [[109], [111]] w =
      [.err (ascii "[!] Failed to generate key.\n"), .out (ascii "error in LoadKeyStore"), .err (ascii "[!] Failed to load keystore.\n")] :=
  ⟨{ path := [107], decrypt := true, label := ascii "self" },
    { fs := fun _ => none, stdin := [], stdout := [], writes := fun _ => .done, rng := [], term := { answers := [], clock := fun _ => 7 } },
    .inr (.inr (.inr (.inr ⟨rfl, rfl, rfl, rfl, rfl⟩))), by decide, (fun _ _ h => nomatch h), rfl⟩

theorem listed_shown (b : Bytes) : shownBytes (some b) = listed b := by
  have h : ∀ b : Bytes, numbers b = (ascii " ").intercalate (b.map fun x => decimal x.toNat) := by
    intro b
    induction b with
    | nil => rfl
    | cons x xs ih =>
      cases xs with
      | nil => simp [numbers, List.intercalate]
      | cons y ys =>
        rw [numbers, ih]
        · simp [List.intercalate, ascii]
        · simp
  unfold shownBytes listed
  rw [← h]
  rfl

/-- C193 is false of a key store file of another version, or without a time: all of it is printed on standard error, and so the locked
private key, in decimal. -/
theorem C193_invalid_violated (e : Env) (fl : Flags) (src dst : Bytes) (rest : List Bytes) (w : World) (h : Works fl) (data box : Bytes) (f : KeyFields)
    (hf : w.fs fl.path = some data) (hj : J.dec data = some f) (hv : f.version ≠ 1 ∨ f.timestamp = 0) (hb : f.lockedKey = some box) :
    ∃ a b, mainText T M C A P J e fl (src :: dst :: rest) w =
      [.err (ascii "[!] invalid keystore &{" ++ a ++ listed box ++ b ++ ascii "\n"), .out (ascii "error in LoadKeyStore"),
        .err (ascii "[!] Failed to load keystore.\n")] := by
  obtain ⟨cmd, names, speech, h1, h2, h3, h4⟩ := select_plain T C A P (e := e) h
  have hq : ∀ s : KeyFields, s.version = f.version → s.timestamp = f.timestamp → s.validQuick = false := by
    intro s e1 e2
    cases hx : s.validQuick with
    | false => rfl
    | true =>
      obtain ⟨q1, q2, -⟩ := (quick_iff _).mp hx
      rw [e1] at q1
      rw [e2] at q2
      rcases hv with hv | hv
      · exact absurd q1 hv
      · exact absurd hv q2
  have hld : loadData J data = none := by
    unfold loadData
    rw [hj]
    simp only [hq { f with keys := some (f.keys.getD Map.empty) } rfl rfl]
    rfl
  unfold mainText
  rw [h1, h2]
  simp only
  rw [if_neg (by rw [h3]; simp)]
  have hfs : (w.now.2.now.2).fs fl.path = some data := hf
  unfold loadText loadStore
  simp only [hfs, loadKeyStore, hld, loadKeyText, dataText, hj, Res.ok_bind, Res.pure_eq]
  simp only [shownStore, hb, listed_shown, hq { f with keys := some (f.keys.getD Map.empty), lockedKey := some box } rfl rfl, Bool.not_false, if_true]
  refine ⟨signed f.version ++ [32] ++ signed f.timestamp ++ [32] ++ M (f.keys.getD Map.empty) ++ [32],
    [32] ++ shownBytes f.publicKey ++ [32] ++ shownBytes f.exportKey ++ ascii " <nil> " ++ ascii "true" ++ ascii "}", ?_⟩
  have e1 : ascii "[!] invalid keystore &{" = ascii "[!] " ++ (ascii "invalid keystore " ++ ascii "&{") := by decide
  have e2 : ascii "\n" = [10] := rfl
  have e3 : ascii "[!] Failed to load keystore.\n" = ascii "[!] " ++ ascii "Failed to load keystore." ++ [10] := by decide
  rw [e1, e2, e3]
  simp only [errorf, Option.isSome_some, if_true, Option.getD_some, List.append_assoc, List.cons_append, List.nil_append]

/-- The hypotheses can be met: a key store of version 2. -/
example : ∃ (fl : Flags) (w : World) (data box : Bytes) (f : KeyFields), Works fl ∧ w.fs fl.path = some data ∧ J.dec data = some f ∧
    (f.version ≠ 1 ∨ f.timestamp = 0) ∧ f.lockedKey = some box ∧ box ≠ [] := by
  refine ⟨{ path := [107], decrypt := true, label := ascii "self" },
    { fs := fun _ => some (J.enc { version := 2, timestamp := 7, keys := none, lockedKey := some [1, 200], publicKey := none, exportKey := none }),
      stdin := [], stdout := [], writes := fun _ => .done, rng := [], term := { answers := [], clock := fun _ => 7 } }, _, [1, 200],
    { version := 2, timestamp := 7, keys := none, lockedKey := some [1, 200], publicKey := none, exportKey := none },
    .inr (.inr (.inr (.inr ⟨rfl, rfl, rfl, rfl, rfl⟩))), rfl, J.dec_enc _ ?_ ?_, .inl (by decide), rfl, by decide⟩
  · intro m hm; cases hm
  · intro m hm; cases hm

end Verif.Props.FcryptOutput
