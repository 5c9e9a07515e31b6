import Verif.Props.Fcrypt
/-! Theorems about fcrypt: the files it writes (C128, C129). -/

namespace Verif.Props.FcryptFiles
open Verif Verif.Go Verif.Model.Util Verif.Model.Public Verif.Model.KeyStore Verif.Model.Fcrypt Verif.Spec.Tlv
open Verif.Spec.Public Verif.Spec.KeyStore Verif.Spec.Fcrypt
open Verif.Proofs.Public Verif.Proofs.KeyStore Verif.Props.KeyTrust Verif.Proofs.Fcrypt Verif.Props.Fcrypt

variable (C : Crypto) (A : Asn1) (P : Armour) (J : KeyJson)

/-! ### C128: errors writing files -/


theorem save_written (w : World) (path data : Bytes) : (w.save path data).1 = true → AllWritten w (w.save path data).2 := by
  unfold World.save AllWritten
  intro h
  exact if_pos h

theorem writeFile_written (w : World) (path data : Bytes) : (w.writeFile path data).1 = true → AllWritten w (w.writeFile path data).2 := by
  unfold World.writeFile
  split
  · intro; rfl
  · exact save_written w path data

theorem output_allWritten (ks : KeyStore) (w : World) (path data : Bytes) :
    (output ks w path data).1 = .ok → AllWritten w (output ks w path data).2.2 := by
  rw [output_eq]
  cases h : (w.writeFile path data).1 with
  | true => intro; exact writeFile_written w path data h
  | false => intro h; cases h

/-- What becomes of writes. -/
def _root_.Verif.Model.Fcrypt.World.disk (w : World) : (Nat → WriteOutcome) × Nat := (w.writes, w.failed)

theorem disk_eq {w w' : World} (h : w'.disk = w.disk) : w'.writes = w.writes ∧ w'.failed = w.failed := Prod.mk.inj h

/-- No write fails after it has begun. -/
def NoTorn (w : World) : Prop := ∀ i k, w.writes i ≠ .failsAfter k

/-- How far a function may go: files are changed only at `dst` and not removed; if it returns without
an error and is `strict` then all writes succeeded; if it fails it changes nothing, unless a write
failed after it had begun. -/
structure Step (strict : Prop) (dst : Bytes → Prop) (w : World) (r : Ret) (w' : World) : Prop where
  written : strict → r = .ok → AllWritten w w'
  files : ∀ q, w'.fs q ≠ w.fs q → dst q
  keeps : ∀ q, w.fs q ≠ none → w'.fs q ≠ none
  shift : ∃ k, w'.writes = fun n => w.writes (n + k)
  safe : r ≠ .ok → NoTorn w → w'.fs = w.fs

variable {strict : Prop} {dst : Bytes → Prop}

theorem Step.same {w w1 w' : World} {r : Ret} (h : Step strict dst w1 r w') (h1 : w1.fs = w.fs) (h2 : w1.disk = w.disk) :
    Step strict dst w r w' := by
  obtain ⟨h2, h3⟩ := disk_eq h2
  refine ⟨fun hs hr => (h.written hs hr).trans h3, fun q hq => h.files q ?_, fun q hq => h.keeps q ?_, ?_,
    fun hr ht => ?_⟩
  · rw [h1]
    exact hq
  · rw [h1]
    exact hq
  · rw [← h2]
    exact h.shift
  · rw [← h1]
    refine h.safe hr ?_
    unfold NoTorn
    rw [h2]
    exact ht

theorem Step.quiet {w w' : World} {r : Ret} (h1 : w'.fs = w.fs) (h2 : w'.disk = w.disk) : Step strict dst w r w' :=
  ⟨fun _ _ => (disk_eq h2).2, fun q hq => absurd (by rw [h1]) hq, fun q hq => by rw [h1]; exact hq, ⟨0, (disk_eq h2).1⟩, fun _ _ => h1⟩

theorem save_exists (w : World) (path data q : Bytes) (h : w.fs q ≠ none) : (w.save path data).2.fs q ≠ none := by
  have hset : ∀ b, w.fs.set path b q ≠ none := by
    intro b
    by_cases hq : q = path
    · subst hq; simp
    · rw [Fs.set_other _ _ hq]; exact h
  unfold World.save
  cases w.writes 0 with
  | done => exact hset _
  | openFails => exact h
  | failsAfter k => exact hset _

theorem save_safe (w : World) (path data : Bytes) (h : NoTorn w) (hr : (w.save path data).1 = false) : (w.save path data).2.fs = w.fs := by
  have h0 := h 0
  unfold World.save at hr ⊢
  cases hw : w.writes 0 with
  | done => rw [hw] at hr; cases hr
  | openFails => rfl
  | failsAfter k => exact absurd hw (h0 k)

theorem save_shift (w : World) (path data : Bytes) : (w.save path data).2.writes = fun n => w.writes (n + 1) := rfl

theorem writeFile_safe (w : World) (path data : Bytes) (h : NoTorn w) (hr : (w.writeFile path data).1 = false) :
    (w.writeFile path data).2.fs = w.fs := by
  unfold World.writeFile at hr ⊢
  split
  · rfl
  · rename_i hd
    rw [if_neg hd] at hr
    exact save_safe w path data h hr

theorem writeFile_shift (w : World) (path data : Bytes) : ∃ k, (w.writeFile path data).2.writes = fun n => w.writes (n + k) := by
  unfold World.writeFile
  split
  · exact ⟨0, rfl⟩
  · exact ⟨1, rfl⟩

theorem writeFile_files (w : World) (path data q : Bytes) (h : (w.writeFile path data).2.fs q ≠ w.fs q) : q = path ∧ path ≠ [45] := by
  unfold World.writeFile at h
  split at h
  · exact absurd rfl h
  · rename_i hp
    refine ⟨Classical.byContradiction fun hq => h ?_, hp⟩
    unfold World.save
    cases w.writes 0 with
    | done => exact Fs.set_other _ _ hq
    | openFails => rfl
    | failsAfter k => exact Fs.set_other _ _ hq

theorem save_files (w : World) (path data q : Bytes) (h : (w.save path data).2.fs q ≠ w.fs q) : q = path := by
  refine Classical.byContradiction fun hq => h ?_
  unfold World.save
  cases w.writes 0 with
  | done => exact Fs.set_other _ _ hq
  | openFails => rfl
  | failsAfter k => exact Fs.set_other _ _ hq

theorem step_output (ks : KeyStore) (w : World) (path data : Bytes) (hd : path ≠ [45] → dst path) :
    Step strict dst w (output ks w path data).1 (output ks w path data).2.2 := by
  refine ⟨fun _ => output_allWritten ks w path data, fun q hq => ?_, fun q hq => ?_, ?_, fun hr ht => ?_⟩
  · rw [output_eq] at hq
    obtain ⟨rfl, h2⟩ := writeFile_files w path data q hq
    exact hd h2
  · rw [output_eq]
    exact writeFile_exists w path data q hq
  · rw [output_eq]
    exact writeFile_shift w path data
  · rw [output_eq] at hr ⊢
    refine writeFile_safe w path data ht ?_
    cases hb : (w.writeFile path data).1 with
    | false => rfl
    | true => rw [hb] at hr; exact absurd rfl hr

/-- The step of a command. -/
def CmdStep (strict : Prop) (dst : Bytes → Prop) (w : World) (x : Ret × KeyStore × World) : Prop := Step strict dst w x.1 x.2.2

theorem cmd_quiet {w w' : World} {r : Ret} {ks : KeyStore} (h1 : w'.fs = w.fs) (h2 : w'.disk = w.disk) :
    CmdStep strict dst w (r, ks, w') := Step.quiet h1 h2

theorem cmd_after {α : Type} {x : Res α} {ks : KeyStore} {w1 w : World} {f : α → Ret × KeyStore × World}
    (h1 : w1.fs = w.fs) (h2 : w1.disk = w.disk) (h : ∀ a, CmdStep strict dst w1 (f a)) :
    CmdStep strict dst w (after x ks w1 f) := by
  cases x with
  | panic => exact cmd_quiet h1 h2
  | ok a => exact Step.same (h a) h1 h2

theorem cmd_output {ks : KeyStore} {w w1 : World} {path data : Bytes} (h1 : w1.fs = w.fs) (h2 : w1.disk = w.disk)
    (hd : path ≠ [45] → dst path) : CmdStep strict dst w (output ks w1 path data) :=
  Step.same (step_output ks w1 path data hd) h1 h2

theorem readFile_same {w w1 : World} {path : Bytes} {o : Option Bytes} (h : w.readFile path = (o, w1)) :
    w1.fs = w.fs ∧ w1.disk = w.disk := by
  unfold World.readFile at h
  split at h
  · cases h; exact ⟨rfl, rfl⟩
  · cases h; exact ⟨rfl, rfl⟩

/-- What a command may change, and that it reports errors. -/
theorem encryptFile_step (ks : KeyStore) (cfg : Config) (w : World)
    (hd : ∀ s d r, cfg.args = s :: d :: r → d ≠ [45] → dst d) : CmdStep strict dst w (encryptFile C P ks cfg w) := by
  unfold encryptFile
  split
  · rename_i s d r ha
    generalize hq : w.readFile _ = x
    obtain ⟨o, w1⟩ := x
    obtain ⟨h1, h2⟩ := readFile_same hq
    cases o with
    | none => exact cmd_quiet h1 h2
    | some message =>
      refine cmd_after h1 h2 fun a => ?_
      obtain ⟨out, rng⟩ := a
      cases out with
      | none => exact cmd_quiet rfl rfl
      | some out => exact cmd_output rfl rfl (hd s d r ha)
  · exact cmd_quiet rfl rfl

theorem decryptFile_step (ks : KeyStore) (cfg : Config) (w : World)
    (hd : ∀ s d r, cfg.args = s :: d :: r → d ≠ [45] → dst d) : CmdStep strict dst w (decryptFile C P ks cfg w) := by
  unfold decryptFile
  split
  · rename_i s d r ha
    generalize hq : w.readFile _ = x
    obtain ⟨o, w1⟩ := x
    obtain ⟨h1, h2⟩ := readFile_same hq
    cases o with
    | none => exact cmd_quiet h1 h2
    | some message =>
      dsimp only
      split
      · exact cmd_quiet h1 h2
      · split
        · refine cmd_after h1 h2 fun out => ?_
          cases out with
          | none => exact cmd_quiet rfl rfl
          | some out => exact cmd_output rfl rfl (hd s d r ha)
        · refine cmd_after h1 h2 fun out => ?_
          cases out with
          | none => exact cmd_quiet rfl rfl
          | some out => exact cmd_output rfl rfl (hd s d r ha)
  · exact cmd_quiet rfl rfl

theorem signFile_step (ks : KeyStore) (cfg : Config) (w : World)
    (hd : ∀ s d r, cfg.args = s :: d :: r → d ≠ [45] → dst d) : CmdStep strict dst w (signFile C P ks cfg w) := by
  unfold signFile
  split
  · rename_i s d r ha
    generalize hq : w.readFile _ = x
    obtain ⟨o, w1⟩ := x
    obtain ⟨h1, h2⟩ := readFile_same hq
    cases o with
    | none => exact cmd_quiet h1 h2
    | some message =>
      refine cmd_after h1 h2 fun out => ?_
      cases out with
      | none => exact cmd_quiet rfl rfl
      | some out => exact cmd_output rfl rfl (hd s d r ha)
  · exact cmd_quiet rfl rfl

theorem verifyFile_step (ks : KeyStore) (cfg : Config) (w : World) : CmdStep strict dst w (verifyFile C P ks cfg w) := by
  unfold verifyFile
  split
  · generalize hq : w.readFile _ = x
    obtain ⟨o, w1⟩ := x
    obtain ⟨h1, h2⟩ := readFile_same hq
    cases o with
    | none => exact cmd_quiet h1 h2
    | some message =>
      refine Step.same (w1 := w1) ?_ h1 h2
      dsimp only
      generalize hq2 : w1.readFile _ = x
      obtain ⟨o, w2⟩ := x
      obtain ⟨h3, h4⟩ := readFile_same hq2
      cases o with
      | none => exact cmd_quiet h3 h4
      | some sig =>
        dsimp only
        split
        · exact cmd_quiet h3 h4
        · exact cmd_after h3 h4 fun ok => cmd_quiet rfl rfl
  · exact cmd_quiet rfl rfl

theorem cryptSignFile_step (ks : KeyStore) (cfg : Config) (w : World) (hs : ¬ strict)
    (hd : ∀ s d r, cfg.args = s :: d :: r → d ≠ [45] → dst d) : CmdStep strict dst w (cryptSignFile C P ks cfg w) := by
  unfold cryptSignFile
  split
  · rename_i s d r ha
    generalize hq : w.readFile _ = x
    obtain ⟨o, w1⟩ := x
    obtain ⟨h1, h2⟩ := readFile_same hq
    cases o with
    | none => exact cmd_quiet h1 h2
    | some message =>
      refine cmd_after h1 h2 fun a => ?_
      obtain ⟨out, rng⟩ := a
      cases out with
      | none => exact cmd_quiet rfl rfl
      | some out =>
        dsimp only
        have hf := writeFile_files { w1 with rng := rng } d (if cfg.armour = true then P.enc signedAndEncryptedType out else out)
        have hex := writeFile_exists { w1 with rng := rng } d (if cfg.armour = true then P.enc signedAndEncryptedType out else out)
        have hsh := writeFile_shift { w1 with rng := rng } d (if cfg.armour = true then P.enc signedAndEncryptedType out else out)
        rcases hx : ({ w1 with rng := rng } : World).writeFile d (if cfg.armour = true then P.enc signedAndEncryptedType out else out) with ⟨b, w3⟩
        rw [hx] at hf hex hsh
        have : Step strict dst w1 .ok w3 := ⟨fun h => absurd h hs, fun q hq => by
          obtain ⟨rfl, h6⟩ := hf q hq
          exact hd s _ r ha h6, hex, hsh, fun h => absurd rfl h⟩
        cases b with
        | true => exact this
        | false => exact this
  · exact cmd_quiet rfl rfl

theorem checkStore_step (e : Env) (ks : KeyStore) (cfg : Config) (w : World) : CmdStep strict dst w (checkStore C e ks cfg w) := by
  unfold checkStore
  split
  · exact cmd_quiet rfl rfl
  · refine cmd_after rfl rfl fun valid => ?_
    split
    · exact cmd_quiet rfl rfl
    · dsimp only
      split <;> exact cmd_quiet rfl rfl

theorem exportSelf_step (ks : KeyStore) (cfg : Config) (w : World)
    (hd : ∀ d r, cfg.args = d :: r → d ≠ [45] → dst d) : CmdStep strict dst w (exportSelf ks cfg w) := by
  unfold exportSelf
  split
  · exact cmd_quiet rfl rfl
  · split
    · rename_i d r ha
      exact cmd_output rfl rfl (hd d r ha)
    · exact cmd_quiet rfl rfl

theorem exportVerified_step (e : Env) (ks : KeyStore) (cfg : Config) (w : World)
    (hd : ∀ d r, cfg.args = d :: r → d ≠ [45] → dst d) : CmdStep strict dst w (exportVerified C A P e ks cfg w) := by
  unfold exportVerified
  rw [now_eq]
  dsimp only
  split
  · exact cmd_quiet rfl rfl
  · exact cmd_quiet rfl rfl
  · exact cmd_quiet rfl rfl
  · split
    · rename_i d r ha
      exact cmd_output rfl rfl (hd d r ha)
    · exact cmd_quiet rfl rfl

theorem askLabel_same (label : Bytes) (w : World) : (askLabel label w).2.fs = w.fs ∧ (askLabel label w).2.disk = w.disk := by
  unfold askLabel World.read
  split
  · rcases w.term.read with ⟨a, t⟩
    exact ⟨rfl, rfl⟩
  · exact ⟨rfl, rfl⟩

theorem importVerified_step (e : Env) (ks : KeyStore) (cfg : Config) (w : World) :
    CmdStep strict dst w (importVerified C A P e ks cfg w) := by
  unfold importVerified
  split
  · generalize hq : w.readFile _ = x
    obtain ⟨o, w1⟩ := x
    obtain ⟨h1, h2⟩ := readFile_same hq
    cases o with
    | none => exact cmd_quiet h1 h2
    | some keyData =>
      dsimp only
      obtain ⟨h3, h4⟩ := askLabel_same cfg.label w1
      rcases hq1 : askLabel cfg.label w1 with ⟨o, w2⟩
      rw [hq1] at h3 h4
      replace h3 : w2.fs = w.fs := h3.trans h1
      replace h4 : w2.disk = w.disk := h4.trans h2
      cases o with
      | none => exact cmd_quiet h3 h4
      | some label =>
        dsimp only
        rw [now_eq]
        refine cmd_after h3 h4 fun a => ?_
        obtain ⟨ks', ok⟩ := a
        dsimp only
        split
        · exact cmd_quiet rfl rfl
        · split
          · exact cmd_quiet rfl rfl
          · refine cmd_after rfl rfl fun found => ?_
            cases found with
            | none => exact cmd_quiet rfl rfl
            | some => exact cmd_quiet rfl rfl
  · exact cmd_quiet rfl rfl

theorem importUntrusted_step (e : Env) (ks : KeyStore) (cfg : Config) (w : World) :
    CmdStep strict dst w (importUntrusted C A P e ks cfg w) := by
  unfold importUntrusted
  split
  · generalize hq : w.readFile _ = x
    obtain ⟨o, w1⟩ := x
    obtain ⟨h1, h2⟩ := readFile_same hq
    cases o with
    | none => exact cmd_quiet h1 h2
    | some keyData =>
      dsimp only
      split
      · exact cmd_quiet h1 h2
      · refine cmd_after h1 h2 fun _ => ?_
        generalize hc : confirm _ = x
        obtain ⟨r, as⟩ := x
        dsimp only
        cases r with
        | some r => exact cmd_quiet rfl rfl
        | none =>
          dsimp only
          generalize hw2 : ({ w1.print _ with term := _ } : World) = w2
          have h5 : w2.fs = w1.fs := by rw [← hw2]; rfl
          have h6 : w2.disk = w1.disk := by rw [← hw2]; rfl
          obtain ⟨h3, h4⟩ := askLabel_same cfg.label w2
          rcases hq : askLabel cfg.label w2 with ⟨o, w3⟩
          rw [hq] at h3 h4
          replace h3 : w3.fs = w1.fs := h3.trans h5
          replace h4 : w3.disk = w1.disk := h4.trans h6
          cases o with
          | none => exact cmd_quiet h3 h4
          | some label =>
            dsimp only
            rw [now_eq]
            dsimp only
            rw [now_eq]
            refine cmd_after h3 h4 fun a => ?_
            obtain ⟨ks', ok⟩ := a
            dsimp only
            split <;> exact cmd_quiet rfl rfl
  · exact cmd_quiet rfl rfl

theorem removeKey_step (ks : KeyStore) (cfg : Config) (w : World) : CmdStep strict dst w (removeKey ks cfg w) := by
  unfold removeKey
  split
  · split
    · exact cmd_quiet rfl rfl
    · split
      · exact cmd_quiet rfl rfl
      · exact cmd_quiet rfl rfl
  · exact cmd_quiet rfl rfl

theorem listLoop_step (e : Env) (ks : KeyStore) : ∀ (ls : List Bytes) (n : Nat) (w : World), CmdStep strict dst w (listLoop e ks n ls w)
  | [], n, w => cmd_quiet rfl rfl
  | k :: ls, n, w => by
    rw [listLoop]
    split
    · exact cmd_quiet rfl rfl
    · split
      · exact cmd_quiet rfl rfl
      · exact Step.same (listLoop_step e ks ls (n + 1) _) rfl rfl

theorem keyList_step (e : Env) (ks : KeyStore) (cfg : Config) (w : World) : CmdStep strict dst w (keyList e ks cfg w) := by
  unfold keyList
  dsimp only
  split
  · exact Step.same (listLoop_step e ks _ _ _) rfl rfl
  · exact cmd_quiet rfl rfl

/-- The end of `main`. -/
theorem finish_step {f : Flags} {sw u : Bool} {ks : KeyStore} {w : World} (hd : sw = true → dst f.path)
    (hf : w.fs f.path ≠ none) : Step strict dst w (finish J f sw u ks w).1 (finish J f sw u ks w).2 := by
  cases sw with
  | false => rw [finish_quiet J hf]; exact Step.quiet rfl rfl
  | true =>
    unfold finish
    simp only [Bool.true_or, if_true, now_eq]
    unfold writeStore
    cases hdump : dumpKeyStore J { ks with timestamp := w.term.clock 0 } with
    | panic => exact Step.quiet rfl rfl
    | ok x =>
      obtain ⟨data, ks'⟩ := x
      simp only [Res.ok_bind, Res.pure_eq]
      generalize hw2 : (later w 1).print _ = w2
      have h1 : w2.fs = w.fs := by rw [← hw2]; rfl
      have h2 : w2.disk = w.disk := by rw [← hw2]; rfl
      have h3 := save_written w2 f.path data
      have h4 := save_files w2 f.path data
      have h5 := save_exists w2 f.path data
      have h6 := save_safe w2 f.path data
      have h7 := save_shift w2 f.path data
      rcases hs : w2.save f.path data with ⟨ok, w3⟩
      rw [hs] at h3 h4 h5 h6 h7
      refine Step.same (w1 := w2) ?_ h1 h2
      have hfiles : ∀ q, w3.fs q ≠ w2.fs q → dst q := fun q hq => by
        obtain rfl := h4 q hq
        exact hd rfl
      cases ok with
      | false => exact ⟨fun _ h => (by cases h), hfiles, h5, ⟨1, h7⟩, fun _ ht => h6 ht rfl⟩
      | true =>
        simp only
        cases u with
        | false => exact ⟨fun _ _ => h3 rfl, hfiles, h5, ⟨1, h7⟩, fun h => absurd rfl h⟩
        | true =>
          simp only [if_true]
          cases hl : ks'.lock with
          | panic => exact absurd hl (lock_no_panic ks')
          | ok => exact ⟨fun _ _ => h3 rfl, hfiles, h5, ⟨1, h7⟩, fun h => absurd rfl h⟩

theorem conclude_step {f : Flags} {sw u : Bool} {w : World} {x : Ret × KeyStore × World} (hx : CmdStep strict dst w x)
    (hd : sw = true → dst f.path) (hq : sw = true → x.2.2.fs = w.fs) (hf : w.fs f.path ≠ none) :
    Step strict dst w (conclude J f sw u x).1 (conclude J f sw u x).2 := by
  obtain ⟨r, ks, w'⟩ := x
  by_cases hr : r = .ok
  · subst hr
    have h2 := finish_step J (u := u) (ks := ks) (strict := strict) hd (hx.keeps _ hf)
    refine ⟨fun hs h => (h2.written hs h).trans (hx.written hs rfl), fun q hq => ?_, fun q hq => h2.keeps q (hx.keeps q hq), ?_,
      fun hr ht => ?_⟩
    · by_cases hq' : (conclude J f sw u (Ret.ok, ks, w')).2.fs q = w'.fs q
      · rw [hq'] at hq
        exact hx.files q hq
      · exact h2.files q hq'
    · obtain ⟨k, hk⟩ := hx.shift
      obtain ⟨l, hl⟩ := h2.shift
      refine ⟨l + k, ?_⟩
      show (finish J f sw u ks w').2.writes = _
      rw [hl, hk]
      funext n
      show w.writes (n + l + k) = _
      rw [Nat.add_assoc]
    · cases sw with
      | false =>
        exfalso
        apply hr
        show (finish J f false u ks w').1 = .ok
        rw [finish_quiet J (hx.keeps _ hf)]
      | true =>
        obtain ⟨k, hk⟩ := hx.shift
        refine (h2.safe hr fun i j => ?_).trans (hq rfl)
        rw [hk]
        exact ht (i + k) j
  · rw [conclude_fail J hr]
    exact hx

/-- A command that touches no file. -/
theorem quiet_fs {w : World} {x : Ret × KeyStore × World} (h : CmdStep True (fun _ => False) w x) : x.2.2.fs = w.fs := by
  funext q
  exact Classical.byContradiction fun hq => h.files q hq

theorem config_args (fl : Flags) (args : List Bytes) : (config fl args).args = args := rfl

/-- A run with a command. -/
theorem run_step {e : Env} {fl : Flags} {args : List Bytes} {w : World} {cmd : Command} (hs : select C A P e fl = some cmd)
    (hc : ∀ ks w1, cmd.argc ≤ args.length → CmdStep strict dst w1 (cmd.run ks (config fl args) w1))
    (hw : cmd.shouldWrite = true ∨ fl.check = true → dst fl.path ∧ ∀ ks w1, (cmd.run ks (config fl args) w1).2.2.fs = w1.fs) :
    Step strict dst w (main C A P J e fl args w).1 (main C A P J e fl args w).2 := by
  cases hf : w.fs fl.path with
  | none =>
    unfold main
    rw [hs]
    simp only
    split
    · exact Step.quiet rfl rfl
    · obtain ⟨h1, h2⟩ := load_missing C A P J hf
      by_cases hr : 64 ≤ w.rng.length
      · rw [h1 hr]
        exact Step.quiet rfl rfl
      · obtain ⟨w', g1, g2, -, g3, g4⟩ := h2 (by omega)
        rw [g1]
        exact Step.quiet g2 (Prod.ext g3 g4)
  | some data =>
    rcases main_cases C A P J (args := args) hs hf with ⟨r0, w0, n, h1, h2, -, h3⟩ | ⟨hl, ks, w1, hr, sw, hsw, hm⟩
    · rw [h1]
      exact Step.quiet h3.fs (Prod.ext h3.writes h3.failed)
    · rw [hm]
      obtain ⟨n, -, hsame⟩ := hr.same
      refine Step.same (w1 := w1) ?_ hsame.fs (Prod.ext hsame.writes hsame.failed)
      have hor : sw = true → cmd.shouldWrite = true ∨ fl.check = true := by
        rintro rfl
        rcases hsw with h | h
        · exact Or.inl h.symm
        · exact Or.inr h
      exact conclude_step J (hc ks w1 hl) (fun h => (hw (hor h)).1) (fun h => (hw (hor h)).2 ks w1) (by rw [hsame.fs, hf]; simp)

/-- Every command. -/
theorem select_step (e : Env) (fl : Flags) (args : List Bytes) : select C A P e fl = none ∨ ∃ cmd, select C A P e fl = some cmd ∧
    (∀ ks w1, cmd.argc ≤ args.length → CmdStep (¬ SignsEncrypted fl) (MayChange fl args) w1 (cmd.run ks (config fl args) w1)) ∧
    (cmd.shouldWrite = true ∨ fl.check = true → MayChange fl args fl.path ∧ ∀ ks w1, (cmd.run ks (config fl args) w1).2.2.fs = w1.fs) := by
  have no : ∀ {b : Bool}, b = false → ∀ {p : Prop}, false = true ∨ b = true → p := by
    rintro b rfl p (h | h) <;> cases h
  cases h1 : fl.check with
  | true =>
    exact .inr ⟨_, (select_check C A P h1), (fun ks w1 _ => checkStore_step C e ks (config fl args) w1), fun _ => ⟨.store (Or.inl h1), fun ks w1 => quiet_fs (checkStore_step C e ks (config fl args) w1)⟩⟩
  | false =>
  have outp : ∀ {q : Prop}, q → (q → SignsEncrypted fl ∨ Signs fl ∨ Encrypts fl ∨ Decrypts fl) →
      ∀ s d r, (config fl args).args = s :: d :: r → d ≠ [45] → MayChange fl args d := by
    intro q hq hor s d r ha hd
    have : args = s :: d :: r := ha
    subst this
    exact .output (hor hq) hd
  cases h2 : fl.sign with
  | true =>
    cases h3 : fl.encrypt with
    | true =>
      have hfl : SignsEncrypted fl := ⟨h1, h2, h3⟩
      exact .inr ⟨_, (select_cryptsign C A P hfl), (fun ks w1 _ => cryptSignFile_step C P ks _ w1 (fun h => h hfl) (outp hfl Or.inl)), no rfl⟩
    | false =>
      have hfl : Signs fl := ⟨h1, h2, h3⟩
      exact .inr ⟨_, (select_sign C A P hfl), (fun ks w1 _ => signFile_step C P ks _ w1 (outp hfl fun h => Or.inr (Or.inl h))), no rfl⟩
  | false =>
  cases h4 : fl.verify with
  | true => exact .inr ⟨_, (select_verify C A P ⟨h1, h2, h4⟩), (fun ks w1 _ => verifyFile_step C P ks _ w1), no rfl⟩
  | false =>
  cases h3 : fl.encrypt with
  | true =>
    have hfl : Encrypts fl := ⟨h1, h2, h4, h3⟩
    exact .inr ⟨_, (select_encrypt C A P hfl), (fun ks w1 _ => encryptFile_step C P ks _ w1 (outp hfl fun h => Or.inr (Or.inr (Or.inl h)))), no rfl⟩
  | false =>
  cases h5 : fl.decrypt with
  | true =>
    have hfl : Decrypts fl := ⟨h1, h2, h4, h3, h5⟩
    exact .inr ⟨_, (select_decrypt C A P hfl), (fun ks w1 _ => decryptFile_step C P ks _ w1 (outp hfl fun h => Or.inr (Or.inr (Or.inr h)))), no rfl⟩
  | false =>
  have hno : NoMessage fl := ⟨h1, h2, h4, h3, h5⟩
  cases h6 : fl.remove with
  | true =>
    exact .inr ⟨_, (select_remove C A P ⟨hno, h6⟩), (fun ks w1 _ => removeKey_step ks _ w1), fun _ => ⟨.store (Or.inr (Or.inl ⟨hno, h6⟩)), fun ks w1 => quiet_fs (removeKey_step ks _ w1)⟩⟩
  | false =>
  cases h7 : fl.list with
  | true => exact .inr ⟨_, (select_list C A P ⟨hno, h6, h7⟩), (fun ks w1 _ => keyList_step e ks (config fl args) w1), no rfl⟩
  | false =>
  cases h8 : fl.export_ with
  | true =>
    have hfl : Exports fl := ⟨hno, h6, h7, h8⟩
    have outp1 : ∀ d r, (config fl args).args = d :: r → d ≠ [45] → MayChange fl args d := by
      intro d r ha hd
      have : args = d :: r := ha
      subst this
      exact .export_ hfl hd
    by_cases hl : fl.label = self
    · exact .inr ⟨_, (select_export_self C A P hfl hl), (fun ks w1 _ => exportSelf_step ks _ w1 outp1), no rfl⟩
    · exact .inr ⟨_, (select_export C A P hfl hl), (fun ks w1 _ => exportVerified_step C A P e ks _ w1 outp1), no rfl⟩
  | false =>
  cases h9 : fl.import_ with
  | true =>
    have hfl : Imports fl := ⟨hno, h6, h7, h8, h9⟩
    cases hu : fl.untrusted with
    | true =>
      exact .inr ⟨_, (select_uimport C A P hfl hu), (fun ks w1 _ => importUntrusted_step C A P e ks _ w1), fun _ => ⟨.store (Or.inr (Or.inr hfl)), fun ks w1 => quiet_fs (importUntrusted_step C A P e ks _ w1)⟩⟩
    | false =>
      exact .inr ⟨_, (select_import C A P hfl hu), (fun ks w1 _ => importVerified_step C A P e ks _ w1), fun _ => ⟨.store (Or.inr (Or.inr hfl)), fun ks w1 => quiet_fs (importVerified_step C A P e ks _ w1)⟩⟩
  | false =>
    have : select C A P e fl = none := by
      unfold select
      rw [h1, h2, h3, h4, h5, h6, h7, h8, h9]
      rfl
    exact .inl this

/-- Every run. -/
theorem main_step (e : Env) (fl : Flags) (args : List Bytes) (w : World) :
    Step (¬ SignsEncrypted fl) (MayChange fl args) w (main C A P J e fl args w).1 (main C A P J e fl args w).2 := by
  rcases select_step C A P e fl args with h | ⟨cmd, h1, h2, h3⟩
  · unfold main
    rw [h]
    exact Step.quiet rfl rfl
  · exact run_step C A P J h1 h2 h3

/-- If fcrypt exits with status 0, every file it tried to write was written in full, whatever the
store, the flags, the arguments and the answers given. Missing from the property: -s with -e, for
which it is false. -/
theorem C128_reported_partial (e : Env) (fl : Flags) (hfl : ¬ SignsEncrypted fl) (args : List Bytes) (w w' : World)
    (h : main C A P J e fl args w = (.ok, w')) : AllWritten w w' := by
  have := (main_step C A P J e fl args w).written hfl
  rw [h] at this
  exact this rfl

/-- C128 is false of -s with -e: if the output file cannot be opened nothing is written, and the
exit status is 0. -/
theorem C128_signed_violated (e : Env) (fl : Flags) (hfl : SignsEncrypted fl)
    (src dst : Bytes) (rest : List Bytes) (w : World) (d seed d' seed' pass : Bytes) (f : KeyFields) (m : Keys) (as)
    (hk : Keyring C J w.fs fl.path (ownerOf C d seed) f m) (ho : Opens C f d seed pass) (ha : w.term.answers = some pass :: as)
    (hn : Names (ownerOf C d seed) m fl.label (ownerOf C d' seed'))
    (msg : Bytes) (hin : Input w src msg) (hm : msg ≠ []) (hl : msg.length < 2 ^ 31 - 69) (hr : 56 ≤ w.rng.length)
    (hd : dst ≠ [45]) (hw : w.writes 0 = .openFails) :
    ∃ w', main C A P J e fl (src :: dst :: rest) w = (.ok, w') ∧ Silent w w' ∧ ¬ AllWritten w w' := by
  obtain ⟨ct, h1, h2, h3⟩ := Props.Public.C19_roundtrip_partial C d seed d' seed' msg w.rng ho.slen hm hl hr
  obtain ⟨w0, w1, g1, g2, g3, g6, g4, g5⟩ := cryptsign_run C A P J (e := e) hfl (dst := dst) (rest := rest) hk ho ha hn hin h1
  have e1 : w1 = { w0 with writes := fun n => w0.writes (n + 1), failed := w0.failed + 1 } := by
    rw [g4]
    unfold World.writeFile World.save
    rw [if_neg hd, g3, hw]
    rfl
  refine ⟨w1, g5, ⟨?_, ?_⟩, ?_⟩
  · rw [e1]; exact ⟨_, notice_ok f, g2⟩
  · rw [e1]; exact g1
  · unfold AllWritten
    rw [e1, ← g6]
    simp

/-- The hypotheses of C128 can be met: a disk without room. -/
example : ∃ (fl : Flags) (w : World) (d seed d' seed' pass : Bytes) (f : KeyFields) (m : Keys),
    SignsEncrypted fl ∧ Keyring C J w.fs fl.path (ownerOf C d seed) f m ∧ Opens C f d seed pass ∧
    w.term.answers = [some pass] ∧ Names (ownerOf C d seed) m fl.label (ownerOf C d' seed') ∧
    Input w [105] [104, 105] ∧ 56 ≤ w.rng.length ∧ w.writes 0 = .openFails := by
  obtain ⟨f, -, ho, hk⟩ := exKeyring C J (List.replicate 32 1) (List.replicate 32 2) [97]
    (ownerOf C (List.replicate 32 3) (List.replicate 32 4)) [112] none (by decide) (by decide) (by decide) (by decide)
  exact ⟨{ path := [107], sign := true, encrypt := true, label := [97] },
    { exWorld J f [112] [104, 105] with writes := fun _ => .openFails }, _, _, _, _, _, f, _, ⟨rfl, rfl, rfl⟩, hk _ _, ho, rfl,
    .peer (Map.set_same _ _ _) rfl, exInput J f [112] _,
    (by show 56 ≤ (List.replicate 200 (3 : UInt8)).length; rw [List.length_replicate]; decide), rfl⟩

/-- fcrypt -export without a label. -/
theorem exportSelf_run {e : Env} {fl : Flags} (hfl : Exports fl) (hl : fl.label = self) {dst : Bytes} {rest : List Bytes} {w : World}
    {owner x : Bytes} {f : KeyFields} {m : Keys} (hk : Keyring C J w.fs fl.path owner f m) (hx : f.exportKey = some x)
    (hw : dst ≠ [45] → w.writes 0 = .done) :
    ∃ w', main C A P J e fl (dst :: rest) w = (.ok, w') ∧ Output w dst x w' := by
  rw [main_public C A P J (select_export_self C A P (e := e) hfl hl) hk.keyfile rfl hfl.1.1 (by simp)]
  have hx' : (loaded f m).exportKey = some x := hx
  have hcfg : (config fl (dst :: rest)).args = dst :: rest := rfl
  simp only [exportSelf, hx', hcfg]
  obtain ⟨w3, o1, o2, o3, -⟩ := output_ok (loaded f m) (later w 2) dst x hw
  refine ⟨w3, ?_, Output.same o2 rfl rfl⟩
  rw [o1]
  refine conclude_quiet J (o3 _ ?_)
  obtain ⟨data, h1, -⟩ := hk.file
  show w.fs fl.path ≠ none
  rw [h1]
  simp

/-- A run that writes: the owner's key is exported to a file. -/
example (x : Bytes) : ∃ (fl : Flags) (w : World) (f : KeyFields), Exports fl ∧ w.fs fl.path = some (J.enc f) ∧
    ∀ e, ∃ w', main C A P J e fl [[111]] w = (.ok, w') ∧ AllWritten w w' ∧ w'.fs [111] = some x := by
  obtain ⟨f, hx, ho, hk⟩ := exKeyring C J (List.replicate 32 1) (List.replicate 32 2) [97]
    (ownerOf C (List.replicate 32 3) (List.replicate 32 4)) [112] (some x) (by decide) (by decide) (by decide) (by decide)
  refine ⟨{ path := [107], export_ := true }, exWorld J f [112] [], f, ⟨⟨rfl, rfl, rfl, rfl, rfl⟩, rfl, rfl, rfl⟩, ?_, fun e => ?_⟩
  · show (Fs.set (Fs.set (fun _ => none) [105] []) [107] (J.enc f)) [107] = some (J.enc f)
    exact Fs.set_same _ _ _
  · obtain ⟨w', h1, h2⟩ := exportSelf_run C A P J (e := e) (dst := [111]) (rest := []) ⟨⟨rfl, rfl, rfl, rfl, rfl⟩, rfl, rfl, rfl⟩ rfl
      (fl := { path := [107], export_ := true }) (w := exWorld J f [112] []) (hk _ _) hx (fun _ => rfl)
    refine ⟨w', h1, C128_reported_partial C A P J e _ (fun h => by cases h.2.1) _ _ _ h1, ?_⟩
    unfold Output at h2
    rw [if_neg (by decide)] at h2
    rw [h2.2]
    exact Fs.set_same _ _ _

/-! ### C129: which files change -/

/-- fcrypt changes no file but the output file it is given and, to remove, import or check keys, the
key store; whatever the store, the arguments and the answers given. -/
theorem C129_files (e : Env) (fl : Flags) (args : List Bytes) (w w' : World) (r : Ret) (h : main C A P J e fl args w = (r, w')) :
    ∀ q, w'.fs q ≠ w.fs q → MayChange fl args q := by
  have := (main_step C A P J e fl args w).files
  rw [h] at this
  exact this

/-- A run of fcrypt that fails leaves all files as they were, unless a write failed after it had
begun. Missing from the property: such writes, for which it is false (`C129_torn_violated`). -/
theorem C129_failure_partial (e : Env) (fl : Flags) (args : List Bytes) (w w' : World) (r : Ret)
    (h : main C A P J e fl args w = (r, w')) (hr : r ≠ .ok) (ht : ∀ i k, w.writes i ≠ .failsAfter k) : w'.fs = w.fs := by
  have := (main_step C A P J e fl args w).safe
  rw [h] at this
  exact this hr ht

/-- No run removes a file. -/
theorem C129_kept (e : Env) (fl : Flags) (args : List Bytes) (w w' : World) (r : Ret) (h : main C A P J e fl args w = (r, w')) :
    ∀ q, w.fs q ≠ none → w'.fs q ≠ none := by
  have := (main_step C A P J e fl args w).keeps
  rw [h] at this
  exact this

end Verif.Props.FcryptFiles
