import Verif.Proofs.SecretsErrors
import Verif.Props.SecretsOutput
/-! C202-C205: what cmd/secrets writes to standard error. -/

namespace Verif.Props.SecretsErrors
open Verif Verif.Go Verif.Model.Util Verif.Model.SecretStore Verif.Model.Secrets Verif.Model.SecretsErrors
open Verif.Spec.SecretStore Verif.Spec.Secrets Verif.Spec.SecretsErrors Verif.Proofs.SecretStore Verif.Proofs.Secrets Verif.Proofs.SecretsErrors
open Verif.Props.SecretStore Verif.Props.Secrets

variable (T : Texts) (C : Crypto) (J : Json) (P : Pem) (ord : Map (Option SecretRecord) → List Bytes) (fuel : Nat)

/-! ### C202: failures are reported -/

theorem initErr_error {w w' : World} {path : Bytes} {mode : Int} {args : List Bytes} (h : initStore C J w path mode = .ok (false, w')) :
    (initErr T C J w path mode).error ∈ reasons T args path := by
  unfold initStore at h
  unfold initErr
  dsimp only at h ⊢
  split
  · simp [reasons]
  · rename_i pass hp
    rw [hp] at h
    dsimp only at h
    split
    · simp [reasons]
    · rename_i hl
      rw [if_neg hl] at h
      split
      · simp [reasons]
      · split <;> simp [reasons]
      · rename_i hpanic
        exact absurd hpanic (marshal_no_panic C J _ _ _)

theorem initErr_ok {w w' : World} {path : Bytes} {mode : Int} (h : initStore C J w path mode = .ok (true, w')) :
    (initErr T C J w path mode).msgs = [] := by
  unfold initStore at h
  unfold initErr
  dsimp only at h ⊢
  split
  · rename_i hp
    rw [hp] at h
    simp at h
  · split
    · rfl
    · split
      · rfl
      · split <;> rfl
      · rfl

theorem initErr_mem {w : World} {path x : Bytes} {mode : Int} (h : x ∈ (initErr T C J w path mode).msgs) :
    x = report (ascii "Failed to read passphrase: " ++ T.prompt) := by
  unfold initErr at h
  dsimp only at h
  split at h
  · simpa [errorf_eq] using h
  · split at h
    · simp at h
    · split at h
      · simp at h
      · split at h <;> simp at h
      · simp at h

theorem exportErr_mem {w : World} {path : Bytes} {args : List Bytes} : exportErr T w path (args.headD []) ∈ reasons T args path := by
  unfold exportErr
  split <;> simp [reasons]

theorem importErr_mem {w : World} {path : Bytes} {args : List Bytes} : importErr T P w path (args.headD []) ∈ reasons T args path := by
  unfold importErr
  split
  · simp [reasons]
  · split
    · simp [reasons]
    · split <;> simp [reasons]

theorem failure_of (m : Bytes) : Failure (report (ascii "Failed: " ++ m)) := ⟨_, rfl, Or.inl ⟨m, rfl⟩⟩

/-- When secrets exits with a status other than 0, the last line on standard error says that it failed, or what
argument it lacks. -/
theorem C202_failed {f : Flags} {args : List Bytes} {path : Bytes} {w w' : World} {n : Nat} (hn : n ≠ 0)
    (h : main C J P ord fuel f args path w = some (.ok (n, w'))) :
    ∃ pre x, mainErr T C J ord P fuel f args path w = pre ++ [x] ∧ Failure x := by
  unfold main at h
  unfold mainErr
  cases ha : f.action with
  | init =>
    rw [ha] at h
    dsimp only at h ⊢
    obtain ⟨⟨ok, w1⟩, h1, h2⟩ := Res.bind_eq_ok.mp (Option.some.inj h)
    cases ok with
    | true => simp at h2; exact absurd h2.1.symm hn
    | false =>
      rw [h1]
      exact ⟨_, _, rfl, failure_of _⟩
  | doExport =>
    rw [ha] at h
    dsimp only at h ⊢
    cases he : exportStore P w path (args.headD []) with
    | mk ok w1 =>
      rw [he] at h
      cases ok with
      | true => simp at h; exact absurd h.1.symm hn
      | false => exact ⟨_, _, rfl, failure_of _⟩
  | doImport =>
    rw [ha] at h
    dsimp only at h ⊢
    cases he : importStore P w path (args.headD []) with
    | mk ok w1 =>
      rw [he] at h
      cases ok with
      | true => simp at h; exact absurd h.1.symm hn
      | false => exact ⟨_, _, rfl, failure_of _⟩
  | cmd c =>
    rw [ha] at h
    dsimp only at h ⊢
    unfold runCmd at h
    unfold runErr
    split
    · exact ⟨[_], _, rfl, _, rfl, Or.inr (Or.inl ⟨_, rfl⟩)⟩
    · rename_i hargs
      rw [if_neg hargs] at h
      cases hl : loadStore C J w path f.mode with
      | panic => rw [hl] at h; simp at h
      | ok res =>
        obtain ⟨o, w1⟩ := res
        rw [hl] at h
        cases o with
        | none => exact ⟨_, _, rfl, _, rfl, Or.inr (Or.inr (Or.inl rfl))⟩
        | some ps =>
          dsimp only at h ⊢
          cases hr : Cmd.run C J ord fuel c w1 ps { args := args, clip := f.clip, overwrite := f.overwrite, withMeta := f.withMeta } f.mode with
          | none => rw [hr] at h; simp at h
          | some r =>
            rw [hr] at h
            cases r with
            | panic => simp at h
            | ok r =>
              obtain ⟨b, ps1, w2⟩ := r
              cases b with
              | false =>
                dsimp only
                rw [← List.append_assoc]
                exact ⟨_, _, rfl, failure_of _⟩
              | true =>
                dsimp only at h ⊢
                split
                · rename_i hsw
                  rw [if_pos hsw] at h
                  obtain ⟨⟨w3, ok⟩, h1, h2⟩ := Res.bind_eq_ok.mp (Option.some.inj h)
                  cases ok with
                  | true => simp at h2; exact absurd h2.1.symm hn
                  | false =>
                    rw [h1]
                    dsimp only
                    rw [← List.append_assoc, ← List.append_assoc]
                    exact ⟨_, _, rfl, _, rfl, Or.inr (Or.inr (Or.inr rfl))⟩
                · rename_i hsw
                  rw [if_neg hsw] at h
                  simp at h
                  exact absurd h.1.symm hn

/-- What is on standard error when a command ends with status 0: what the command said in passing. -/
theorem runErr_zero {c : Cmd} {cfg : Config} {mode : Int} {path : Bytes} {w w' : World}
    (h : runCmd C J ord fuel c cfg mode path w = some (.ok (0, w'))) :
    ∃ ps w1, loadStore C J w path mode = .ok (some ps, w1) ∧ runErr T C J ord fuel c cfg mode path w = (cmdErr T fuel c w1 ps cfg).msgs := by
  unfold runCmd at h
  unfold runErr
  split at h
  · simp at h
  · rename_i hargs
    rw [if_neg hargs]
    cases hl : loadStore C J w path mode with
    | panic => rw [hl] at h; simp at h
    | ok res =>
      obtain ⟨o, w1⟩ := res
      rw [hl] at h
      cases o with
      | none => simp at h
      | some ps =>
        refine ⟨ps, w1, rfl, ?_⟩
        dsimp only at h ⊢
        rw [loadErr_some T C J hl, List.nil_append]
        cases hr : Cmd.run C J ord fuel c w1 ps cfg mode with
        | none => rw [hr] at h; simp at h
        | some r =>
          rw [hr] at h
          cases r with
          | panic => simp at h
          | ok r =>
            obtain ⟨b, ps1, w2⟩ := r
            cases b with
            | false => simp at h
            | true =>
              dsimp only at h ⊢
              split
              · rename_i hsw
                rw [if_pos hsw] at h
                obtain ⟨⟨w3, ok⟩, h1, h2⟩ := Res.bind_eq_ok.mp (Option.some.inj h)
                cases ok with
                | false => simp at h2
                | true =>
                  rw [writeErr_ok T C J h1, h1]
                  simp
              · simp

/-- When secrets exits with status 0, all that can be on standard error are warnings about secrets to be replaced and
complaints about what was typed. Unless it stores, removes or takes several secrets, there is nothing. Missing from
the property: -export and -import without just one argument (`C202_violated`). -/
theorem C202_quiet_partial {f : Flags} {args : List Bytes} {path : Bytes} {w w' : World}
    (h : main C J P ord fuel f args path w = some (.ok (0, w')))
    (hargs : f.action = .doExport ∨ f.action = .doImport → args.length = 1) :
    (∀ x ∈ mainErr T C J ord P fuel f args path w, x ∈ notes T) ∧
    (f.store = false → f.multi = false → f.remove = false → mainErr T C J ord P fuel f args path w = []) := by
  unfold main at h
  unfold mainErr
  cases ha : f.action with
  | init =>
    rw [ha] at h
    dsimp only at h ⊢
    obtain ⟨⟨ok, w1⟩, h1, h2⟩ := Res.bind_eq_ok.mp (Option.some.inj h)
    cases ok with
    | false => simp at h2
    | true =>
      rw [initErr_ok T C J h1, h1]
      simp
  | doExport =>
    rw [ha] at h
    dsimp only at h ⊢
    cases he : exportStore P w path (args.headD []) with
    | mk ok w1 =>
      rw [he] at h
      cases ok with
      | false => simp at h
      | true => simp [hargs (Or.inl ha)]
  | doImport =>
    rw [ha] at h
    dsimp only at h ⊢
    cases he : importStore P w path (args.headD []) with
    | mk ok w1 =>
      rw [he] at h
      cases ok with
      | false => simp at h
      | true => simp [hargs (Or.inr ha)]
  | cmd c =>
    rw [ha] at h
    dsimp only at h ⊢
    obtain ⟨ps, w1, -, h2⟩ := runErr_zero T C J ord fuel h
    rw [h2]
    refine ⟨fun x hx => (cmdErr_mem T hx).1, ?_⟩
    intro h3 h4 h5
    refine List.eq_nil_iff_forall_not_mem.mpr fun x hx => ?_
    have := (cmdErr_mem T hx).2.2
    unfold Flags.action at ha
    simp only [h3, h4, h5, Bool.false_eq_true, if_false] at ha
    rcases this with rfl | rfl | rfl
    all_goals (revert ha; repeat' split) <;> simp

/-- C202 is false of -export with two arguments: the store is exported to the first, with status 0, but secrets
complains that no output file was given. -/
theorem C202_violated {path o : Bytes} {more : List Bytes} {w : World} {b : Bytes} (hp : path ≠ dash) (ho : o ≠ dash) (hm : more ≠ [])
    (hb : w.fs path = some b) (hw : w.write = .done) :
    main C J P ord fuel { «export» := true } (o :: more) path w = some (.ok (0, { w with fs := w.fs.set o (P.enc (ascii "SECRET STORE") b) })) ∧
    mainErr T C J ord P fuel { «export» := true } (o :: more) path w = [report (ascii "No output file specified.")] := by
  have he : exportStore P w path o = (true, { w with fs := w.fs.set o (P.enc (ascii "SECRET STORE") b) }) := by
    unfold exportStore World.readFile
    rw [if_neg hp, hb]
    unfold World.writeFile Go.writeFile
    dsimp only
    rw [if_neg ho, hw]
    rfl
  constructor
  · unfold main
    simp [Flags.action, he]
  · unfold mainErr
    simp [Flags.action, he, errorf_eq, hm]

/-- An export or import that was not given just one argument is commented on first, whatever comes of it. -/
theorem C202_missing {f : Flags} {args : List Bytes} {path : Bytes} {w : World} (hargs : args.length ≠ 1) :
    (f.action = .doExport → ∃ rest, mainErr T C J ord P fuel f args path w = report (ascii "No output file specified.") :: rest) ∧
    (f.action = .doImport → ∃ rest, mainErr T C J ord P fuel f args path w = report (ascii "No input file specified.") :: rest) := by
  constructor <;> intro ha
  · unfold mainErr
    rw [ha]
    simp only [ne_eq, hargs, not_false_eq_true, if_true, errorf_eq, List.cons_append, List.nil_append]
    exact ⟨_, rfl⟩
  · unfold mainErr
    rw [ha]
    simp only [ne_eq, hargs, not_false_eq_true, if_true, errorf_eq, List.cons_append, List.nil_append]
    exact ⟨_, rfl⟩

/-- `secrets -export` without an argument. -/
example {path : Bytes} {w : World} : ({ «export» := true } : Flags).action = .doExport ∧
    ∃ rest, mainErr T C J ord P fuel { «export» := true } [] path w = report (ascii "No output file specified.") :: rest :=
  ⟨rfl, (C202_missing T C J P ord fuel (args := []) (by decide)).1 rfl⟩

/-- The label is taken: the run fails, and says so. -/
example : ∃ b w', main C J P ord fuel { store := true } [[97]] [102] (exWorld b [some [112, 119], some [1]]) = some (.ok (1, w')) ∧
    mainErr T C J ord P fuel { store := true } [[97]] [102] (exWorld b [some [112, 119], some [1]]) =
      [report (ascii "Failed: entry exists, not forcing overwrite")] := by
  obtain ⟨b, hb⟩ := exFile C J 0 (Or.inl rfl)
  have hh : (exStore [1, 2, 3] 7).has [97] = true := rfl
  refine ⟨b, _, by
    unfold main runCmd
    simp [Flags.action, Flags.mode, Cmd.requiredArgc, loadStore, Term.read, exWorld, World.exist, World.readFile, hb, Cmd.run,
      addSecret, addPlain, hh]
    rfl, ?_⟩
  unfold mainErr runErr
  simp [Flags.action, Flags.mode, Cmd.requiredArgc, loadStore, loadErr, Term.read, exWorld, World.exist, World.readFile, hb, Cmd.run,
    addSecret, addPlain, hh, cmdErr, addErr, addPlainErr]
  rfl

/-- A run of `secrets -s b` that says nothing. -/
example : ∃ b, mainErr T C J ord P fuel { store := true } [[98]] [102] (exWorld b [some [112, 119], some [9]]) = [] := by
  obtain ⟨b, hb⟩ := exFile C J 0 (Or.inl rfl)
  have hh : (exStore [1, 2, 3] 7).has [98] = false := exMap_other (by decide) _ _
  obtain ⟨w', out, h, -⟩ := exRun C J P ord fuel (f := { store := true }) (c := .store) (args := [[98]]) (rest := [some [9]])
    (b := b) (t := ⟨[], fun n => 1000 + BitVec.ofNat 64 (n + 1)⟩) rfl hb rfl (by decide)
    (by simp [Cmd.run, addSecret, addPlain, Term.read, Term.now, exWorld, assign, exStore]; rfl) rfl (exClock 1 (by decide)) rfl rfl
  have h' : runCmd C J ord fuel .store { args := [[98]], clip := false, overwrite := false, withMeta := false } 0 [102]
      (exWorld b [some [112, 119], some [9]]) = some (.ok (0, w')) := h
  obtain ⟨ps, w1, hl, he⟩ := runErr_zero T C J ord fuel h'
  have hl1 := Verif.Proofs.SecretsOutput.load_ok C J (w := exWorld b [some [112, 119], some [9]]) (path := [102]) (mode := 0) (pass := [112, 119])
    (rest := [some [9]]) (by decide) rfl ⟨b, by simp [exWorld], hb⟩
  rw [hl1] at hl
  simp only [Res.ok.injEq, Prod.mk.injEq, Option.some.injEq] at hl
  obtain ⟨rfl, rfl⟩ := hl
  have hh' : (exStore [1, 2, 3] 7#64).has [98] = false := hh
  exact ⟨b, he.trans (by simp [cmdErr, addErr, addPlainErr, hh', exWorld, Term.read])⟩

/-- A run of `secrets -export a b`. -/
example (b : Bytes) : mainErr T C J ord P fuel { «export» := true } [[97], [98]] [102] (exWorld b []) =
    [report (ascii "No output file specified.")] :=
  (C202_violated T C J P ord fuel (by decide) (by decide) (by simp) (b := b) (by simp [exWorld]) rfl).2

/-! ### C203: secrets that are replaced -/

theorem secretOf_some {s : SecretStore} {k : Bytes} (h : (lookup s k).isSome = true) : ∃ r, lookup s k = some r ∧ secretOf s k = some r.secret := by
  cases hl : lookup s k with
  | none => simp [hl] at h
  | some r => exact ⟨r, rfl, by simp [secretOf, hl]⟩

/-- For what the commands do to the store. -/
theorem cmd_warns {c : Cmd} {w w' : World} {ps ps' : SecretStore} {cfg : Config} {mode : Int} (hc : c = .store ∨ c = .multi)
    (h : Cmd.run C J ord fuel c w ps cfg mode = some (.ok (true, ps', w'))) (changed : List Bytes) (hn : changed.Nodup)
    (hk : ∀ k ∈ changed, (lookup ps k).isSome = true ∧ secretOf ps' k ≠ secretOf ps k) :
    changed.length ≤ (cmdErr T fuel c w ps cfg).msgs.count warning := by
  rcases hc with rfl | rfl
  · simp only [Cmd.run, addSecret, Option.some.injEq] at h
    unfold cmdErr
    dsimp only
    cases hm : cfg.withMeta with
    | true =>
      rw [hm, if_pos rfl] at h
      obtain ⟨-, -, h2, h3⟩ := addMeta_frame h
      cases changed with
      | nil => simp
      | cons k l =>
        exfalso
        obtain ⟨e1, e2⟩ := hk k (by simp)
        obtain ⟨r, e3, e4⟩ := secretOf_some e1
        apply e2
        by_cases hkl : k = cfg.args.headD []
        · rw [hkl] at e3 e4 ⊢
          obtain ⟨r', e5, e6, -⟩ := h3 r e3
          rw [e4, secretOf, e5, Option.map_some, e6]
        · rw [e4]
          simp [secretOf, h2 k r hkl e3]
    | false =>
      rw [hm] at h
      simp only [Bool.false_eq_true, if_false] at h
      obtain ⟨-, -, h2⟩ := addPlain_frame h
      obtain ⟨pw, rest, m, r0, h4, h5, -, h6, -, -, -⟩ := addPlain_ok h
      have only : ∀ k ∈ changed, k = cfg.args.headD [] := by
        intro k hkm
        obtain ⟨e1, e2⟩ := hk k hkm
        obtain ⟨r, e3, e4⟩ := secretOf_some e1
        by_cases hkl : k = cfg.args.headD []
        · exact hkl
        · exfalso
          apply e2
          rw [e4]
          simp [secretOf, h2 k r (Or.inl hkl) e3]
      cases changed with
      | nil => simp
      | cons k l =>
        have hl : l = [] := by
          cases l with
          | nil => rfl
          | cons j l =>
            exfalso
            have e1 := only k (by simp)
            have e2 := only j (by simp)
            rw [e1, e2] at hn
            simp at hn
        subst hl
        have hkk := only k (by simp)
        have hh := has_of_isSome (hk k (by simp)).1
        rw [hkk] at hh
        have how := (h6 hh).1
        unfold addErr addPlainErr Term.read
        simp only [hm, hh, how, h4, Bool.false_eq_true, if_false, Bool.not_true, Bool.and_false, if_true, errorf_eq, warning]
        simp
  · simp only [Cmd.run, Model.Secrets.multi, Option.some.injEq] at h
    obtain ⟨⟨ok, ps1, t1⟩, hl, hr⟩ := Res.bind_eq_ok.mp h
    simp only [Res.pure_eq, Res.ok.injEq, Prod.mk.injEq] at hr
    obtain ⟨-, rfl, -⟩ := hr
    exact multi_warns T _ _ _ _ _ _ _ _ (Nat.le_refl _) hl changed hn hk

/-- When -s or -multi ends with status 0, there is a warning on standard error for every secret that is no longer what
it was, and there is one only with -w. Missing from the property: labels that become the label of another entry
when their ill-formed bytes are replaced (`C203_alias_violated`). -/
theorem C203_warned_partial {f : Flags} {args : List Bytes} {path : Bytes} {w w' : World} (hd : path ≠ dash)
    (hf : f.action = .cmd .store ∨ f.action = .cmd .multi) (h : main C J P ord fuel f args path w = some (.ok (0, w'))) :
    (warning ∈ mainErr T C J ord P fuel f args path w → f.overwrite = true) ∧
    ∃ pass s s', w.term.answers.head? = some (some pass) ∧ Opens C J w.fs path pass f.mode s ∧ Opens C J w'.fs path pass f.mode s' ∧
      ∀ changed : List Bytes, changed.Nodup →
        (∀ k ∈ changed, NoAlias (args.headD [] :: typed w) k ∧ (lookup s k).isSome = true ∧ secretOf s' k ≠ secretOf s k) →
        changed.length ≤ (mainErr T C J ord P fuel f args path w).count warning := by
  have hc : ∃ c, f.action = .cmd c ∧ (c = .store ∨ c = .multi) := by
    rcases hf with hf | hf
    · exact ⟨_, hf, Or.inl rfl⟩
    · exact ⟨_, hf, Or.inr rfl⟩
  obtain ⟨c, hf, hc⟩ := hc
  have hsw : c.shouldWrite = true := by rcases hc with rfl | rfl <;> rfl
  unfold main at h
  unfold mainErr
  rw [hf] at h ⊢
  dsimp only at h ⊢
  obtain ⟨ps0, w1, hl0, herr⟩ := runErr_zero T C J ord fuel h
  obtain ⟨-, pass, rest, s, ps, t, ha, hop, hrun, -, hwr⟩ := runCmd_zero C J hd h
  obtain ⟨p', out, hp', -, -, -, hfile, hfs⟩ := hwr hsw
  have hl1 := Verif.Proofs.SecretsOutput.load_ok C J hd ha hop
  rw [hl1] at hl0
  simp only [Res.ok.injEq, Prod.mk.injEq, Option.some.injEq] at hl0
  obtain ⟨rfl, rfl⟩ := hl0
  rw [herr]
  refine ⟨fun hx => (cmdErr_mem T hx).2.1 rfl, ?_⟩
  obtain ⟨b, hb, hu⟩ := hop
  obtain ⟨hfin, hutf, hpass⟩ := opens_fields C J hu
  have hF : Frame (args.headD [] :: typed w) s ps := by
    rcases hc with rfl | rfl
    · simp only [Cmd.run, addSecret, Option.some.injEq] at hrun
      cases hm : f.withMeta with
      | true =>
        rw [hm, if_pos rfl] at hrun
        exact (addMeta_frame hrun).1.mono (by simp)
      | false =>
        rw [hm] at hrun
        simp only [Bool.false_eq_true, if_false] at hrun
        exact (addPlain_frame hrun).1.mono (by simp)
    · simp only [Cmd.run, Model.Secrets.multi, Option.some.injEq] at hrun
      obtain ⟨⟨ok, ps1, t1⟩, hl, hr⟩ := Res.bind_eq_ok.mp hrun
      simp only [Res.pure_eq, Res.ok.injEq, Prod.mk.injEq] at hr
      obtain ⟨-, rfl, -⟩ := hr
      refine (multiLoop_frame _ _ _ _ _ _ _ _ (Nat.le_refl _) hl).1.mono ?_
      intro k hk
      unfold typed
      rw [ha]
      simp only [List.filterMap_cons, id]
      exact List.mem_cons_of_mem _ (List.mem_cons_of_mem _ hk)
  rw [hF.passphrase, hpass] at hp'
  cases hp'
  obtain ⟨s', h1, h2, -⟩ := saved_opens C J (f := { ps.toFields with timestamp := t.clock 0 }) (finite_time (hF.finite hfin) _) hfile
  refine ⟨pass, s, s', by rw [ha]; rfl, ⟨b, hb, hu⟩, ⟨out, by rw [hfs]; simp, h1⟩, ?_⟩
  intro changed hn hk
  refine cmd_warns T C J ord fuel hc hrun changed hn fun k hkm => ⟨(hk k hkm).2.1, fun heq => ?_⟩
  obtain ⟨hna, e1, e2⟩ := hk k hkm
  obtain ⟨r, e3, e4⟩ := secretOf_some e1
  apply e2
  rw [e4] at heq ⊢
  cases hl : lookup ps k with
  | none => simp [secretOf, hl] at heq
  | some r1 =>
    obtain ⟨r', e5, e6⟩ := keep hutf hF h2 e3 hl hna
    simp only [secretOf, hl, Option.map_some, Option.some.injEq] at heq
    simp [secretOf, e5, e6.2.2.1, heq]

/-- C203 is false of a label that is not UTF-8: `secrets -s` with the label "\xff" replaces the secret stored under U+FFFD, and
warns of nothing. -/
theorem C203_alias_violated : ∃ (w w' : World) (s s' : SecretStore),
    main C J P ord fuel { store := true } [[0xFF]] [102] w = some (.ok (0, w')) ∧
    Opens C J w.fs [102] [112, 119] 0 s ∧ Opens C J w'.fs [102] [112, 119] 0 s' ∧
    secretOf s repl = some [1, 2, 3] ∧ secretOf s' repl = some [9] ∧
    warning ∉ mainErr T C J ord P fuel { store := true } [[0xFF]] [102] w := by
  obtain ⟨w, w', s, s', h, h1, h2, h3, h4⟩ := C68_alias_violated C J P ord fuel
  refine ⟨w, w', s, s', h, h1, h2, h3, h4, fun hx => ?_⟩
  simpa using (C203_warned_partial T C J P ord fuel (f := { store := true }) (by decide) (Or.inl rfl) h).1 hx

/-- `secrets -s -w a`: the secret of the entry becomes [9], and there is one warning. -/
example : ∃ b w', main C J P ord fuel { store := true, overwrite := true } [[97]] [102] (exWorld b [some [112, 119], some [9]]) = some (.ok (0, w')) ∧
    mainErr T C J ord P fuel { store := true, overwrite := true } [[97]] [102] (exWorld b [some [112, 119], some [9]]) = [warning] := by
  obtain ⟨b, hb⟩ := exFile C J 0 (Or.inl rfl)
  obtain ⟨w', out, h, -⟩ := exRun C J P ord fuel (f := { store := true, overwrite := true }) (c := .store) (args := [[97]]) (rest := [some [9]])
    (b := b) (t := ⟨[], fun n => 1000 + BitVec.ofNat 64 (n + 1)⟩) rfl hb rfl (by decide)
    (by simp [Cmd.run, addSecret, addPlain, Term.read, Term.now, exWorld, assign, fetch, exStore]; rfl) rfl (exClock 1 (by decide)) rfl rfl
  refine ⟨b, w', h, ?_⟩
  have h' : runCmd C J ord fuel .store { args := [[97]], clip := false, overwrite := true, withMeta := false } 0 [102]
      (exWorld b [some [112, 119], some [9]]) = some (.ok (0, w')) := h
  obtain ⟨ps, w1, hl, he⟩ := runErr_zero T C J ord fuel h'
  have hl1 := Verif.Proofs.SecretsOutput.load_ok C J (w := exWorld b [some [112, 119], some [9]]) (path := [102]) (mode := 0) (pass := [112, 119])
    (rest := [some [9]]) (by decide) rfl ⟨b, by simp [exWorld], hb⟩
  rw [hl1] at hl
  simp only [Res.ok.injEq, Prod.mk.injEq, Option.some.injEq] at hl
  obtain ⟨rfl, rfl⟩ := hl
  exact he.trans (by simp [cmdErr, addErr, addPlainErr, exWorld, Term.read]; rfl)

/-! ### C204: a store that does not open -/

/-- When the passphrase does not open the file, whatever the reason, and whatever was asked for, secrets prints the
same line and no other, exits with status 1, and has read nothing but the passphrase. -/
theorem C204_unopened (e : Model.SecretsOutput.Env) {f : Flags} {c : Cmd} {args : List Bytes} {path pass b : Bytes} {rest : List (Option Bytes)} {w : World} (hd : path ≠ dash)
    (hf : f.action = .cmd c) (hargs : c.requiredArgc ≤ args.length) (ha : w.term.answers = some pass :: rest) (hb : w.fs path = some b)
    (hu : ∀ s, ¬ Opens C J w.fs path pass f.mode s) :
    main C J P ord fuel f args path w = some (.ok (1, { w with term := { w.term with answers := rest } })) ∧
    Model.SecretsOutput.mainText C J ord e fuel f args path w = [] ∧
    mainErr T C J ord P fuel f args path w = [report (ascii "Failed to open password store")] := by
  have hun : unmarshalSecretStore C J b pass f.mode = .ok none := by
    cases h : unmarshalSecretStore C J b pass f.mode with
    | panic => exact absurd h (unmarshal_no_panic C J b pass f.mode)
    | ok o =>
      cases o with
      | none => rfl
      | some s => exact absurd ⟨b, hb, h⟩ (hu s)
  have hl : loadStore C J w path f.mode = .ok (none, { w with term := { w.term with answers := rest } }) := by
    unfold loadStore Term.read
    simp [ha, World.exist, hb, World.readFile, hd, hun]
  have he : loadErr T w path = [] := by
    unfold loadErr Term.read
    simp [ha, World.exist, hb, World.readFile, hd]
  have hlt : ¬ args.length < c.requiredArgc := by omega
  refine ⟨?_, ?_, ?_⟩
  · unfold main
    rw [hf]
    dsimp only
    unfold runCmd
    rw [if_neg hlt, hl]
  · unfold Model.SecretsOutput.mainText
    rw [hf]
    dsimp only
    unfold Model.SecretsOutput.runText
    rw [if_neg hlt, hl]
  · unfold mainErr
    rw [hf]
    dsimp only
    unfold runErr
    rw [if_neg hlt, hl, he]
    rfl

/-- An empty file does not open. -/
example (e : Model.SecretsOutput.Env) : mainErr T C J ord P fuel { list := true } [] [102] (exWorld [] [some [112, 119]]) =
    [report (ascii "Failed to open password store")] :=
  (C204_unopened T C J P ord fuel e (f := { list := true }) (c := .list) (by decide) rfl (by decide) (pass := [112, 119]) (rest := []) rfl (b := [])
    (by simp [exWorld]) (by
      rintro s ⟨b, hb, hu⟩
      simp only [exWorld, Fs.set_same, Option.some.injEq] at hb
      subst hb
      simp [unmarshalSecretStore] at hu)).2.2

/-! ### C205: what can be on standard error -/

/-- All that secrets writes to standard error is one of a few lines, which are known from the command line alone, but for
the texts of errors of the system: nothing that is stored or typed is among them. -/
theorem C205_vocabulary {f : Flags} {args : List Bytes} {path : Bytes} {w : World} :
    ∀ x ∈ mainErr T C J ord P fuel f args path w, x ∈ vocabulary T args path := by
  have hfail : ∀ r ∈ reasons T args path, report (ascii "Failed: " ++ r) ∈ vocabulary T args path := by
    intro r hr
    unfold vocabulary
    refine List.mem_append_left _ (List.mem_append_right _ (List.mem_map.mpr ⟨r, hr, rfl⟩))
  have hnote : ∀ x ∈ notes T, x ∈ vocabulary T args path := fun x hx => List.mem_append_left _ (List.mem_append_left _ hx)
  intro x hx
  unfold mainErr at hx
  cases ha : f.action with
  | init =>
    rw [ha] at hx
    dsimp only at hx
    rcases List.mem_append.mp hx with hx | hx
    · rw [initErr_mem T C J hx]
      simp [vocabulary]
    · split at hx
      · rename_i hi
        rw [List.mem_singleton.mp hx]
        exact hfail _ (initErr_error T C J hi)
      · simp at hx
  | doExport =>
    rw [ha] at hx
    dsimp only at hx
    rcases List.mem_append.mp hx with hx | hx
    · split at hx
      · rw [List.mem_singleton.mp hx, errorf_eq]; simp [vocabulary]
      · simp at hx
    · split at hx
      · simp at hx
      · rw [List.mem_singleton.mp hx]
        exact hfail _ (exportErr_mem T)
  | doImport =>
    rw [ha] at hx
    dsimp only at hx
    rcases List.mem_append.mp hx with hx | hx
    · split at hx
      · rw [List.mem_singleton.mp hx, errorf_eq]; simp [vocabulary]
      · simp at hx
    · split at hx
      · simp at hx
      · rw [List.mem_singleton.mp hx]
        exact hfail _ (importErr_mem T P)
  | cmd c =>
    rw [ha] at hx
    dsimp only at hx
    unfold runErr at hx
    split at hx
    · rename_i hlt
      dsimp only at hlt
      have hcases : args.length = 0 ∧ c.requiredArgc = 1 ∧ (Cmd.argNames c = ascii "label" ∨ Cmd.argNames c = ascii "other store") := by
        cases c <;> simp [Cmd.requiredArgc, Cmd.argNames] at hlt ⊢ <;> omega
      obtain ⟨h1, h2, h3⟩ := hcases
      simp only [List.mem_cons, List.not_mem_nil, or_false] at hx
      rcases hx with rfl | rfl
      · rw [h1, h2, errorf_eq]
        have : ascii "Not enough arguments: want " ++ decimal 1 ++ ascii ", have " ++ decimal 0 ++ ascii "." =
          ascii "Not enough arguments: want 1, have 0." := by decide
        rw [this]
        simp [vocabulary]
      · rw [errorf_eq]
        rcases h3 with h3 | h3 <;> rw [h3]
        · have : ascii "Want: " ++ ascii "label" = ascii "Want: label" := by decide
          rw [this]; simp [vocabulary]
        · have : ascii "Want: " ++ ascii "other store" = ascii "Want: other store" := by decide
          rw [this]; simp [vocabulary]
    · rcases List.mem_append.mp hx with hx | hx
      · rcases loadErr_mem T hx with rfl | rfl <;> simp [vocabulary]
      · split at hx
        · simp at hx
        · rw [List.mem_singleton.mp hx, errorf_eq]; simp [vocabulary]
        · rcases List.mem_append.mp hx with hx | hx
          · exact hnote _ (cmdErr_mem T hx).1
          · split at hx
            · rename_i hr
              rw [List.mem_singleton.mp hx]
              exact hfail _ (cmdErr_error T C J hr)
            · split at hx
              · dsimp only at hx
                rcases List.mem_append.mp hx with hx | hx
                · rw [writeErr_mem T C J hx]; simp [vocabulary]
                · split at hx
                  · rw [List.mem_singleton.mp hx, errorf_eq]; simp [vocabulary]
                  · simp at hx
              · simp at hx
            · simp at hx

/-- A file that does not exist is named. -/
example : mainErr T C J ord P fuel { list := true } [] [103] (exWorld [] [some [112, 119]]) =
    [report (ascii "could not find g"), report (ascii "Failed to open password store")] := by
  unfold mainErr runErr
  simp [Flags.action, Flags.mode, Cmd.requiredArgc, loadStore, loadErr, Term.read, exWorld, World.exist, Fs.set_other _ _ (show ([103] : Bytes) ≠ [102] by decide),
    show ([103] : Bytes) ≠ dash by decide]
  exact ⟨rfl, rfl⟩

end Verif.Props.SecretsErrors
