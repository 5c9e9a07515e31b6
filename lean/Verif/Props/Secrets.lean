import Verif.Proofs.Secrets
import Verif.Proofs.ToyJson
import Verif.Props.SecretStore
/-! Properties C68, C80 and C95-C99: the program secrets (cmd/secrets/secrets.go). -/

namespace Verif.Props.Secrets
open Verif Verif.Go Verif.Model.Util Verif.Model.SecretStore Verif.Model.Secrets
open Verif.Spec.SecretStore Verif.Spec.Secrets Verif.Proofs.SecretStore Verif.Proofs.Secrets
open Verif.Props.SecretStore

variable (C : Crypto) (J : Json) (P : Pem) (ord : Map (Option SecretRecord) → List Bytes) (fuel : Nat)

/-! ### Concrete worlds used as examples -/

/-- A world in which nothing goes wrong, whose only file is `b` at the path "f". -/
def exWorld (b : Bytes) (answers : List (Option Bytes)) : World :=
  { term := { answers := answers, clock := fun n => 1000 + BitVec.ofNat 64 n }, rng := List.replicate 200 7,
    fs := Fs.set (fun _ => none) [102] b, write := .done, stdin := [], stdout := [] }

/-- A file with one entry: label "a", secret [1, 2, 3], passphrase "pw". -/
theorem exFile (mode : Int) (hm : mode = 0 ∨ mode = 1) :
    ∃ b, unmarshalSecretStore C J b [112, 119] mode = .ok (some (exStore [1, 2, 3] 7)) :=
  file_exists C J hm (exStore_valid _ _) rfl (exStore_finite _ _) (exStore_clean _ _)

theorem exMap_other {k : Bytes} (h : k ≠ [97]) (x : Bytes) (t : BitVec 64) : (exStore x t).has k = false := by
  simp [SecretStore.has, exStore, Map.has, Map.set_other _ _ h, Map.empty]

/-! ### C68: existing entries -/

/-- Storing a secret without -w keeps every existing entry, if the label does not become the
label of that entry when its ill-formed bytes are replaced. -/
theorem C68_store_keeps_partial (f : Flags) (args : List Bytes) (path : Bytes) (w w' : World) (hd : path ≠ dash)
    (hf : f.action = .cmd .store) (hm : f.withMeta = false) (ho : f.overwrite = false)
    (h : main C J P ord fuel f args path w = some (.ok (0, w'))) :
    ∃ pass s s', w.term.answers.head? = some (some pass) ∧ Opens C J w.fs path pass f.mode s ∧
      Opens C J w'.fs path pass f.mode s' ∧
      ∀ k r, lookup s k = some r → NoAlias [args.headD []] k → lookup s' k = some r := by
  unfold main at h
  rw [hf] at h
  obtain ⟨-, pass, rest, s, ps, t, ha, hop, hrun, -, hwr⟩ := runCmd_zero C J hd h
  obtain ⟨p', out, hp', -, -, -, hfile, hfs⟩ := hwr rfl
  obtain ⟨b, hb, hu⟩ := hop
  obtain ⟨hfin, hutf, hpass⟩ := opens_fields C J hu
  simp only [Cmd.run, addSecret, hm, ho, Bool.false_eq_true, if_false, Option.some.injEq] at hrun
  obtain ⟨hF, -, hk⟩ := addPlain_frame hrun
  rw [hF.passphrase, hpass] at hp'
  cases hp'
  obtain ⟨s', h1, h2, h3⟩ := saved_opens C J (f := { ps.toFields with timestamp := t.clock 0 })
    (finite_time (hF.finite hfin) _) hfile
  refine ⟨pass, s, s', by rw [ha]; rfl, ⟨b, hb, hu⟩, ⟨out, by rw [hfs]; simp, h1⟩, ?_⟩
  intro k r hl hna
  exact keep_same hutf hF h2 hl (hk k r (Or.inr rfl) hl) hna

/-- Entering several secrets without -w keeps every existing entry, with the same proviso. -/
theorem C68_multi_keeps_partial (f : Flags) (args : List Bytes) (path : Bytes) (w w' : World) (hd : path ≠ dash)
    (hf : f.action = .cmd .multi) (ho : f.overwrite = false)
    (h : main C J P ord fuel f args path w = some (.ok (0, w'))) :
    ∃ pass s s', w.term.answers.head? = some (some pass) ∧ Opens C J w.fs path pass f.mode s ∧
      Opens C J w'.fs path pass f.mode s' ∧
      ∀ k r, lookup s k = some r → NoAlias (typed w) k → lookup s' k = some r := by
  unfold main at h
  rw [hf] at h
  obtain ⟨-, pass, rest, s, ps, t, ha, hop, hrun, -, hwr⟩ := runCmd_zero C J hd h
  obtain ⟨p', out, hp', -, -, -, hfile, hfs⟩ := hwr rfl
  obtain ⟨b, hb, hu⟩ := hop
  obtain ⟨hfin, hutf, hpass⟩ := opens_fields C J hu
  simp only [Cmd.run, multi, Option.some.injEq] at hrun
  obtain ⟨⟨ok, ps1, t1⟩, hl, hr⟩ := Res.bind_eq_ok.mp hrun
  simp only [Res.pure_eq, Res.ok.injEq, Prod.mk.injEq] at hr
  obtain ⟨-, rfl, -⟩ := hr
  obtain ⟨hF, hk⟩ := multiLoop_frame _ _ _ _ _ _ _ _ (Nat.le_refl _) hl
  rw [hF.passphrase, hpass] at hp'
  cases hp'
  obtain ⟨s', h1, h2, h3⟩ := saved_opens C J (f := { ps1.toFields with timestamp := t.clock 0 })
    (finite_time (hF.finite hfin) _) hfile
  refine ⟨pass, s, s', by rw [ha]; rfl, ⟨b, hb, hu⟩, ⟨out, by rw [hfs]; simp, h1⟩, ?_⟩
  intro k r hl hna
  refine keep_same hutf hF h2 hl (hk ho k r hl) ?_
  intro x hx
  refine hna x ?_
  unfold typed
  rw [ha]
  simp only [List.filterMap_cons, id]
  exact List.mem_cons_of_mem _ hx

/-- Editing metadata, with or without -w, keeps every existing secret, and every other entry, with
the same proviso. -/
theorem C68_meta_keeps_partial (f : Flags) (args : List Bytes) (path : Bytes) (w w' : World) (hd : path ≠ dash)
    (hf : f.action = .cmd .store ∨ f.action = .cmd .remove) (hm : f.withMeta = true)
    (h : main C J P ord fuel f args path w = some (.ok (0, w'))) :
    ∃ pass s s', w.term.answers.head? = some (some pass) ∧ Opens C J w.fs path pass f.mode s ∧
      Opens C J w'.fs path pass f.mode s' ∧
      ∀ k r, lookup s k = some r → NoAlias [args.headD []] k →
        secretOf s' k = some r.secret ∧ (k ≠ args.headD [] → lookup s' k = some r) := by
  have key : ∃ c, f.action = .cmd c ∧ c.shouldWrite = true ∧ ∀ w1 s b ps w2,
      Cmd.run C J ord fuel c w1 s { args := args, clip := f.clip, overwrite := f.overwrite, withMeta := f.withMeta } f.mode =
        some (.ok (b, ps, w2)) →
      Frame [args.headD []] s ps ∧ (∀ k r, k ≠ args.headD [] → lookup s k = some r → lookup ps k = some r) ∧
      ∀ r, lookup s (args.headD []) = some r → ∃ r', lookup ps (args.headD []) = some r' ∧ r'.secret = r.secret := by
    rcases hf with hf | hf
    · refine ⟨.store, hf, rfl, fun w1 s b ps w2 hr => ?_⟩
      simp only [Cmd.run, addSecret, hm, if_true, Option.some.injEq] at hr
      obtain ⟨h1, -, h2, h3⟩ := addMeta_frame hr
      exact ⟨h1, h2, fun r hr => let ⟨r', e1, e2, _⟩ := h3 r hr; ⟨r', e1, e2⟩⟩
    · refine ⟨.remove, hf, rfl, fun w1 s b ps w2 hr => ?_⟩
      simp only [Cmd.run, Model.Secrets.remove, hm, if_true] at hr
      obtain ⟨h1, -, h2, h3⟩ := removeMeta_frame hr
      exact ⟨h1, h2, fun r hr => let ⟨r', e1, e2, _⟩ := h3 r hr; ⟨r', e1, e2⟩⟩
  obtain ⟨c, hc, hsw, hk⟩ := key
  unfold main at h
  rw [hc] at h
  obtain ⟨-, pass, rest, s, ps, t, ha, hop, hrun, -, hwr⟩ := runCmd_zero C J hd h
  obtain ⟨p', out, hp', -, -, -, hfile, hfs⟩ := hwr hsw
  obtain ⟨b, hb, hu⟩ := hop
  obtain ⟨hfin, hutf, hpass⟩ := opens_fields C J hu
  obtain ⟨hF, k1, k2⟩ := hk _ _ _ _ _ hrun
  rw [hF.passphrase, hpass] at hp'
  cases hp'
  obtain ⟨s', h1, h2, h3⟩ := saved_opens C J (f := { ps.toFields with timestamp := t.clock 0 })
    (finite_time (hF.finite hfin) _) hfile
  refine ⟨pass, s, s', by rw [ha]; rfl, ⟨b, hb, hu⟩, ⟨out, by rw [hfs]; simp, h1⟩, ?_⟩
  intro k r hl hna
  by_cases hkl : k = args.headD []
  · rw [hkl] at hl hna ⊢
    obtain ⟨r1, e1, e2⟩ := k2 r hl
    obtain ⟨r', e3, e4⟩ := keep hutf hF h2 hl e1 hna
    refine ⟨?_, fun hne => absurd rfl hne⟩
    simp only [secretOf, e3, Option.map_some, e4.2.2.1, e2]
  · have := keep_same hutf hF h2 hl (k1 k r hkl hl) hna
    exact ⟨by simp [secretOf, this], fun _ => this⟩

/-- Showing and listing change no file, however they end. -/
theorem C68_read_only (f : Flags) (args : List Bytes) (path : Bytes) (w w' : World) (st : Nat)
    (hf : f.action = .cmd .show ∨ f.action = .cmd .list)
    (h : main C J P ord fuel f args path w = some (.ok (st, w'))) : w'.fs = w.fs ∧ w'.stdout = w.stdout := by
  have key : ∃ c, f.action = .cmd c ∧ c.shouldWrite = false := by
    rcases hf with hf | hf
    · exact ⟨_, hf, rfl⟩
    · exact ⟨_, hf, rfl⟩
  obtain ⟨c, hc, hsw⟩ := key
  unfold main runCmd at h
  rw [hc] at h
  simp only at h
  split at h
  · simp only [Option.some.injEq, Res.ok.injEq, Prod.mk.injEq] at h
    rw [← h.2]; exact ⟨rfl, rfl⟩
  · split at h
    · simp at h
    · rename_i w1 hl
      obtain ⟨t, rfl⟩ := loadStore_world C J hl
      simp only [Option.some.injEq, Res.ok.injEq, Prod.mk.injEq] at h
      rw [← h.2]; exact ⟨rfl, rfl⟩
    · rename_i s w1 hl
      obtain ⟨t, rfl⟩ := loadStore_world C J hl
      split at h
      · simp at h
      · simp at h
      · rename_i ps w2 hrun
        obtain ⟨t', rfl⟩ := run_world C J hrun
        simp only [Option.some.injEq, Res.ok.injEq, Prod.mk.injEq] at h
        rw [← h.2]; exact ⟨rfl, rfl⟩
      · rename_i ps w2 hrun
        obtain ⟨t', rfl⟩ := run_world C J hrun
        rw [hsw] at h
        simp only [Bool.false_eq_true, if_false, Option.some.injEq, Res.ok.injEq, Prod.mk.injEq] at h
        rw [← h.2]; exact ⟨rfl, rfl⟩

/-- Changing the password changes no entry, and the new password opens the file. -/
theorem C68_passwd (f : Flags) (args : List Bytes) (path : Bytes) (w w' : World) (hd : path ≠ dash)
    (hf : f.action = .cmd .passwd) (h : main C J P ord fuel f args path w = some (.ok (0, w'))) :
    ∃ old new rest s s', w.term.answers = some old :: some new :: rest ∧ new ≠ [] ∧ Opens C J w.fs path old f.mode s ∧
      Opens C J w'.fs path new f.mode s' ∧ ∀ k, lookup s' k = lookup s k := by
  unfold main at h
  rw [hf] at h
  obtain ⟨-, pass, rest, s, ps, t, ha, hop, hrun, -, hwr⟩ := runCmd_zero C J hd h
  obtain ⟨p', out, hp', -, -, -, hfile, hfs⟩ := hwr rfl
  obtain ⟨b, hb, hu⟩ := hop
  obtain ⟨hfin, hutf, hpass⟩ := opens_fields C J hu
  simp only [Cmd.run, Option.some.injEq, Res.ok.injEq] at hrun
  unfold chpass Term.read at hrun
  cases rest with
  | nil => simp at hrun
  | cons a rest =>
    cases a with
    | none => simp at hrun
    | some new =>
      simp only at hrun
      split at hrun
      · simp at hrun
      · rename_i hne
        simp only [Prod.mk.injEq, true_and] at hrun
        obtain ⟨rfl, -⟩ := hrun
        have hp2 : p' = new := by simpa [SecretStore.changePassword] using hp'.symm
        subst hp2
        have hc : Clean ({ s.toFields with timestamp := t.clock 0 } : Fields) := hutf
        obtain ⟨s', h1, h2, h3⟩ := saved_opens C J (f := { s.toFields with timestamp := t.clock 0 })
          (finite_time hfin _) hfile
        refine ⟨pass, p', rest, s, s', ha, by simpa using hne, ⟨b, hb, hu⟩, ⟨out, by rw [hfs]; simp, h1⟩, ?_⟩
        intro k
        have := fieldsSan_clean hc h2
        unfold lookup
        rw [this]

/-- Whatever the flags, a run that fails leaves every file as it was, unless it failed in the
middle of writing one (see C14). -/
theorem C68_failed_unchanged (f : Flags) (args : List Bytes) (path : Bytes) (w w' : World) (st : Nat)
    (hw : ∀ k, w.write ≠ .failsAfter k) (h : main C J P ord fuel f args path w = some (.ok (st, w'))) (hst : st ≠ 0) :
    w'.fs = w.fs := by
  unfold main at h
  split at h
  · simp only [Option.some.injEq] at h
    obtain ⟨⟨ok, w1⟩, h1, h2⟩ := Res.bind_eq_ok.mp h
    simp only [Res.pure_eq, Res.ok.injEq, Prod.mk.injEq] at h2
    obtain ⟨h2, rfl⟩ := h2
    cases ok with
    | true => exact absurd h2.symm (by simpa using hst)
    | false =>
      exact initStore_failed C J hw h1
  · simp only at h
    generalize hx : exportStore _ _ _ _ = x at h
    obtain ⟨ok, w1⟩ := x
    simp only [Option.some.injEq, Res.ok.injEq, Prod.mk.injEq] at h
    obtain ⟨h1, rfl⟩ := h
    cases ok with
    | true => exact absurd h1.symm (by simpa using hst)
    | false => exact exportStore_failed hw hx
  · simp only at h
    generalize hx : importStore _ _ _ _ = x at h
    obtain ⟨ok, w1⟩ := x
    simp only [Option.some.injEq, Res.ok.injEq, Prod.mk.injEq] at h
    obtain ⟨h1, rfl⟩ := h
    cases ok with
    | true => exact absurd h1.symm (by simpa using hst)
    | false => exact importStore_failed hw hx
  · rename_i c _
    unfold runCmd at h
    split at h
    · simp only [Option.some.injEq, Res.ok.injEq, Prod.mk.injEq] at h
      rw [← h.2]
    · split at h
      · simp at h
      · rename_i w1 hl
        obtain ⟨t, rfl⟩ := loadStore_world C J hl
        simp only [Option.some.injEq, Res.ok.injEq, Prod.mk.injEq] at h
        rw [← h.2]
      · rename_i s w1 hl
        obtain ⟨t, rfl⟩ := loadStore_world C J hl
        split at h
        · simp at h
        · simp at h
        · rename_i ps w2 hrun
          obtain ⟨t', rfl⟩ := run_world C J hrun
          simp only [Option.some.injEq, Res.ok.injEq, Prod.mk.injEq] at h
          rw [← h.2]
        · rename_i ps w2 hrun
          obtain ⟨t', rfl⟩ := run_world C J hrun
          split at h
          · simp only [Option.some.injEq, Term.now] at h
            obtain ⟨⟨w3, ok⟩, h1, h2⟩ := Res.bind_eq_ok.mp h
            simp only [Res.pure_eq, Res.ok.injEq, Prod.mk.injEq] at h2
            obtain ⟨h2, rfl⟩ := h2
            cases ok with
            | true => exact absurd h2.symm (by simpa using hst)
            | false =>
              have := writeStore_failed C J h1 hw
              exact this
          · simp only [Option.some.injEq, Res.ok.injEq, Prod.mk.injEq] at h
            exact absurd h.1.symm hst

/-- Runs of the example world in which a command succeeds and saves. -/
theorem exRun {c : Cmd} {f : Flags} {args : List Bytes} {rest : List (Option Bytes)} {b : Bytes} {ps : SecretStore} {t : Term}
    {s : SecretStore} {m : Map (Option SecretRecord)} {p' : Bytes}
    (hc : f.action = .cmd c) (ho : unmarshalSecretStore C J b [112, 119] f.mode = .ok (some s))
    (hsw : c.shouldWrite = true) (hargs : c.requiredArgc ≤ args.length)
    (hrun : Cmd.run C J ord fuel c (exWorld b rest) s
      { args := args, clip := f.clip, overwrite := f.overwrite, withMeta := f.withMeta } f.mode =
        some (.ok (true, ps, { exWorld b rest with term := t })))
    (h1 : ps.version = 1) (h2 : t.clock 0 ≠ 0) (h3 : ps.store = some m) (h4 : ps.passphrase = some p') :
    ∃ w' out, main C J P ord fuel f args [102] (exWorld b (some [112, 119] :: rest)) = some (.ok (0, w')) ∧
      w'.fs [102] = some out ∧ IsFile C out p' f.mode (J.enc { ps.toFields with timestamp := t.clock 0 }) := by
  obtain ⟨w', out, e1, e2, e3⟩ := runCmd_ok C J (ord := ord) (fuel := fuel) (c := c) (w := exWorld b (some [112, 119] :: rest))
    (cfg := { args := args, clip := f.clip, overwrite := f.overwrite, withMeta := f.withMeta }) (mode := f.mode) (path := [102])
    (pass := [112, 119]) (rest := rest) (by decide) (fmode f) hargs rfl ⟨b, by simp [exWorld], ho⟩ hrun rfl (by show 56 ≤ (List.replicate 200 _).length; rw [List.length_replicate]; decide) hsw h1 h2 h3 h4
  refine ⟨w', out, ?_, by rw [e2]; simp, e3⟩
  unfold main
  rw [hc]
  exact e1

theorem exClock (n : Nat) (h : n < 1000) : (1000 + BitVec.ofNat 64 n : BitVec 64) ≠ 0 := by
  intro h2
  have := congrArg BitVec.toNat h2
  simp at this
  omega

/-- A run of `secrets -s b` to which the theorem applies: it stores a second entry. -/
example : ∃ b w', main C J P ord fuel { store := true } [[98]] [102] (exWorld b [some [112, 119], some [9]]) = some (.ok (0, w')) := by
  obtain ⟨b, hb⟩ := exFile C J 0 (Or.inl rfl)
  have hh : (exStore [1, 2, 3] 7).has [98] = false := exMap_other (by decide) _ _
  obtain ⟨w', out, h, -⟩ := exRun C J P ord fuel (f := { store := true }) (c := .store) (args := [[98]]) (rest := [some [9]])
    (b := b) (t := ⟨[], fun n => 1000 + BitVec.ofNat 64 (n + 1)⟩) rfl hb rfl (by decide)
    (by simp [Cmd.run, addSecret, addPlain, hh, Term.read, Term.now, exWorld, assign, exStore]; rfl) rfl (exClock 1 (by decide)) rfl rfl
  exact ⟨b, w', h⟩

/-- A run of `secrets -multi` entering one secret and stopping. -/
example : ∃ b w', main C J P ord fuel { multi := true } [] [102]
    (exWorld b [some [112, 119], some [98], some [9], some []]) = some (.ok (0, w')) := by
  obtain ⟨b, hb⟩ := exFile C J 0 (Or.inl rfl)
  have hh : (exStore [1, 2, 3] 7).has [98] = false := exMap_other (by decide) _ _
  obtain ⟨w', out, h, -⟩ := exRun C J P ord fuel (f := { multi := true }) (c := .multi) (args := []) (rest := [some [98], some [9], some []])
    (b := b) (t := ⟨[], fun n => 1000 + BitVec.ofNat 64 (n + 1)⟩) rfl hb rfl (by decide)
    (by simp [Cmd.run, multi, multiLoop, hh, exWorld, assign, exStore]; rfl) rfl (exClock 1 (by decide)) rfl rfl
  exact ⟨b, w', h⟩

/-- A run of `secrets -s -m a` adding one item. -/
example : ∃ b w', main C J P ord fuel { store := true, withMeta := true } [[97]] [102]
    (exWorld b [some [112, 119], some [120, 61, 121], some []]) = some (.ok (0, w')) := by
  obtain ⟨b, hb⟩ := exFile C J 0 (Or.inl rfl)
  have hh : (exStore [1, 2, 3] 7).has [97] = true := rfl
  obtain ⟨w', out, h, -⟩ := exRun C J P ord fuel (f := { store := true, withMeta := true }) (c := .store) (args := [[97]])
    (rest := [some [120, 61, 121], some []])
    (b := b) (t := ⟨[], fun n => 1000 + BitVec.ofNat 64 (n + 1)⟩) rfl hb rfl (by decide)
    (by simp [Cmd.run, addSecret, addMeta, hh, editMeta, fetch, exStore, exWorld, metaLoop, splitEq, assign, Term.now]; rfl)
    rfl (exClock 1 (by decide)) rfl rfl
  exact ⟨b, w', h⟩

/-- A run of `secrets -c`. -/
example : ∃ b w', main C J P ord fuel { passwd := true } [] [102]
    (exWorld b [some [112, 119], some [1]]) = some (.ok (0, w')) := by
  obtain ⟨b, hb⟩ := exFile C J 0 (Or.inl rfl)
  obtain ⟨w', out, h, -⟩ := exRun C J P ord fuel (f := { passwd := true }) (c := .passwd) (args := []) (rest := [some [1]])
    (b := b) (t := ⟨[], fun n => 1000 + BitVec.ofNat 64 n⟩) rfl hb rfl (by decide) rfl rfl (exClock 0 (by decide)) rfl rfl
  exact ⟨b, w', h⟩

/-- A run that fails: the label is taken. -/
example : ∃ b w', main C J P ord fuel { store := true } [[97]] [102]
    (exWorld b [some [112, 119], some [1]]) = some (.ok (1, w')) := by
  obtain ⟨b, hb⟩ := exFile C J 0 (Or.inl rfl)
  have hh : (exStore [1, 2, 3] 7).has [97] = true := rfl
  exact ⟨b, _, by
    unfold main runCmd
    simp [Flags.action, Flags.mode, Cmd.requiredArgc, loadStore, Term.read, exWorld, World.exist, World.readFile, hb, Cmd.run,
      addSecret, addPlain, hh]
    rfl⟩

/-- The replacement character. -/
abbrev repl : Bytes := [0xEF, 0xBF, 0xBD]

/-- A store with an entry under the label U+FFFD. -/
def replStore : SecretStore :=
  { version := 1, timestamp := 5, store := some (Map.empty.set repl (some ⟨repl, 7, [1, 2, 3], none⟩)), passphrase := some [112, 119] }

theorem replStore_finite : replStore.toFields.Finite := by
  intro m hm
  cases hm
  refine ⟨Map.finite_empty.set _ _, ?_⟩
  intro k r md hk hmd
  obtain ⟨-, h⟩ := exMap_get hk
  cases h
  cases hmd

/-- Without -w, `secrets -s` with the label "\xff" replaces the secret stored under U+FFFD: the
label is new, but in the file it is the same label, and the last one wins. -/
theorem C68_alias_violated : ∃ (w w' : World) (s s' : SecretStore),
    main C J P ord fuel { store := true } [[0xFF]] [102] w = some (.ok (0, w')) ∧
    Opens C J w.fs [102] [112, 119] 0 s ∧ Opens C J w'.fs [102] [112, 119] 0 s' ∧
    secretOf s repl = some [1, 2, 3] ∧ secretOf s' repl = some [9] := by
  have hfin := replStore_finite
  have hutf : replStore.toFields.Utf8 := by
    intro m hm k v hk
    cases hm
    obtain ⟨rfl, rfl⟩ := exMap_get hk
    refine ⟨by decide, fun r hr => ?_⟩
    cases hr
    exact ⟨show ValidUtf8 repl by decide, fun md j x hmd => by cases hmd⟩
  obtain ⟨b, hb⟩ := file_exists C J (s := replStore) (p := [112, 119]) (mode := 0) (Or.inl rfl)
    ((valid_iff _).mpr ⟨rfl, by simp [replStore], ⟨_, rfl⟩, _, rfl⟩) rfl hfin hutf
  have hh : replStore.has [0xFF] = false := by
    simp [SecretStore.has, replStore, Map.has, Map.set, Map.empty]
  have hrun : Cmd.run C J ord fuel .store (exWorld b [some [9]]) replStore
      { args := [[0xFF]], clip := false, overwrite := false, withMeta := false } 0 =
      some (.ok (true, { replStore with store := some ((Map.empty.set repl (some ⟨repl, 7, [1, 2, 3], none⟩)).set [0xFF]
        (some ⟨[0xFF], 1000 + BitVec.ofNat 64 0, [9], none⟩)) },
        { exWorld b [some [9]] with term := ⟨[], fun n => 1000 + BitVec.ofNat 64 (n + 1)⟩ })) := by
    simp [Cmd.run, addSecret, addPlain, hh, Term.read, Term.now, exWorld]
    rfl
  obtain ⟨w', out, h, hfs, hfile⟩ := exRun C J P ord fuel (f := { store := true }) (c := .store) (args := [[0xFF]]) (rest := [some [9]])
    (b := b) (s := replStore) rfl hb rfl (by decide) hrun rfl (exClock 1 (by decide)) rfl rfl
  have hF : ∀ t, ({ replStore.toFields with store := some ((Map.empty.set repl (some ⟨repl, 7, [1, 2, 3], none⟩)).set [0xFF]
        (some ⟨[0xFF], 1000 + BitVec.ofNat 64 0, [9], none⟩)), timestamp := t } : Fields).Finite :=
    fun t => finite_set hfin rfl [0xFF] _ (by intro md hmd; cases hmd) t
  obtain ⟨s', h1, h2, -⟩ := saved_opens C J (hF _) hfile
  refine ⟨_, w', replStore, s', h, ⟨b, by simp [exWorld], hb⟩, ⟨out, hfs, h1⟩, rfl, ?_⟩
  obtain ⟨-, -, h3⟩ := h2
  simp only at h3
  cases hm' : s'.store with
  | none => rw [hm'] at h3; simp [OptRel] at h3
  | some m' =>
    rw [hm'] at h3
    simp only [OptRel] at h3
    obtain ⟨v', e1, e2⟩ := h3.1 [0xFF] _ (Map.set_same _ _ _) (by
      intro k2 hk2 _
      by_cases q1 : k2 = [0xFF]
      · subst q1; exact List.lt_irrefl _
      · by_cases q2 : k2 = repl
        · subst q2; decide
        · rw [Map.set_other _ _ q1, Map.set_other _ _ q2] at hk2
          exact absurd rfl hk2)
    have hs : sanitise [0xFF] = repl := by decide
    rw [hs] at e1
    cases v' with
    | none => simp [OptRel] at e2
    | some r' =>
      simp only [OptRel] at e2
      simp [secretOf, lookup_eq hm', e1, e2.2.2.1]

/-! ### C96: -init -/

/-- `secrets -init` on the path of an existing store replaces it by an empty one, without being
asked to. -/
theorem C96_init_violated : ∃ (w w' : World) (s s' : SecretStore),
    main C J P ord fuel { init := true } [] [102] w = some (.ok (0, w')) ∧
    Opens C J w.fs [102] [112, 119] 0 s ∧ secretOf s [97] = some [1, 2, 3] ∧
    Opens C J w'.fs [102] [1] 0 s' ∧ ∀ k, lookup s' k = none := by
  obtain ⟨b, hb⟩ := exFile C J 0 (Or.inl rfl)
  have hv : (newSecretStore [1] (1000 + BitVec.ofNat 64 0)).valid = true :=
    (valid_iff _).mpr ⟨rfl, exClock 0 (by decide), ⟨_, rfl⟩, _, rfl⟩
  obtain ⟨out, hout⟩ := marshal_ok C J hv (Or.inl rfl) (rng := List.replicate 200 7) (by rw [List.length_replicate]; decide)
  obtain ⟨-, -, q, hq, hfile⟩ := marshal_some C J hout
  cases hq
  have hu := saved_exact C J (new_finite _ _) (new_utf8 _ _) hfile
  refine ⟨exWorld b [some [1]], { exWorld b [] with
      term := ⟨[], fun n => 1000 + BitVec.ofNat 64 (n + 1)⟩, rng := (List.replicate 200 7).drop 56,
      fs := (exWorld b []).fs.set [102] out }, exStore [1, 2, 3] 7, newSecretStore [1] (1000 + BitVec.ofNat 64 0), ?_,
    ⟨b, by simp [exWorld], hb⟩, rfl, ⟨out, by simp, hu⟩, fun k => rfl⟩
  unfold main
  simp only [Flags.action, Flags.mode, if_true]
  unfold initStore
  simp only [exWorld, Term.read, Term.now, List.length_singleton, Bool.false_eq_true, if_false]
  simp only [hout, Res.ok_bind, World.writeFile, Go.writeFile, hu, Res.pure_eq]
  simp

/-- `secrets -init` creates an empty store that opens with the passphrase given, and touches no
other file. Missing from the property: what happens to an existing store. -/
theorem C96_init_partial (f : Flags) (args : List Bytes) (path : Bytes) (w w' : World) (hd : path ≠ dash)
    (hf : f.init = true) (h : main C J P ord fuel f args path w = some (.ok (0, w'))) :
    ∃ pass s', w.term.answers.head? = some (some pass) ∧ pass ≠ [] ∧ Opens C J w'.fs path pass f.mode s' ∧
      (∀ k, lookup s' k = none) ∧ ∀ q, q ≠ path → w'.fs q = w.fs q := by
  unfold main at h
  simp only [Flags.action, hf, if_true, Option.some.injEq] at h
  obtain ⟨⟨ok, w1⟩, h1, h2⟩ := Res.bind_eq_ok.mp h
  simp only [Res.pure_eq, Res.ok.injEq, Prod.mk.injEq] at h2
  obtain ⟨h2, rfl⟩ := h2
  cases ok with
  | false => simp at h2
  | true =>
    unfold initStore Term.read Term.now at h1
    cases ha : w.term.answers with
    | nil => simp [ha] at h1
    | cons a rest =>
      cases a with
      | none => simp [ha] at h1
      | some pass =>
        simp only [ha] at h1
        split at h1
        · simp at h1
        · rename_i hne
          obtain ⟨⟨out, s2, rng⟩, h3, h4⟩ := Res.bind_eq_ok.mp h1
          cases out with
          | none => simp at h4
          | some out =>
            simp only [World.writeFile, hd, if_false] at h4
            unfold Go.writeFile at h4
            cases hwr : w.write with
            | openFails => simp [hwr] at h4
            | failsAfter k => simp [hwr] at h4
            | done =>
              simp only [hwr, Bool.not_true, Bool.false_eq_true, if_false] at h4
              obtain ⟨o, h5, h6⟩ := Res.bind_eq_ok.mp h4
              simp only [Res.pure_eq, Res.ok.injEq, Prod.mk.injEq] at h6
              obtain ⟨-, -, q, hq, hfile⟩ := marshal_some C J h3
              have hq : pass = q := by simpa [newSecretStore] using hq
              subst hq
              have hu := saved_exact C J (new_finite _ _) (new_utf8 _ _) hfile
              refine ⟨pass, _, rfl, by simpa using hne, ⟨out, by rw [← h6.2]; simp, hu⟩, fun k => rfl, ?_⟩
              intro q hq
              rw [← h6.2]
              exact Fs.set_other _ _ hq

/-- A run to which the theorem applies is the one of `C96_init_violated`; here is one where there
was no file. -/
example : ∃ w', main C J P ord fuel { init := true } [] [103] (exWorld [] [some [1]]) = some (.ok (0, w')) ∧
    (exWorld [] [some [1]]).fs [103] = none := by
  have hv : (newSecretStore [1] (1000 + BitVec.ofNat 64 0)).valid = true :=
    (valid_iff _).mpr ⟨rfl, exClock 0 (by decide), ⟨_, rfl⟩, _, rfl⟩
  obtain ⟨out, hout⟩ := marshal_ok C J hv (Or.inl rfl) (rng := List.replicate 200 7) (by rw [List.length_replicate]; decide)
  obtain ⟨-, -, q, hq, hfile⟩ := marshal_some C J hout
  cases hq
  have hu := saved_exact C J (new_finite _ _) (new_utf8 _ _) hfile
  refine ⟨{ exWorld [] [] with
      term := ⟨[], fun n => 1000 + BitVec.ofNat 64 (n + 1)⟩, rng := (List.replicate 200 7).drop 56,
      fs := (exWorld [] []).fs.set [103] out }, ?_, rfl⟩
  unfold main
  simp only [Flags.action, Flags.mode, if_true]
  unfold initStore
  simp only [exWorld, Term.read, Term.now, List.length_singleton, Bool.false_eq_true, if_false]
  simp only [hout, Res.ok_bind, World.writeFile, Go.writeFile, hu, Res.pure_eq]
  simp

/-! ### C95: the file holds what was asked for -/

/-- After `secrets -s label`, the file holds the password typed under the label, stamped with the
time, and every other entry as before. With -w on an existing entry the metadata stay. -/
theorem C95_store (f : Flags) (args : List Bytes) (path : Bytes) (w w' : World) (hd : path ≠ dash)
    (hf : f.action = .cmd .store) (hm : f.withMeta = false) (hl : ValidUtf8 (args.headD []))
    (h : main C J P ord fuel f args path w = some (.ok (0, w'))) :
    ∃ pass pw rest s s' r', w.term.answers = some pass :: some pw :: rest ∧ pw ≠ [] ∧
      Opens C J w.fs path pass f.mode s ∧ Opens C J w'.fs path pass f.mode s' ∧
      (s.has (args.headD []) = true → f.overwrite = true) ∧
      (∀ k, k ≠ args.headD [] → lookup s' k = lookup s k) ∧
      lookup s' (args.headD []) = some r' ∧ r'.secret = pw ∧ r'.timestamp = w.term.clock 0 ∧
      r'.metadata = (lookup s (args.headD [])).bind (·.metadata) ∧
      (s.has (args.headD []) = false → r'.label = args.headD []) := by
  unfold main at h
  rw [hf] at h
  obtain ⟨-, pass, rest, s, ps, t, ha, hop, hrun, -, hwr⟩ := runCmd_zero C J hd h
  obtain ⟨p', out, hp', -, -, -, hfile, hfs⟩ := hwr rfl
  obtain ⟨b, hb, hu⟩ := hop
  obtain ⟨hfin, hutf, hpass⟩ := opens_fields C J hu
  simp only [Cmd.run, addSecret, hm, Bool.false_eq_true, if_false, Option.some.injEq] at hrun
  obtain ⟨hF, -, -⟩ := addPlain_frame hrun
  obtain ⟨pw, rest2, m, r0, hans, hne, hst, c1, c2, hps, -⟩ := addPlain_ok hrun
  rw [hF.passphrase, hpass] at hp'
  cases hp'
  have hu2 : ({ ps.toFields with timestamp := t.clock 0 } : Fields).Utf8 := by
    rw [hps]
    refine utf8_set hutf hst hl ?_ ?_ _
    · cases hh : s.has (args.headD []) with
      | true => exact (record_utf8 hutf (c1 hh).2).2.1
      | false => rw [c2 hh]; exact hl
    · cases hh : s.has (args.headD []) with
      | true => exact (record_utf8 hutf (c1 hh).2).2.2
      | false => rw [c2 hh]; intro md j x hmd; simp at hmd
  have h1 := saved_exact C J (finite_time (hF.finite hfin) _) hu2 hfile
  have hlk : ∀ k, lookup { toFields := { ps.toFields with timestamp := t.clock 0 }, passphrase := some pass } k = lookup ps k := fun k => rfl
  refine ⟨pass, pw, rest2, s, _, { r0 with secret := pw, timestamp := w.term.clock 0 }, ?_, hne, ⟨b, hb, hu⟩, ⟨out, by rw [hfs]; simp, h1⟩,
    fun hh => (c1 hh).1, ?_, ?_, rfl, rfl, ?_, ?_⟩
  · rw [ha]; simp only at hans; rw [hans]
  · intro k hk
    rw [hlk, hps, lookup_set hst, if_neg hk]
  · rw [hlk, hps, lookup_set hst, if_pos rfl]
  · cases hh : s.has (args.headD []) with
    | true => rw [(c1 hh).2]; rfl
    | false =>
      rw [c2 hh]
      cases hlo : lookup s (args.headD []) with
      | none => rfl
      | some r =>
        obtain ⟨m', hm', hk'⟩ := lookup_get hlo
        have := (has_get hm').mpr (show m' (args.headD []) ≠ none by rw [hk']; simp)
        rw [hh] at this
        simp at this
  · intro hh
    rw [c2 hh]

/-- After `secrets -r label` the label is gone and everything else is as before. -/
theorem C95_remove (f : Flags) (args : List Bytes) (path : Bytes) (w w' : World) (hd : path ≠ dash)
    (hf : f.action = .cmd .remove) (hm : f.withMeta = false)
    (h : main C J P ord fuel f args path w = some (.ok (0, w'))) :
    ∃ pass s s', w.term.answers.head? = some (some pass) ∧ Opens C J w.fs path pass f.mode s ∧
      Opens C J w'.fs path pass f.mode s' ∧ s.has (args.headD []) = true ∧ s'.has (args.headD []) = false ∧
      ∀ k, k ≠ args.headD [] → lookup s' k = lookup s k := by
  unfold main at h
  rw [hf] at h
  obtain ⟨-, pass, rest, s, ps, t, ha, hop, hrun, -, hwr⟩ := runCmd_zero C J hd h
  obtain ⟨p', out, hp', -, -, -, hfile, hfs⟩ := hwr rfl
  obtain ⟨b, hb, hu⟩ := hop
  obtain ⟨hfin, hutf, hpass⟩ := opens_fields C J hu
  simp only [Cmd.run, Model.Secrets.remove, hm, Bool.false_eq_true, if_false] at hrun
  split at hrun
  · simp at hrun
  · rename_i hh
    simp only [Option.some.injEq, Res.ok.injEq, Prod.mk.injEq, true_and] at hrun
    obtain ⟨hps, -⟩ := hrun
    have hF := delete_frame s (args.headD [])
    rw [← hps, hF.passphrase, hpass] at hp'
    cases hp'
    have hu2 : ({ (s.delete (args.headD [])).toFields with timestamp := t.clock 0 } : Fields).Utf8 := by
      intro m' hm' k v hk
      unfold SecretStore.delete at hm'
      cases hs : s.store with
      | none => simp [hs] at hm'
      | some m =>
        simp only [hs, Option.map_some, Option.some.injEq] at hm'
        subst hm'
        by_cases hkl : k = args.headD []
        · rw [hkl] at hk; simp at hk
        · rw [Map.erase_other _ hkl] at hk
          exact hutf m hs k v hk
    rw [← hps] at hfile
    have h1 := saved_exact C J (finite_time (hF.finite hfin) _) hu2 hfile
    refine ⟨pass, s, _, by rw [ha]; rfl, ⟨b, hb, hu⟩, ⟨out, by rw [hfs]; simp, h1⟩, by simpa using hh, ?_, ?_⟩
    · cases hx : (s.delete (args.headD [])).has (args.headD []) with
      | false => exact hx
      | true => exact absurd rfl (has_delete s _ _ hx).2
    · intro k hk
      have := lookup_delete s (args.headD []) k
      rw [if_neg hk] at this
      exact this

/-- After `secrets -merge other` every label holds the newer of the two entries, the old one on
ties, and the other file is untouched; there are no null records if there were none. -/
theorem C95_merge (f : Flags) (args : List Bytes) (path : Bytes) (w w' : World) (hd : path ≠ dash)
    (hf : f.action = .cmd .merge) (hd2 : args.headD [] ≠ dash) (hord : ∀ m : Map (Option SecretRecord), m.Finite → m.Enumerates (ord m))
    (h : main C J P ord fuel f args path w = some (.ok (0, w'))) :
    ∃ pass pass2 rest s o s', w.term.answers = some pass :: some pass2 :: rest ∧ Opens C J w.fs path pass f.mode s ∧
      Opens C J w.fs (args.headD []) pass2 f.mode o ∧ Opens C J w'.fs path pass f.mode s' ∧
      (NoNil s → NoNil o → NoNil s' ∧ ∀ k, lookup s' k = newest (lookup s k) (lookup o k)) ∧
      ∀ q, q ≠ path → w'.fs q = w.fs q := by
  unfold main at h
  rw [hf] at h
  obtain ⟨-, pass, rest, s, ps, t, ha, hop, hrun, -, hwr⟩ := runCmd_zero C J hd h
  obtain ⟨p', out, hp', -, -, -, hfile, hfs⟩ := hwr rfl
  obtain ⟨b, hb, hu⟩ := hop
  obtain ⟨hfin, hutf, hpass⟩ := opens_fields C J hu
  simp only [Cmd.run, Option.some.injEq] at hrun
  unfold Model.Secrets.merge Term.read Term.now at hrun
  cases rest with
  | nil => simp at hrun
  | cons a rest =>
    cases a with
    | none => simp at hrun
    | some pass2 =>
      simp only [World.readFile, hd2, if_false] at hrun
      cases hb2 : w.fs (args.headD []) with
      | none => simp only [hb2] at hrun; simp at hrun
      | some b2 =>
        simp only [hb2] at hrun
        cases hu2 : unmarshalSecretStore C J b2 pass2 f.mode with
        | panic => simp [hu2] at hrun
        | ok x =>
          cases x with
          | none => simp [hu2] at hrun
          | some o =>
            simp only [hu2, Res.ok_bind] at hrun
            obtain ⟨hfin2, hutf2, -⟩ := opens_fields C J hu2
            obtain ⟨⟨ps1, list⟩, hmg, hr⟩ := Res.bind_eq_ok.mp hrun
            simp only [Res.pure_eq, Res.ok.injEq, Prod.mk.injEq, true_and] at hr
            obtain ⟨rfl, -⟩ := hr
            -- the merged store is finite and UTF-8, record by record
            obtain ⟨hpp, hfin3, hutf3⟩ := merge_fields hmg hfin hfin2 hutf hutf2
            rw [hpp, hpass] at hp'
            cases hp'
            have h1 := saved_exact C J (finite_time hfin3 (t.clock 0)) (utf8_time hutf3 (t.clock 0)) hfile
            refine ⟨pass, pass2, rest, s, o, _, ha, ⟨b, hb, hu⟩, ⟨b2, hb2, hu2⟩, ⟨out, by rw [hfs]; simp, h1⟩, ?_, ?_⟩
            · intro hn hn2
              show NoNil { ps1 with timestamp := t.clock 0, passphrase := some pass } ∧ ∀ k, lookup ps1 k = _
              cases hos : o.store with
              | none =>
                have : ord (o.store.getD Map.empty) = [] := by
                  rw [hos]
                  have := (hord Map.empty Map.finite_empty).2
                  cases ho : ord (Map.empty : Map (Option SecretRecord)) with
                  | nil => exact ho
                  | cons x l =>
                    have := (this x).mp (by rw [ho]; simp)
                    exact absurd rfl this
                unfold SecretStore.merge at hmg
                rw [this] at hmg
                simp only [mergeLoop, Res.ok_bind, Res.pure_eq, Res.ok.injEq, Prod.mk.injEq] at hmg
                rw [← hmg.1]
                refine ⟨hn, fun k => ?_⟩
                have e : lookup o k = none := by simp [lookup, hos]
                rw [e, newest_none_right]
                rfl
              | some mo =>
                cases hss : s.store with
                | none =>
                  -- assigning to a nil map panics, so there was nothing to merge
                  unfold SecretStore.merge at hmg
                  rw [hss, hos] at hmg
                  have hen := hord mo (hfin2 mo hos).1
                  cases ho : ord mo with
                  | nil =>
                    rw [Option.getD_some, ho] at hmg
                    simp only [mergeLoop, Res.ok_bind, Res.pure_eq, Res.ok.injEq, Prod.mk.injEq] at hmg
                    rw [← hmg.1]
                    refine ⟨fun m k hm => by simp at hm, fun k => ?_⟩
                    have e : lookup o k = none := by
                      rw [lookup_eq hos]
                      cases hk : mo k with
                      | none => rfl
                      | some v =>
                        have := (hen.2 k).mpr (by simp [hk])
                        rw [ho] at this
                        simp at this
                    have e2 : lookup s k = none := by simp [lookup, hss]
                    rw [e, e2]
                    rfl
                  | cons q l =>
                    exfalso
                    rw [Option.getD_some, ho] at hmg
                    have hq := (hen.2 q).mp (by rw [ho]; simp)
                    cases hv : mo q with
                    | none => exact hq hv
                    | some v => simp [mergeLoop, mergeStep, hv] at hmg
                | some ms =>
                  rw [hos, Option.getD_some, merge_spec hss hos hn hn2 (hord mo (hfin2 mo hos).1)] at hmg
                  simp only [Res.ok.injEq, Prod.mk.injEq] at hmg
                  rw [← hmg.1]
                  refine ⟨fun m k hm => ?_, fun k => ?_⟩
                  · simp only [Option.some.injEq] at hm
                    subst hm
                    cases newest (lookup s k) (lookup o k) <;> simp
                  · rw [lookup_eq (m := fun k => (newest (lookup s k) (lookup o k)).map some) rfl]
                    cases newest (lookup s k) (lookup o k) <;> rfl
            · intro q hq
              rw [hfs]
              exact Fs.set_other _ _ hq

/-- A run of `secrets -r a`. -/
example : ∃ b w', main C J P ord fuel { remove := true } [[97]] [102] (exWorld b [some [112, 119]]) = some (.ok (0, w')) := by
  obtain ⟨b, hb⟩ := exFile C J 0 (Or.inl rfl)
  obtain ⟨w', out, h, -⟩ := exRun C J P ord fuel (f := { remove := true }) (c := .remove) (args := [[97]]) (rest := [])
    (b := b) (t := ⟨[], fun n => 1000 + BitVec.ofNat 64 n⟩) rfl hb rfl (by decide) rfl rfl (exClock 0 (by decide)) rfl rfl
  exact ⟨b, w', h⟩

/-- A run of `secrets -merge f`, merging the store with itself. -/
example (hord : ∀ m : Map (Option SecretRecord), m.Finite → m.Enumerates (ord m)) :
    ∃ b w', main C J P ord fuel { merge := true } [[102]] [102] (exWorld b [some [112, 119], some [112, 119]]) = some (.ok (0, w')) := by
  obtain ⟨b, hb⟩ := exFile C J 0 (Or.inl rfl)
  have hm := merge_spec (s := exStore [1, 2, 3] 7) (o := exStore [1, 2, 3] 7) rfl rfl (exStore_noNil _ _) (exStore_noNil _ _)
    (hord _ (exStore_finite [1, 2, 3] 7 _ rfl).1) (1000 + BitVec.ofNat 64 0)
  obtain ⟨w', out, h, -⟩ := exRun C J P ord fuel (f := { merge := true }) (c := .merge) (args := [[102]]) (rest := [some [112, 119]])
    (b := b) (t := ⟨[], fun n => 1000 + BitVec.ofNat 64 (n + 1)⟩) rfl hb rfl (by decide)
    (by
      simp only [Cmd.run, Model.Secrets.merge, Term.read, Term.now, exWorld, World.readFile, List.headD_cons]
      simp only [show ([102] : Bytes) ≠ dash by decide, if_false, Fs.set_same]
      simp only [Flags.mode] at hb ⊢
      simp only [Bool.false_eq_true, if_false] at hb ⊢
      rw [hb]
      simp only [Res.ok_bind]
      rw [show (exStore [1, 2, 3] 7).store.getD Map.empty = (Map.empty.set [97] (some (exRecord [97] [1, 2, 3] 7))) from rfl, hm]
      rfl) rfl (exClock 1 (by decide)) rfl rfl
  exact ⟨b, w', h⟩

/-! ### C98: entering several secrets -/

/-- Names and passwords entered one after the other and ended with an empty line are all saved,
and everything else is as before. Missing from the property: input that ends in another way. -/
theorem C98_multi_saved_partial (f : Flags) (args : List Bytes) (path pass : Bytes) (w : World) (s : SecretStore)
    (es : List (Bytes × Bytes)) (rest : List (Option Bytes)) (hd : path ≠ dash)
    (hf : f.action = .cmd .multi) (ho : Opens C J w.fs path pass f.mode s) (hs : s.store ≠ none) (hv : s.version = 1)
    (hes : ∀ e ∈ es, e.1 ≠ [] ∧ e.2 ≠ [] ∧ s.has e.1 = false ∧ ValidUtf8 e.1) (hnd : (es.map Prod.fst).Nodup)
    (ha : w.term.answers = some pass :: (es.flatMap (fun e => [some e.1, some e.2]) ++ some [] :: rest))
    (hw : w.write = .done) (hr : 56 ≤ w.rng.length) (hck : w.term.clock es.length ≠ 0) :
    ∃ w' s', main C J P ord fuel f args path w = some (.ok (0, w')) ∧ Opens C J w'.fs path pass f.mode s' ∧
      (∀ e ∈ es, ∃ r, lookup s' e.1 = some r ∧ r.secret = e.2 ∧ r.label = e.1) ∧
      (∀ k, k ∉ es.map Prod.fst → lookup s' k = lookup s k) ∧ ∀ q, q ≠ path → w'.fs q = w.fs q := by
  obtain ⟨b, hb, hu⟩ := ho
  obtain ⟨hfin, hutf, hpass⟩ := opens_fields C J hu
  obtain ⟨ps, h1, ⟨m, h2⟩, h3, h4, h5⟩ := multi_script f.overwrite rest es w.term.clock s
    (Option.ne_none_iff_exists'.mp hs) hes hnd
  obtain ⟨hF, -⟩ := multiLoop_frame _ _ _ _ _ _ _ _ (Nat.le_refl _) h1
  obtain ⟨w', out, e1, e2, e3⟩ := runCmd_ok C J (ord := ord) (fuel := fuel) (c := .multi) (w := w)
    (cfg := { args := args, clip := f.clip, overwrite := f.overwrite, withMeta := f.withMeta }) (mode := f.mode) (path := path)
    (pass := pass) (ps := ps) (s := s) (m := m) (p' := pass) (t := ⟨rest, fun n => w.term.clock (n + es.length)⟩) hd (fmode f) (Nat.zero_le _) ha
    ⟨b, hb, hu⟩ (by
      simp only [Cmd.run, multi]
      unfold script at h1
      rw [h1]
      rfl) hw hr rfl (hF.version.trans hv) (by simpa using hck) h2 (hF.passphrase.trans hpass)
  have h6 := saved_exact C J (finite_time (hF.finite hfin) _) (utf8_time (h3 hutf) _) e3
  refine ⟨w', _, ?_, ⟨out, by rw [e2]; simp, h6⟩, h4, h5, ?_⟩
  · unfold main
    rw [hf]
    exact e1
  · intro q hq
    rw [e2]
    exact Fs.set_other _ _ hq

/-- Two secrets are entered. -/
example : ∃ b, Opens C J (exWorld b []).fs [102] [112, 119] 0 (exStore [1, 2, 3] 7) ∧
    ∃ w' s', main C J P ord fuel { multi := true } [] [102]
      (exWorld b [some [112, 119], some [98], some [9], some [99], some [8], some []]) = some (.ok (0, w')) ∧
      Opens C J w'.fs [102] [112, 119] 0 s' ∧ secretOf s' [98] = some [9] ∧ secretOf s' [99] = some [8] ∧
      secretOf s' [97] = some [1, 2, 3] := by
  obtain ⟨b, hb⟩ := exFile C J 0 (Or.inl rfl)
  have ho : Opens C J (exWorld b []).fs [102] [112, 119] 0 (exStore [1, 2, 3] 7) := ⟨b, by simp [exWorld], hb⟩
  obtain ⟨w', s', h1, h2, h3, h4, -⟩ := C98_multi_saved_partial C J P ord fuel { multi := true } [] [102] [112, 119]
    (exWorld b [some [112, 119], some [98], some [9], some [99], some [8], some []]) (exStore [1, 2, 3] 7) [([98], [9]), ([99], [8])] []
    (by decide) rfl ho (by simp [exStore]) rfl
    (by
      intro e he
      simp only [List.mem_cons, List.not_mem_nil, or_false] at he
      rcases he with rfl | rfl
      · exact ⟨by simp, by simp, exMap_other (by decide) _ _, by decide⟩
      · exact ⟨by simp, by simp, exMap_other (by decide) _ _, by decide⟩)
    (by decide) rfl rfl (by show 56 ≤ (List.replicate 200 _).length; rw [List.length_replicate]; decide) (exClock 2 (by decide))
  refine ⟨b, ho, w', s', h1, h2, ?_, ?_, ?_⟩
  · obtain ⟨r, e1, e2, -⟩ := h3 ([98], [9]) (by simp)
    simp [secretOf, e1, e2]
  · obtain ⟨r, e1, e2, -⟩ := h3 ([99], [8]) (by simp)
    simp [secretOf, e1, e2]
  · have := h4 [97] (by decide)
    simp [secretOf, this, exStore_lookup, exRecord]

/-- If the input ends after a secret was accepted, nothing is saved: the program exits with an
error although no operation on the file failed. -/
theorem C98_eof_violated : ∃ (w w' : World) (s : SecretStore), w.write = .done ∧
    w.term.answers = [some [112, 119], some [98], some [9]] ∧
    Opens C J w.fs [102] [112, 119] 0 s ∧ s.has [98] = false ∧
    main C J P ord fuel { multi := true } [] [102] w = some (.ok (1, w')) ∧ w'.fs = w.fs := by
  obtain ⟨b, hb⟩ := exFile C J 0 (Or.inl rfl)
  have hh : (exStore [1, 2, 3] 7).has [98] = false := exMap_other (by decide) _ _
  refine ⟨exWorld b [some [112, 119], some [98], some [9]], { exWorld b [] with term := ⟨[], fun n => 1000 + BitVec.ofNat 64 (n + 1)⟩ },
    exStore [1, 2, 3] 7, rfl, rfl, ⟨b, by simp [exWorld], hb⟩, hh, ?_, rfl⟩
  have hl : multiLoop false [some [98], some [9]] (fun n => 1000 + BitVec.ofNat 64 n) (exStore [1, 2, 3] 7) =
      .ok (false, { exStore [1, 2, 3] 7 with
        store := some ((Map.empty.set [97] (some (exRecord [97] [1, 2, 3] 7))).set [98] (some ⟨[98], 1000 + BitVec.ofNat 64 0, [9], none⟩)) },
        ⟨[], fun n => 1000 + BitVec.ofNat 64 (n + 1)⟩) := by
    rw [multiLoop.eq_def]
    simp only [hh, Bool.false_and, Bool.false_eq_true, if_false]
    rfl
  unfold main runCmd
  simp only [Flags.action, Flags.mode, Cmd.requiredArgc, loadStore, Term.read, exWorld, World.exist, World.readFile, Cmd.run, multi]
  simp only [Bool.false_eq_true, if_false, if_true, List.length_nil, Nat.lt_irrefl, Fs.set_same, Option.isSome_some,
    show ([102] : Bytes) ≠ dash by decide, hb, Res.ok_bind, Res.pure_eq]
  rw [hl]
  rfl

/-! ### C97: termination -/

/-- Every command but `-r -m` ends, whatever is typed; `-r -m` ends if an empty line is typed. -/
theorem C97_ends_partial (f : Flags) (args : List Bytes) (path : Bytes) (w : World)
    (h : f.action = .cmd .remove → f.withMeta = true → some [] ∈ w.term.answers.tail ∧ w.term.answers.length ≤ fuel) :
    main C J P ord fuel f args path w ≠ none := by
  intro hn
  unfold main at hn
  split at hn
  · simp at hn
  · simp at hn
  · simp at hn
  · rename_i c hc
    unfold runCmd at hn
    split at hn
    · simp at hn
    · split at hn
      · simp at hn
      · simp at hn
      · rename_i s w1 hl
        split at hn
        · rename_i hrun
          obtain ⟨rfl, hm, md, hloop⟩ := run_none C J hrun
          obtain ⟨h1, h2⟩ := h hc hm
          rw [loadStore_term C J hl] at hloop
          exact removeMetaLoop_ends _ md fuel h1 (by simp; omega) hloop
        · simp at hn
        · simp at hn
        · split at hn <;> simp at hn

/-- If the input ends before an empty line, `secrets -r -m label` runs for ever. -/
theorem C97_eof_violated (f : Flags) (args : List Bytes) (path pass : Bytes) (w : World) (s : SecretStore)
    (r : SecretRecord) (rest : List (Option Bytes))
    (hf : f.action = .cmd .remove) (hm : f.withMeta = true) (hargs : args ≠ []) (hd : path ≠ dash)
    (ho : Opens C J w.fs path pass f.mode s) (hl : lookup s (args.headD []) = some r)
    (ha : w.term.answers = some pass :: rest) (hne : some [] ∉ rest) :
    ∀ n, main C J P ord n f args path w = none := by
  intro n
  obtain ⟨b, hb, hu⟩ := ho
  obtain ⟨m, h1, h2⟩ := lookup_get hl
  have hh : s.has (args.headD []) = true := (has_get h1).mpr (by rw [h2]; simp)
  unfold main runCmd
  rw [hf]
  simp only [Cmd.requiredArgc]
  rw [if_neg (by cases args with | nil => exact absurd rfl hargs | cons => simp)]
  unfold loadStore
  simp only [Term.read, ha, World.exist, hb, Option.isSome_some, if_true, World.readFile, hd, if_false, hu, Res.ok_bind, Res.pure_eq]
  simp only [Cmd.run, Model.Secrets.remove, hm, if_true, removeMeta, hh, Bool.not_true, Bool.false_eq_true, if_false, fetch_eq.mpr hl]
  rw [removeMetaLoop_forever n rest r.metadata hne]

/-- Such a run exists. -/
example : ∃ w : World, ∀ n, main C J P ord n { remove := true, withMeta := true } [[97]] [102] w = none := by
  obtain ⟨b, hb⟩ := exFile C J 0 (Or.inl rfl)
  exact ⟨exWorld b [some [112, 119]], C97_eof_violated C J P ord { remove := true, withMeta := true } [[97]] [102] [112, 119]
    (exWorld b [some [112, 119]]) _ _ [] rfl rfl (by simp) (by decide) ⟨b, by simp [exWorld], hb⟩ (exStore_lookup _ _) rfl (by simp)⟩

/-- And one of the same command that ends. -/
example (b : Bytes) : main C J P ord 2 { remove := true, withMeta := true } [[97]] [102] (exWorld b [some [112, 119], some []]) ≠ none :=
  C97_ends_partial C J P ord 2 _ _ _ _ (fun _ _ => ⟨by simp [exWorld], by simp [exWorld]⟩)

/-! ### C99: panics -/

/-- A null record in the file makes `secrets label` panic. -/
theorem C99_null_violated : ∃ w : World, main C J P ord fuel {} [[97]] [102] w = some .panic := by
  obtain ⟨h1, h2, -⟩ := nullStore_clean
  obtain ⟨b, hb⟩ := fields_exist C J (mode := 0) (Or.inl rfl) [112] h1 h2
  refine ⟨exWorld b [some [112]], ?_⟩
  unfold main runCmd
  simp only [Flags.action, Flags.mode, Cmd.requiredArgc, loadStore, Term.read, exWorld, World.exist, World.readFile]
  simp [hb]
  rfl

/-- A file whose store is null makes `secrets -s label` panic, after the password was typed. -/
theorem C99_nil_map_violated : ∃ w : World, main C J P ord fuel { store := true } [[97]] [102] w = some .panic := by
  obtain ⟨b, hb⟩ := fields_exist C J (mode := 0) (Or.inl rfl) [112] (f := { version := 1, timestamp := 5, store := none })
    (by intro m hm; cases hm) (by intro m hm; cases hm)
  refine ⟨exWorld b [some [112], some [1]], ?_⟩
  unfold main runCmd
  simp only [Flags.action, Flags.mode, Cmd.requiredArgc, loadStore, Term.read, exWorld, World.exist, World.readFile]
  simp [hb]
  rfl

/-- No run panics if every file that opens with something typed holds a map without null records. -/
theorem C99_no_panic_partial (f : Flags) (args : List Bytes) (path : Bytes) (w : World)
    (hord : ∀ m : Map (Option SecretRecord), m.Finite → m.Enumerates (ord m))
    (hgood : ∀ b pass s, (w.stdin = b ∨ ∃ q, w.fs q = some b) → some pass ∈ w.term.answers →
      unmarshalSecretStore C J b pass f.mode = .ok (some s) → NoNil s ∧ ∃ m, s.store = some m) :
    main C J P ord fuel f args path w ≠ some .panic := by
  intro hp
  unfold main at hp
  split at hp
  · simp only [Option.some.injEq] at hp
    rcases Res.bind_eq_panic.mp hp with h1 | ⟨x, -, h2⟩
    · unfold initStore at h1
      simp only at h1
      split at h1
      · simp at h1
      · split at h1
        · simp at h1
        · rcases Res.bind_eq_panic.mp h1 with h2 | ⟨⟨o, s, r⟩, -, h2⟩
          · exact marshal_no_panic C J _ _ _ h2
          · cases o with
            | none => simp at h2
            | some fd =>
              simp only at h2
              split at h2
              · simp at h2
              · rcases Res.bind_eq_panic.mp h2 with h3 | ⟨o, -, h3⟩
                · exact unmarshal_no_panic C J _ _ _ h3
                · simp at h3
    · simp at h2
  · simp at hp
  · simp at hp
  · rename_i c hc
    unfold runCmd at hp
    split at hp
    · simp at hp
    · split at hp
      · rename_i hl
        unfold loadStore at hl
        simp only at hl
        split at hl
        · simp at hl
        · split at hl
          · split at hl
            · simp at hl
            · rcases Res.bind_eq_panic.mp hl with h3 | ⟨o, -, h3⟩
              · exact unmarshal_no_panic C J _ _ _ h3
              · simp at h3
          · simp at hl
      · simp at hp
      · rename_i s w1 hl
        obtain ⟨t, rfl⟩ := loadStore_world C J hl
        have hs : Healthy s := by
          unfold loadStore at hl
          simp only at hl
          split at hl
          · simp at hl
          · rename_i pass hpass
            split at hl
            · split at hl
              · simp at hl
              · rename_i data hdata
                obtain ⟨o, h1, h2⟩ := Res.bind_eq_ok.mp hl
                simp only [Res.pure_eq, Res.ok.injEq, Prod.mk.injEq] at h2
                obtain ⟨rfl, -⟩ := h2
                refine hgood data _ _ ?_ (read_mem hpass) h1
                unfold World.readFile at hdata
                split at hdata
                · exact Or.inl (by simpa using hdata)
                · exact Or.inr ⟨_, hdata⟩
            · simp at hl
        split at hp
        · simp at hp
        · rename_i hrun
          refine run_healthy C J hord hs ?_ hrun
          intro b pass s hb hp
          refine hgood b pass s hb ?_
          have := loadStore_term C J hl
          simp only at this hp
          rw [this] at hp
          exact List.mem_of_mem_tail hp
        · simp at hp
        · split at hp
          · simp only [Option.some.injEq] at hp
            rcases Res.bind_eq_panic.mp hp with h1 | ⟨x, -, h2⟩
            · unfold writeStore at h1
              rcases Res.bind_eq_panic.mp h1 with h2 | ⟨⟨o, s, r⟩, -, h2⟩
              · exact marshal_no_panic C J _ _ _ h2
              · cases o <;> simp at h2
            · simp at h2
          · simp at hp

/-- A world to which the theorem applies, in which a file opens. -/
example : ∃ b, Opens C J (exWorld b [some [112, 119]]).fs [102] [112, 119] 0 (exStore [1, 2, 3] 7) ∧
    ∀ c pass s, ((exWorld b [some [112, 119]]).stdin = c ∨ ∃ q, (exWorld b [some [112, 119]]).fs q = some c) →
      some pass ∈ (exWorld b [some [112, 119]]).term.answers →
      unmarshalSecretStore C J c pass 0 = .ok (some s) → NoNil s ∧ ∃ m, s.store = some m := by
  obtain ⟨b, hb⟩ := exFile C J 0 (Or.inl rfl)
  refine ⟨b, ⟨b, by simp [exWorld], hb⟩, ?_⟩
  intro c pass s hc hp hu
  rcases hc with rfl | ⟨q, hq⟩
  · simp [exWorld, unmarshalSecretStore, saltSize] at hu
  · simp only [exWorld, List.mem_singleton, Option.some.injEq] at hp
    subst hp
    by_cases hq2 : q = [102]
    · subst hq2
      simp only [exWorld, Fs.set_same, Option.some.injEq] at hq
      subst hq
      rw [hb] at hu
      cases hu
      exact ⟨exStore_noNil _ _, _, rfl⟩
    · simp [exWorld, Fs.set_other _ _ hq2] at hq

/-! ### C80: export and import -/

/-- What `secrets -export out` writes, `secrets -import out` turns back into the same store file,
byte for byte, in any world. -/
theorem C80_roundtrip (f g : Flags) (path out path2 b : Bytes) (w w1 v v' : World) (st : Nat)
    (hf : f.action = .doExport) (hg : g.action = .doImport) (h1 : path ≠ dash) (h2 : out ≠ dash) (h3 : path2 ≠ dash)
    (hb : w.fs path = some b) (hne : b ≠ [])
    (he : main C J P ord fuel f [out] path w = some (.ok (0, w1)))
    (hv : v.fs out = w1.fs out) (hw : v.write = .done)
    (hi : main C J P ord fuel g [out] path2 v = some (.ok (st, v'))) :
    st = 0 ∧ v'.fs path2 = some b ∧ ∀ q, q ≠ path2 → v'.fs q = v.fs q := by
  unfold main at he hi
  rw [hf] at he
  rw [hg] at hi
  simp only [exportStore, List.headD_cons, World.readFile, h1, if_false, hb, World.writeFile, h2, Go.writeFile] at he
  cases hwr : w.write with
  | openFails => simp [hwr] at he
  | failsAfter k => simp [hwr] at he
  | done =>
    simp only [hwr, if_true, Option.some.injEq, Res.ok.injEq, Prod.mk.injEq, true_and] at he
    have hvo : v.fs out = some (P.enc pemType b) := by rw [hv, ← he]; simp
    simp only [importStore, List.headD_cons, World.readFile, h2, if_false, hvo, P.dec_enc pemType b (by decide) hne, ne_eq, not_true_eq_false,
      World.writeFile, h3, Go.writeFile, hw, if_true, Option.some.injEq, Res.ok.injEq, Prod.mk.injEq] at hi
    obtain ⟨rfl, rfl⟩ := hi
    exact ⟨rfl, by simp, fun q hq => Fs.set_other _ _ hq⟩

/-- Importing anything but armour of the right type fails and changes nothing. -/
theorem C80_import_other (f : Flags) (args : List Bytes) (path : Bytes) (w : World) (hf : f.action = .doImport)
    (ho : ∀ data body, w.readFile (args.headD []) = some data → P.dec data ≠ some (ascii "SECRET STORE", body)) :
    main C J P ord fuel f args path w = some (.ok (1, w)) := by
  have : importStore P w path (args.headD []) = (false, w) := by
    unfold importStore
    split
    · rfl
    · rename_i data hr
      split
      · rfl
      · rename_i typ body hd
        rw [if_pos]
        rintro rfl
        exact ho data body hr hd
  unfold main
  rw [hf]
  simp only [this]
  rfl

/-- Exporting changes no file but the one named. -/
theorem C80_export_only (f : Flags) (args : List Bytes) (path : Bytes) (w w' : World) (st : Nat) (hf : f.action = .doExport)
    (h : main C J P ord fuel f args path w = some (.ok (st, w'))) : ∀ q, q ≠ args.headD [] → w'.fs q = w.fs q := by
  intro q hq
  unfold main at h
  rw [hf] at h
  simp only [exportStore] at h
  cases hr : w.readFile path with
  | none =>
    simp only [hr, Option.some.injEq, Res.ok.injEq, Prod.mk.injEq] at h
    rw [← h.2]
  | some data =>
    simp only [hr, World.writeFile] at h
    split at h
    · simp only [Option.some.injEq, Res.ok.injEq, Prod.mk.injEq] at h
      rw [← h.2]
    · simp only [Option.some.injEq, Res.ok.injEq, Prod.mk.injEq] at h
      rw [← h.2]
      unfold Go.writeFile
      split
      · exact Fs.set_other _ _ hq
      · rfl
      · exact Fs.set_other _ _ hq

/-- A store is exported, and imported at another path. -/
example : ∃ w1 v', main C J P ord fuel { «export» := true } [[111]] [102] (exWorld [1, 2] []) = some (.ok (0, w1)) ∧
    main C J P ord fuel { «import» := true } [[111]] [103] w1 = some (.ok (0, v')) ∧ v'.fs [103] = some [1, 2] := by
  refine ⟨{ exWorld [1, 2] [] with fs := (exWorld [1, 2] []).fs.set [111] (P.enc pemType [1, 2]) },
    { exWorld [1, 2] [] with fs := ((exWorld [1, 2] []).fs.set [111] (P.enc pemType [1, 2])).set [103] [1, 2] }, rfl, ?_, rfl⟩
  unfold main
  simp [Flags.action, importStore, World.readFile, P.dec_enc pemType [1, 2] (by decide) (by decide), World.writeFile, Go.writeFile, exWorld]

end Verif.Props.Secrets
