import Verif.Props.RandomnessStores
import Verif.Props.Secretscli
import Verif.Props.Otpc
import Verif.Props.Journal
/-! What the programs write to stores is sealed under the passphrase that was typed (C243). -/

namespace Verif.Props.SealedStores
open Verif Verif.Go Verif.Model.Util Verif.Model.SecretStore
open Verif.Model.Secrets (World dash)
open Verif.Spec.SecretStore (IsFile)

variable (C : Crypto) (J : Json)

/-- The file `q` is as it was, or holds a store, or the beginning of one, sealed under a passphrase with `ok`. -/
def Locked (ok : Bytes → Prop) (mode : Int) (q : Bytes) (w w' : World) : Prop :=
  w'.fs q = w.fs q ∨ ∃ pass out k f, ok pass ∧ IsFile C out pass mode (J.enc f) ∧ w'.fs q = some (out.take k)

/-- The same, and nothing else has gone to standard output. -/
structure Shut (ok : Bytes → Prop) (mode : Int) (q : Bytes) (w w' : World) : Prop where
  file : Locked C J ok mode q w w'
  out : w'.stdout = w.stdout ∨ ∃ pass out f, ok pass ∧ IsFile C out pass mode (J.enc f) ∧ w'.stdout = w.stdout ++ out

variable {C J} {ok : Bytes → Prop} {mode : Int} {q : Bytes}

theorem Locked.trans {a b c : World} (h1 : Locked C J ok mode q a b) (h2 : Locked C J ok mode q b c) : Locked C J ok mode q a c := by
  rcases h2 with h2 | h2
  · rcases h1 with h1 | ⟨p, o, k, f, x1, x2, x3⟩
    · exact .inl (h2.trans h1)
    · exact .inr ⟨p, o, k, f, x1, x2, h2.trans x3⟩
  · exact .inr h2

theorem Shut.same {w w' : World} (h1 : w'.fs q = w.fs q) (h2 : w'.stdout = w.stdout) : Shut C J ok mode q w w' := ⟨.inl h1, .inl h2⟩

theorem Shut.after {w w1 w' : World} (h : Shut C J ok mode q w1 w') (h1 : w1.fs q = w.fs q) (h2 : w1.stdout = w.stdout) : Shut C J ok mode q w w' := by
  obtain ⟨a, b⟩ := h
  unfold Locked at a
  rw [h1] at a
  rw [h2] at b
  exact ⟨a, b⟩

theorem shut_write {w : World} {p pass out : Bytes} {f : Fields} (hp : ok pass) (hf : IsFile C out pass mode (J.enc f)) :
    Shut C J ok mode q w (World.writeFile w p out).1 := by
  by_cases hd : p = dash
  · refine ⟨.inl ?_, .inr ⟨pass, out, f, hp, hf, ?_⟩⟩ <;> simp [World.writeFile, hd]
  · refine ⟨?_, .inl (by simp [World.writeFile, hd])⟩
    by_cases hq : q = p
    · subst hq
      cases ho : w.write with
      | done => exact .inr ⟨pass, out, out.length, f, hp, hf, by simp [World.writeFile, hd, Go.writeFile, ho]⟩
      | openFails => exact .inl (by simp [World.writeFile, hd, Go.writeFile, ho])
      | failsAfter k => exact .inr ⟨pass, out, k, f, hp, hf, by simp [World.writeFile, hd, Go.writeFile, ho]⟩
    · refine .inl ?_
      simp only [World.writeFile, hd, if_false]
      exact Proofs.Journal.writeFile_other hq

/-- Saving a store. -/
theorem shut_store {w w' : World} {ps : SecretStore} {p pass : Bytes} {b : Bool} (h : Model.Secrets.writeStore C J w ps p mode = .ok (w', b))
    (hp : ps.passphrase = some pass) (hok : ok pass) : Shut C J ok mode q w w' := by
  unfold Model.Secrets.writeStore at h
  obtain ⟨⟨out, s2, rng⟩, h1, h2⟩ := Res.bind_eq_ok.mp h
  cases out with
  | none => cases h2; exact .same rfl rfl
  | some out =>
    obtain ⟨-, -, p', hp', hf⟩ := Proofs.SecretStore.marshal_some C J h1
    rw [hp] at hp'
    cases hp'
    simp only [Res.pure_eq, Res.ok.injEq] at h2
    have := shut_write (q := q) (w := { w with rng := rng }) (p := p) hok hf
    rw [show World.writeFile { w with rng := rng } p out = (w', b) from h2] at this
    exact this.after rfl rfl

/-- Making a store. -/
theorem shut_new {w w' : World} {s s2 : SecretStore} {p pass : Bytes} {rng : Rng} {out : Option Bytes} (hp : s.passphrase = some pass) (hok : ok pass)
    (h1 : marshalSecretStore C J s mode w.rng = .ok (out, s2, rng)) (hn : out = none → w' = { w with rng := rng })
    (hs : ∀ d, out = some d → w' = (World.writeFile { w with rng := rng } p d).1) : Shut C J ok mode q w w' := by
  cases out with
  | none => rw [hn rfl]; exact .same rfl rfl
  | some out =>
    obtain ⟨-, -, p', hp', hf⟩ := Proofs.SecretStore.marshal_some C J h1
    rw [hp] at hp'
    cases hp'
    rw [hs out rfl]
    exact (shut_write (q := q) (w := { w with rng := rng }) (p := p) hok hf).after rfl rfl

/-- A store that was opened was opened with what was typed first. -/
theorem load_pass {w w' : World} {p : Bytes} {s : SecretStore} (h : Model.Secrets.loadStore C J w p mode = .ok (some s, w')) :
    ∃ pass rest, w.term.answers = some pass :: rest ∧ s.passphrase = some pass ∧ w' = { w with term := { w.term with answers := rest } } := by
  unfold Model.Secrets.loadStore Term.read at h
  cases ha : w.term.answers with
  | nil => simp [ha] at h
  | cons a rest =>
    cases a with
    | none => simp [ha] at h
    | some pass =>
      simp only [ha] at h
      split at h
      · split at h
        · cases h
        · obtain ⟨o, h1, h2⟩ := Res.bind_eq_ok.mp h
          cases h2
          exact ⟨pass, rest, rfl, (Proofs.Secrets.opens_fields C J h1).2.2, rfl⟩
      · cases h

open Model.Secrets in
/-- No command but passwd changes the passphrase. -/
theorem run_pass {ord : Map (Option SecretRecord) → List Bytes} {fuel : Nat} {c : Cmd} {w w' : World} {ps ps' : SecretStore}
    {cfg : Config} {b : Bool} (hc : c ≠ .passwd) (h : Cmd.run C J ord fuel c w ps cfg mode = some (.ok (b, ps', w'))) :
    ps'.passphrase = ps.passphrase := by
  unfold Cmd.run at h
  cases c with
  | «show» =>
    simp only [Option.some.injEq] at h
    obtain ⟨x, h1, h2⟩ := Res.bind_eq_ok.mp h
    cases h2
    rfl
  | list => cases h; rfl
  | store =>
    simp only [Option.some.injEq] at h
    unfold addSecret at h
    split at h
    · exact (Proofs.Secrets.addMeta_frame h).1.passphrase
    · exact (Proofs.Secrets.addPlain_frame h).1.passphrase
  | passwd => exact absurd rfl hc
  | remove =>
    simp only at h
    unfold remove at h
    split at h
    · exact (Proofs.Secrets.removeMeta_frame h).1.passphrase
    · split at h
      · cases h; rfl
      · cases h; exact (Proofs.Secrets.delete_frame _ _).passphrase
  | multi =>
    simp only [Option.some.injEq] at h
    unfold multi at h
    obtain ⟨⟨x, y, z⟩, h1, h2⟩ := Res.bind_eq_ok.mp h
    cases h2
    exact (Proofs.Secrets.multiLoop_frame _ _ _ _ _ _ _ _ (Nat.le_refl _) h1).1.passphrase
  | merge =>
    simp only [Option.some.injEq] at h
    unfold merge at h
    simp only at h
    split at h
    · cases h; rfl
    · split at h
      · cases h; rfl
      · obtain ⟨x, h1, h2⟩ := Res.bind_eq_ok.mp h
        cases x with
        | none => cases h2; rfl
        | some o =>
          obtain ⟨⟨m, l⟩, h3, h4⟩ := Res.bind_eq_ok.mp h2
          cases h4
          unfold SecretStore.merge at h3
          obtain ⟨x, h5, h6⟩ := Res.bind_eq_ok.mp h3
          cases h6
          rfl

open Model.Secrets in
theorem passwd_pass {ord : Map (Option SecretRecord) → List Bytes} {fuel : Nat} {w w' : World} {ps ps' : SecretStore}
    {cfg : Config} (h : Cmd.run C J ord fuel .passwd w ps cfg mode = some (.ok (true, ps', w'))) :
    ∃ pass rest, w.term.answers = some pass :: rest ∧ pass ≠ [] ∧ ps'.passphrase = some pass := by
  simp only [Cmd.run, chpass, Term.read, Option.some.injEq, Res.ok.injEq] at h
  cases ha : w.term.answers with
  | nil => simp [ha] at h
  | cons a rest =>
    cases a with
    | none => simp [ha] at h
    | some pass =>
      simp only [ha] at h
      split at h
      · cases h
      · next hl => cases h; exact ⟨pass, rest, rfl, fun h => hl (by simp [h]), rfl⟩

/-- What was typed first. -/
def First (w : World) (pass : Bytes) : Prop := w.term.answers.head? = some (some pass)

/-- What was typed next. -/
def Second (w : World) (pass : Bytes) : Prop := w.term.answers.tail.head? = some (some pass) ∧ pass ≠ []

open Model.Secrets in
theorem shut_run {ord : Map (Option SecretRecord) → List Bytes} {fuel : Nat} {c : Cmd} {w w' : World} {cfg : Config} {p : Bytes} {st : Nat}
    (hok : ∀ pass rest ps, w.term.answers = some pass :: rest → ps.passphrase = some pass → ∀ ps' w2,
      Cmd.run C J ord fuel c { w with term := { w.term with answers := rest } } ps cfg mode = some (.ok (true, ps', w2)) →
      ∃ pass', ps'.passphrase = some pass' ∧ ok pass')
    (h : runCmd C J ord fuel c cfg mode p w = some (.ok (st, w'))) : Shut C J ok mode q w w' := by
  unfold runCmd at h
  split at h
  · cases h; exact .same rfl rfl
  · split at h
    · cases h
    · next hl => cases h; obtain ⟨t, rfl⟩ := Proofs.Secrets.loadStore_world C J hl; exact .same rfl rfl
    · next ps w1 hl =>
      obtain ⟨pass, rest, ha, hp, rfl⟩ := load_pass hl
      split at h
      · cases h
      · cases h
      · next hr => cases h; obtain ⟨t2, rfl⟩ := Proofs.Secrets.run_world C J hr; exact .same rfl rfl
      · next ps' w2 hr =>
        obtain ⟨pass', hp', hok'⟩ := hok pass rest ps ha hp ps' w2 hr
        obtain ⟨t2, rfl⟩ := Proofs.Secrets.run_world C J hr
        split at h
        · simp only [Option.some.injEq] at h
          obtain ⟨⟨w3, b⟩, h3, h4⟩ := Res.bind_eq_ok.mp h
          cases h4
          exact (shut_store h3 hp' hok').after rfl rfl
        · cases h; exact .same rfl rfl

/-- C243, secrets: whatever secrets does, short of -passwd, -export and -import, and whatever comes of it, every file is as it was or holds a store sealed
under the passphrase that was typed first, or as much of one as was written. -/
theorem C243_secrets {P : Pem} {ord : Map (Option SecretRecord) → List Bytes} {fuel : Nat} {f : Model.Secrets.Flags} {args : List Bytes}
    {p q : Bytes} {w w' : World} {st : Nat} (h1 : f.action ≠ .doExport) (h2 : f.action ≠ .doImport) (h3 : f.action ≠ .cmd .passwd)
    (h : Model.Secrets.main C J P ord fuel f args p w = some (.ok (st, w'))) : Shut C J (First w) f.mode q w w' := by
  unfold Model.Secrets.main at h
  cases ha : f.action with
  | doExport => exact absurd ha h1
  | doImport => exact absurd ha h2
  | init =>
    rw [ha] at h
    simp only [Option.some.injEq] at h
    obtain ⟨⟨ok, w1⟩, h3, h4⟩ := Res.bind_eq_ok.mp h
    cases h4
    unfold Model.Secrets.initStore Term.read at h3
    cases hw : w.term.answers with
    | nil => simp only [hw] at h3; cases h3; exact .same rfl rfl
    | cons a rest =>
      simp only [hw] at h3
      cases a with
      | none => cases h3; exact .same rfl rfl
      | some pass =>
        simp only at h3
        split at h3
        · cases h3; exact .same rfl rfl
        · obtain ⟨⟨out, s2, rng⟩, h5, h6⟩ := Res.bind_eq_ok.mp h3
          refine (shut_new (p := p) (pass := pass) (w := { w with term := (Term.now ⟨rest, w.term.clock⟩).2 }) rfl (by simp [First, hw]) h5 ?_ ?_).after rfl rfl
          · rintro rfl; cases h6; rfl
          · rintro d rfl
            simp only at h6
            split at h6
            · cases h6; rfl
            · obtain ⟨s3, -, h7⟩ := Res.bind_eq_ok.mp h6
              cases h7
              rfl
  | cmd c =>
    rw [ha] at h h3
    refine shut_run (fun pass rest ps hw hp ps' w2 hr => ⟨pass, ?_, by simp [First, hw]⟩) h
    rw [run_pass (fun e => h3 (by rw [e])) hr, hp]

/-- C243, secrets -passwd: the same, under the passphrase that was typed after the first one, which is not empty. -/
theorem C243_passwd {P : Pem} {ord : Map (Option SecretRecord) → List Bytes} {fuel : Nat} {f : Model.Secrets.Flags} {args : List Bytes}
    {p q : Bytes} {w w' : World} {st : Nat} (h3 : f.action = .cmd .passwd)
    (h : Model.Secrets.main C J P ord fuel f args p w = some (.ok (st, w'))) : Shut C J (Second w) f.mode q w w' := by
  unfold Model.Secrets.main at h
  rw [h3] at h
  refine shut_run (fun pass rest ps hw hp ps' w2 hr => ?_) h
  obtain ⟨pass', rest', h4, h5, h6⟩ := passwd_pass hr
  simp only at h4
  exact ⟨pass', h6, by simp [Second, hw, h4, h5]⟩

variable {T : Model.Otpc.TwoFactor} {U : Model.Otpc.Case}

theorem showSecret_pass {w w' : World} {ps ps' : SecretStore} {label : Bytes} {o : Model.Otpc.Shown}
    (h : Model.Otpc.showSecret T w ps label = .ok (o, ps', w')) : ps'.passphrase = ps.passphrase := by
  unfold Model.Otpc.showSecret at h
  split at h
  · cases h; rfl
  · obtain ⟨r, -, h⟩ := Res.bind_eq_ok.mp h
    split at h
    · cases h; rfl
    · split at h
      · cases h; rfl
      · obtain ⟨⟨c, o2, w2⟩, h1, h⟩ := Res.bind_eq_ok.mp h
        simp only at h
        split at h
        · cases h
        · obtain ⟨p1, h2, h⟩ := Res.bind_eq_ok.mp h
          obtain ⟨p2, h3, h⟩ := Res.bind_eq_ok.mp h
          cases h
          obtain ⟨m, -, rfl⟩ := Proofs.Secrets.assign_eq.mp h2
          obtain ⟨m, -, rfl⟩ := Proofs.Secrets.assign_eq.mp h3
          rfl
      · obtain ⟨⟨c, o2, w2⟩, h1, h⟩ := Res.bind_eq_ok.mp h
        cases h
        rfl
      · obtain ⟨⟨c, o2, w2⟩, h1, h⟩ := Res.bind_eq_ok.mp h
        cases h
        rfl

theorem shut_save {w w' : World} {ps : SecretStore} {p pass : Bytes} {codes : List Bytes} {o : Model.Otpc.Outcome} (h : Model.Otpc.save C J w ps p mode codes = .ok (o, w'))
    (hp : ps.passphrase = some pass) (hok : ok pass) : Shut C J ok mode q w w' := by
  unfold Model.Otpc.save at h
  obtain ⟨⟨w2, b⟩, h1, h2⟩ := Res.bind_eq_ok.mp h
  cases h2
  exact (shut_store h1 hp hok).after rfl rfl

theorem shut_init {w w' : World} {p : Bytes} {b : Bool} (h : Model.Otpc.initStore C J w p mode = .ok (b, w')) :
    Shut C J (First w) mode q w w' := by
  unfold Model.Otpc.initStore Term.read at h
  cases hw : w.term.answers with
  | nil => simp only [hw] at h; cases h; exact .same rfl rfl
  | cons a rest =>
    simp only [hw] at h
    cases a with
    | none => cases h; exact .same rfl rfl
    | some pass =>
      simp only at h
      obtain ⟨⟨out, s2, rng⟩, h5, h6⟩ := Res.bind_eq_ok.mp h
      refine (shut_new (p := p) (pass := pass) (w := { w with term := (Term.now ⟨rest, w.term.clock⟩).2 }) rfl (by simp [First, hw]) h5 ?_ ?_).after rfl rfl
      · rintro rfl; cases h6; rfl
      · rintro d rfl
        simp only at h6
        split at h6
        · cases h6; rfl
        · obtain ⟨s3, -, h7⟩ := Res.bind_eq_ok.mp h6
          cases h7
          rfl

/-- C243, otpc: the same of otpc, but for the image of -qr. -/
theorem C243_otpc {f : Model.Otpc.Flags} {args : List Bytes} {p q : Bytes} {w w' : World} {o : Model.Otpc.Outcome}
    (hq : f.qr = true → args.tail.headD [] ≠ q) (h : Model.Otpc.main C J T U f args p w = .ok (o, w')) : Shut C J (First w) f.mode q w w' := by
  unfold Model.Otpc.main at h
  by_cases hi : f.init = true
  · rw [if_pos hi] at h
    obtain ⟨⟨ok, w1⟩, h3, h4⟩ := Res.bind_eq_ok.mp h
    cases h4
    exact shut_init h3
  · rw [if_neg hi] at h
    by_cases hc : args.length < (if f.store then 1 else if f.qr then 2 else 1)
    · rw [if_pos hc] at h; cases h; exact .same rfl rfl
    · rw [if_neg hc] at h
      obtain ⟨⟨x, w1⟩, hl, h⟩ := Res.bind_eq_ok.mp h
      cases x with
      | none => obtain ⟨t, rfl⟩ := Proofs.Secrets.loadStore_world C J hl; cases h; exact .same rfl rfl
      | some ps =>
        obtain ⟨pass, rest, ha, hp, rfl⟩ := load_pass hl
        have hok : First w pass := by simp [First, ha]
        simp only at h
        split at h
        · obtain ⟨⟨y, ps2, w2⟩, h1, h⟩ := Res.bind_eq_ok.mp h
          cases y with
          | none =>
            obtain ⟨t2, rfl⟩ := Proofs.Otpc.addSecret_none T U h1
            cases h
            exact .same rfl rfl
          | some c =>
            obtain ⟨secret, rest, r, m, -, -, -, h2, rfl⟩ := Proofs.Otpc.addSecret_some T U rfl h1
            obtain ⟨⟨t2, rfl⟩, -⟩ := Proofs.Otpc.makeRecord_some T h2
            exact (shut_save h hp hok).after rfl rfl
        · split at h
          · next hqr =>
            obtain ⟨⟨ok, w2⟩, h1, h⟩ := Res.bind_eq_ok.mp h
            cases h
            unfold Model.Otpc.showQR at h1
            split at h1
            · cases h1; exact .same rfl rfl
            · obtain ⟨r, -, h1⟩ := Res.bind_eq_ok.mp h1
              split at h1
              · cases h1; exact .same rfl rfl
              · split at h1
                · cases h1; exact .same rfl rfl
                · cases h1
                  refine .same ?_ rfl
                  exact Proofs.Journal.writeFile_other (Ne.symm (hq hqr))
          · obtain ⟨⟨y, ps2, w2⟩, h1, h⟩ := Res.bind_eq_ok.mp h
            have hp2 := showSecret_pass h1
            obtain ⟨t2, rfl⟩ := RandomnessStores.showSecret_world T h1
            cases y with
            | failed => cases h; exact .same rfl rfl
            | forever c => cases h; exact .same rfl rfl
            | once c => exact (shut_save h (hp2.trans hp) hok).after rfl rfl

section journal
open Verif.Model.Journal Verif.Proofs.Journal

theorem shut_finish {w w' : World} {ps : SecretStore} {p pass : Bytes} {b : Bool} {st : Nat} {o : Output} (hp : b = true → ps.passphrase = some pass)
    (hok : ok pass) (h : finish C J p mode (b, ps, w) = .ok (st, o, w')) : Shut C J ok mode q w w' := by
  cases b with
  | false => cases h; exact .same rfl rfl
  | true =>
    unfold finish at h
    obtain ⟨⟨w2, b⟩, h1, h2⟩ := Res.bind_eq_ok.mp h
    cases h2
    exact (shut_store h1 (hp rfl) hok).after rfl rfl

theorem shut_steps {e : Env} {w w2 w' : World} (h : Steps e w w2) (hp : e.temp ≠ some q) (h2 : Shut C J ok mode q w2 w') : Shut C J ok mode q w w' := by
  obtain ⟨t, fs, h1⟩ := h.same
  exact h2.after (h.other q hp) (by rw [h1])

theorem edit_pass {e : Env} {w w2 : World} {ps ps' : SecretStore} {title : Bytes} (h : editEntry e w ps title = .ok (true, ps', w2)) :
    ps'.passphrase = ps.passphrase := by
  obtain ⟨r, m, text, -, -, -, rfl, -⟩ := (editEntry_some h).2 rfl
  rfl

theorem add_pass {e : Env} {w w2 : World} {ps ps' : SecretStore} {title : Bytes} (h : addEntry e w ps title = .ok (true, ps', w2)) :
    ps'.passphrase = ps.passphrase := by
  obtain ⟨m, text, -, -, rfl, -⟩ := (addEntry_some h).2 rfl
  rfl

/-- C243, journal: the same of journal, but for the file that is edited. -/
theorem C243_journal {ord : Map (Option SecretRecord) → List Bytes} {e : Env} {f : Flags} {args : List Bytes}
    {p q : Bytes} {w w' : World} {st : Nat} {o : Output} (hp : e.temp ≠ some q)
    (h : Model.Journal.main C J ord e f args p w = .ok (st, o, w')) : Shut C J (First w) f.mode q w w' := by
  unfold Model.Journal.main at h
  by_cases hi : f.init = true
  · rw [if_pos hi] at h
    obtain ⟨⟨ok, w1⟩, h3, h4⟩ := Res.bind_eq_ok.mp h
    cases h4
    exact shut_init h3
  · rw [if_neg hi] at h
    by_cases hc : args.length < (if f.edit then 1 else if f.list then 0 else 1)
    · rw [if_pos hc] at h; cases h; exact .same rfl rfl
    · rw [if_neg hc] at h
      obtain ⟨⟨x, w1⟩, hl, h⟩ := Res.bind_eq_ok.mp h
      cases x with
      | none => obtain ⟨t, rfl⟩ := Proofs.Secrets.loadStore_world C J hl; cases h; exact .same rfl rfl
      | some ps =>
        obtain ⟨pass, rest, ha, hps, rfl⟩ := load_pass hl
        have hok : First w pass := by simp [First, ha]
        simp only [Model.Journal.run] at h
        split at h
        · obtain ⟨⟨b, ps2, w2⟩, h1, h⟩ := Res.bind_eq_ok.mp h
          refine (shut_steps (editEntry_some h1).1 hp (shut_finish (pass := pass) ?_ hok h)).after rfl rfl
          rintro rfl
          rw [edit_pass h1, hps]
        · split at h
          · obtain ⟨l, -, h⟩ := Res.bind_eq_ok.mp h
            cases h
            exact .same rfl rfl
          · split at h
            · obtain ⟨⟨b, ps2, w2⟩, h1, h⟩ := Res.bind_eq_ok.mp h
              refine (shut_steps (writeNew_some h1).1 hp (shut_finish (pass := pass) ?_ hok h)).after rfl rfl
              rintro rfl
              rcases (writeNew_some h1).2 rfl with ⟨-, a, r, -, -, h2⟩ | ⟨-, a, t, r, -, -, -, h2⟩ | ⟨-, h2⟩
              · rw [edit_pass h2, hps]
              · rw [add_pass h2, hps]
              · rw [add_pass h2, hps]
            · obtain ⟨x, -, h⟩ := Res.bind_eq_ok.mp h
              split at h
              · cases h; exact .same rfl rfl
              · cases h; exact .same rfl rfl

end journal

section secretscli
open Verif.Model.Secretscli Verif.Proofs.Secretscli Verif.Spec.Secretscli
open Verif.Model.Secrets (metaLoop)

/-- Something that was typed, or zeros in the place of it. -/
def Known (typed : List (Option Bytes)) (pass : Bytes) : Prop := ∃ t, some t ∈ typed ∧ (pass = t ∨ pass = List.replicate t.length 0)

theorem known_zero {typed : List (Option Bytes)} {pass : Bytes} (h : Known typed pass) : Known typed (zero pass) := by
  obtain ⟨t, h1, h2⟩ := h
  refine ⟨t, h1, .inr ?_⟩
  rw [zero_eq]
  rcases h2 with rfl | rfl <;> simp

/-- A session in which nothing but this has been typed. -/
structure Within (typed : List (Option Bytes)) (mode : Int) (st : St) : Prop where
  answers : ∀ a ∈ st.w.term.answers, a ∈ typed
  mode : st.sess.mode = mode
  pass : ∃ p, st.sess.store.passphrase = some p ∧ Known typed p

variable {typed : List (Option Bytes)}

def Goes (typed : List (Option Bytes)) (C : Crypto) (J : Json) (mode : Int) (q : Bytes) (st st' : St) : Prop :=
  Within typed mode st → Within typed mode st' ∧ Locked C J (Known typed) mode q st.w st'.w

theorem Goes.refl (st : St) : Goes typed C J mode q st st := fun h => ⟨h, .inl rfl⟩

theorem Goes.trans {a b c : St} (h1 : Goes typed C J mode q a b) (h2 : Goes typed C J mode q b c) : Goes typed C J mode q a c := fun h =>
  ⟨(h2 (h1 h).1).1, (h1 h).2.trans (h2 (h1 h).1).2⟩

theorem Goes.of {st st' : St} (h1 : st'.w.term.answers <:+ st.w.term.answers) (h2 : st'.sess.mode = st.sess.mode)
    (h3 : st'.sess.store.passphrase = st.sess.store.passphrase) (h4 : st'.w.fs = st.w.fs) : Goes typed C J mode q st st' := fun h =>
  ⟨⟨fun a ha => h.answers a (h1.subset ha), h2.trans h.mode, by rw [h3]; exact h.pass⟩, .inl (by rw [h4])⟩

theorem read_suffix (st : St) : st.read.2.w.term.answers <:+ st.w.term.answers := by
  unfold St.read Term.read
  cases h : st.w.term.answers with
  | nil => simp [h]
  | cons a as => simp

theorem goes_read (st : St) : Goes typed C J mode q st st.read.2 := .of (read_suffix st) rfl rfl rfl

theorem goes_zero (st : St) : Goes typed C J mode q st { st with sess := { st.sess with store := st.sess.store.zero } } := fun h => by
  obtain ⟨p, h1, h2⟩ := h.pass
  exact ⟨⟨h.answers, h.mode, zero p, by simp [SecretStore.zero, h1], known_zero h2⟩, .inl rfl⟩

theorem goes_write (st : St) : Goes typed C J mode q st (writeStore C J st).2 := by
  intro h
  obtain ⟨p, h1, h2⟩ := h.pass
  unfold writeStore
  split
  · exact ⟨h, .inl rfl⟩
  · split
    · exact ⟨h, .inl rfl⟩
    · next s rng hm =>
      refine ⟨⟨h.answers, h.mode, ?_⟩, .inl rfl⟩
      rcases marshal_store C J hm with rfl | rfl
      · exact h.pass
      · exact ⟨zero p, by simp [SecretStore.zero, h1], known_zero h2⟩
    · next out s rng hm =>
      obtain ⟨-, rfl, p', h3, h4⟩ := Proofs.SecretStore.marshal_some C J hm
      rw [h1] at h3
      cases h3
      rw [h.mode] at h4
      refine ⟨⟨?_, h.mode, zero p, by simp [SecretStore.zero, h1], known_zero h2⟩, ?_⟩
      · simp only [World.writeFile]
        split <;> exact h.answers
      · exact ((shut_write (q := q) (w := { st.w with rng := rng, write := st.writes 0 }) (p := st.sess.path) h2 h4).after rfl rfl).file

theorem goes_shutdown (st : St) : Goes typed C J mode q st (shutdown C J st) := (goes_write st).trans (goes_zero _)

theorem assign_pass {s s' : SecretStore} {l : Bytes} {r : SecretRecord} (h : Model.Secrets.assign s l r = .ok s') : s'.passphrase = s.passphrase := by
  obtain ⟨m, -, rfl⟩ := Proofs.Secrets.assign_eq.mp h
  rfl

theorem goes_touch (st : St) (l : Bytes) (r : SecretRecord) : Goes typed C J mode q st (touch st l r).2 := by
  unfold touch
  simp only
  split
  · exact .of List.suffix_rfl rfl rfl rfl
  · next h =>
    have := assign_pass h
    exact .of List.suffix_rfl rfl this rfl

theorem goes_put (l : Bytes) (r : Option SecretRecord) (st : St) : Goes typed C J mode q st (putSecret l r st).2 := by
  unfold putSecret
  have h1 : Goes typed C J mode q st st.read.2 := goes_read st
  cases hr : st.read with
  | mk a st1 =>
    rw [hr] at h1
    cases a with
    | none => exact h1
    | some p =>
      dsimp only
      split
      · exact h1
      · cases r with
        | none => exact h1
        | some r => exact h1.trans (goes_touch st1 l _)

theorem goes_single (l : Bytes) (st : St) : Goes typed C J mode q st (storeSingleSecret l st).2 := by
  unfold storeSingleSecret
  cases st.entry l with
  | none => exact goes_put l _ st
  | some r =>
    have h1 : Goes typed C J mode q st st.read.2 := goes_read st
    cases hr : st.read with
    | mk a st1 =>
      rw [hr] at h1
      cases a with
      | none => exact h1
      | some p =>
        dsimp only
        split
        · exact h1
        · exact h1.trans (goes_put l r st1)

theorem goes_storeLoop (ls : List Bytes) : ∀ (i : Nat) (st : St), Goes typed C J mode q st (storeLoop C J i ls st).2 := by
  induction ls with
  | nil => intro i st; exact .refl _
  | cons l ls ih =>
    intro i st
    rw [storeLoop]
    have h1 : Goes typed C J mode q st _ := goes_single l st
    cases hr : storeSingleSecret l st with
    | mk r st1 =>
      rw [hr] at h1
      cases r with
      | ok => exact h1.trans (ih _ _)
      | err =>
        dsimp only
        split
        · exact h1.trans (goes_write st1)
        · exact h1
      | panic => exact h1
      | exit => exact h1

theorem goes_writeMeta (args : List Bytes) (st : St) : Goes typed C J mode q st (writeMeta args st).2 := by
  unfold writeMeta
  split
  · exact .refl _
  · split
    · exact .refl _
    · exact .refl _
    · next r _ =>
      dsimp only
      have h1 : Goes typed C J mode q st { st with w := { st.w with term := { st.w.term with answers := (metaLoop (r.metadata.getD Map.empty) st.w.term.answers).2.2 } } } :=
        .of (metaLoop_suffix _ _) rfl rfl rfl
      split
      · split
        · exact h1
        · next h => exact h1.trans (.of List.suffix_rfl rfl (assign_pass h) rfl)
      · exact h1.trans (goes_touch _ _ _)
  · exact .refl _

theorem goes_passwd (st : St) : Goes typed C J mode q st (passwd st).2 := by
  unfold passwd
  intro h
  have h1 : Goes typed C J mode q st st.read.2 := goes_read st
  have hk : ∀ p, st.read.1 = some p → some p ∈ typed := by
    intro p hp
    apply h.answers
    unfold St.read Term.read at hp
    cases ha : st.w.term.answers with
    | nil => simp [ha] at hp
    | cons a as => simp only [ha] at hp; rw [hp]; exact List.mem_cons_self
  cases hr : st.read with
  | mk a st1 =>
    rw [hr] at h1 hk
    cases a with
    | none => exact h1 h
    | some p =>
      dsimp only
      have h2 : Goes typed C J mode q st1 st1.read.2 := goes_read st1
      cases hr2 : st1.read with
      | mk a st2 =>
        rw [hr2] at h2
        cases a with
        | none => exact (h1.trans h2) h
        | some p2 =>
          dsimp only
          split
          · exact (h1.trans h2) h
          · obtain ⟨⟨x1, x2, -⟩, x3⟩ := (h1.trans h2) h
            exact ⟨⟨x1, x2, p, rfl, p, hk p rfl, .inl rfl⟩, x3⟩

theorem goes_process (e : Env) (line : Bytes) (st : St) : Goes typed C J mode q st (processCommands C J e line st).2 := by
  by_cases h : ∀ c, (fields line).head? = some c → c ∉ active
  · obtain ⟨o, ho⟩ := process_prints C J e line st h
    rw [ho]
    exact .of List.suffix_rfl rfl rfl rfl
  · cases hf : fields line with
    | nil => rw [hf] at h; exact absurd (fun c (hc : none = some c) => nomatch hc) h
    | cons c args =>
      rw [hf] at h
      have hc : c ∈ active := Decidable.byContradiction fun h2 => h (fun d hd => by cases hd; exact h2)
      unfold processCommands
      rw [hf]
      dsimp only
      rcases List.mem_cons.mp hc with rfl | hc
      · rw [if_neg (by decide), if_neg (by decide), if_neg (by decide), if_neg (by decide), if_neg (by decide), if_neg (by decide),
          if_neg (by decide), if_neg (by decide), if_pos rfl]
        unfold storeSecret
        split
        · exact .refl _
        · exact goes_storeLoop _ _ _
      rcases List.mem_cons.mp hc with rfl | hc
      · rw [if_neg (by decide), if_neg (by decide), if_neg (by decide), if_neg (by decide), if_neg (by decide), if_neg (by decide),
          if_neg (by decide), if_neg (by decide), if_neg (by decide), if_pos rfl]
        exact goes_writeMeta _ _
      rcases List.mem_cons.mp hc with rfl | hc
      · rw [if_neg (by decide), if_neg (by decide), if_neg (by decide), if_neg (by decide), if_pos rfl]
        exact goes_passwd _
      rcases List.mem_cons.mp hc with rfl | hc
      · rw [if_neg (by decide), if_neg (by decide), if_neg (by decide), if_neg (by decide), if_neg (by decide), if_neg (by decide),
          if_neg (by decide), if_neg (by decide), if_neg (by decide), if_neg (by decide), if_pos rfl]
        have hk : Goes typed C J mode q st _ := goes_write st
        unfold cmdWriteStore
        split
        · exact .refl _
        · split
          · rename_i h; rw [h] at hk; exact hk
          · rename_i h; rw [h] at hk; exact hk
      rcases List.mem_cons.mp hc with rfl | hc
      · rw [if_neg (by decide), if_neg (by decide), if_neg (by decide), if_pos rfl]
        exact goes_shutdown st
      · cases hc

theorem goes_step {e : Env} {s s' : Sys} {ev : Event} (h : Step C J e s ev s') : Goes typed C J mode q s.st s'.st := by
  cases h with
  | readLine line as h1 h2 h3 h4 => exact .of (by rw [h3]; exact List.suffix_cons _ _) rfl rfl rfl
  | readBlank as h1 h2 h3 => exact .of (by rw [h3]; exact List.suffix_cons _ _) rfl rfl rfl
  | readError as h1 h2 h3 => exact .of (by rw [h3]; exact List.suffix_cons _ _) rfl rfl rfl
  | command line r st h1 h2 =>
    have : Goes typed C J mode q s.st _ := goes_process e line s.st
    rw [h2] at this
    exact this
  | shutdown => exact goes_shutdown s.st
  | _ => exact .refl _

theorem goes_run {e : Env} {s s' : Sys} {evs : List Event} (h : Run C J e s evs s') : Goes typed C J mode q s.st s'.st := by
  induction h with
  | nil => exact .refl _
  | cons h1 _ ih => exact (goes_step h1).trans ih

theorem start_within {w : World} {writes : Nat → WriteOutcome} {p : Bytes} {st : St} (h : start C J w writes p mode = .ok (some st)) :
    Within w.term.answers mode st ∧ st.w.fs = w.fs := by
  unfold start Term.read at h
  cases ha : w.term.answers with
  | nil => simp [ha] at h
  | cons a rest =>
    cases a with
    | none => simp [ha] at h
    | some pass =>
      simp only [ha] at h
      split at h
      · cases h
      · obtain ⟨o, h1, h2⟩ := Res.bind_eq_ok.mp h
        cases o with
        | none => cases h2
        | some s =>
          cases h2
          refine ⟨⟨fun a h => ?_, rfl, pass, (Proofs.Secrets.opens_fields C J h1).2.2, pass, List.mem_cons_self, .inl rfl⟩, rfl⟩
          exact List.mem_cons_of_mem _ h

/-- C243, secretscli: at every moment of every session every file is as it was or holds a store, or as much of one as was written, that is sealed under
something that was typed in the session, or under as many zeros. Missing from the property: the zeros, see C243_violated. -/
theorem C243_secretscli_partial {e : Env} {w : World} {writes : Nat → WriteOutcome} {p q : Bytes} {st : St} {evs : List Event} {s : Sys}
    (h : start C J w writes p mode = .ok (some st)) (hr : Run C J e (Sys.init st) evs s) : Locked C J (Known w.term.answers) mode q w s.st.w := by
  obtain ⟨h1, h2⟩ := start_within h
  have := (goes_run (q := q) hr h1).2
  unfold Locked at this ⊢
  rw [← h2]
  exact this

/-- C243, secretscli: "store b", "write", "store c" and "quit" are typed, nothing goes wrong, and the secret "c" is saved under two zeros, which nobody has
typed. -/
theorem C243_violated (C : Crypto) (J : Json) (e : Env) (mode : Int) (hm : mode = 0 ∨ mode = 1) : ∃ w st evs s out data s',
    start C J w (fun _ => .done) [102] mode = .ok (some st) ∧ Run C J e (Sys.init st) evs s ∧ .timeout ∉ evs ∧ s.main = .exited ∧
    s.st.w.fs [102] = some out ∧ IsFile C out [0, 0] mode data ∧ (∀ t, some t ∈ w.term.answers → t.head? ≠ some 0) ∧
    J.dec data = some s'.toFields ∧ Spec.SecretStore.secretOf s' [99] = some [121] := by
  obtain ⟨b, st, evs, s, s', h1, -, h2, h3, h4, ⟨out, h5, h6⟩, -, -, h7, -⟩ := Secretscli.C69_violated C J e mode hm
  obtain ⟨data, h8, h9, -⟩ := (Proofs.SecretStore.unmarshal_iff C J out [0, 0] mode s').mp h6
  refine ⟨_, st, evs, s, out, data, s', h1, h2, h3, h4, h5, h8, ?_, h9, h7⟩
  intro t ht
  simp only [Secrets.exWorld, List.mem_cons, Option.some.injEq, List.not_mem_nil, or_false] at ht
  rcases ht with rfl | rfl | rfl | rfl | rfl | rfl | rfl <;> decide

/-- With the toy primitives a box tells how the passphrase begins. -/
theorem toy_file {x : UInt8} {pass out data : Bytes} {mode : Int} (hm : mode = 0 ∨ mode = 1) (h : IsFile Toy.crypto out (x :: pass) mode data) :
    out[56]? = some x := by
  obtain ⟨salt, nonce, key, h1, h2, h3, rfl⟩ := h
  have hk : key.head? = some x := by rcases hm with rfl | rfl <;> · cases h3; rfl
  rw [List.getElem?_append_right (by omega), List.getElem?_append_right (by omega)]
  have e : 56 - salt.length - nonce.length = 0 := by omega
  rw [e]
  cases key with
  | nil => cases hk
  | cons c ks =>
    cases hk
    simp [Toy.crypto, Toy.pad]

/-- With the toy primitives what that session has saved is not sealed under anything that was typed. -/
example (J : Json) (e : Env) : ∃ w st evs s, start Toy.crypto J w (fun _ => .done) [102] 0 = .ok (some st) ∧ Run Toy.crypto J e (Sys.init st) evs s ∧
    ∀ out pass k data, s.st.w.fs [102] = some (out.take k) → some pass ∈ w.term.answers → pass ≠ [] → ¬ IsFile Toy.crypto out pass 0 data := by
  obtain ⟨w, st, evs, s, o, d, s', h1, h2, -, -, h3, h4, h5, -⟩ := C243_violated Toy.crypto J e 0 (.inl rfl)
  refine ⟨w, st, evs, s, h1, h2, fun out pass k data ho hp hne hf => ?_⟩
  cases pass with
  | nil => exact hne rfl
  | cons x p =>
    have e1 := toy_file (.inl rfl) hf
    have e2 := toy_file (.inl rfl) h4
    rw [h3, Option.some.injEq] at ho
    rw [ho, List.getElem?_take] at e2
    split at e2
    · rw [e1] at e2; exact h5 _ hp e2
    · cases e2

end secretscli

section examples
open Verif.Model.Secrets Verif.Props.Secrets Verif.Props.SecretStore

/-- Runs of secrets -s and of secrets -c that save the store. -/
example (C : Crypto) (J : Json) (P : Pem) (ord : Map (Option SecretRecord) → List Bytes) (fuel : Nat) :
    (∃ b w', main C J P ord fuel { store := true } [[98]] [102] (exWorld b [some [112, 119], some [9]]) = some (.ok (0, w')) ∧
      ({ store := true } : Flags).action ≠ .doExport ∧ ({ store := true } : Flags).action ≠ .doImport ∧ ({ store := true } : Flags).action ≠ .cmd .passwd) ∧
    (∃ b w', main C J P ord fuel { passwd := true } [] [102] (exWorld b [some [112, 119], some [1]]) = some (.ok (0, w')) ∧
      ({ passwd := true } : Flags).action = .cmd .passwd) := by
  obtain ⟨b, hb⟩ := exFile C J 0 (Or.inl rfl)
  have hh : (exStore [1, 2, 3] 7).has [98] = false := exMap_other (by decide) _ _
  obtain ⟨w', out, h, -⟩ := exRun C J P ord fuel (f := { store := true }) (c := .store) (args := [[98]]) (rest := [some [9]])
    (b := b) (t := ⟨[], fun n => 1000 + BitVec.ofNat 64 (n + 1)⟩) rfl hb rfl (by decide)
    (by simp [Cmd.run, addSecret, addPlain, hh, Term.read, Term.now, exWorld, assign, exStore]; rfl) rfl (exClock 1 (by decide)) rfl rfl
  obtain ⟨w2, out2, h2, -⟩ := exRun C J P ord fuel (f := { passwd := true }) (c := .passwd) (args := []) (rest := [some [1]])
    (b := b) (t := ⟨[], fun n => 1000 + BitVec.ofNat 64 n⟩) rfl hb rfl (by decide) rfl rfl (exClock 0 (by decide)) rfl rfl
  exact ⟨⟨b, w', h, by decide, by decide, by decide⟩, b, w2, h2, by decide⟩

/-- A run of otpc that makes a store, and what C243 says of it: there was no file before. -/
example (C : Crypto) (J : Json) (T : Model.Otpc.TwoFactor) (U : Model.Otpc.Case) : ∃ rng w' o,
    Model.Otpc.main C J T U { init := true } [] [102] (RandomnessStores.exNew rng) = .ok (o, w') ∧
    ∃ out k f, IsFile C out [112, 119] 0 (J.enc f) ∧ w'.fs [102] = some (out.take k) := by
  obtain ⟨w', o, h, -, hl⟩ := RandomnessStores.exInit C J T U (rng := List.replicate 56 7) (by simp)
  refine ⟨_, w', o, h, ?_⟩
  rcases (C243_otpc (q := [102]) (by simp) h).file with hs | ⟨pass, out, k, f, hp, hf, e⟩
  · rw [RandomnessStores.newValues, if_pos hs] at hl
    cases hl
  · have : pass = [112, 119] := by
      have hp' : some (some ([112, 119] : Bytes)) = some (some pass) := hp
      cases hp'
      rfl
    subst this
    exact ⟨out, k, f, hf, e⟩

/-- A run of journal that saves the store, with a temporary file elsewhere. -/
example (C : Crypto) (J : Json) (ord : Map (Option SecretRecord) → List Bytes) : ∃ b w',
    Model.Journal.main C J ord Journal.exEnv { write := true } [[98]] [102] (exWorld b [some [112, 119]]) = .ok (0, .nothing, w') ∧
    Journal.exEnv.temp ≠ some [102] := by
  obtain ⟨b, hb⟩ := exFile C J 0 (Or.inl rfl)
  obtain ⟨w', h⟩ := Journal.write_works C J ord (e := Journal.exEnv) (f := { write := true }) (arg := [98]) (path := [102])
    (w := exWorld b [some [112, 119]]) (by decide) ⟨rfl, rfl, rfl, rfl⟩ rfl ⟨b, by simp [exWorld], hb⟩ rfl
    (exMap_other (by decide) _ _) rfl (Journal.exEdited _) rfl (Otpc.exRng _ _) rfl (exClock 2 (by decide))
  exact ⟨b, w', h, by decide⟩

end examples

end Verif.Props.SealedStores
