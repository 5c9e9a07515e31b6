import Verif.Model.Meanwhile
import Verif.Proofs.Journal
/-! Runs with changes to the files in between: what the programs look at. -/

namespace Verif.Proofs.Meanwhile
open Verif Verif.Go Verif.Model.Util Verif.Model.SecretStore Verif.Model.Meanwhile
open Verif.Model.Secrets (World loadStore writeStore assign fetch dash)
open Verif.Model.Journal (put)

theorem put_put (fs : Fs) (p : Path) (x y : Option Bytes) : put (put fs p x) p y = put fs p y := by
  funext q
  unfold put
  split <;> rfl

theorem put_self (fs : Fs) (p : Path) : put fs p (fs p) = fs := by
  funext q
  unfold put
  split
  · rename_i h; rw [h]
  · rfl

theorem put_same (fs : Fs) (p : Path) (x : Option Bytes) : put fs p x p = x := if_pos rfl

theorem put_other (fs : Fs) {p q : Path} (x : Option Bytes) (h : q ≠ p) : put fs p x q = fs q := if_neg h

theorem set_put (fs : Fs) (p : Path) (x : Option Bytes) (d : Bytes) : (put fs p x).set p d = fs.set p d := by
  funext q
  by_cases h : q = p
  · subst h; rw [Fs.set_same, Fs.set_same]
  · rw [Fs.set_other _ _ h, Fs.set_other _ _ h, put_other _ _ h]

theorem put_set (fs : Fs) {p q : Path} (x : Option Bytes) (d : Bytes) (h : q ≠ p) : (put fs p x).set q d = put (fs.set q d) p x := by
  funext r
  by_cases hr : r = q
  · subst hr; rw [Fs.set_same, put_other _ _ h, Fs.set_same]
  · rw [Fs.set_other _ _ hr]
    unfold put
    split
    · rfl
    · rw [Fs.set_other _ _ hr]

theorem put_comm (fs : Fs) {p q : Path} (x y : Option Bytes) (h : q ≠ p) : put (put fs p x) q y = put (put fs q y) p x := by
  funext r
  unfold put
  by_cases h1 : r = q
  · subst h1
    rw [if_pos rfl, if_neg h, if_pos rfl]
  · rw [if_neg h1]
    split <;> rfl

/-- The world with something else in one file. -/
def hide (path : Path) (x : Option Bytes) (w : World) : World := { w with fs := put w.fs path x }

abbrev hide3 (path : Path) (x : Option Bytes) {α β : Type} (r : α × β × World) : α × β × World := (r.1, r.2.1, hide path x r.2.2)

abbrev hide2 (path : Path) (x : Option Bytes) {α : Type} (r : α × World) : α × World := (r.1, hide path x r.2)

variable (C : Crypto) (J : Json)

theorem hide_change {other : Fs → Fs} {w : World} {path : Path} {old : Option Bytes} :
    change other w = hide path (other w.fs path) { w with fs := put (other w.fs) path old } := by
  unfold change hide
  rw [put_put, put_self]

/-- Reading the store looks at no other file. -/
theorem load_frame {w : World} {path : Path} {mode : Int} {g : Fs} (h : g path = w.fs path) :
    loadStore C J { w with fs := g } path mode = (fun r => (r.1, { r.2 with fs := g })) <$> loadStore C J w path mode := by
  unfold loadStore Model.Secrets.World.exist Model.Secrets.World.readFile
  dsimp only
  cases w.term.read with
  | mk pass t =>
    cases pass with
    | none => rfl
    | some pass =>
      simp only [h]
      cases w.fs path with
      | none => rfl
      | some d =>
        by_cases hd : path = dash
        · simp only [hd, if_true, Option.isSome_some]
          cases unmarshalSecretStore C J w.stdin pass mode <;> rfl
        · simp only [if_neg hd, Option.isSome_some, if_true]
          cases unmarshalSecretStore C J d pass mode <;> rfl

section secrets
open Verif.Model.Secrets
variable {path : Path} {x : Option Bytes}

theorem addPlain_frame (w : World) (ps : SecretStore) (l : Bytes) (ow : Bool) :
    addPlain (hide path x w) ps l ow = hide3 path x <$> addPlain w ps l ow := by
  unfold addPlain
  dsimp only
  split
  · rfl
  · show (match (hide path x w).term.read.1 with | none => _ | some password => _) = _
    cases h : w.term.read with
    | mk p t =>
      have h' : (hide path x w).term.read = (p, t) := h
      rw [h']
      cases p with
      | none => rfl
      | some p =>
        dsimp only
        split
        · rfl
        · cases hs : ps.has l with
          | true =>
            simp only [if_true]
            cases hf : fetch ps l with
            | panic => rfl
            | ok r =>
              simp only [Res.ok_bind]
              unfold assign
              cases ps.store <;> rfl
          | false =>
            simp only [Bool.false_eq_true, if_false, Res.pure_eq, Res.ok_bind]
            unfold assign
            cases ps.store <;> rfl

theorem editMeta_frame (w : World) (ps : SecretStore) (l : Bytes) :
    editMeta (hide path x w) ps l = hide3 path x <$> editMeta w ps l := by
  unfold editMeta
  cases hf : fetch ps l with
  | panic => rfl
  | ok r =>
    have h0 : (hide path x w).term = w.term := rfl
    simp only [Res.ok_bind, h0]
    cases metaLoop (r.metadata.getD Map.empty) w.term.answers with
    | mk md y =>
      obtain ⟨ok, as⟩ := y
      cases ok <;> simp only [Bool.not_true, Bool.not_false, Bool.false_eq_true, if_false, if_true, assign] <;> cases ps.store <;> rfl

theorem addSecret_frame (w : World) (ps : SecretStore) (cfg : Config) (l : Bytes) :
    addSecret (hide path x w) ps cfg l = hide3 path x <$> addSecret w ps cfg l := by
  unfold addSecret
  split
  · unfold addMeta
    split
    · exact editMeta_frame w ps l
    · rw [addPlain_frame]
      cases addPlain w ps l cfg.overwrite with
      | panic => rfl
      | ok r =>
        obtain ⟨b, ps', w'⟩ := r
        cases b with
        | false => rfl
        | true => exact editMeta_frame w' ps' l
  · exact addPlain_frame w ps l _

theorem remove_frame (fuel : Nat) (w : World) (ps : SecretStore) (cfg : Config) (l : Bytes) :
    Model.Secrets.remove fuel (hide path x w) ps cfg l = (Model.Secrets.remove fuel w ps cfg l).map (hide3 path x <$> ·) := by
  unfold Model.Secrets.remove
  split
  · unfold removeMeta
    split
    · rfl
    · cases fetch ps l with
      | panic => rfl
      | ok r =>
        dsimp only
        show (match removeMetaLoop fuel r.metadata w.term.answers with | none => none | some (md, as) => _) = _
        cases removeMetaLoop fuel r.metadata w.term.answers with
        | none => rfl
        | some y =>
          obtain ⟨md, as⟩ := y
          simp only [Option.map_some, assign]
          cases ps.store <;> rfl
  · split <;> rfl

theorem merge_frame (ord : Map (Option SecretRecord) → List Bytes) (w : World) (ps : SecretStore) (q : Bytes) (mode : Int) (hq : q ≠ path) :
    Model.Secrets.merge C J ord (hide path x w) ps q mode = hide3 path x <$> Model.Secrets.merge C J ord w ps q mode := by
  unfold Model.Secrets.merge
  have h0 : (hide path x w).term = w.term := rfl
  rw [h0]
  cases h : w.term.read with
  | mk p t =>
    cases p with
    | none => rfl
    | some p =>
      dsimp only
      have hr : ({ hide path x w with term := t } : World).readFile q = ({ w with term := t } : World).readFile q := by
        unfold World.readFile hide
        dsimp only
        rw [put_other _ _ hq]
      rw [hr]
      cases ({ w with term := t } : World).readFile q with
      | none => rfl
      | some d =>
        dsimp only
        cases unmarshalSecretStore C J d p mode with
        | panic => rfl
        | ok o =>
          cases o with
          | none => rfl
          | some o =>
            simp only [Res.ok_bind]
            show (match t.now with | (now, t) => _) = _
            cases t.now with
            | mk now t =>
              dsimp only
              cases SecretStore.merge ps o (ord (o.store.getD Map.empty)) now <;> rfl

theorem multi_frame (w : World) (ps : SecretStore) (cfg : Config) :
    Model.Secrets.multi (hide path x w) ps cfg = hide3 path x <$> Model.Secrets.multi w ps cfg := by
  unfold Model.Secrets.multi
  have h0 : (hide path x w).term = w.term := rfl
  rw [h0]
  cases multiLoop cfg.overwrite w.term.answers w.term.clock ps <;> rfl

theorem chpass_frame (w : World) (ps : SecretStore) : chpass (hide path x w) ps = hide3 path x (chpass w ps) := by
  unfold chpass
  have h0 : (hide path x w).term = w.term := rfl
  rw [h0]
  cases w.term.read with
  | mk p t =>
    cases p with
    | none => rfl
    | some p =>
      dsimp only
      split <;> rfl

/-- No command but -merge looks at a file, and -merge only at the other store. -/
theorem run_frame (ord : Map (Option SecretRecord) → List Bytes) (fuel : Nat) (c : Cmd) (w : World) (ps : SecretStore) (cfg : Config) (mode : Int)
    (hm : c = .merge → cfg.args.headD [] ≠ path) :
    Cmd.run C J ord fuel c (hide path x w) ps cfg mode = (Cmd.run C J ord fuel c w ps cfg mode).map (hide3 path x <$> ·) := by
  cases c with
  | «show» =>
    simp only [Cmd.run, Option.map_some]
    cases showSecret ps (cfg.args.headD []) <;> rfl
  | store => simp only [Cmd.run, Option.map_some, addSecret_frame]
  | list => rfl
  | passwd => simp only [Cmd.run, Option.map_some, chpass_frame]; rfl
  | remove => exact remove_frame fuel w ps cfg _
  | multi => simp only [Cmd.run, Option.map_some, multi_frame]
  | merge => simp only [Cmd.run, Option.map_some, merge_frame C J ord w ps _ mode (hm rfl)]

end secrets

/-- What writing the store at the end does. -/
theorem write_frame {w : World} {ps : SecretStore} {path : Path} {x : Option Bytes} {mode : Int} (hd : path ≠ dash) :
    (∃ o, marshalSecretStore C J ps mode w.rng = .ok o ∧ o.1 ≠ none ∧ w.write = .done ∧
      ∃ w1, writeStore C J w ps path mode = .ok (w1, true) ∧ writeStore C J (hide path x w) ps path mode = .ok (w1, true)) ∨
    (∃ w1, writeStore C J w ps path mode = .ok (w1, false) ∧ writeStore C J (hide path x w) ps path mode = .ok (hide path x w1, false) ∧ w1.fs = w.fs) ∨
    (∃ k w1 w2, w.write = .failsAfter k ∧ writeStore C J w ps path mode = .ok (w1, false) ∧ writeStore C J (hide path x w) ps path mode = .ok (w2, false)) ∨
    (writeStore C J w ps path mode = .panic ∧ writeStore C J (hide path x w) ps path mode = .panic) := by
  obtain ⟨term, rng0, fs, write, stdin, stdout⟩ := w
  unfold writeStore hide
  dsimp only
  cases marshalSecretStore C J ps mode rng0 with
  | panic => exact Or.inr (Or.inr (Or.inr ⟨rfl, rfl⟩))
  | ok o =>
    obtain ⟨out, ps', rng⟩ := o
    simp only [Res.ok_bind]
    cases out with
    | none => exact Or.inr (Or.inl ⟨_, rfl, rfl, rfl⟩)
    | some d =>
      dsimp only [Res.pure_eq]
      unfold Model.Secrets.World.writeFile
      simp only [if_neg hd]
      cases write with
      | done =>
        refine Or.inl ⟨_, rfl, by simp, rfl, ⟨term, rng, fs.set path d, .done, stdin, stdout⟩, rfl, ?_⟩
        unfold Go.writeFile
        dsimp only
        rw [set_put]
      | openFails => exact Or.inr (Or.inl ⟨_, rfl, rfl, rfl⟩)
      | failsAfter k => exact Or.inr (Or.inr (Or.inl ⟨k, _, _, rfl, rfl, rfl⟩))

/-- The rest of a run of secrets does not look at the store file. -/
theorem secrets_frame {ord : Map (Option SecretRecord) → List Bytes} {fuel : Nat} {c : Model.Secrets.Cmd} {cfg : Model.Secrets.Config} {mode : Int}
    {path : Path} {x : Option Bytes} {ps : SecretStore} {w w' : World} {n : Nat} (hd : path ≠ dash) (hm : c = .merge → cfg.args.headD [] ≠ path)
    (h : secretsRest C J ord fuel c cfg mode path ps (hide path x w) = some (.ok (n, w'))) :
    (n = 0 ∧ secretsRest C J ord fuel c cfg mode path ps w = some (.ok (0, w'))) ∨
    (∃ w0, secretsRest C J ord fuel c cfg mode path ps w = some (.ok (n, w0)) ∧ w' = hide path x w0 ∧ (n = 0 → c.shouldWrite = false)) ∨
    (n = 1 ∧ ∃ k, w.write = .failsAfter k) := by
  unfold secretsRest at h ⊢
  rw [run_frame C J ord fuel c w ps cfg mode hm] at h
  cases hr : Model.Secrets.Cmd.run C J ord fuel c w ps cfg mode with
  | none => rw [hr] at h; cases h
  | some r =>
    rw [hr] at h
    cases r with
    | panic => cases h
    | ok r =>
      obtain ⟨b, ps', w1⟩ := r
      simp only [Option.map_some, Res.map_ok] at h
      cases b with
      | false =>
        cases h
        exact Or.inr (Or.inl ⟨w1, rfl, rfl, fun h => by cases h⟩)
      | true =>
        dsimp only at h ⊢
        cases hs : c.shouldWrite with
        | false =>
          rw [hs] at h
          cases h
          exact Or.inr (Or.inl ⟨w1, rfl, rfl, fun _ => rfl⟩)
        | true =>
          rw [hs] at h
          simp only [if_true, Option.some.injEq] at h ⊢
          have e : ({ hide path x w1 with term := (hide path x w1).term.now.2 } : World) = hide path x { w1 with term := w1.term.now.2 } := rfl
          have hw1 : w1.write = w.write := by
            obtain ⟨t, rfl⟩ := Proofs.Secrets.run_world C J hr
            rfl
          change ((writeStore C J { hide path x w1 with term := (hide path x w1).term.now.2 } _ path mode) >>= _) = _ at h
          rw [e] at h
          rcases write_frame C J (w := { w1 with term := w1.term.now.2 }) (ps := { ps' with timestamp := w1.term.now.1 }) (x := x) (mode := mode) hd with
            ⟨o, -, -, -, w2, q1, q2⟩ | ⟨w2, q1, q2, -⟩ | ⟨k, w2, w3, q0, q1, q2⟩ | ⟨q1, q2⟩
          · rw [show (hide path x w1).term.now.1 = w1.term.now.1 from rfl, q2] at h
            cases h
            left
            refine ⟨rfl, ?_⟩
            show ((writeStore C J { w1 with term := w1.term.now.2 } { ps' with timestamp := w1.term.now.1 } path mode) >>= _) = _
            rw [q1]
            rfl
          · rw [show (hide path x w1).term.now.1 = w1.term.now.1 from rfl, q2] at h
            cases h
            right; left
            refine ⟨w2, ?_, rfl, fun h => by cases h⟩
            show ((writeStore C J { w1 with term := w1.term.now.2 } { ps' with timestamp := w1.term.now.1 } path mode) >>= _) = _
            rw [q1]
            rfl
          · rw [show (hide path x w1).term.now.1 = w1.term.now.1 from rfl, q2] at h
            cases h
            exact Or.inr (Or.inr ⟨rfl, k, by rw [← hw1]; exact q0⟩)
          · rw [show (hide path x w1).term.now.1 = w1.term.now.1 from rfl, q2] at h
            cases h

section otpc
open Verif.Model.Otpc
variable (T : TwoFactor) (U : Case) {path : Path} {x : Option Bytes}

theorem otp_frame (w : World) (o : Otp) : otp T (hide path x w) o = hide3 path x <$> otp T w o := by
  cases o with
  | hotp key c d =>
    unfold otp
    dsimp only
    cases T.hcode key c d <;> rfl
  | totp key s d =>
    unfold otp
    have h0 : (hide path x w).term = w.term := rfl
    rw [h0]
    cases w.term.now with
    | mk now t =>
      dsimp only
      cases T.tcode key s d now <;> rfl

theorem addHotp_frame (w : World) (l k : Bytes) : addHotp T (hide path x w) l k = hide2 path x <$> addHotp T w l k := by
  unfold addHotp
  have h0 : (hide path x w).term = w.term := rfl
  rw [h0]
  cases w.term.read with
  | mk i1 t =>
    cases i1 with
    | none => rfl
    | some i1 =>
      dsimp only
      cases atoi (orDefault (ascii "0") i1) with
      | none => rfl
      | some d =>
        dsimp only
        cases t.read with
        | mk i2 t =>
          cases i2 with
          | none => rfl
          | some i2 =>
            dsimp only
            cases atoi (orDefault (ascii "6") i2) with
            | none => rfl
            | some n =>
              dsimp only
              cases decodeString k with
              | none => rfl
              | some key =>
                dsimp only
                rw [show ({ term := t, rng := (hide path x w).rng, fs := (hide path x w).fs, write := (hide path x w).write, stdin := (hide path x w).stdin, stdout := (hide path x w).stdout } : World) = hide path x { w with term := t } from rfl,
                  otp_frame]
                cases otp T { w with term := t } (.hotp key (BitVec.ofInt 64 d) n) <;> rfl

theorem addTotp_frame (w : World) (l k : Bytes) : addTotp T (hide path x w) l k = hide2 path x <$> addTotp T w l k := by
  unfold addTotp
  have h0 : (hide path x w).term = w.term := rfl
  rw [h0]
  cases w.term.read with
  | mk i1 t =>
    cases i1 with
    | none => rfl
    | some i1 =>
      dsimp only
      cases T.duration (orDefault (ascii "30s") i1) with
      | none => rfl
      | some d =>
        obtain ⟨step, str⟩ := d
        dsimp only
        cases t.read with
        | mk i2 t =>
          cases i2 with
          | none => rfl
          | some i2 =>
            dsimp only
            cases atoi (orDefault (ascii "6") i2) with
            | none => rfl
            | some n =>
              dsimp only
              cases decodeString k with
              | none => rfl
              | some key =>
                dsimp only
                rw [show ({ term := t, rng := (hide path x w).rng, fs := (hide path x w).fs, write := (hide path x w).write, stdin := (hide path x w).stdin, stdout := (hide path x w).stdout } : World) = hide path x { w with term := t } from rfl,
                  otp_frame]
                cases otp T { w with term := t } (.totp key step n) <;> rfl

theorem addGoogle_frame (w : World) (l k : Bytes) : addGoogle T (hide path x w) l k = hide2 path x <$> addGoogle T w l k := by
  unfold addGoogle
  cases T.google k with
  | none => rfl
  | some key =>
    dsimp only
    rw [otp_frame]
    cases otp T w (.totp key 30 6) <;> rfl

theorem add_frame (w : World) (ps : SecretStore) (cfg : Config) (l : Bytes) :
    addSecret T U (hide path x w) ps cfg l = hide3 path x <$> addSecret T U w ps cfg l := by
  unfold addSecret
  split
  · rfl
  · have h0 : (hide path x w).term = w.term := rfl
    rw [h0]
    cases w.term.read with
    | mk p t =>
      cases p with
      | none => rfl
      | some p =>
        dsimp only
        have hr : makeRecord T (hide path x { w with term := t }) cfg.otpType l (sanitiseSecret U p) =
            hide2 path x <$> makeRecord T { w with term := t } cfg.otpType l (sanitiseSecret U p) := by
          unfold makeRecord
          cases cfg.otpType with
          | hotp => exact addHotp_frame T _ _ _
          | totp => exact addTotp_frame T _ _ _
          | google => exact addGoogle_frame T _ _ _
          | unknown => rfl
        rw [show ({ term := t, rng := (hide path x w).rng, fs := (hide path x w).fs, write := (hide path x w).write, stdin := (hide path x w).stdin, stdout := (hide path x w).stdout } : World) = hide path x { w with term := t } from rfl, hr]
        cases makeRecord T { w with term := t } cfg.otpType l (sanitiseSecret U p) with
        | panic => rfl
        | ok r =>
          obtain ⟨m, w1⟩ := r
          cases m with
          | none => rfl
          | some m =>
            obtain ⟨r, code⟩ := m
            simp only [Res.map_ok, Res.ok_bind, assign]
            cases ps.store <;> rfl

theorem show_frame (w : World) (ps : SecretStore) (l : Bytes) :
    showSecret T (hide path x w) ps l = hide3 path x <$> showSecret T w ps l := by
  unfold showSecret
  split
  · rfl
  · cases fetch ps l with
    | panic => rfl
    | ok r =>
      simp only [Res.ok_bind]
      cases T.fromURL r.secret with
      | none => rfl
      | some y =>
        obtain ⟨o, l'⟩ := y
        dsimp only
        cases kindOf r o with
        | unknown => rfl
        | hotp =>
          dsimp only
          rw [otp_frame]
          cases otp T w o with
          | panic => rfl
          | ok y =>
            obtain ⟨code, o', w1⟩ := y
            cases o' with
            | totp => rfl
            | hotp k c d =>
              simp only [Res.map_ok, Res.ok_bind, assign]
              cases ps.store <;> rfl
        | totp =>
          dsimp only
          rw [otp_frame]
          cases otp T w o <;> rfl
        | google =>
          dsimp only
          rw [show ({ term := (hide path x w).term.now.2, rng := (hide path x w).rng, fs := (hide path x w).fs, write := (hide path x w).write, stdin := (hide path x w).stdin, stdout := (hide path x w).stdout } : World) = hide path x { w with term := w.term.now.2 } from rfl, otp_frame]
          cases otp T { w with term := w.term.now.2 } o <;> rfl

end otpc

section journal
open Verif.Model.Journal
variable {path : Path} {x : Option Bytes}

theorem runEditor_frame (e : Env) (w : World) (data : Bytes) (hp : e.temp ≠ some path) :
    runEditor e (hide path x w) data = hide2 path x (runEditor e w data) := by
  unfold runEditor
  cases ht : e.temp with
  | none => rfl
  | some n =>
    have hn : n ≠ path := fun h => hp (by rw [ht, h])
    dsimp only
    have h1 : (Go.writeFile e.write ((hide path x w).fs.set n []) n data).1 = put (Go.writeFile e.write (w.fs.set n []) n data).1 path x := by
      show (Go.writeFile e.write ((put w.fs path x).set n []) n data).1 = _
      unfold Go.writeFile
      cases e.write with
      | done => dsimp only; rw [put_set _ _ _ hn, put_set _ _ _ hn]
      | openFails => dsimp only; rw [put_set _ _ _ hn]
      | failsAfter k => dsimp only; rw [put_set _ _ _ hn, put_set _ _ _ hn]
    rw [h1, put_other _ _ hn]
    generalize (Go.writeFile e.write (w.fs.set n []) n data).1 = fs
    rw [put_comm _ _ _ hn, put_comm _ _ _ hn]
    unfold hide hide2
    cases e.removes <;> rfl

theorem newEntry_frame (e : Env) (w : World) (title : Bytes) (hp : e.temp ≠ some path) :
    newEntry e (hide path x w) title = hide2 path x (newEntry e w title) := by
  unfold newEntry
  cases e.temp with
  | none => rfl
  | some n => exact runEditor_frame e { w with term := w.term.now.2 } _ hp

theorem editEntry_frame (e : Env) (w : World) (ps : SecretStore) (title : Bytes) (hp : e.temp ≠ some path) :
    editEntry e (hide path x w) ps title = hide3 path x <$> editEntry e w ps title := by
  unfold editEntry
  split
  · rfl
  · cases e.temp with
    | none => rfl
    | some n =>
      cases fetch ps title with
      | panic => rfl
      | ok r =>
        simp only [Res.ok_bind]
        rw [runEditor_frame e w r.secret hp]
        cases runEditor e w r.secret with
        | mk o w1 =>
          cases o with
          | none => rfl
          | some d =>
            simp only [assign]
            cases ps.store <;> rfl

theorem addEntry_frame (e : Env) (w : World) (ps : SecretStore) (title : Bytes) (hp : e.temp ≠ some path) :
    addEntry e (hide path x w) ps title = hide3 path x <$> addEntry e w ps title := by
  unfold addEntry
  rw [newEntry_frame e w title hp]
  cases newEntry e w title with
  | mk o w1 =>
    cases o with
    | none => rfl
    | some d =>
      simp only [assign]
      cases ps.store <;> rfl

theorem writeNew_frame (e : Env) (w : World) (ps : SecretStore) (arg : Bytes) (hp : e.temp ≠ some path) :
    writeNew e (hide path x w) ps arg = hide3 path x <$> writeNew e w ps arg := by
  unfold writeNew
  dsimp only
  split
  · have h0 : (hide path x w).term = w.term := rfl
    rw [h0]
    cases w.term.read with
    | mk a t =>
      cases a with
      | none => rfl
      | some a =>
        dsimp only
        split
        · exact editEntry_frame e { w with term := t } ps arg hp
        · cases t.read with
          | mk b t =>
            cases b with
            | none => rfl
            | some b =>
              dsimp only
              split
              · rfl
              · exact addEntry_frame e { w with term := t } ps b hp
  · exact addEntry_frame e w ps _ hp

end journal

/-- The end of the three programs does not look at the store file either. -/
theorem finish_frame {β : Type} {w : World} {ps : SecretStore} {path : Path} {x : Option Bytes} {mode : Int} (hd : path ≠ dash)
    {g : Bool → β} {w' : World} {r : β}
    (h : (writeStore C J (hide path x w) ps path mode >>= fun y => Res.ok (g y.2, y.1)) = .ok (r, w')) :
    (r = g true ∧ (writeStore C J w ps path mode >>= fun y => Res.ok (g y.2, y.1)) = .ok (g true, w')) ∨
    (r = g false ∧ ∃ w0, (writeStore C J w ps path mode >>= fun y => Res.ok (g y.2, y.1)) = .ok (g false, w0) ∧ w' = hide path x w0) ∨
    (r = g false ∧ ∃ k, w.write = .failsAfter k) := by
  rcases write_frame C J (w := w) (ps := ps) (x := x) (mode := mode) hd with ⟨o, -, -, -, w2, q1, q2⟩ | ⟨w2, q1, q2, -⟩ | ⟨k, w2, w3, q0, q1, q2⟩ | ⟨q1, q2⟩
  · rw [q2] at h
    cases h
    rw [q1]
    exact Or.inl ⟨rfl, rfl⟩
  · rw [q2] at h
    cases h
    rw [q1]
    exact Or.inr (Or.inl ⟨rfl, w2, rfl, rfl⟩)
  · rw [q2] at h
    cases h
    exact Or.inr (Or.inr ⟨rfl, k, q0⟩)
  · rw [q2] at h
    cases h

section
open Verif.Model.Otpc
variable (T : TwoFactor) (U : Case)

theorem save_frame {path : Path} {x : Option Bytes} {ps : SecretStore} {mode : Int} {codes : List Bytes} {w w' : World} {o : Outcome} (hd : path ≠ dash)
    (h : save C J (hide path x w) ps path mode codes = .ok (o, w')) :
    (o = .exit 0 codes ∧ save C J w ps path mode codes = .ok (o, w')) ∨
    (o = .exit 1 codes ∧ ∃ w0, save C J w ps path mode codes = .ok (o, w0) ∧ w' = hide path x w0) ∨ (o = .exit 1 codes ∧ ∃ k, w.write = .failsAfter k) := by
  have := finish_frame C J (w := { w with term := w.term.now.2 }) (ps := { ps with timestamp := w.term.now.1 }) (mode := mode) hd
    (g := fun ok => Outcome.exit (if ok then 0 else 1) codes) h
  rcases this with ⟨rfl, q⟩ | ⟨rfl, w0, q, rfl⟩ | ⟨rfl, k, q⟩
  · exact Or.inl ⟨rfl, q⟩
  · exact Or.inr (Or.inl ⟨rfl, w0, q, rfl⟩)
  · exact Or.inr (Or.inr ⟨rfl, k, q⟩)

theorem show_write {w w1 : World} {ps ps' : SecretStore} {l : Bytes} {o : Shown}
    (h : showSecret T w ps l = .ok (o, ps', w1)) : w1.write = w.write := by
  unfold showSecret at h
  split at h
  · cases h; rfl
  · obtain ⟨r, -, h⟩ := Res.bind_eq_ok.mp h
    split at h
    · cases h; rfl
    · split at h
      · cases h; rfl
      · obtain ⟨⟨c, o', w2⟩, h1, h⟩ := Res.bind_eq_ok.mp h
        obtain ⟨t, rfl⟩ := Proofs.Otpc.otp_term T h1
        dsimp only at h
        split at h
        · cases h
        · obtain ⟨p1, -, h⟩ := Res.bind_eq_ok.mp h
          obtain ⟨p2, -, h⟩ := Res.bind_eq_ok.mp h
          cases h; rfl
      · obtain ⟨⟨c, o', w2⟩, h1, h⟩ := Res.bind_eq_ok.mp h
        obtain ⟨t, rfl⟩ := Proofs.Otpc.otp_term T h1
        cases h; rfl
      · obtain ⟨⟨c, o', w2⟩, h1, h⟩ := Res.bind_eq_ok.mp h
        obtain ⟨t, rfl⟩ := Proofs.Otpc.otp_term T h1
        cases h; rfl

theorem add_write {w w1 : World} {ps ps' : SecretStore} {cfg : Config} {l : Bytes} {o : Option Bytes}
    (ho : cfg.overwrite = false) (h : addSecret T U w ps cfg l = .ok (o, ps', w1)) : w1.write = w.write := by
  cases o with
  | none =>
    obtain ⟨t, rfl⟩ := Proofs.Otpc.addSecret_none T U h
    rfl
  | some code =>
    obtain ⟨secret, rest, r, m, -, -, -, h2, -⟩ := Proofs.Otpc.addSecret_some T U ho h
    obtain ⟨t, rfl⟩ := (Proofs.Otpc.makeRecord_some T h2).world
    rfl

/-- The rest of a run of otpc does not look at the store file. -/
theorem otpc_frame {f : Flags} {args : List Bytes} {path : Path} {x : Option Bytes} {ps : SecretStore} {w w' : World} {o : Outcome} (hd : path ≠ dash)
    (hq : f.store = true ∨ f.qr = false) (h : otpcRest C J T U f args path ps (hide path x w) = .ok (o, w')) :
    (∃ codes, codes ≠ [] ∧ o = .exit 0 codes ∧ otpcRest C J T U f args path ps w = .ok (o, w')) ∨
    (∃ w0, otpcRest C J T U f args path ps w = .ok (o, w0) ∧ w' = hide path x w0 ∧ ∀ codes, o ≠ .exit 0 codes) ∨
    ((∃ codes, o = .exit 1 codes) ∧ ∃ k, w.write = .failsAfter k) := by
  unfold otpcRest at h ⊢
  cases hs : f.store with
  | true =>
    simp only [hs, if_true, add_frame] at h ⊢
    cases hr : addSecret T U w ps ⟨args, parseOTPKind f.kind, false⟩ (args.headD []) with
    | panic => rw [hr] at h; cases h
    | ok r =>
      obtain ⟨c, ps', w1⟩ := r
      rw [hr] at h
      simp only [Res.map_ok, Res.ok_bind] at h ⊢
      cases c with
      | none =>
        cases h
        exact Or.inr (Or.inl ⟨w1, rfl, rfl, fun _ h => by cases h⟩)
      | some code =>
        dsimp only at h ⊢
        rcases save_frame C J hd h with ⟨rfl, q⟩ | ⟨rfl, w0, q, rfl⟩ | ⟨rfl, k, q⟩
        · exact Or.inl ⟨_, by simp, rfl, q⟩
        · exact Or.inr (Or.inl ⟨w0, q, rfl, fun _ h => by cases h⟩)
        · exact Or.inr (Or.inr ⟨⟨_, rfl⟩, k, by rw [← add_write T U rfl hr]; exact q⟩)
  | false =>
    have hqr : f.qr = false := hq.resolve_left (by simp [hs])
    simp only [hs, hqr, Bool.false_eq_true, if_false, show_frame] at h ⊢
    cases hr : showSecret T w ps (args.headD []) with
    | panic => rw [hr] at h; cases h
    | ok r =>
      obtain ⟨c, ps', w1⟩ := r
      rw [hr] at h
      simp only [Res.map_ok, Res.ok_bind] at h ⊢
      cases c with
      | failed =>
        cases h
        exact Or.inr (Or.inl ⟨w1, rfl, rfl, fun _ h => by cases h⟩)
      | forever b =>
        cases h
        exact Or.inr (Or.inl ⟨w1, rfl, rfl, fun _ h => by cases h⟩)
      | once code =>
        dsimp only at h ⊢
        rcases save_frame C J hd h with ⟨rfl, q⟩ | ⟨rfl, w0, q, rfl⟩ | ⟨rfl, k, q⟩
        · exact Or.inl ⟨_, by simp, rfl, q⟩
        · exact Or.inr (Or.inl ⟨w0, q, rfl, fun _ h => by cases h⟩)
        · exact Or.inr (Or.inr ⟨⟨_, rfl⟩, k, by rw [← show_write T hr]; exact q⟩)

end

section
open Verif.Model.Journal

theorem journalEnd_frame {path : Path} {x : Option Bytes} {mode : Int} {r : Bool × SecretStore × World} {w' : World} {n : Nat} {o : Output} (hd : path ≠ dash)
    (h : finish C J path mode (hide3 path x r) = .ok (n, o, w')) :
    (n = 0 ∧ finish C J path mode r = .ok (n, o, w')) ∨
    (n = 1 ∧ ∃ w0, finish C J path mode r = .ok (n, o, w0) ∧ w' = hide path x w0) ∨ (n = 1 ∧ ∃ k, r.2.2.write = .failsAfter k) := by
  obtain ⟨b, ps, w⟩ := r
  cases b with
  | false =>
    cases h
    exact Or.inr (Or.inl ⟨rfl, w, rfl, rfl⟩)
  | true =>
    have h2 : (writeStore C J (hide path x { w with term := w.term.now.2 }) { ps with timestamp := w.term.now.1 } path mode >>=
        fun y => Res.ok ((if y.2 then 0 else 1, Output.nothing), y.1)) = .ok ((n, o), w') := by
      have h' : (writeStore C J (hide path x { w with term := w.term.now.2 }) { ps with timestamp := w.term.now.1 } path mode >>=
        fun y => Res.ok (if y.2 then 0 else 1, Output.nothing, y.1)) = .ok (n, o, w') := h
      obtain ⟨y, h1, h2⟩ := Res.bind_eq_ok.mp h'
      cases h2
      rw [h1]
      rfl
    have back : ∀ {w1 : World} {n : Nat} {o : Output}, (writeStore C J { w with term := w.term.now.2 } { ps with timestamp := w.term.now.1 } path mode >>=
        fun y => Res.ok ((if y.2 then 0 else 1, Output.nothing), y.1)) = .ok ((n, o), w1) → finish C J path mode (true, ps, w) = .ok (n, o, w1) := by
      intro w1 n o h
      obtain ⟨y, h1, h2⟩ := Res.bind_eq_ok.mp h
      cases h2
      show (writeStore C J { w with term := w.term.now.2 } { ps with timestamp := w.term.now.1 } path mode >>=
        fun y => Res.ok (if y.2 then 0 else 1, Output.nothing, y.1)) = _
      rw [h1]
      rfl
    rcases finish_frame C J hd (g := fun ok => ((if ok then 0 else 1 : Nat), Output.nothing)) h2 with ⟨q0, q⟩ | ⟨q0, w0, q, rfl⟩ | ⟨q0, k, q⟩
    · cases q0
      exact Or.inl ⟨rfl, back q⟩
    · cases q0
      exact Or.inr (Or.inl ⟨rfl, w0, back q, rfl⟩)
    · cases q0
      exact Or.inr (Or.inr ⟨rfl, k, q⟩)

/-- The rest of a run of journal does not look at the file of the journal. -/
theorem journal_frame {ord : Map (Option SecretRecord) → List Bytes} {e : Env} {f : Flags} {args : List Bytes} {path : Path} {x : Option Bytes}
    {ps : SecretStore} {w w' : World} {n : Nat} {o : Output} (hd : path ≠ dash) (hp : e.temp ≠ some path)
    (h : run C J ord e f args path (hide path x w) ps = .ok (n, o, w')) :
    (n = 0 ∧ (f.edit = true ∨ f.list = false ∧ f.write = true) ∧ run C J ord e f args path w ps = .ok (n, o, w')) ∨
    (∃ w0, run C J ord e f args path w ps = .ok (n, o, w0) ∧ w' = hide path x w0 ∧ (n = 0 → f.edit = false ∧ (f.list = true ∨ f.write = false))) ∨
    (n = 1 ∧ ∃ k, w.write = .failsAfter k) := by
  unfold run at h ⊢
  cases he : f.edit with
  | true =>
    simp only [he, if_true, editEntry_frame e w ps _ hp] at h ⊢
    cases hr : editEntry e w ps (args.headD []) with
    | panic => rw [hr] at h; cases h
    | ok r =>
      rw [hr] at h
      simp only [Res.map_ok, Res.ok_bind] at h ⊢
      rcases journalEnd_frame C J hd h with ⟨rfl, q⟩ | ⟨rfl, w0, q, rfl⟩ | ⟨rfl, k, q⟩
      · exact Or.inl ⟨rfl, Or.inl trivial, q⟩
      · exact Or.inr (Or.inl ⟨w0, q, rfl, fun h => by cases h⟩)
      · refine Or.inr (Or.inr ⟨rfl, k, ?_⟩)
        obtain ⟨b, ps', w1⟩ := r
        obtain ⟨t, fs, rfl⟩ := (Proofs.Journal.editEntry_some hr).1.same
        exact q
  | false =>
    cases hl : f.list with
    | true =>
      simp only [he, hl, Bool.false_eq_true, if_false, if_true] at h ⊢
      cases hr : listEntries ps (ord (ps.store.getD Map.empty)) with
      | panic => rw [hr] at h; cases h
      | ok lines =>
        rw [hr] at h
        cases h
        exact Or.inr (Or.inl ⟨w, rfl, rfl, fun _ => ⟨trivial, Or.inl trivial⟩⟩)
    | false =>
      cases hw : f.write with
      | true =>
        simp only [he, hl, hw, Bool.false_eq_true, if_false, if_true, writeNew_frame e w ps _ hp] at h ⊢
        cases hr : writeNew e w ps (args.headD []) with
        | panic => rw [hr] at h; cases h
        | ok r =>
          rw [hr] at h
          simp only [Res.map_ok, Res.ok_bind] at h ⊢
          rcases journalEnd_frame C J hd h with ⟨rfl, q⟩ | ⟨rfl, w0, q, rfl⟩ | ⟨rfl, k, q⟩
          · exact Or.inl ⟨rfl, Or.inr ⟨trivial, trivial⟩, q⟩
          · exact Or.inr (Or.inl ⟨w0, q, rfl, fun h => by cases h⟩)
          · refine Or.inr (Or.inr ⟨rfl, k, ?_⟩)
            obtain ⟨b, ps', w1⟩ := r
            obtain ⟨t, fs, rfl⟩ := (Proofs.Journal.writeNew_some hr).1.same
            exact q
      | false =>
        simp only [he, hl, hw, Bool.false_eq_true, if_false] at h ⊢
        cases hr : showEntry ps (args.headD []) with
        | panic => rw [hr] at h; cases h
        | ok t =>
          rw [hr] at h
          cases t with
          | none =>
            cases h
            exact Or.inr (Or.inl ⟨w, rfl, rfl, fun _ => ⟨trivial, Or.inr trivial⟩⟩)
          | some t =>
            cases h
            exact Or.inr (Or.inl ⟨w, rfl, rfl, fun _ => ⟨trivial, Or.inr trivial⟩⟩)

end

end Verif.Proofs.Meanwhile
