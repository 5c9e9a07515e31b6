import Verif.Props.Randomness
import Verif.Proofs.SecretscliKeeps
import Verif.Proofs.Journal
/-! The salts and nonces of the stores that programs save (C241). -/

namespace Verif.Props.RandomnessStores
open Verif Verif.Go Verif.Model.Util Verif.Model.SecretStore
open Verif.Model.Secrets (World dash)
open Verif.Props.Randomness

variable (C : Crypto) (J : Json)

/-- The file under `path` is as it was, or begins with bytes that the PRNG has produced meanwhile: the salt and the nonce. -/
def Sealed (path : Bytes) (w w' : World) : Prop :=
  ∃ gap used rest, w.rng = gap ++ used ++ rest ++ w'.rng ∧
    (w'.fs path = w.fs path ∨ ∃ b, w'.fs path = some b ∧ used.length = 56 ∧ b.take 56 = used.take b.length)

theorem Sealed.same {path : Bytes} {w w' : World} (h1 : w'.rng = w.rng) (h2 : w'.fs path = w.fs path) : Sealed path w w' :=
  ⟨[], [], [], by simp [h1], .inl h2⟩

theorem Sealed.refl (path : Bytes) (w : World) : Sealed path w w := .same rfl rfl

theorem Sealed.trans {path : Bytes} {a b c : World} (h1 : Sealed path a b) (h2 : Sealed path b c) : Sealed path a c := by
  obtain ⟨g1, u1, r1, e1, f1⟩ := h1
  obtain ⟨g2, u2, r2, e2, f2⟩ := h2
  rcases f2 with f2 | f2
  · rcases f1 with f1 | ⟨x, f1, f3⟩
    · exact ⟨g1, u1, r1 ++ g2 ++ u2 ++ r2, by rw [e1, e2]; simp, .inl (f2.trans f1)⟩
    · exact ⟨g1, u1, r1 ++ g2 ++ u2 ++ r2, by rw [e1, e2]; simp, .inr ⟨x, f2.trans f1, f3⟩⟩
  · exact ⟨g1 ++ u1 ++ r1 ++ g2, u2, r2, by rw [e1, e2]; simp, .inr f2⟩

/-- Nothing but the terminal has changed before. -/
theorem Sealed.after {path : Bytes} {w w1 w' : World} (h : Sealed path w1 w') (h1 : ∃ t, w1 = { w with term := t }) : Sealed path w w' := by
  obtain ⟨t, rfl⟩ := h1
  exact h

theorem marshal_rng {s s' : SecretStore} {mode : Int} {rng rng' : Rng} {o : Option Bytes}
    (h : marshalSecretStore C J s mode rng = .ok (o, s', rng')) :
    (∃ used, rng = used ++ rng') ∧ ∀ out, o = some out → 56 ≤ out.length ∧ rng = out.take 56 ++ rng' := by
  have ht := took_marshal C J h
  refine ⟨by obtain ⟨u, e, -⟩ := ht; exact ⟨u, e⟩, ?_⟩
  rintro out rfl
  unfold marshalSecretStore at h
  split at h
  · cases h
  · simp only [randBytes] at h
    cases hr : readFull rng 32 with
    | mk o r =>
      rw [hr] at h
      cases o with
      | none => cases h
      | some salt =>
        simp only at h
        cases hk : Model.Secret.deriveKeyStrength C (s.passphrase.getD []) salt mode with
        | none => rw [hk] at h; cases h
        | some k =>
          rw [hk] at h
          simp only [Model.Secret.encrypt] at h
          cases hn : newNonce r with
          | mk n r2 =>
            rw [hn] at h
            cases n with
            | none => cases h
            | some n =>
              obtain ⟨e1, l1⟩ := readFull_some hr
              obtain ⟨e2, l2⟩ := newNonce_some hn
              cases h
              rw [copyInto_eq l2]
              have hl : (salt ++ n).length = 56 := by simp [l1, l2]
              refine ⟨by simp [l1, l2]; omega, ?_⟩
              rw [← List.append_assoc, List.take_append_of_le_length (by omega), List.take_of_length_le (by omega), e1, e2, List.append_assoc]

theorem sealed_write {w : World} {o : WriteOutcome} {rng : Rng} {path p out : Bytes} (hl : 56 ≤ out.length) (hr : w.rng = out.take 56 ++ rng) :
    Sealed path w (World.writeFile { w with rng := rng, write := o } p out).1 := by
  by_cases hd : p = dash
  · refine ⟨[], out.take 56, [], ?_, .inl ?_⟩
    · simp [World.writeFile, hd, hr]
    · simp [World.writeFile, hd]
  · by_cases hp : path = p
    · subst hp
      have hu : (out.take 56).length = 56 := by simp; omega
      cases o with
      | done =>
        refine ⟨[], out.take 56, [], by simp [World.writeFile, hd, hr], .inr ⟨out, ?_, hu, ?_⟩⟩
        · simp [World.writeFile, hd, Go.writeFile]
        · rw [List.take_take]; congr 1; omega
      | openFails =>
        refine ⟨[], out.take 56, [], by simp [World.writeFile, hd, hr], .inl ?_⟩
        simp [World.writeFile, hd, Go.writeFile]
      | failsAfter k =>
        refine ⟨[], out.take 56, [], by simp [World.writeFile, hd, hr], .inr ⟨out.take k, ?_, hu, ?_⟩⟩
        · simp [World.writeFile, hd, Go.writeFile]
        · rw [List.take_take, List.take_take, List.length_take]
          by_cases h56 : k ≤ 56
          · congr 1; omega
          · congr 1; omega
    · refine ⟨[], out.take 56, [], by simp [World.writeFile, hd, hr], .inl ?_⟩
      simp only [World.writeFile, hd, if_false]
      exact Proofs.Journal.writeFile_other hp

theorem sealed_drop {w w' : World} {path : Bytes} (h : ∃ used, w.rng = used ++ w'.rng) (hf : w'.fs path = w.fs path) : Sealed path w w' := by
  obtain ⟨u, e⟩ := h
  exact ⟨u, [], [], by simp [e], .inl hf⟩

/-- Saving a store. -/
theorem sealed_store {w w' : World} {ps : SecretStore} {path p : Bytes} {mode : Int} {ok : Bool}
    (h : Model.Secrets.writeStore C J w ps p mode = .ok (w', ok)) : Sealed path w w' := by
  unfold Model.Secrets.writeStore at h
  obtain ⟨⟨out, s2, rng⟩, h1, h2⟩ := Res.bind_eq_ok.mp h
  obtain ⟨m1, m2⟩ := marshal_rng C J h1
  cases out with
  | none => cases h2; exact sealed_drop m1 rfl
  | some out =>
    obtain ⟨l, e⟩ := m2 out rfl
    simp only [Res.pure_eq, Res.ok.injEq] at h2
    have := sealed_write (w := w) (o := w.write) (path := path) (p := p) l e
    rw [show World.writeFile { w with rng := rng, write := w.write } p out = (w', ok) from h2] at this
    exact this

/-- What `-init` does, in all three programs. -/
theorem sealed_new {w w' : World} {s s2 : SecretStore} {path p : Bytes} {mode : Int} {rng : Rng} {out : Option Bytes}
    (h1 : marshalSecretStore C J s mode w.rng = .ok (out, s2, rng)) (hn : out = none → w' = { w with rng := rng })
    (hs : ∀ d, out = some d → w' = (World.writeFile { w with rng := rng } p d).1) : Sealed path w w' := by
  obtain ⟨m1, m2⟩ := marshal_rng C J h1
  cases out with
  | none => rw [hn rfl]; exact sealed_drop m1 rfl
  | some out =>
    obtain ⟨l, e⟩ := m2 out rfl
    rw [hs out rfl]
    exact sealed_write (w := w) (o := w.write) (path := path) (p := p) l e

/-- C241, secrets: whatever secrets does, short of -export and -import, which copy a store, and whatever comes of it, every file is as it was or begins with
a salt and a nonce that the PRNG has produced during the run. -/
theorem C241_secrets {P : Pem} {ord : Map (Option SecretRecord) → List Bytes} {fuel : Nat} {f : Model.Secrets.Flags} {args : List Bytes}
    {p path : Bytes} {w w' : World} {st : Nat} (h1 : f.action ≠ .doExport) (h2 : f.action ≠ .doImport)
    (h : Model.Secrets.main C J P ord fuel f args p w = some (.ok (st, w'))) : Sealed path w w' := by
  unfold Model.Secrets.main at h
  cases ha : f.action with
  | doExport => exact absurd ha h1
  | doImport => exact absurd ha h2
  | init =>
    rw [ha] at h
    simp only [Option.some.injEq] at h
    obtain ⟨⟨ok, w1⟩, h3, h4⟩ := Res.bind_eq_ok.mp h
    cases h4
    unfold Model.Secrets.initStore at h3
    simp only at h3
    split at h3
    · cases h3; exact .same rfl rfl
    · split at h3
      · cases h3; exact .same rfl rfl
      · obtain ⟨⟨out, s2, rng⟩, h5, h6⟩ := Res.bind_eq_ok.mp h3
        refine (sealed_new C J (p := p) (w := { w with term := w.term.read.2.now.2 }) h5 ?_ ?_).after ⟨_, rfl⟩
        · rintro rfl; cases h6; rfl
        · rintro d rfl
          simp only at h6
          split at h6
          · cases h6; rfl
          · obtain ⟨s3, -, h7⟩ := Res.bind_eq_ok.mp h6
            cases h7
            rfl
  | cmd c =>
    rw [ha] at h
    simp only [Model.Secrets.runCmd] at h
    split at h
    · cases h; exact .refl _ _
    · split at h
      · cases h
      · next hl => cases h; obtain ⟨t, rfl⟩ := Proofs.Secrets.loadStore_world C J hl; exact .same rfl rfl
      · next ps w1 hl =>
        obtain ⟨t, rfl⟩ := Proofs.Secrets.loadStore_world C J hl
        split at h
        · cases h
        · cases h
        · next hr => cases h; obtain ⟨t2, rfl⟩ := Proofs.Secrets.run_world C J hr; exact .same rfl rfl
        · next hr =>
          obtain ⟨t2, rfl⟩ := Proofs.Secrets.run_world C J hr
          split at h
          · simp only [Option.some.injEq] at h
            obtain ⟨⟨w3, ok⟩, h3, h4⟩ := Res.bind_eq_ok.mp h
            cases h4
            exact (sealed_store C J h3).after ⟨_, rfl⟩
          · cases h; exact .same rfl rfl

variable (T : Model.Otpc.TwoFactor) (U : Model.Otpc.Case)

theorem showSecret_world {w w' : World} {ps ps' : SecretStore} {label : Bytes} {o : Model.Otpc.Shown}
    (h : Model.Otpc.showSecret T w ps label = .ok (o, ps', w')) : ∃ t, w' = { w with term := t } := by
  unfold Model.Otpc.showSecret at h
  split at h
  · cases h; exact ⟨w.term, rfl⟩
  · obtain ⟨r, -, h⟩ := Res.bind_eq_ok.mp h
    split at h
    · cases h; exact ⟨w.term, rfl⟩
    · split at h
      · cases h; exact ⟨w.term, rfl⟩
      · obtain ⟨⟨c, o2, w2⟩, h1, h⟩ := Res.bind_eq_ok.mp h
        obtain ⟨t, rfl⟩ := Proofs.Otpc.otp_term T h1
        simp only at h
        split at h
        · cases h
        · obtain ⟨p1, -, h⟩ := Res.bind_eq_ok.mp h
          obtain ⟨p2, -, h⟩ := Res.bind_eq_ok.mp h
          cases h
          exact ⟨_, rfl⟩
      · obtain ⟨⟨c, o2, w2⟩, h1, h⟩ := Res.bind_eq_ok.mp h
        obtain ⟨t, rfl⟩ := Proofs.Otpc.otp_term T h1
        cases h
        exact ⟨_, rfl⟩
      · obtain ⟨⟨c, o2, w2⟩, h1, h⟩ := Res.bind_eq_ok.mp h
        obtain ⟨t, rfl⟩ := Proofs.Otpc.otp_term T h1
        cases h
        exact ⟨_, rfl⟩

theorem sealed_save {w w' : World} {ps : SecretStore} {path p : Bytes} {mode : Int} {codes : List Bytes} {o : Model.Otpc.Outcome}
    (h : Model.Otpc.save C J w ps p mode codes = .ok (o, w')) : Sealed path w w' := by
  unfold Model.Otpc.save at h
  obtain ⟨⟨w2, ok⟩, h1, h2⟩ := Res.bind_eq_ok.mp h
  cases h2
  exact (sealed_store C J h1).after ⟨_, rfl⟩

theorem sealed_init {w w' : World} {path p : Bytes} {mode : Int} {ok : Bool} (h : Model.Otpc.initStore C J w p mode = .ok (ok, w')) :
    Sealed path w w' := by
  unfold Model.Otpc.initStore at h
  simp only at h
  split at h
  · cases h; exact .same rfl rfl
  · obtain ⟨⟨out, s2, rng⟩, h5, h6⟩ := Res.bind_eq_ok.mp h
    refine (sealed_new C J (p := p) (w := { w with term := w.term.read.2.now.2 }) h5 ?_ ?_).after ⟨_, rfl⟩
    · rintro rfl; cases h6; rfl
    · rintro d rfl
      simp only at h6
      split at h6
      · cases h6; rfl
      · obtain ⟨s3, -, h7⟩ := Res.bind_eq_ok.mp h6
        cases h7
        rfl

/-- C241, otpc: the same of otpc, but for the image of -qr. -/
theorem C241_otpc {f : Model.Otpc.Flags} {args : List Bytes} {p path : Bytes} {w w' : World} {o : Model.Otpc.Outcome}
    (hq : f.qr = true → args.tail.headD [] ≠ path) (h : Model.Otpc.main C J T U f args p w = .ok (o, w')) : Sealed path w w' := by
  unfold Model.Otpc.main at h
  by_cases hi : f.init = true
  · rw [if_pos hi] at h
    obtain ⟨⟨ok, w1⟩, h3, h4⟩ := Res.bind_eq_ok.mp h
    cases h4
    exact sealed_init C J h3
  · rw [if_neg hi] at h
    by_cases hc : args.length < (if f.store then 1 else if f.qr then 2 else 1)
    · rw [if_pos hc] at h; cases h; exact .refl _ _
    · rw [if_neg hc] at h
      obtain ⟨⟨x, w1⟩, hl, h⟩ := Res.bind_eq_ok.mp h
      obtain ⟨t, rfl⟩ := Proofs.Secrets.loadStore_world C J hl
      cases x with
      | none => cases h; exact .same rfl rfl
      | some ps =>
        simp only at h
        split at h
        · obtain ⟨⟨y, ps2, w2⟩, h1, h⟩ := Res.bind_eq_ok.mp h
          cases y with
          | none =>
            obtain ⟨t2, rfl⟩ := Proofs.Otpc.addSecret_none T U h1
            cases h
            exact .same rfl rfl
          | some c =>
            obtain ⟨secret, rest, r, m, -, -, -, h2, -⟩ := Proofs.Otpc.addSecret_some T U rfl h1
            obtain ⟨⟨t2, rfl⟩, -⟩ := Proofs.Otpc.makeRecord_some T h2
            exact (sealed_save C J h).after ⟨_, rfl⟩
        · split at h
          · next hqr =>
            obtain ⟨⟨ok, w2⟩, h1, h⟩ := Res.bind_eq_ok.mp h
            cases h
            unfold Model.Otpc.showQR at h1
            split at h1
            · cases h1; exact .same rfl rfl
            · obtain ⟨r, -, h1⟩ := Res.bind_eq_ok.mp h1
              split at h1
              · cases h1; exact .same rfl rfl
              · split at h1
                · cases h1; exact .same rfl rfl
                · cases h1
                  refine .same rfl ?_
                  exact Proofs.Journal.writeFile_other (Ne.symm (hq hqr))
          · obtain ⟨⟨y, ps2, w2⟩, h1, h⟩ := Res.bind_eq_ok.mp h
            obtain ⟨t2, rfl⟩ := showSecret_world T h1
            cases y with
            | failed => cases h; exact .same rfl rfl
            | forever c => cases h; exact .same rfl rfl
            | once c => exact (sealed_save C J h).after ⟨_, rfl⟩

theorem sealed_finish {w w' : World} {ps : SecretStore} {path p : Bytes} {mode : Int} {b : Bool} {st : Nat} {o : Model.Journal.Output}
    (h : Model.Journal.finish C J p mode (b, ps, w) = .ok (st, o, w')) : Sealed path w w' := by
  cases b with
  | false => cases h; exact .refl _ _
  | true =>
    unfold Model.Journal.finish at h
    obtain ⟨⟨w2, ok⟩, h1, h2⟩ := Res.bind_eq_ok.mp h
    cases h2
    exact (sealed_store C J h1).after ⟨_, rfl⟩

theorem sealed_steps {e : Model.Journal.Env} {w w2 : World} {path : Bytes} (h : Proofs.Journal.Steps e w w2) (hp : e.temp ≠ some path) :
    Sealed path w w2 := by
  obtain ⟨t, fs, h1⟩ := h.same
  exact .same (by rw [h1]) (h.other path hp)

/-- C241, journal: the same of journal, but for the file that is edited. -/
theorem C241_journal {ord : Map (Option SecretRecord) → List Bytes} {e : Model.Journal.Env} {f : Model.Journal.Flags} {args : List Bytes}
    {p path : Bytes} {w w' : World} {st : Nat} {o : Model.Journal.Output} (hp : e.temp ≠ some path)
    (h : Model.Journal.main C J ord e f args p w = .ok (st, o, w')) : Sealed path w w' := by
  unfold Model.Journal.main at h
  by_cases hi : f.init = true
  · rw [if_pos hi] at h
    obtain ⟨⟨ok, w1⟩, h3, h4⟩ := Res.bind_eq_ok.mp h
    cases h4
    exact sealed_init C J h3
  · rw [if_neg hi] at h
    by_cases hc : args.length < (if f.edit then 1 else if f.list then 0 else 1)
    · rw [if_pos hc] at h; cases h; exact .refl _ _
    · rw [if_neg hc] at h
      obtain ⟨⟨x, w1⟩, hl, h⟩ := Res.bind_eq_ok.mp h
      obtain ⟨t, rfl⟩ := Proofs.Secrets.loadStore_world C J hl
      cases x with
      | none => cases h; exact .same rfl rfl
      | some ps =>
        simp only [Model.Journal.run] at h
        split at h
        · obtain ⟨⟨b, ps2, w2⟩, h1, h⟩ := Res.bind_eq_ok.mp h
          exact ((sealed_steps (Proofs.Journal.editEntry_some h1).1 hp).trans (sealed_finish C J h)).after ⟨_, rfl⟩
        · split at h
          · obtain ⟨l, -, h⟩ := Res.bind_eq_ok.mp h
            cases h
            exact .same rfl rfl
          · split at h
            · obtain ⟨⟨b, ps2, w2⟩, h1, h⟩ := Res.bind_eq_ok.mp h
              exact ((sealed_steps (Proofs.Journal.writeNew_some h1).1 hp).trans (sealed_finish C J h)).after ⟨_, rfl⟩
            · obtain ⟨x, -, h⟩ := Res.bind_eq_ok.mp h
              split at h
              · cases h; exact .same rfl rfl
              · cases h; exact .same rfl rfl

section secretscli
open Verif.Model.Secretscli Verif.Proofs.Secretscli Verif.Spec.Secretscli

/-- A session goes on in the same way. -/
def Goes (path : Bytes) (st st' : St) : Prop := Sealed path st.w st'.w

theorem goes_term {path : Bytes} {st st' : St} (h1 : st'.w.rng = st.w.rng) (h2 : st'.w.fs = st.w.fs) : Goes path st st' := .same h1 (by rw [h2])

theorem goes_write (path : Bytes) (st : St) : Goes path st (writeStore C J st).2 := by
  unfold writeStore
  split
  · exact .refl _ _
  · split
    · exact .refl _ _
    · next h => exact sealed_drop (marshal_rng C J h).1 rfl
    · next out s rng h =>
      obtain ⟨l, e⟩ := (marshal_rng C J h).2 out rfl
      exact sealed_write l e

theorem goes_touch (path : Bytes) (st : St) (l : Bytes) (r : SecretRecord) : Goes path st (touch st l r).2 := by
  unfold touch
  simp only
  split <;> exact goes_term rfl rfl

theorem goes_put (path l : Bytes) (r : Option SecretRecord) (st : St) : Goes path st (putSecret l r st).2 := by
  unfold putSecret
  cases hr : st.read with
  | mk a st1 =>
    have h1 : Goes path st st1 := by
      have : st.read.2 = st1 := by rw [hr]
      rw [← this]
      exact goes_term rfl rfl
    cases a with
    | none => exact h1
    | some p =>
      dsimp only
      split
      · exact h1
      · cases r with
        | none => exact h1
        | some r => exact Sealed.trans h1 (goes_touch path st1 l _)

theorem goes_single (path l : Bytes) (st : St) : Goes path st (storeSingleSecret l st).2 := by
  unfold storeSingleSecret
  cases st.entry l with
  | none => exact goes_put path l _ st
  | some r =>
    cases hr : st.read with
    | mk a st1 =>
      have h1 : Goes path st st1 := by
        have : st.read.2 = st1 := by rw [hr]
        rw [← this]
        exact goes_term rfl rfl
      cases a with
      | none => exact h1
      | some p =>
        dsimp only
        split
        · exact h1
        · exact Sealed.trans h1 (goes_put path l r st1)

theorem goes_storeLoop (path : Bytes) (ls : List Bytes) : ∀ (i : Nat) (st : St), Goes path st (storeLoop C J i ls st).2 := by
  induction ls with
  | nil => intro i st; exact .refl _ _
  | cons l ls ih =>
    intro i st
    rw [storeLoop]
    have h1 := goes_single path l st
    cases hr : storeSingleSecret l st with
    | mk r st1 =>
      rw [hr] at h1
      cases r with
      | ok => exact Sealed.trans h1 (ih _ _)
      | err =>
        dsimp only
        split
        · exact Sealed.trans h1 (goes_write C J path st1)
        · exact h1
      | panic => exact h1
      | exit => exact h1

theorem goes_writeMeta (path : Bytes) (args : List Bytes) (st : St) : Goes path st (writeMeta args st).2 := by
  unfold writeMeta
  split
  · exact .refl _ _
  · split
    · exact .refl _ _
    · exact .refl _ _
    · dsimp only
      split
      · split <;> exact goes_term rfl rfl
      · unfold touch
        simp only
        split <;> exact goes_term rfl rfl
  · exact .refl _ _

theorem goes_passwd (path : Bytes) (st : St) : Goes path st (passwd st).2 := by
  unfold passwd
  cases hr : st.read with
  | mk a st1 =>
    have h1 : Goes path st st1 := by
      have : st.read.2 = st1 := by rw [hr]
      rw [← this]
      exact goes_term rfl rfl
    cases a with
    | none => exact h1
    | some p =>
      dsimp only
      cases hr2 : st1.read with
      | mk a st2 =>
        have h2 : Goes path st1 st2 := by
          have : st1.read.2 = st2 := by rw [hr2]
          rw [← this]
          exact goes_term rfl rfl
        cases a with
        | none => exact Sealed.trans h1 h2
        | some q =>
          dsimp only
          split
          · exact Sealed.trans h1 h2
          · exact Sealed.trans h1 h2

theorem goes_process (path : Bytes) (e : Env) (line : Bytes) (st : St) : Goes path st (processCommands C J e line st).2 := by
  by_cases h : ∀ c, (fields line).head? = some c → c ∉ active
  · obtain ⟨o, ho⟩ := process_prints C J e line st h
    rw [ho]
    exact goes_term rfl rfl
  · cases hf : fields line with
    | nil => rw [hf] at h; exact absurd (fun c (hc : none = some c) => nomatch hc) h
    | cons c args =>
      rw [hf] at h
      have hc : c ∈ active := Decidable.byContradiction fun h2 => h (fun d hd => by cases hd; exact h2)
      unfold processCommands
      rw [hf]
      dsimp only
      rcases List.mem_cons.mp hc with rfl | hc
      · rw [if_neg (by decide), if_neg (by decide), if_neg (by decide), if_neg (by decide), if_neg (by decide), if_neg (by decide),
          if_neg (by decide), if_neg (by decide), if_pos rfl]
        unfold storeSecret
        split
        · exact .refl _ _
        · exact goes_storeLoop C J path _ _ _
      rcases List.mem_cons.mp hc with rfl | hc
      · rw [if_neg (by decide), if_neg (by decide), if_neg (by decide), if_neg (by decide), if_neg (by decide), if_neg (by decide),
          if_neg (by decide), if_neg (by decide), if_neg (by decide), if_pos rfl]
        exact goes_writeMeta path _ _
      rcases List.mem_cons.mp hc with rfl | hc
      · rw [if_neg (by decide), if_neg (by decide), if_neg (by decide), if_neg (by decide), if_pos rfl]
        exact goes_passwd path _
      rcases List.mem_cons.mp hc with rfl | hc
      · rw [if_neg (by decide), if_neg (by decide), if_neg (by decide), if_neg (by decide), if_neg (by decide), if_neg (by decide),
          if_neg (by decide), if_neg (by decide), if_neg (by decide), if_neg (by decide), if_pos rfl]
        have hk := goes_write C J path st
        unfold cmdWriteStore
        split
        · exact .refl _ _
        · split
          · rename_i h; rw [h] at hk; exact hk
          · rename_i h; rw [h] at hk; exact hk
      rcases List.mem_cons.mp hc with rfl | hc
      · rw [if_neg (by decide), if_neg (by decide), if_neg (by decide), if_pos rfl]
        exact goes_write C J path st
      · cases hc

/-- C241, secretscli: the same of every step of a session. -/
theorem C241_secretscli {e : Env} {s s' : Sys} {ev : Event} {path : Bytes} (h : Step C J e s ev s') : Sealed path s.st.w s'.st.w := by
  cases h with
  | readLine => exact .same rfl rfl
  | readBlank => exact .same rfl rfl
  | readError => exact .same rfl rfl
  | command line r st h1 h2 =>
    have := goes_process C J path e line s.st
    rw [h2] at this
    exact this
  | shutdown => exact goes_write C J path s.st
  | _ => exact .refl _ _

end secretscli

/-- The salt and the nonce of the file, if it is a complete store that was not there before. -/
def newValues (path : Bytes) (w w' : World) : List Bytes :=
  if w'.fs path = w.fs path then [] else ((w'.fs path).toList.filter fun b => 56 ≤ b.length).flatMap saltAndNonce

/-- Runs of the programs one after the other, and steps of sessions of secretscli, on this and on other stores, with the salts and nonces of the stores
saved under `path`. All of them draw from one PRNG; otherwise anything may happen between them. -/
inductive Runs (path : Bytes) : Rng → List Bytes → Rng → Prop where
  | nil (r : Rng) : Runs path r [] r
  | secrets (P : Pem) (ord : Map (Option SecretRecord) → List Bytes) (fuel : Nat) (f : Model.Secrets.Flags) (args : List Bytes) (p : Bytes)
      (w w' : World) (st : Nat) (vs : List Bytes) (r : Rng) (h1 : f.action ≠ .doExport) (h2 : f.action ≠ .doImport)
      (h : Model.Secrets.main C J P ord fuel f args p w = some (.ok (st, w'))) (hr : Runs path w'.rng vs r) :
      Runs path w.rng (newValues path w w' ++ vs) r
  | otpc (f : Model.Otpc.Flags) (args : List Bytes) (p : Bytes) (w w' : World) (o : Model.Otpc.Outcome) (vs : List Bytes) (r : Rng)
      (hq : f.qr = true → args.tail.headD [] ≠ path) (h : Model.Otpc.main C J T U f args p w = .ok (o, w')) (hr : Runs path w'.rng vs r) :
      Runs path w.rng (newValues path w w' ++ vs) r
  | journal (ord : Map (Option SecretRecord) → List Bytes) (e : Model.Journal.Env) (f : Model.Journal.Flags) (args : List Bytes) (p : Bytes)
      (w w' : World) (st : Nat) (o : Model.Journal.Output) (vs : List Bytes) (r : Rng) (hp : e.temp ≠ some path)
      (h : Model.Journal.main C J ord e f args p w = .ok (st, o, w')) (hr : Runs path w'.rng vs r) :
      Runs path w.rng (newValues path w w' ++ vs) r
  | secretscli (e : Model.Secretscli.Env) (s s' : Model.Secretscli.Sys) (ev : Model.Secretscli.Event) (vs : List Bytes) (r : Rng)
      (h : Model.Secretscli.Step C J e s ev s') (hr : Runs path s'.st.w.rng vs r) : Runs path s.st.w.rng (newValues path s.st.w s'.st.w ++ vs) r

theorem took_values {path : Bytes} {w w' : World} (h : Sealed path w w') : Took (newValues path w w') w.rng w'.rng := by
  obtain ⟨gap, used, rest, e, hf⟩ := h
  unfold newValues
  split
  · exact .none (gap ++ used ++ rest) e
  · next hne =>
    rcases hf with hf | ⟨b, hf, hl, hb⟩
    · exact absurd hf hne
    · rw [hf]
      by_cases h56 : 56 ≤ b.length
      · have hu : b.take 56 = used := by rw [hb, List.take_of_length_le (by omega)]
        have hv : saltAndNonce b = [used.take 32, used.drop 32] := by
          simp only [saltAndNonce, ← hu, List.take_take, List.drop_take]
          rfl
        simp only [Option.toList, List.filter_cons, h56, decide_true, if_true, List.filter_nil, List.flatMap_cons, List.flatMap_nil, List.append_nil]
        rw [hv]
        have t1 : Took [] w.rng (used ++ (rest ++ w'.rng)) := .none gap (by rw [e]; simp)
        have t2 : Took [used.take 32] (used ++ (rest ++ w'.rng)) (used.drop 32 ++ (rest ++ w'.rng)) :=
          .one (by rw [← List.append_assoc (used.take 32), List.take_append_drop]) (by rw [List.length_take]; omega)
        have t3 : Took [used.drop 32] (used.drop 32 ++ (rest ++ w'.rng)) (rest ++ w'.rng) := .one rfl (by rw [List.length_drop]; omega)
        have t4 : Took [] (rest ++ w'.rng) w'.rng := .none rest rfl
        exact t1.trans (t2.trans (t3.trans t4))
      · simp only [Option.toList, List.filter_cons, h56, decide_false, List.filter_nil]
        exact .none (gap ++ used ++ rest) e

/-- C241: all salts and nonces of the stores that are saved under a path by runs of secrets, otpc and journal and by sessions of secretscli are different,
if the PRNG does not repeat itself, be the stores and passphrases the same or not. -/
theorem C241_distinct {path : Bytes} {r r' : Rng} {vs : List Bytes} (h : Runs C J T U path r vs r') (hn : NoRepeat 20 r) : vs.Nodup := by
  have ht : Took vs r r' := by
    clear hn
    induction h with
    | nil r => exact .refl r
    | secrets P ord fuel f args p w w' st vs r h1 h2 h _ ih => exact (took_values (C241_secrets C J h1 h2 h)).trans ih
    | otpc f args p w w' o vs r hq h _ ih => exact (took_values (C241_otpc C J T U hq h)).trans ih
    | journal ord e f args p w w' st o vs r hp h _ ih => exact (took_values (C241_journal C J hp h)).trans ih
    | secretscli e s s' ev vs r h _ ih => exact (took_values (C241_secretscli C J h)).trans ih
  exact ht.nodup hn

/-- A world without files in which the passphrase is typed. -/
def exNew (rng : Rng) : World :=
  { term := ⟨[some [112, 119]], fun _ => 1000⟩, rng := rng, fs := fun _ => none, write := .done, stdin := [], stdout := [] }

theorem exInit {rng : Rng} (hr : 56 ≤ rng.length) : ∃ w' o, Model.Otpc.main C J T U { init := true } [] [102] (exNew rng) = .ok (o, w') ∧
    w'.rng = rng.drop 56 ∧ (newValues [102] (exNew rng) w').length = 2 := by
  obtain ⟨out, ho⟩ := Proofs.SecretStore.marshal_ok C J (s := newSecretStore [112, 119] 1000) (mode := 0) (rng := rng) rfl (Or.inl rfl) hr
  have hl := ((marshal_rng C J ho).2 out rfl).1
  have hu := Proofs.SecretStore.unmarshal_no_panic C J out [112, 119] 0
  cases hx : unmarshalSecretStore C J out [112, 119] 0 with
  | panic => exact absurd hx hu
  | ok x =>
    refine ⟨{ term := ⟨[], fun _ => 1000⟩, rng := rng.drop 56, fs := Fs.set (fun _ => none) [102] out, write := .done, stdin := [], stdout := [] },
      .exit (if x.isSome then 0 else 1) [], ?_, rfl, ?_⟩
    · show (Model.Otpc.initStore C J (exNew rng) [102] 0 >>= _) = _
      unfold Model.Otpc.initStore
      simp only [exNew, Term.read, Term.now, ho, Res.ok_bind]
      simp [World.writeFile, Go.writeFile, hx]
    · simp [newValues, exNew, hl, saltAndNonce]

/-- A store is made by otpc -init, removed, and made again: the conclusion is about four values. -/
example : ∃ vs r, Runs C J T U [102] exStream vs r ∧ NoRepeat 20 exStream ∧ vs.length = 4 := by
  have hl : exStream.length = 112 := by simp [exStream]
  obtain ⟨w1, o1, h1, e1, l1⟩ := exInit C J T U (rng := exStream) (by omega)
  obtain ⟨w2, o2, h2, e2, l2⟩ := exInit C J T U (rng := exStream.drop 56) (by rw [List.length_drop]; omega)
  have hr : Runs C J T U [102] w1.rng (newValues [102] (exNew (exStream.drop 56)) w2 ++ []) w2.rng := by
    rw [e1]
    exact .otpc _ _ _ (exNew (exStream.drop 56)) w2 _ _ _ (by simp) h2 (.nil _)
  refine ⟨_, _, .otpc _ _ _ (exNew exStream) w1 _ _ _ (by simp) h1 hr, noRepeat_nodup exStream_nodup, ?_⟩
  simp [l1, l2]

end Verif.Props.RandomnessStores
