import Verif.Props.MeanwhileKeys
/-! C244: the owner's key in the key store of fcrypt. -/

namespace Verif.Props.OwnKey
open Verif Verif.Go Verif.Model.Util Verif.Model.Public Verif.Model.KeyStore Verif.Model.Fcrypt
open Verif.Spec.Public Verif.Spec.KeyStore Verif.Spec.Fcrypt
open Verif.Proofs.Public Verif.Proofs.KeyStore Verif.Proofs.Fcrypt
open Verif.Props.KeyTrust Verif.Props.FcryptFiles Verif.Props.FcryptKeys

variable (C : Crypto) (A : Asn1) (P : Armour) (J : KeyJson)

/-- The own key of a store: the box with the private key, and the public key. -/
def own (f : KeyFields) : Option Bytes × Option Bytes := (f.lockedKey, f.publicKey)

theorem after_own {α : Type} {x : Res α} {ks : KeyStore} {w : World} {g : α → Ret × KeyStore × World}
    (h : ∀ a, x = .ok a → own (g a).2.1.toKeyFields = own ks.toKeyFields) : own (after x ks w g).2.1.toKeyFields = own ks.toKeyFields := by
  cases x with
  | panic => rfl
  | ok a => exact h a rfl

theorem checkStore_own (e : Env) (ks : KeyStore) (cfg : Config) (w : World) : own (checkStore C e ks cfg w).2.1.toKeyFields = own ks.toKeyFields := by
  unfold checkStore
  split
  · rfl
  · refine after_own fun valid _ => ?_
    split
    · rfl
    · dsimp only
      split <;> rfl

theorem removeKey_own (ks : KeyStore) (cfg : Config) (w : World) : own (removeKey ks cfg w).2.1.toKeyFields = own ks.toKeyFields := by
  unfold removeKey
  split
  · split
    · rfl
    · split <;> rfl
  · rfl

theorem addKey_own {s s' : KeyStore} {label peer : Bytes} {md : Option (Map Bytes)} {t1 t2 : BitVec 64} {b : Bool}
    (h : s.addKey C label peer md t1 t2 = .ok (s', b)) : own s'.toKeyFields = own s.toKeyFields := by
  unfold KeyStore.addKey at h
  split at h
  · cases h; rfl
  split at h
  · cases h; rfl
  split at h
  · cases h; rfl
  split at h
  · cases h; rfl
  obtain ⟨sig, -, h⟩ := Res.bind_eq_ok.mp h
  cases sig with
  | none => cases h; rfl
  | some sig =>
    obtain ⟨k, -, h⟩ := Res.bind_eq_ok.mp h
    obtain ⟨v, -, h⟩ := Res.bind_eq_ok.mp h
    cases v with
    | false => cases h; rfl
    | true =>
      simp only [Bool.not_true, Bool.false_eq_true, if_false] at h
      cases hk : s.keys with
      | none => rw [hk] at h; cases h
      | some m => rw [hk] at h; cases h; rfl

theorem importVerifiedKey_own {s s' : KeyStore} {Q : Pem} {label data : Bytes} {o1 o2 : List Bytes} {now : BitVec 64} {b : Bool}
    (h : s.importVerifiedKey C A Q label data o1 o2 now = .ok (s', b)) : own s'.toKeyFields = own s.toKeyFields := by
  unfold KeyStore.importVerifiedKey at h
  split at h
  · cases h; rfl
  · split at h
    · cases h; rfl
    · unfold KeyStore.importVerified at h
      split at h
      · cases h; rfl
      · split at h
        · cases h; rfl
        · next vkey _ =>
          have tail : ∀ signer : Option (Bytes × Option Bytes), (match signer with
              | none => (pure (s, false) : Res (KeyStore × Bool))
              | some (signerLabel, pub) =>
                if signerLabel = [] ∨ pub = none then pure (s, false)
                else do
                  match ← s.verifyKeySignature C signerLabel o2 with
                  | none => pure (s, false)
                  | some _ =>
                    match unmarshalPublic (pub.getD []) with
                    | none => pure (s, false)
                    | some pubkey => do
                      if !(← verify C (some pubkey) vkey.signatureData vkey.signature) then pure (s, false)
                      else
                        match s.keys with
                        | none => .panic
                        | some m =>
                          let r : PublicKeyRecord := {
                            label := label, version := keyStoreVersion, timestamp := now, keys := some vkey.pub
                            keySignature := vkey.signature, keySigner := pub.getD []
                            signatureTime := vkey.timestamp, metadata := none }
                          pure ({ s with keys := some (m.set label (some r)) }, true)) = .ok (s', b) → own s'.toKeyFields = own s.toKeyFields := by
            intro signer h
            cases signer with
            | none => cases h; rfl
            | some sp =>
              obtain ⟨sl, pub⟩ := sp
              by_cases hc : sl = [] ∨ pub = none
              · simp only [if_pos hc] at h
                cases h; rfl
              · simp only [if_neg hc] at h
                obtain ⟨v, -, h⟩ := Res.bind_eq_ok.mp h
                cases v with
                | none => cases h; rfl
                | some v =>
                  simp only at h
                  cases hu : unmarshalPublic (pub.getD []) with
                  | none => rw [hu] at h; cases h; rfl
                  | some pk =>
                    rw [hu] at h
                    obtain ⟨v, -, h⟩ := Res.bind_eq_ok.mp h
                    cases v with
                    | false => cases h; rfl
                    | true =>
                      simp only [Bool.not_true, Bool.false_eq_true, if_false] at h
                      cases hk : s.keys with
                      | none => rw [hk] at h; cases h
                      | some m => rw [hk] at h; cases h; rfl
          by_cases hv : vkey.signer = s.pubBytes
          · simp only [if_pos hv, Res.pure_eq, Res.ok_bind] at h
            exact tail (some (self, s.publicKey)) h
          · simp only [if_neg hv] at h
            obtain ⟨o, -, h⟩ := Res.bind_eq_ok.mp h
            cases o with
            | none => cases h; rfl
            | some l =>
              obtain ⟨r, -, h⟩ := Res.bind_eq_ok.mp h
              exact tail (some (l, r.keys)) h

theorem importVerified_own (e : Env) (ks : KeyStore) (cfg : Config) (w : World) :
    own (importVerified C A P e ks cfg w).2.1.toKeyFields = own ks.toKeyFields := by
  unfold importVerified
  split
  · split
    · rfl
    · split
      · rfl
      · dsimp only
        refine after_own fun x hx => ?_
        obtain ⟨ks', b⟩ := x
        have h1 := importVerifiedKey_own C A hx
        dsimp only
        split
        · exact h1
        · split
          · exact h1
          · rw [← h1]
            refine after_own fun y _ => ?_
            split <;> rfl
  · rfl

theorem importUntrusted_own (e : Env) (ks : KeyStore) (cfg : Config) (w : World) :
    own (importUntrusted C A P e ks cfg w).2.1.toKeyFields = own ks.toKeyFields := by
  unfold importUntrusted
  split
  · split
    · rfl
    · split
      · rfl
      · refine after_own fun x _ => ?_
        dsimp only
        split
        · rfl
        · split
          · rfl
          · refine after_own fun x hx => ?_
            obtain ⟨ks', b⟩ := x
            have h1 := addKey_own C hx
            dsimp only
            split <;> exact h1
  · rfl

/-- Commands after which the store is written. -/
theorem select_own {e : Env} {fl : Flags} {cmd : Command} (hs : select C A P e fl = some cmd) (hw : cmd.shouldWrite = true ∨ fl.check = true)
    (ks : KeyStore) (cfg : Config) (w : World) : own (cmd.run ks cfg w).2.1.toKeyFields = own ks.toKeyFields := by
  unfold select at hs
  by_cases h0 : fl.check = true
  · rw [if_pos h0] at hs; cases hs; exact checkStore_own C e ks cfg w
  rw [if_neg h0] at hs
  by_cases h1 : (fl.sign && fl.encrypt) = true
  · rw [if_pos h1] at hs; cases hs; exact absurd hw (by simp [h0])
  rw [if_neg h1] at hs
  by_cases h2 : fl.sign = true
  · rw [if_pos h2] at hs; cases hs; exact absurd hw (by simp [h0])
  rw [if_neg h2] at hs
  by_cases h3 : fl.verify = true
  · rw [if_pos h3] at hs; cases hs; exact absurd hw (by simp [h0])
  rw [if_neg h3] at hs
  by_cases h4 : fl.encrypt = true
  · rw [if_pos h4] at hs; cases hs; exact absurd hw (by simp [h0])
  rw [if_neg h4] at hs
  by_cases h5 : fl.decrypt = true
  · rw [if_pos h5] at hs; cases hs; exact absurd hw (by simp [h0])
  rw [if_neg h5] at hs
  by_cases h6 : fl.remove = true
  · rw [if_pos h6] at hs; cases hs; exact removeKey_own ks cfg w
  rw [if_neg h6] at hs
  by_cases h7 : fl.list = true
  · rw [if_pos h7] at hs; cases hs; exact absurd hw (by simp [h0])
  rw [if_neg h7] at hs
  by_cases h8 : (fl.export_ && fl.label == self) = true
  · rw [if_pos h8] at hs; cases hs; exact absurd hw (by simp [h0])
  rw [if_neg h8] at hs
  by_cases h9 : fl.export_ = true
  · rw [if_pos h9] at hs; cases hs; exact absurd hw (by simp [h0])
  rw [if_neg h9] at hs
  by_cases h10 : fl.import_ = true
  · rw [if_pos h10] at hs
    by_cases h11 : fl.untrusted = true
    · rw [if_pos h11] at hs; cases hs; exact importUntrusted_own C A P e ks cfg w
    · rw [if_neg h11] at hs; cases hs; exact importVerified_own C A P e ks cfg w
  · rw [if_neg h10] at hs; cases hs

theorem lock_own {s s' : KeyStore} {b : Bool} (h : s.lock = .ok (s', b)) : own s'.toKeyFields = own s.toKeyFields := by
  unfold KeyStore.lock at h
  obtain ⟨v, -, h⟩ := Res.bind_eq_ok.mp h
  split at h
  · cases h; rfl
  · split at h
    · cases h; rfl
    · obtain ⟨u, -, h⟩ := Res.bind_eq_ok.mp h
      cases h; rfl

/-- The public key that `f` has after a run: the one in the store, or that of the private key in it, which the passphrase has opened. -/
def PublicOf (answers : List (Option Bytes)) (f0 f : KeyFields) : Prop :=
  f.publicKey = f0.publicKey ∨ ∃ box pass as k pub, f0.lockedKey = some box ∧ answers = some pass :: as ∧ unlockKey C box pass = .ok (some k) ∧
    marshalPublic k.pub = .ok (some pub) ∧ f.publicKey = some pub

theorem unlock_own {s s' : KeyStore} {Q : Pem} {pass : Bytes} {now : BitVec 64} (h : s.unlock C A Q pass now = .ok (s', true)) (hl : s.locked = true) :
    s'.lockedKey = s.lockedKey ∧ ∃ k pub, unlockKey C (s.lockedKey.getD []) pass = .ok (some k) ∧ marshalPublic k.pub = .ok (some pub) ∧ s'.publicKey = some pub := by
  unfold KeyStore.unlock at h
  split at h
  · cases h
  · rw [hl] at h
    simp only [Bool.not_true, Bool.false_eq_true, if_false] at h
    obtain ⟨o, h1, h⟩ := Res.bind_eq_ok.mp h
    cases o with
    | none => cases h
    | some k =>
      obtain ⟨o, h2, h⟩ := Res.bind_eq_ok.mp h
      cases o with
      | none => obtain ⟨u, -, h⟩ := Res.bind_eq_ok.mp h; cases h
      | some pub =>
        simp only at h
        split at h
        · obtain ⟨o, h3, h⟩ := Res.bind_eq_ok.mp h
          cases o with
          | none => obtain ⟨⟨u, v⟩, -, h⟩ := Res.bind_eq_ok.mp h; cases h
          | some sig => cases h; exact ⟨rfl, k, pub, h1, h2, rfl⟩
        · cases h; exact ⟨rfl, k, pub, h1, h2, rfl⟩

theorem ready_own {w w1 : World} {path : Bytes} {u : Bool} {ks : KeyStore} (h : Ready C A P J w path u ks w1) :
    ∃ data f0, w.fs path = some data ∧ J.dec data = some f0 ∧ ks.lockedKey = f0.lockedKey ∧ PublicOf C w.term.answers f0 ks.toKeyFields := by
  obtain ⟨h1, h2, h3, h4⟩ := h
  obtain ⟨f, hf, rfl, -⟩ := loadData_some J h2
  refine ⟨_, f, h1, hf, ?_⟩
  rcases h4 with ⟨-, rfl, -⟩ | ⟨-, h4⟩
  · exact ⟨rfl, .inl rfl⟩
  · rcases unlockStore_true C A P h4 with ⟨-, rfl, -⟩ | ⟨hl, pass, as, ha, -, hu⟩
    · exact ⟨rfl, .inl rfl⟩
    · obtain ⟨e1, k, pub, e2, e3, e4⟩ := unlock_own C A hu hl
      refine ⟨e1, .inr ?_⟩
      have hl' : f.lockedKey.isSome = true := hl
      cases hb : f.lockedKey with
      | none => rw [hb] at hl'; cases hl'
      | some box =>
        refine ⟨box, pass, as, k, pub, rfl, ha, ?_, e3, e4⟩
        have e2' : unlockKey C (f.lockedKey.getD []) pass = .ok (some k) := e2
        rwa [hb] at e2'

/-- What is written at the end. -/
theorem conclude_own {f : Flags} {sw u : Bool} {r : Ret} {ks : KeyStore} {w w' : World} {r' : Ret} (h : conclude J f sw u (r, ks, w) = (r', w'))
    (hsw : sw = true) : w'.fs f.path = w.fs f.path ∨
      ∃ g k, own g = own ks.toKeyFields ∧ w'.fs f.path = some ((J.enc g).take k) ∧ (r' = .ok → w'.fs f.path = some (J.enc g)) := by
  subst hsw
  by_cases hr : r = .ok
  · subst hr
    simp only [conclude, finish, Bool.true_or, if_true, writeStore] at h
    cases hd : dumpKeyStore J { ks with timestamp := w.now.1 } with
    | panic => rw [hd] at h; cases h; exact .inl rfl
    | ok x =>
      obtain ⟨data, ks'⟩ := x
      rw [hd] at h
      unfold dumpKeyStore at hd
      obtain ⟨⟨s, b⟩, h1, h2⟩ := Res.bind_eq_ok.mp hd
      cases h2
      have ho : own ks'.toKeyFields = own ks.toKeyFields := (lock_own h1).trans rfl
      simp only [Res.ok_bind, Res.pure_eq] at h
      generalize hw2 : (w.now.2).print (ascii "Writing keystore.\n") = w2 at h
      have hfs : w2.fs = w.fs := by rw [← hw2]; rfl
      have key : (w2.save f.path (J.enc ks'.toKeyFields)).2.fs f.path = w2.fs f.path ∨ ∃ k, (w2.save f.path (J.enc ks'.toKeyFields)).2.fs f.path =
          some ((J.enc ks'.toKeyFields).take k) ∧ ((w2.save f.path (J.enc ks'.toKeyFields)).1 = true → (J.enc ks'.toKeyFields).take k = J.enc ks'.toKeyFields) := by
        unfold World.save
        cases ho : w2.writes 0 with
        | done => exact .inr ⟨(J.enc ks'.toKeyFields).length, by simp [Go.writeFile], by simp⟩
        | openFails => exact .inl (by simp [Go.writeFile])
        | failsAfter k => exact .inr ⟨k, by simp [Go.writeFile], by simp [Go.writeFile]⟩
      have keyok : (w2.save f.path (J.enc ks'.toKeyFields)).1 = true → (w2.save f.path (J.enc ks'.toKeyFields)).2.fs f.path = some (J.enc ks'.toKeyFields) := by
        unfold World.save
        cases ho : w2.writes 0 with
        | done => simp [Go.writeFile]
        | openFails => simp [Go.writeFile]
        | failsAfter k => simp [Go.writeFile]
      rcases hs : w2.save f.path (J.enc ks'.toKeyFields) with ⟨ok, w3⟩
      rw [hs] at h key keyok
      have fin : w3 = w' ∧ (r' = .ok → ok = true) := by
        cases ok with
        | false => cases h; exact ⟨rfl, fun h => nomatch h⟩
        | true =>
          simp only at h
          split at h
          · split at h <;> (cases h; exact ⟨rfl, fun _ => rfl⟩)
          · cases h; exact ⟨rfl, fun _ => rfl⟩
      obtain ⟨rfl, hok⟩ := fin
      rcases key with key | ⟨k, key, -⟩
      · exact .inl (by rw [key, hfs])
      · exact .inr ⟨ks'.toKeyFields, k, ho, key, fun hr => keyok (hok hr)⟩
  · rw [conclude_fail J hr] at h
    cases h
    exact .inl rfl

/-- C244: no run of fcrypt that sends its output elsewhere changes the private key in the key store: the file is as it was, or it is a key store, or as much of one
as was written, with the same box, byte for byte; its public key is the same, or that of the private key in the box. -/
theorem C244_own_key_partial (e : Env) (fl : Flags) (args : List Bytes) (w w' : World) (r : Ret) (ho : fl.path ∉ args)
    (h : main C A P J e fl args w = (r, w')) : w'.fs fl.path = w.fs fl.path ∨
      ∃ data f0 f k, w.fs fl.path = some data ∧ J.dec data = some f0 ∧ f.lockedKey = f0.lockedKey ∧ PublicOf C w.term.answers f0 f ∧
        w'.fs fl.path = some ((J.enc f).take k) ∧ (r = .ok → w'.fs fl.path = some (J.enc f)) := by
  cases hf : w.fs fl.path with
  | none =>
    refine .inl ?_
    have hst : ∀ q, w'.fs q ≠ w.fs q → False := by
      unfold main at h
      cases hs : select C A P e fl with
      | none => rw [hs] at h; cases h; exact fun q hq => hq rfl
      | some cmd =>
        rw [hs] at h
        simp only at h
        split at h
        · cases h; exact fun q hq => hq rfl
        · obtain ⟨h1, h2⟩ := load_missing C A P J hf
          by_cases hr : 64 ≤ w.rng.length
          · rw [h1 hr] at h; cases h; exact fun q hq => hq rfl
          · obtain ⟨w1, g1, g2, -⟩ := h2 (by omega)
            rw [g1] at h
            cases h
            exact fun q hq => hq (by rw [g2])
    have := Classical.byContradiction (hst fl.path)
    rw [this, hf]
  | some data =>
    rcases select_step C A P e fl args with hs | ⟨cmd, hs, hc, hw⟩
    · unfold main at h
      rw [hs] at h
      cases h
      exact .inl hf
    · rcases main_cases C A P J (args := args) hs hf with ⟨r0, w0, n, h1, -, -, h3⟩ | ⟨hl, ks, w1, hr, sw, hsw, hm⟩
      · rw [h1] at h
        cases h
        exact .inl (by rw [h3.fs, hf])
      · obtain ⟨n, -, hsame⟩ := hr.same
        rw [hm] at h
        by_cases hx : cmd.shouldWrite = true ∨ fl.check = true
        · have hown := select_own C A P hs hx ks (config fl args) w1
          have hfs := (hw hx).2 ks w1
          obtain ⟨data', f0, e1, e2, e3, e4⟩ := ready_own C A P J hr
          rw [hf] at e1
          cases e1
          generalize hy : cmd.run ks (config fl args) w1 = y at h hown hfs
          obtain ⟨r1, ks1, w2⟩ := y
          simp only at hown hfs
          cases hsw' : sw with
          | false =>
            rw [hsw', conclude_quiet J (by rw [hfs, hsame.fs, hf]; simp)] at h
            cases h
            exact .inl (by rw [hfs, hsame.fs, hf])
          | true =>
            rcases conclude_own J h hsw' with g | ⟨g, k, g1, g2, g3⟩
            · exact .inl (by rw [g, hfs, hsame.fs, hf])
            · refine .inr ⟨data, f0, g, k, rfl, e2, ?_, ?_, g2, g3⟩
              · exact ((Prod.mk.inj g1).1.trans (Prod.mk.inj hown).1).trans e3
              · have hp : g.publicKey = ks.publicKey := (Prod.mk.inj g1).2.trans (Prod.mk.inj hown).2
                unfold PublicOf at e4 ⊢
                rw [hp]
                exact e4
        · have hno : ∀ q, MayChange fl args q → q = fl.path → False := by
            intro q hq hp
            cases hq with
            | output _ _ => exact ho (by simp [hp])
            | export_ _ _ => exact ho (by simp [hp])
            | store h3 =>
              refine hx ?_
              rcases h3 with h3 | h3 | h3
              · exact .inr h3
              · rw [select_remove C A P h3] at hs; cases hs; exact .inl rfl
              · cases hu : fl.untrusted with
                | true => rw [select_uimport C A P h3 hu] at hs; cases hs; exact .inl rfl
                | false => rw [select_import C A P h3 hu] at hs; cases hs; exact .inl rfl
          have hstep := (main_step C A P J e fl args w).files
          rw [hm, h] at hstep
          refine .inl (Classical.byContradiction fun hq => hno _ (hstep _ ?_) rfl)
          rw [hf]
          exact hq

/-- C244: after such a run that succeeds, the passphrases that opened the private key open it, and the same key. -/
theorem C244_opens_partial (e : Env) (fl : Flags) (args : List Bytes) (w w' : World) (ho : fl.path ∉ args)
    (h : main C A P J e fl args w = (.ok, w')) (data : Bytes) (f0 : KeyFields) (hf : w.fs fl.path = some data) (hd : J.dec data = some f0) :
    ∃ f, (w'.fs fl.path = some data ∧ f = f0 ∨ w'.fs fl.path = some (J.enc f)) ∧ ∀ d seed pass, Opens C f0 d seed pass → Opens C f d seed pass := by
  rcases C244_own_key_partial C A P J e fl args w w' _ ho h with g | ⟨data', f0', f, k, g1, g2, g3, -, -, g4⟩
  · exact ⟨f0, .inl ⟨g.trans hf, rfl⟩, fun _ _ _ h => h⟩
  · rw [hf] at g1
    cases g1
    rw [hd] at g2
    cases g2
    refine ⟨f, .inr (g4 rfl), fun d seed pass h => ⟨h.dlen, h.slen, ?_⟩⟩
    rw [g3]
    exact h.key

/-- C244, violated: `fcrypt -export` with the path of the key store as its argument reports success and leaves the exported public key there, and nothing else. -/
theorem C244_violated (e : Env) (fl : Flags) (hfl : Exports fl) (hl : fl.label = self) (rest : List Bytes) (w : World) (owner x : Bytes) (f : KeyFields) (m : Keys)
    (hk : Keyring C J w.fs fl.path owner f m) (hx : f.exportKey = some x) (hp : fl.path ≠ [45]) (hw : w.writes 0 = .done) :
    ∃ w', main C A P J e fl (fl.path :: rest) w = (.ok, w') ∧ w'.fs fl.path = some x := by
  obtain ⟨w', h1, h2⟩ := exportSelf_run C A P J (e := e) (rest := rest) hfl hl hk hx (fun _ => hw)
  refine ⟨w', h1, ?_⟩
  unfold Output at h2
  rw [if_neg hp] at h2
  rw [h2.2]
  exact Fs.set_same _ _ _

open Verif.Props.MeanwhileKeys (two_keyring twoKeys twoFields)

/-- A key is removed from a store with two: the file changes, the box does not. -/
example (e : Env) : ∃ w' f, main C A P J e { path := [107], remove := true } [[97]] (MeanwhileKeys.exWorld C J) = (.ok, w') ∧
    w'.fs [107] = some (J.enc f) ∧ f.lockedKey = some [1] := by
  have hd : J.dec (J.enc (twoFields C (List.replicate 32 1) (List.replicate 32 2) (List.replicate 64 3))) = some (twoFields C (List.replicate 32 1) (List.replicate 32 2) (List.replicate 64 3)) := by
    obtain ⟨data, h1, h2⟩ := (two_keyring C J (List.replicate 32 1) (List.replicate 32 2) (List.replicate 64 3) (by decide) (fun _ => none) [107]).file
    rw [Fs.set_same] at h1
    cases h1
    exact h2
  obtain ⟨w1, f1, w2, f2, h1, -⟩ := Verif.Props.MeanwhileKeys.C242_removed_violated C A P J e { path := [107], remove := true }
    ⟨⟨rfl, rfl, rfl, rfl, rfl⟩, rfl⟩ [97] [98] (MeanwhileKeys.exWorld C J) (MeanwhileKeys.exWorld C J) _ _ _ (two_keyring C J _ _ _ (by decide) _ _)
    (by decide) (by decide) (by decide) (by simp [twoKeys, Map.set]) (by simp [twoKeys, Map.set]) rfl rfl rfl
  rcases C244_own_key_partial C A P J e _ _ _ w1 _ (by decide) h1 with g | ⟨data, f0, f, k, g1, g2, g3, -, -, g4⟩
  · exact ⟨w1, twoFields C (List.replicate 32 1) (List.replicate 32 2) (List.replicate 64 3), h1, g.trans (by simp [MeanwhileKeys.exWorld, Fs.set]), rfl⟩
  · have : (MeanwhileKeys.exWorld C J).fs [107] = some (J.enc (twoFields C (List.replicate 32 1) (List.replicate 32 2) (List.replicate 64 3))) := by simp [MeanwhileKeys.exWorld, Fs.set]
    rw [this] at g1
    cases g1
    rw [hd] at g2
    cases g2
    exact ⟨w1, f, h1, g4 rfl, g3⟩

/-- The own key is exported over the store: what is left is not the store. -/
example (e : Env) : ∃ w', main C A P J e { path := [107], export_ := true } [[107]] (MeanwhileKeys.exWorld C J) = (.ok, w') ∧ w'.fs [107] = some [7] :=
  C244_violated C A P J e { path := [107], export_ := true } ⟨⟨rfl, rfl, rfl, rfl, rfl⟩, rfl, rfl, rfl⟩ rfl [] (MeanwhileKeys.exWorld C J) _ _ _ _
    (two_keyring C J _ _ _ (by decide) _ _) rfl (by decide) rfl

end Verif.Props.OwnKey
