import Verif.Spec.Keysrv
import Verif.Proofs.Fcrypt
/-! Lemmas about the key server. -/

namespace Verif.Proofs.Keysrv
open Verif Verif.Go Verif.Model.Util Verif.Model.Public Verif.Model.KeyStore Verif.Model.Keysrv
open Verif.Spec.KeyStore Verif.Spec.Keysrv Verif.Proofs.KeyStore

variable (C : Crypto) {A : Asn1} {P : Pem} {J : KeyJson} {sha256 : Bytes → Bytes}

theorem type_eq : verifiedKeyType = ascii "CRYPTUTIL VERIFIED KEY" := by decide

/-- What a processed command has done to the store. -/
theorem process_ok {ks ks' : KeyStore} {cmd : Command} {o : Orders} {clock : BitVec 64} {resp : Response}
    (h : process C A P sha256 ks cmd o clock = some (.ok (ks', resp))) :
    ks' = ks ∨ (cmd.op = .upload ∧ cmd.label ≠ self ∧ cmd.label ≠ [] ∧ resp = { out := ascii "public key added successfully" } ∧
      ∃ body, P.dec cmd.pub = some (verifiedKeyType, body) ∧
        ks.importVerified C A cmd.label body o.first o.second clock = .ok (ks', true)) := by
  unfold process at h
  cases hop : cmd.op <;> rw [hop] at h <;> simp only [Option.some.injEq] at h
  · cases h; exact .inl rfl
  · cases h; exact .inl rfl
  · unfold checkUpload at h
    split at h
    · cases h; exact .inl rfl
    · rename_i hl
      obtain ⟨⟨ks1, ok⟩, h1, h2⟩ := Res.bind_eq_ok.mp h
      simp only at h2
      unfold KeyStore.importVerifiedKey at h1
      split at h1
      · cases h1
        cases h2
        exact .inl rfl
      · rename_i typ body hd
        split at h1
        · cases h1
          cases h2
          exact .inl rfl
        · rename_i ht
          have ht := Classical.not_not.mp ht
          subst ht
          cases ok with
          | false =>
            rcases import_true C h1 with ⟨-, e⟩ | ⟨e, -⟩
            · subst e
              cases h2
              exact .inl rfl
            · cases e
          | true =>
            cases h2
            exact .inr ⟨rfl, fun e => hl (.inl e), fun e => hl (.inr e), rfl, body, hd, h1⟩
  · split at h
    · cases h
    · cases h
    · cases h; exact .inl rfl
  · cases h; exact .inl rfl

/-- The store changes only when an upload is accepted. -/
theorem step_ks {path : Path} {s s' : State} {e : Event} (h : Step C A P J sha256 path s e s') :
    s'.ks = s.ks ∨ ∃ n label body b, ∃ o : Orders, ∃ clock, e = .handle (.client n (.upload label body)) { out := ascii "public key added successfully" } ∧
      label ≠ self ∧ label ≠ [] ∧ P.dec body = some (verifiedKeyType, b) ∧ o.Enumerate s.ks ∧
      s.ks.importVerified C A label b o.first o.second clock = .ok (s'.ks, true) := by
  cases h with
  | handle x rest o clock ks resp hp hq ho hpr =>
    have hks : (State.deliver { s with ks := ks, queue := rest, deadline := s.now + 600 } x resp).ks = ks := by
      cases x <;> rfl
    rw [hks]
    rcases process_ok C hpr with e | ⟨h1, h2, h3, h4, b, h5, h6⟩
    · exact .inl e
    · cases x with
      | auditor => cases h1
      | client n r =>
        cases r with
        | server => cases h1
        | pubkey l => cases h1
        | fingerprint l => cases h1
        | upload l body => exact .inr ⟨n, l, body, b, o, clock, by rw [h4], h2, h3, h5, ho, h6⟩
  | _ => exact .inl rfl

theorem step_sound {path : Path} {s s' : State} {e : Event} {owner : Bytes} {m : Keys} (h : Step C A P J sha256 path s e s')
    (hs : Sound C s.ks owner m) : ∃ m', Sound C s'.ks owner m' := by
  rcases step_ks C h with e | ⟨n, l, body, b, o, clock, -, -, -, -, -, h1⟩
  · rw [e]; exact ⟨m, hs⟩
  · exact sound_import C hs h1

theorem run_sound {path : Path} {s s' : State} {es : List Event} {owner : Bytes} {m : Keys} (h : Run C A P J sha256 path s es s')
    (hs : Sound C s.ks owner m) : ∃ m', Sound C s'.ks owner m' := by
  induction h generalizing m with
  | nil => exact ⟨m, hs⟩
  | cons h1 _ ih =>
    obtain ⟨m', h2⟩ := step_sound C h1 hs
    exact ih h2

/-- A step keeps the records there are, and never files one under "self" or the empty label. -/
theorem step_kept {path : Path} {s s' : State} {e : Event} {m : Keys} (h : Step C A P J sha256 path s e s')
    (hm : s.ks.keys = some m) :
    ∃ m', s'.ks.keys = some m' ∧ (∀ l, m l ≠ none → m' l = m l) ∧ m' self = m self ∧ m' [] = m [] ∧
      s'.ks.publicKey = s.ks.publicKey ∧ s'.ks.privateKey = s.ks.privateKey ∧ s'.ks.lockedKey = s.ks.lockedKey ∧
      s'.ks.exportKey = s.ks.exportKey ∧ s'.ks.version = s.ks.version ∧ s'.ks.timestamp = s.ks.timestamp ∧
      s'.ks.locked = s.ks.locked := by
  rcases step_ks C h with e | ⟨n, l, body, b, o, clock, -, n1, n2, -, -, h1⟩
  · rw [e]; exact ⟨m, hm, fun _ _ => rfl, rfl, rfl, rfl, rfl, rfl, rfl, rfl, rfl, rfl⟩
  · rcases import_true C h1 with ⟨e, -⟩ | ⟨-, m0, v, sl, pk, hq, hk, hf, -, -, -, -, -, -, -, e⟩
    · cases e
    · rw [hm] at hk
      cases hk
      rw [e]
      have hf := ((has_false hq hm l).mp hf).2
      refine ⟨_, rfl, fun k hk => ?_, Map.set_other _ _ (Ne.symm n1), Map.set_other _ _ (Ne.symm n2), rfl, rfl, rfl, rfl, rfl, rfl, rfl⟩
      have : k ≠ l := fun e => hk (e ▸ hf)
      exact Map.set_other _ _ this

theorem run_kept {path : Path} {s s' : State} {es : List Event} {m : Keys} (h : Run C A P J sha256 path s es s')
    (hm : s.ks.keys = some m) :
    ∃ m', s'.ks.keys = some m' ∧ (∀ l, m l ≠ none → m' l = m l) ∧ m' self = m self ∧ m' [] = m [] ∧
      s'.ks.publicKey = s.ks.publicKey ∧ s'.ks.privateKey = s.ks.privateKey ∧ s'.ks.lockedKey = s.ks.lockedKey ∧
      s'.ks.exportKey = s.ks.exportKey ∧ s'.ks.version = s.ks.version ∧ s'.ks.timestamp = s.ks.timestamp ∧
      s'.ks.locked = s.ks.locked := by
  induction h generalizing m with
  | nil => exact ⟨m, hm, fun _ _ => rfl, rfl, rfl, rfl, rfl, rfl, rfl, rfl, rfl, rfl⟩
  | cons h1 _ ih =>
    obtain ⟨m1, a0, a1, a2, a3, a4, a5, a6, a7, a8, a9, a10⟩ := step_kept C h1 hm
    obtain ⟨m2, b0, b1, b2, b3, b4, b5, b6, b7, b8, b9, b10⟩ := ih a0
    refine ⟨m2, b0, fun l hl => ?_, b2.trans a2, b3.trans a3, b4.trans a4, b5.trans a5, b6.trans a6, b7.trans a7,
      b8.trans a8, b9.trans a9, b10.trans a10⟩
    rw [b1 l (by rw [a1 l hl]; exact hl), a1 l hl]

theorem step_finite {path : Path} {s s' : State} {e : Event} {m : Keys} (h : Step C A P J sha256 path s e s')
    (hm : s.ks.keys = some m) (hf : m.Finite) : ∃ m', s'.ks.keys = some m' ∧ m'.Finite := by
  rcases step_ks C h with e | ⟨n, l, body, b, o, clock, -, n1, n2, -, -, h1⟩
  · rw [e]; exact ⟨m, hm, hf⟩
  · rcases import_true C h1 with ⟨e, -⟩ | ⟨-, m0, v, sl, pk, hq, hk, hh, -, -, -, -, -, -, -, e⟩
    · cases e
    · rw [hm] at hk
      cases hk
      rw [e]
      exact ⟨_, rfl, hf.set _ _⟩

theorem run_finite {path : Path} {s s' : State} {es : List Event} {m : Keys} (h : Run C A P J sha256 path s es s')
    (hm : s.ks.keys = some m) (hf : m.Finite) : ∃ m', s'.ks.keys = some m' ∧ m'.Finite := by
  induction h generalizing m with
  | nil => exact ⟨m, hm, hf⟩
  | cons h1 _ ih =>
    obtain ⟨m1, a, b⟩ := step_finite C h1 hm hf
    exact ih a b

/-! ### Audits -/

/-- The walk ends well only from a label trusted. -/
theorem chainLoop_trusted {s : KeyFields} {m : Keys} (hm : s.keys = some m) (hlab : Labelled m) (hs : m self = none)
    (orders : Nat → List Bytes) (fuel i : Nat) (l : Bytes) (hl : l ≠ self)
    (h : s.chainLoop C orders fuel i l = some (.ok true)) : Trust C s.pubBytes m l := by
  induction fuel generalizing i l with
  | zero => simp [KeyFields.chainLoop] at h
  | succ n ih =>
    simp only [KeyFields.chainLoop] at h
    split at h
    · cases h
    · cases h
    · rename_i sl hv
      obtain ⟨hq, ⟨h1, -⟩ | ⟨-, r, hg, h2⟩⟩ := vks_some C hv
      · exact absurd h1 hl
      · rw [get_some hm] at hg
        rcases h2 with ⟨h3, h4, h5⟩ | ⟨h3, h4, r', hg', h5⟩
        · exact .owner hg h3 (by rw [h3]; exact h5)
        · rw [get_some hm] at hg'
          have hsl : sl ≠ self := fun e => by rw [e, hs] at hg'; cases hg'
          rw [if_neg hsl] at h
          unfold KeyFields.findPublic at h4
          rw [if_neg h3, hm] at h4
          obtain ⟨k, r2, -, h6, h7, h8⟩ := findLoop_some h4
          have := hlab k r2 h6
          rw [h8] at this
          subst this
          simp only [Option.getD_some] at h6
          rw [h6] at hg'
          cases hg'
          exact .link hg h6 h7.symm (by rw [← h7]; exact h5) (ih (i + 1) sl hsl h)

theorem audit_loop_all {s : KeyFields} (orders : Bytes → Nat → List Bytes) (fuel : Nat) (order : List Bytes)
    (h : s.auditLoop C orders fuel order = some (.ok true)) :
    ∀ l ∈ order, s.verifyChain C (orders l) fuel l = some (.ok true) := by
  induction order with
  | nil => simp
  | cons a t ih =>
    simp only [KeyFields.auditLoop] at h
    split at h
    · cases h
    · cases h
    · cases h
    · rename_i hv
      intro l hl
      rcases List.mem_cons.mp hl with rfl | hl
      · exact hv
      · exact ih h l hl

/-- An audit ends well only if every record is there and trusted. -/
theorem audit_trust {s : KeyFields} {m : Keys} (hm : s.keys = some m) (hlab : Labelled m) (hs : m self = none)
    {order : List Bytes} {orders : Bytes → Nat → List Bytes} {fuel : Nat} (he : m.Enumerates order)
    (h : s.keyAudit C order orders fuel = some (.ok true)) :
    NoNil m ∧ ∀ l r, m l = some (some r) → Trust C s.pubBytes m l := by
  have key : ∀ l, m l ≠ none → Trust C s.pubBytes m l := by
    intro l hl
    unfold KeyFields.keyAudit at h
    split at h
    · cases h
    · have h1 := audit_loop_all C orders fuel order h l ((he.2 l).mpr hl)
      have hn : l ≠ self := fun e => hl (e ▸ hs)
      unfold KeyFields.verifyChain at h1
      split at h1
      · cases h1
      · exact chainLoop_trusted C hm hlab hs _ _ _ _ hn h1
  refine ⟨fun k hk => ?_, fun l r hr => key l (by rw [hr]; simp)⟩
  cases key k (by rw [hk]; simp) with
  | owner h => rw [hk] at h; cases h
  | link h => rw [hk] at h; cases h

/-- In a sound store a walk goes on, or ends well. -/
theorem chainLoop_sound_ok {s : KeyStore} {owner : Bytes} {m : Keys} (h : Sound C s owner m) (orders : Nat → List Bytes)
    (ho : ∀ i, m.Enumerates (orders i)) (fuel i : Nat) (l : Bytes) (hl : m l ≠ none) :
    s.chainLoop C orders fuel i l = none ∨ s.chainLoop C orders fuel i l = some (.ok true) := by
  induction fuel generalizing i l with
  | zero => exact .inl rfl
  | succ n ih =>
    have hn : l ≠ self := fun e => hl (e ▸ h.noSelf)
    obtain ⟨r, hr⟩ : ∃ r, m l = some (some r) := by
      cases hml : m l with
      | none => exact absurd hml hl
      | some o => cases o with
        | none => exact absurd hml (h.noNil l)
        | some r => exact ⟨r, rfl⟩
    simp only [KeyFields.chainLoop]
    rcases vks_vouched C h.quick h.keys (sound_pub C h) h.noNil h.labelled (ho i) hn hr (h.trust l r hr) with
      ⟨-, h1⟩ | ⟨-, sl, r', h2, -, h1⟩
    · rw [h1]; simp
    · rw [h1]
      have : sl ≠ self := fun e => by rw [e, h.noSelf] at h2; cases h2
      simp only [this, if_false]
      exact ih (i + 1) sl (by rw [h2]; simp)

theorem verifyChain_sound_ok {s : KeyStore} {owner : Bytes} {m : Keys} (h : Sound C s owner m) (orders : Nat → List Bytes)
    (ho : ∀ i, m.Enumerates (orders i)) (fuel : Nat) (l : Bytes) (hl : m l ≠ none) :
    s.verifyChain C orders fuel l = none ∨ s.verifyChain C orders fuel l = some (.ok true) := by
  have hn : l ≠ self := fun e => hl (e ▸ h.noSelf)
  have hh : s.has l = true := (has_iff h.quick h.keys l).mpr (.inr hl)
  unfold KeyFields.verifyChain
  rw [h.quick, hh]
  simp only [Bool.not_true, Bool.or_self, Bool.false_eq_true, if_false, if_neg hn]
  exact chainLoop_sound_ok C h orders ho fuel 0 l hl

/-- In a sound store an audit goes on, or ends well. -/
theorem audit_sound_ok {s : KeyStore} {owner : Bytes} {m : Keys} (h : Sound C s owner m) {order : List Bytes}
    {orders : Bytes → Nat → List Bytes} (he : m.Enumerates order) (ho : ∀ l i, m.Enumerates (orders l i)) (fuel : Nat) :
    s.keyAudit C order orders fuel = none ∨ s.keyAudit C order orders fuel = some (.ok true) := by
  unfold KeyFields.keyAudit
  rw [h.quick]
  simp only [Bool.not_true, Bool.false_eq_true, if_false]
  have : ∀ o : List Bytes, (∀ l ∈ o, m l ≠ none) →
      s.auditLoop C orders fuel o = none ∨ s.auditLoop C orders fuel o = some (.ok true) := by
    intro o
    induction o with
    | nil => intro _; exact .inr rfl
    | cons a t ih =>
      intro ha
      simp only [KeyFields.auditLoop]
      rcases verifyChain_sound_ok C h (orders a) (ho a) fuel a (ha a (by simp)) with e | e
      · rw [e]; exact .inl rfl
      · rw [e]; exact ih (fun l hl => ha l (by simp [hl]))
  exact this order (fun l hl => (he.2 l).mp hl)

/-! ### Starting -/

/-- What the server has read when it comes up. -/
theorem load_ok {fs fs' : Fs} {path : Path} {write : WriteOutcome} {pass : Option Bytes} {rng : Rng}
    {t1 t2 t3 : BitVec 64} {ks : KeyStore}
    (h : loadStore C A P J fs path write pass rng t1 t2 t3 = .ok (some ks, fs')) :
    ∃ data f p k pub x, fs path = some data ∧ J.dec data = some f ∧ pass = some p ∧ fs' = fs ∧ f.lockedKey ≠ none ∧
      unlockKey C (f.lockedKey.getD []) p = .ok (some k) ∧ marshalPublic k.pub = .ok (some pub) ∧
      (∀ y, f.exportKey = some y → x = y) ∧
      (f.exportKey = none → ∃ sig, Model.Public.sign C (some k) (pub ++ pub ++ be 8 t3.toNat) = .ok (some sig) ∧
        x = ({ pub := pub, signer := pub, timestamp := t3, signature := sig } : VerifiedKey).serialise A P) ∧
      ks.validQuick = true ∧
      ks = { f with keys := some (f.keys.getD Map.empty), privateKey := some k, publicKey := some pub, locked := false,
                    exportKey := some x } := by
  unfold loadStore at h
  cases pass with
  | none => cases h
  | some p =>
    simp only at h
    cases hf : fs path with
    | none =>
      rw [hf] at h
      by_cases hr : 64 ≤ rng.length
      · simp [loadKeyStore, Props.Public.C23_generate_violated C rng hr] at h
      · simp [loadKeyStore, Props.Public.C23_short_rng_partial C rng (by omega)] at h
    | some data =>
      rw [hf] at h
      simp only [loadKeyStore, Res.ok_bind, Option.isNone_some, Bool.not_false, if_true] at h
      cases hd : loadData J data with
      | none => rw [hd] at h; cases h
      | some ks0 =>
        rw [hd] at h
        simp only at h
        obtain ⟨f, g1, g2, g3⟩ := Fcrypt.loadData_some J hd
        obtain ⟨v, hv, h⟩ := Res.bind_eq_ok.mp h
        cases v with
        | false => cases h
        | true =>
          simp only [Bool.not_true, Bool.false_eq_true, if_false] at h
          obtain ⟨⟨ks1, ok⟩, hu, h⟩ := Res.bind_eq_ok.mp h
          cases ok with
          | false => cases h
          | true =>
            cases h
            have hl : ks0.locked = true := by
              cases hl : ks0.locked with
              | true => rfl
              | false =>
                have := Fcrypt.valid_unlocked_priv hv hl
                rw [g2] at this
                simp [validPriv] at this
            obtain ⟨k, pub, x, u1, u2, u3, u4, u5⟩ := unlock_opens C hl hu
            have hq : ks1.validQuick = true := by
              obtain ⟨q1, q2, m, q3⟩ := (quick_iff _).mp g3
              rw [u5]
              exact (quick_iff _).mpr ⟨q1, q2, m, q3⟩
            subst g2
            refine ⟨data, f, p, k, pub, x, rfl, g1, rfl, rfl, ?_, u1, u2, u3, u4, hq, u5⟩
            intro hn
            simp [hn] at hl

theorem boot_ok {fs fs' : Fs} {path : Path} {write : WriteOutcome} {pass : Option Bytes} {rng : Rng}
    {t1 t2 t3 : BitVec 64} {o : Orders} {ks : KeyStore}
    (h : boot C A P J fs path write pass rng t1 t2 t3 o = some (.ok (some ks, fs'))) :
    loadStore C A P J fs path write pass rng t1 t2 t3 = .ok (some ks, fs') ∧
      ks.keyAudit C o.audit o.walk o.fuel = some (.ok true) := by
  unfold boot at h
  split at h
  · cases h
  · cases h
  · rename_i ks1 fs1 hl
    split at h
    · cases h
    · cases h
    · cases h
    · rename_i ha
      cases h
      exact ⟨hl, ha⟩

/-- A server that comes up has a sound store, if the file has its labels in order. -/
theorem starts_sound {fs fs' : Fs} {path : Path} {ks : KeyStore} (h : Starts C A P J fs path ks fs')
    (ho : Ordered J fs path) : ∃ owner m, Sound C ks owner m := by
  obtain ⟨write, pass, rng, t1, t2, t3, o, he, hb⟩ := h
  obtain ⟨hl, ha⟩ := boot_ok C hb
  obtain ⟨data, f, p, k, pub, x, f1, f2, -, -, -, u1, u2, -, -, hq, e⟩ := load_ok C hl
  have hk : ks.keys = some (f.keys.getD Map.empty) := by rw [e]
  have hp : ks.publicKey = some pub := by rw [e]
  have hpb : ks.pubBytes = pub := by simp [KeyFields.pubBytes, hp]
  obtain ⟨hs, hlab⟩ : (f.keys.getD Map.empty) self = none ∧ Labelled (f.keys.getD Map.empty) := by
    cases hfk : f.keys with
    | none => exact ⟨rfl, fun k r h => by cases h⟩
    | some m => exact ho data f m f1 f2 hfk
  obtain ⟨hv, hw⟩ := unlocked_wt C u1
  obtain ⟨-, -, he3, -⟩ := he _ hk
  obtain ⟨hn, ht⟩ := audit_trust C hk hlab hs he3 ha
  rw [hpb] at ht
  exact ⟨pub, _, hq, hp, (wt_marshal hw u2).1, hk, hn, hlab, hs, ht, fun _ => ⟨k, by rw [e], hv, hw, u2⟩⟩

theorem starts_finite {fs fs' : Fs} {path : Path} {ks : KeyStore} (h : Starts C A P J fs path ks fs') {m : Keys}
    (hm : ks.keys = some m) : m.Finite := by
  obtain ⟨write, pass, rng, t1, t2, t3, o, he, -⟩ := h
  exact (he m hm).1.finite

open Verif.Proofs.Fcrypt Verif.Spec.Fcrypt Verif.Spec.Public Verif.Proofs.Public Verif.Props.KeyTrust in
theorem unlock_loaded {f : KeyFields} {m : Keys} {d seed pass : Bytes} {fs : Fs} {path : Bytes} {t : BitVec 64}
    (h : Keyfile J fs path (ownerOf C d seed) f m) (ho : Opens C f d seed pass) :
    (loaded f m).unlock C A P pass t =
      .ok (opened C f m d seed (f.exportKey.getD ((statement C d seed (ownerOf C d seed) t).serialise A P)), true) := by
  obtain ⟨box, hb, hu⟩ := ho.key
  have hq : (loaded f m).validQuick = true := (quick_iff _).mpr ⟨h.version, h.time, m, rfl⟩
  have hl : (loaded f m).locked = true := rfl
  have hk : (loaded f m).lockedKey.getD [] = box := by show f.lockedKey.getD [] = box; rw [hb]; rfl
  unfold KeyStore.unlock
  rw [hq, hl, hk, hu]
  simp only [Bool.not_true, Bool.false_eq_true, if_false, Res.ok_bind, pairOf_marshal]
  have hp := h.pub
  cases hx : f.exportKey with
  | some x =>
    have : (loaded f m).exportKey = some x := hx
    simp only [this, Option.isNone_some, Bool.false_eq_true, if_false, Res.pure_eq]
    unfold opened loaded
    simp only [Option.getD_some, ← hp, hx]
  | none =>
    have : (loaded f m).exportKey = none := hx
    simp only [this, Option.isNone_none, if_true]
    rw [pairOf_eq, sign_mk]
    simp only [Res.ok_bind, Res.pure_eq]
    unfold opened loaded
    simp only [Option.getD_none, ← hp, pairOf_eq]
    rw [hp]
    rfl

/-- With a key store and its passphrase the store is loaded. -/
theorem load_complete {f : KeyFields} {m : Keys} {d seed pass : Bytes} {fs : Fs} {path : Bytes}
    (h : Spec.Fcrypt.Keyfile J fs path (ownerOf C d seed) f m) (ho : Spec.Fcrypt.Opens C f d seed pass)
    (write : WriteOutcome) (rng : Rng) (t1 t2 t3 : BitVec 64) :
    loadStore C A P J fs path write (some pass) rng t1 t2 t3 =
      .ok (some (Fcrypt.opened C f m d seed (f.exportKey.getD ((statement C d seed (ownerOf C d seed) t3).serialise A P))), fs) := by
  obtain ⟨data, h1, h2, h3⟩ := Fcrypt.keyfile_load J h
  unfold loadStore
  simp only [h1, loadKeyStore, Res.ok_bind, h2, h3, Option.isNone_some, Bool.not_false, if_true, Bool.not_true,
    Bool.false_eq_true, if_false, unlock_loaded C h ho, Res.pure_eq]

/-- With a key store in which no key appears twice, and its passphrase, the server comes up,
whatever the iteration orders. -/
theorem boot_complete {f : KeyFields} {m : Keys} {d seed pass : Bytes} {fs : Fs} {path : Bytes}
    (h : Spec.Fcrypt.Keyring C J fs path (ownerOf C d seed) f m) (ho : Spec.Fcrypt.Opens C f d seed pass) (hd : Distinct m)
    (write : WriteOutcome) (rng : Rng) (t1 t2 t3 : BitVec 64) (o : Orders) (he : m.Enumerates o.audit)
    (hw : ∀ l i, m.Enumerates (o.walk l i)) :
    ∃ n, boot C A P J fs path write (some pass) rng t1 t2 t3 { o with fuel := n } =
      some (.ok (some (Fcrypt.opened C f m d seed (f.exportKey.getD ((statement C d seed (ownerOf C d seed) t3).serialise A P))), fs)) := by
  have hs := (Fcrypt.opened_sound C J (x := f.exportKey.getD ((statement C d seed (ownerOf C d seed) t3).serialise A P)) h ho).1
  obtain ⟨n, hn⟩ := (Props.KeyImport.chain_terminates C hs hd).2 o.audit he
  refine ⟨n, ?_⟩
  unfold boot
  rw [load_complete C h.keyfile ho]
  simp only
  rw [hn o.walk hw]

/-! ### Executions -/

theorem run_append {path : Path} {s s' s'' : State} {es es' : List Event} (h : Run C A P J sha256 path s es s')
    (h' : Run C A P J sha256 path s' es' s'') : Run C A P J sha256 path s (es ++ es') s'' := by
  induction h with
  | nil => exact h'
  | cons h1 _ ih => exact .cons h1 (ih h')

theorem prompt_append {path : Path} {s s' s'' : State} {es es' : List Event} (h : Prompt C A P J sha256 path s es s')
    (h' : Prompt C A P J sha256 path s' es' s'') : Prompt C A P J sha256 path s (es ++ es') s'' := by
  induction h with
  | nil => exact h'
  | cons h1 h2 _ ih => exact .cons h1 h2 (ih h')

theorem prompt_run {path : Path} {s s' : State} {es : List Event} (h : Prompt C A P J sha256 path s es s') :
    Run C A P J sha256 path s es s' := by
  induction h with
  | nil => exact .nil _
  | cons h1 _ _ ih => exact .cons h1 ih

/-- A request to a server that has nothing else to do. -/
theorem serve {path : Path} {s : State} (hr : s.phase = .running) (hs : s.sending = []) (hq : s.queue = []) (n : Nat) (r : Request)
    {o : Orders} {clock : BitVec 64} {ks : KeyStore} {resp : Response} (ho : o.Enumerate s.ks)
    (hp : process C A P sha256 s.ks r.command o clock = some (.ok (ks, resp))) :
    Prompt C A P J sha256 path s [.arrive n r, .send (.client n r), .handle (.client n r) resp]
      { s with ks := ks, deadline := s.now + 600, replies := s.replies ++ [(n, r, r.reply resp)] } := by
  obtain ⟨ks0, fs, writes, now, deadline, sending, queue, mailbox, nextAudit, replies, phase⟩ := s
  simp only at hr hs hq ho hp
  subst hr hs hq
  refine .cons (.arrive _ n r (.inl rfl)) (by simp) ?_
  refine .cons (.send _ [] [] (.client n r) (.inl rfl) rfl (by simp)) (by simp) ?_
  refine .cons (.handle _ (.client n r) [] o clock ks resp rfl rfl ho hp) (by simp) ?_
  exact .nil _

theorem handle_step {path : Path} {s : State} (hr : s.phase = .running) {x : Sender} {rest : List Sender} (hq : s.queue = x :: rest)
    {o : Orders} {clock : BitVec 64} {ks : KeyStore} {resp : Response} (ho : o.Enumerate s.ks)
    (hp : process C A P sha256 s.ks x.command o clock = some (.ok (ks, resp))) :
    ∃ s', Step C A P J sha256 path s (.handle x resp) s' ∧ s'.ks = ks ∧ s'.queue = rest ∧ s'.phase = .running ∧
      s'.sending = s.sending := by
  refine ⟨_, .handle s x rest o clock ks resp hr hq ho hp, ?_⟩
  cases x <;> exact ⟨rfl, rfl, hr, rfl⟩

/-- The order of an audit that sees the keys in one order all the time. -/
def steady (order : List Bytes) (fuel : Nat) : Orders := ⟨order, order, order, fun _ _ => order, fuel⟩

theorem steady_enumerate {ks : KeyStore} {m : Keys} {order : List Bytes} (hm : ks.keys = some m) (h : m.Enumerates order) (fuel : Nat) :
    (steady order fuel).Enumerate ks := by
  intro m' hm'
  rw [hm] at hm'
  cases hm'
  exact ⟨h, h, h, fun _ _ => h⟩

/-- An upload of a good statement. -/
theorem process_upload {s : KeyStore} {owner : Bytes} {m : Keys} (h : Sound C s owner m) (he : m [] = none) {label body : Bytes}
    {v : VerifiedKey} (hb : Armoured A P body v) (hl : label ≠ self) (hne : label ≠ []) (hf : m label = none)
    (hs : Signed C v.signer v.pub v.signature v.timestamp)
    (hk : v.signer = owner ∨ ∃ l r, m l = some (some r) ∧ r.keyBytes = v.signer) {o : Orders} (ho : o.Enumerate s) (clock : BitVec 64) :
    process C A P sha256 s (Request.upload label body).command o clock =
      some (.ok ({ s with keys := some (m.set label (some {
        label := label, version := 1, timestamp := clock, keys := some v.pub, keySignature := v.signature
        keySigner := v.signer, signatureTime := v.timestamp, metadata := none })) },
        { out := ascii "public key added successfully" })) := by
  obtain ⟨b, h1, h2⟩ := hb
  obtain ⟨o1, o2, -, -⟩ := ho m h.keys
  have hn : ¬ (label = self ∨ label = []) := fun e => e.elim hl hne
  simp only [process, Request.command, checkUpload, hn, if_false, KeyStore.importVerifiedKey, h1, type_eq, ne_eq,
    not_true_eq_false, import_complete C h he o1 o2 h2 hl hf hs hk clock, Res.ok_bind, Bool.not_true, Bool.false_eq_true,
    Res.pure_eq]

/-- The server has nothing to do. -/
structure Quiet (s : State) : Prop where
  running : s.phase = .running
  sending : s.sending = []
  queue : s.queue = []
  mailbox : s.mailbox = none

/-- Time may pass until the timer fires or the auditor wakes. -/
theorem quiet_idle {path : Path} {s : State} (hq : Quiet s) {t d : Nat} (ht : s.nextAudit = some t) (h1 : s.now + d ≤ s.deadline)
    (h2 : s.now + d ≤ t) : s.Idle C A P J sha256 path d := by
  intro d' hd e s' h
  obtain ⟨g1, g2, g3, g4⟩ := hq
  cases h with
  | arrive n r => exact .inl ⟨n, r, rfl⟩
  | tick d'' => exact .inr ⟨d'', rfl⟩
  | send a b x _ hs => simp [g2] at hs
  | handle x rest o clock ks resp _ hs => simp [g3] at hs
  | crash x rest o clock _ hs => simp [g3] at hs
  | hang x rest o clock _ hs => simp [g3] at hs
  | dump _ hs => simp at hs; omega
  | wake t' _ hs hle =>
    simp only at hs hle
    rw [ht] at hs
    cases hs
    omega
  | told resp _ hs => simp [g4] at hs
  | fatal resp _ hs => simp [g4] at hs

/-- An audit by a server that has nothing else to do. -/
theorem audit_round {path : Path} {s : State} (hq : Quiet s) {owner : Bytes} {m : Keys} (hs : Sound C s.ks owner m) (hd : Distinct m)
    (hf : m.Finite) {t : Nat} (ht : s.nextAudit = some t) (hle : t ≤ s.now) :
    Prompt C A P J sha256 path s [.wake, .send .auditor, .handle .auditor {}, .told]
      { s with deadline := s.now + 600, nextAudit := some (s.now + 14400) } := by
  obtain ⟨order, hen⟩ := hf.enumerates
  obtain ⟨n, hn⟩ := (Props.KeyImport.chain_terminates C hs hd).2 order hen
  have ho := steady_enumerate hs.keys hen n
  have hp : process C A P sha256 s.ks Sender.auditor.command (steady order n) 0 = some (.ok (s.ks, {})) := by
    simp [process, Sender.command, steady, hn _ (fun _ _ => hen)]
  obtain ⟨ks0, fs, writes, now, deadline, sending, queue, mailbox, nextAudit, replies, phase⟩ := s
  obtain ⟨g1, g2, g3, g4⟩ := hq
  simp only at g1 g2 g3 g4 ho hp ht hle
  subst g1 g2 g3 g4 ht
  refine .cons (.wake _ t (.inl rfl) rfl hle) (by simp) ?_
  refine .cons (.send _ [] [] .auditor (.inl rfl) rfl (by simp)) (by simp) ?_
  refine .cons (.handle _ .auditor [] (steady order n) 0 ks0 {} rfl rfl ho hp) (by simp) ?_
  refine .cons (.told _ {} (.inl rfl) rfl rfl) (by simp) ?_
  exact .nil _

end Verif.Proofs.Keysrv
