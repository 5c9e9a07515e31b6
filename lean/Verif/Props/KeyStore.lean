import Verif.Props.KeyImport
/-! Properties C62-C66, C90, C93: locking, messages and files of the key store. -/

namespace Verif.Props.KeyStore
open Verif Verif.Go Verif.Model.Util Verif.Model.Public Verif.Model.KeyStore Verif.Spec.Public Verif.Spec.KeyStore
open Verif.Proofs.Public Verif.Proofs.KeyStore Verif.Props.KeyTrust

variable (C : Crypto) (A : Asn1) (P : Pem) (J : KeyJson)

/-! ### C62: locking disables the private key -/

/-- On a locked store, whatever else is in it, AddKey, Decrypt, Sign, EncryptAndSignTo,
DecryptAndVerify and ExportVerified fail and change nothing. -/
theorem C62_locked_refuses (s : KeyStore) (h : s.locked = true) :
    (∀ label peer md t1 t2, s.addKey C label peer md t1 t2 = .ok (s, false)) ∧
    (∀ msg, s.decrypt C msg = .ok none) ∧ (∀ msg, s.sign C msg = .ok none) ∧
    (∀ label msg rng, s.encryptAndSignTo C label msg rng = .ok (none, rng)) ∧
    (∀ label msg, s.decryptAndVerify C label msg = .ok none) ∧
    (∀ label orders fuel now, s.exportVerified C A P label orders fuel now = some (.ok none)) := by
  have hv : ∃ b, s.valid = .ok b := by
    cases hs : s.valid with
    | panic => exact absurd hs (valid_no_panic s)
    | ok b => exact ⟨b, rfl⟩
  obtain ⟨b, hv⟩ := hv
  refine ⟨?_, ?_, ?_, ?_, ?_, ?_⟩
  · intro label peer md t1 t2
    unfold KeyStore.addKey
    simp only [h, if_true]
    split
    · rfl
    split <;> rfl
  · intro msg; simp [KeyStore.decrypt, hv, h]
  · intro msg; simp [KeyStore.sign, hv, h]
  · intro label msg rng; simp [KeyStore.encryptAndSignTo, hv, h]
  · intro label msg; simp [KeyStore.decryptAndVerify, hv, h]
  · intro label orders fuel now; simp [KeyStore.exportVerified, h]

example : ∃ s : KeyStore, s.locked = true := ⟨⟨⟨1, 2, some Map.empty, none, none, none⟩, none, true⟩, rfl⟩

/-- In the store an unlocked store becomes when locked (by Lock or LockWith), EncryptTo, Verify,
Has and ImportVerified give what they gave before. -/
theorem C62_public_operations (s s' : KeyStore) (owner : Bytes) (m : Keys) (h : Sound C s owner m)
    (hl : s' = { s with privateKey := none, locked := true, lockedKey := s'.lockedKey }) :
    (∀ label, s'.has label = s.has label) ∧
    (∀ label msg rng, s'.encryptTo C label msg rng = s.encryptTo C label msg rng) ∧
    (∀ label msg sig, s'.verify C label msg sig = s.verify C label msg sig) ∧
    (∀ label blob o1 o2 now, s'.importVerified C A label blob o1 o2 now = (do
      let (t, b) ← s.importVerified C A label blob o1 o2 now
      pure ({ s' with keys := t.keys }, b))) := by
  have hk : s'.keys = s.keys := by rw [hl]
  have hp : s'.publicKey = s.publicKey := by rw [hl]
  have hpb : s'.pubBytes = s.pubBytes := by simp [KeyFields.pubBytes, hp]
  have hq : s'.validQuick = s.validQuick := by rw [hl]; rfl
  have hg : ∀ l, s'.get l = s.get l := by intro l; unfold KeyFields.get; rw [hk]
  have hh : ∀ l, s'.has l = s.has l := by intro l; unfold KeyFields.has; rw [hq, hk]
  have hfp : ∀ p o, s'.findPublic p o = s.findPublic p o := by
    intro p o; unfold KeyFields.findPublic; rw [hpb, hk]
  have hvks : ∀ l o, s'.verifyKeySignature C l o = s.verifyKeySignature C l o := by
    intro l o
    unfold KeyFields.verifyKeySignature
    rw [hq]
    simp only [hg, hpb, hfp]
  have hlk : s'.locked = true := by rw [hl]
  have hgp : ∀ l, s'.getPublic l = s.getPublic l := by
    intro l
    unfold KeyStore.getPublic
    rw [hh]
    split
    · rfl
    by_cases hs : l = self
    · simp only [hs, if_true, hlk]
      cases hsl : s.locked with
      | true => simp [hpb]
      | false =>
        obtain ⟨k, h1, -, h3, h4⟩ := h.priv hsl
        obtain ⟨hlen, e, v, e1, e2, e3, e4⟩ := wt_marshal h3 h4
        rw [hpb, sound_pub C h, unmarshalPublic_of_length hlen, e4, List.take_left' e2, List.drop_left' e2, h1]
        simp [deref, e1]
    · simp only [hs, if_false, hg]
  refine ⟨hh, ?_, ?_, ?_⟩
  · intro label msg rng
    unfold KeyStore.encryptTo
    rw [hq, hh, hpb, hg]
  · intro label msg sig
    unfold KeyStore.verify
    rw [hq, hh, hgp]
  · intro label blob o1 o2 now
    have hk2 : ({ s' with keys := s.keys } : KeyStore) = s' := by rw [← hk]
    have hk3 : ({ s' with keys := s.keys, publicKey := s.publicKey } : KeyStore) = s' := by rw [← hk, ← hp]
    unfold KeyStore.importVerified
    rw [hq, hh]
    split
    · simp [hk2, hk3]
    cases A.dec blob with
    | none => simp [hk2, hk3]
    | some v =>
      simp only [hpb, hfp, hp, hg, hvks]
      by_cases hv : v.signer = s.pubBytes
      · simp only [hv, if_true, Res.pure_eq, Res.ok_bind]
        split
        · simp [hk2, hk3]
        cases s.verifyKeySignature C self o2 with
        | panic => rfl
        | ok o =>
          cases o with
          | none => simp [hk2, hk3]
          | some x =>
            simp only [Res.ok_bind]
            cases unmarshalPublic (s.publicKey.getD []) with
            | none => simp [hk2, hk3]
            | some pk =>
              simp only
              cases Model.Public.verify C (some pk) v.signatureData v.signature with
              | panic => rfl
              | ok c =>
                cases c with
                | false => simp [hk2, hk3]
                | true => simp [hk, h.keys]
      · simp only [hv, if_false]
        cases s.findPublic v.signer o1 with
        | panic => rfl
        | ok o =>
          cases o with
          | none => simp [hk2, hk3]
          | some sl =>
            simp only [Res.ok_bind]
            cases s.get sl with
            | none => rfl
            | some r =>
              simp only [deref, Res.ok_bind, Res.pure_eq]
              split
              · simp [hk2, hk3]
              cases s.verifyKeySignature C sl o2 with
              | panic => rfl
              | ok o =>
                cases o with
                | none => simp [hk2, hk3]
                | some x =>
                  simp only [Res.ok_bind]
                  cases unmarshalPublic (r.keys.getD []) with
                  | none => simp [hk2, hk3]
                  | some pk =>
                    simp only
                    cases Model.Public.verify C (some pk) v.signatureData v.signature with
                    | panic => rfl
                    | ok c =>
                      cases c with
                      | false => simp [hk2, hk3]
                      | true => simp [hk, h.keys]

/-- A successful Lock or LockWith leaves no private key in the store. -/
theorem C62_key_gone (s s' : KeyStore) :
    (s.lock = .ok (s', true) → s.locked = false → s'.locked = true ∧ s'.privateKey = none) ∧
    (∀ p rng rng', s.lockWith C p rng = .ok (s', true, rng') → s.locked = false →
      s'.locked = true ∧ s'.privateKey = none) := by
  constructor
  · intro h hl
    simp only [KeyStore.lock, Res.bind_eq_ok] at h
    obtain ⟨v, -, h⟩ := h
    split at h
    · simp at h
    rw [hl] at h
    simp only [Bool.false_eq_true, if_false, Res.bind_eq_ok] at h
    obtain ⟨-, -, h⟩ := h
    simp at h; subst h; exact ⟨rfl, rfl⟩
  · intro p rng rng' h hl
    simp only [KeyStore.lockWith, Res.bind_eq_ok] at h
    obtain ⟨v, -, h⟩ := h
    split at h
    · simp at h
    rw [hl] at h
    simp only [Bool.false_eq_true, if_false, Res.bind_eq_ok] at h
    obtain ⟨⟨o, r⟩, -, h⟩ := h
    cases o with
    | none => simp at h
    | some box =>
      simp only [Res.bind_eq_ok] at h
      obtain ⟨-, -, h⟩ := h
      simp at h
      obtain ⟨h, -⟩ := h
      subst h; exact ⟨rfl, rfl⟩

/-! ### C63: lock and unlock -/

/-- LockWith(p) then Unlock(p) restores the store; LockWith needs 56 random bytes. -/
theorem C63_roundtrip (s : KeyStore) (owner : Bytes) (m : Keys) (h : Sound C s owner m) (hl : s.locked = false)
    (p : Bytes) (rng : Rng) (hr : 56 ≤ rng.length) (now : BitVec 64) :
    ∃ s', s.lockWith C p rng = .ok (s', true, rng.drop 56) ∧ s'.locked = true ∧ s'.privateKey = none ∧
      ∃ s'', s'.unlock C A P p now = .ok (s'', true) ∧ s''.locked = false ∧ s''.privateKey = s.privateKey ∧
        s''.publicKey = s.publicKey ∧ s''.keys = s.keys ∧ s''.version = s.version ∧ s''.timestamp = s.timestamp ∧
        s''.exportKey.isSome ∧ (s.exportKey ≠ none → s''.exportKey = s.exportKey) := by
  obtain ⟨k, h1, h2, h3, h4⟩ := h.priv hl
  obtain ⟨box, b1, -, b3⟩ := (Props.Public.C24_lock_roundtrip C k h3 h2 p rng).2 hr
  obtain ⟨k', hz, -⟩ := zeroPriv_valid h2
  let s' : KeyStore := { s with lockedKey := some box, privateKey := none, locked := true }
  have hq : s'.validQuick = true := h.quick
  refine ⟨s', ?_, rfl, rfl, ?_⟩
  · unfold KeyStore.lockWith
    rw [sound_valid C h]
    simp [hl, h1, b1, hz, s']
  · unfold KeyStore.unlock
    rw [hq]
    simp only [Bool.not_true, Bool.false_eq_true, if_false, s', Option.getD_some, b3, Res.ok_bind, h4]
    cases hx : s.exportKey with
    | none =>
      obtain ⟨d, sk, e, v, hk⟩ := (validPriv_iff _).mp h2
      cases hk
      simp only [Option.isNone_none, if_true]
      rw [sign_mk]
      exact ⟨_, rfl, rfl, h1.symm, h.pub.symm, rfl, rfl, rfl, rfl, fun h => absurd rfl h⟩
    | some x =>
      simp only [Option.isNone_some, Bool.false_eq_true, if_false]
      exact ⟨_, rfl, rfl, h1.symm, h.pub.symm, rfl, rfl, rfl, rfl, fun _ => rfl⟩

/-- Unlock with a passphrase that does not open the locked key fails and changes nothing. -/
theorem C63_wrong_passphrase (s : KeyStore) (p : Bytes) (now : BitVec 64) (hl : s.locked = true)
    (h : unlockKey C (s.lockedKey.getD []) p = .ok none) : s.unlock C A P p now = .ok (s, false) := by
  unfold KeyStore.unlock
  split
  · rfl
  rw [hl]
  simp [h]

theorem exSound : Sound Toy.crypto (fresh Toy.crypto Proofs.ToyJson.asn1 Pem.toy (List.replicate 32 1) (List.replicate 32 2) 1 2)
    (ownerOf Toy.crypto (List.replicate 32 1) (List.replicate 32 2)) Map.empty :=
  fresh_sound _ _ _ _ _ _ _ (by decide) (by decide) (by decide)

example : unlockKey Toy.crypto (List.replicate 100 7) [1] = .ok none := by decide

/-! ### C64: locking never loses the key -/

theorem unlock_short (s : KeyStore) (hl : s.locked = true) (hk : s.lockedKey = none) (p : Bytes) (now : BitVec 64) :
    s.unlock C A P p now = .ok (s, false) := by
  refine C63_wrong_passphrase C A P s p now hl ?_
  unfold unlockKey
  simp [hk]

/-- C64 is false: after Lock on a store that was never locked with a passphrase, no passphrase
unlocks it. -/
theorem C64_lock_loses_violated (s : KeyStore) (owner : Bytes) (m : Keys) (h : Sound C s owner m)
    (hl : s.locked = false) (hk : s.lockedKey = none) :
    ∃ s', s.lock = .ok (s', true) ∧ s'.privateKey = none ∧
      ∀ p now, s'.unlock C A P p now = .ok (s', false) := by
  obtain ⟨k, h1, h2, -, -⟩ := h.priv hl
  obtain ⟨k', hz, -⟩ := zeroPriv_valid h2
  refine ⟨{ s with privateKey := none, locked := true }, ?_, rfl, fun p now => ?_⟩
  · unfold KeyStore.lock
    rw [sound_valid C h]
    simp [hl, h1, hz]
  · exact unlock_short C A P { s with privateKey := none, locked := true } rfl hk p now

/-- C64 is false: the same happens after a LockWith that failed for want of random bytes, even if
the store had been locked with a passphrase before. -/
theorem C64_failed_lockWith_violated (s : KeyStore) (owner : Bytes) (m : Keys) (h : Sound C s owner m)
    (hl : s.locked = false) (p : Bytes) (rng : Rng) (hr : rng.length < 56) :
    ∃ s1 s2 r, s.lockWith C p rng = .ok (s1, false, r) ∧ s1.lock = .ok (s2, true) ∧
      ∀ p now, s2.unlock C A P p now = .ok (s2, false) := by
  obtain ⟨k, h1, h2, h3, -⟩ := h.priv hl
  obtain ⟨r, hf⟩ := (Props.Public.C24_lock_roundtrip C k h3 h2 p rng).1 hr
  let s1 : KeyStore := { s with lockedKey := none }
  have hw : s.lockWith C p rng = .ok (s1, false, r) := by
    unfold KeyStore.lockWith
    rw [sound_valid C h]
    simp [hl, h1, hf, s1]
  obtain ⟨s2, e1, -, e2⟩ := C64_lock_loses_violated C A P s1 owner m (sound_lockWith C h hw) hl rfl
  exact ⟨s1, s2, r, hw, e1, e2⟩

/-- C64 is false: DumpKeyStore on a new store writes a file without the private key; the store
loaded from it says it is unlocked, and cannot sign. -/
theorem C64_dump_loses_violated (s : KeyStore) (owner : Bytes) (m : Keys) (h : Sound C s owner m)
    (hl : s.locked = false) (hk : s.lockedKey = none) (hf : s.toKeyFields.Finite) (hc : s.toKeyFields.Clean) :
    ∃ data s1 s2, dumpKeyStore J s = .ok (data, s1) ∧ loadData J data = some s2 ∧ s2.locked = false ∧
      (∀ p now, s2.unlock C A P p now = .ok (s2, true)) ∧ (∀ msg, s2.sign C msg = .ok none) := by
  obtain ⟨s', e1, -⟩ := C64_lock_loses_violated C A P s owner m h hl hk
  obtain ⟨k, h1, h2, -, -⟩ := h.priv hl
  obtain ⟨k', hz, -⟩ := zeroPriv_valid h2
  have hlock : s.lock = .ok ({ s with privateKey := none, locked := true }, true) := by
    unfold KeyStore.lock
    rw [sound_valid C h]
    simp [hl, h1, hz]
  let s2 : KeyStore := { s.toKeyFields with privateKey := none, locked := false }
  have hload : loadData J (J.enc s.toKeyFields) = some s2 := by
    unfold loadData
    rw [J.dec_enc _ hf hc]
    simp only
    have e : ({ s.toKeyFields with keys := some (s.keys.getD Map.empty) } : KeyFields) = s.toKeyFields := by
      obtain ⟨⟨a1, a2, a3, a4, a5, a6⟩, a7, a8⟩ := s
      have := h.keys
      simp only at this
      subst this
      rfl
    rw [e, if_neg (by simp only [Bool.not_eq_true', Bool.not_eq_false]; exact h.quick), hk]
    rfl
  have hq : s2.validQuick = true := h.quick
  have hv : s2.valid = .ok false := by
    unfold KeyStore.valid
    simp [hq, s2, validPriv]
  refine ⟨J.enc s.toKeyFields, { s with privateKey := none, locked := true }, s2, ?_, hload, rfl, fun p now => ?_, fun msg => ?_⟩
  · unfold dumpKeyStore; rw [hlock]; rfl
  · unfold KeyStore.unlock
    rw [hq]
    rfl
  · simp [KeyStore.sign, hv]

/-- If the locked key opens with `p` to a key with the store's public key, then after Lock the store
unlocks with `p`. Missing from the property: stores that were never, or not successfully, locked
with a passphrase, for which it is false. -/
theorem C64_lock_keeps_partial (s : KeyStore) (owner : Bytes) (m : Keys) (h : Sound C s owner m) (p : Bytes)
    (k : PrivateKey) (ho : unlockKey C (s.lockedKey.getD []) p = .ok (some k))
    (hm : marshalPublic k.pub = .ok (some owner)) (now : BitVec 64) :
    ∃ s' s'', s.lock = .ok (s', true) ∧ s'.locked = true ∧ s'.unlock C A P p now = .ok (s'', true) ∧
      s''.locked = false ∧ s''.privateKey = some k ∧ s''.keys = s.keys ∧ s''.publicKey = s.publicKey := by
  have hl : ∃ s', s.lock = .ok (s', true) ∧ s'.locked = true ∧ s'.toKeyFields = s.toKeyFields := by
    cases hl : s.locked with
    | true =>
      refine ⟨s, ?_, hl, rfl⟩
      unfold KeyStore.lock
      rw [sound_valid C h]
      simp [hl]
    | false =>
      obtain ⟨k, h1, h2, -, -⟩ := h.priv hl
      obtain ⟨k', hz, -⟩ := zeroPriv_valid h2
      refine ⟨{ s with privateKey := none, locked := true }, ?_, rfl, rfl⟩
      unfold KeyStore.lock
      rw [sound_valid C h]
      simp [hl, h1, hz]
  obtain ⟨s', e1, e2, e3⟩ := hl
  obtain ⟨w1, -⟩ := unlocked_wt C ho
  have hq : s'.validQuick = true := by rw [e3]; exact h.quick
  have : ∃ s'', s'.unlock C A P p now = .ok (s'', true) ∧
      s''.locked = false ∧ s''.privateKey = some k ∧ s''.keys = s'.keys ∧ s''.publicKey = some owner := by
    unfold KeyStore.unlock
    rw [hq, e2]
    simp only [Bool.not_true, Bool.false_eq_true, if_false, e3, ho, Res.ok_bind, hm]
    cases hx : s.exportKey with
    | none =>
      obtain ⟨d, sk, e, v, hk⟩ := (validPriv_iff _).mp w1
      cases hk
      simp only [Option.isNone_none, if_true]
      rw [sign_mk]
      exact ⟨_, rfl, rfl, rfl, rfl, rfl⟩
    | some x =>
      simp only [Option.isNone_some, Bool.false_eq_true, if_false]
      exact ⟨_, rfl, rfl, rfl, rfl, rfl⟩
  obtain ⟨s'', f1, f2, f3, f4, f5⟩ := this
  exact ⟨s', s'', e1, e2, f1, f2, f3, by rw [f4, e3], by rw [f5, h.pub]⟩

/-! ### C90: a failing LockWith changes nothing -/

/-- C90 is false: when the random source fails, LockWith wipes the locked key kept in the store. -/
theorem C90_lockWith_violated (s : KeyStore) (owner : Bytes) (m : Keys) (h : Sound C s owner m)
    (hl : s.locked = false) (box : Bytes) (hb : s.lockedKey = some box) (p : Bytes) (rng : Rng) (hr : rng.length < 56) :
    ∃ s' r, s.lockWith C p rng = .ok (s', false, r) ∧ s'.lockedKey = none ∧ s' ≠ s := by
  obtain ⟨k, h1, h2, h3, -⟩ := h.priv hl
  obtain ⟨r, hf⟩ := (Props.Public.C24_lock_roundtrip C k h3 h2 p rng).1 hr
  refine ⟨{ s with lockedKey := none }, r, ?_, rfl, ?_⟩
  · unfold KeyStore.lockWith
    rw [sound_valid C h]
    simp [hl, h1, hf]
  · intro e
    have : (none : Option Bytes) = s.lockedKey := congrArg (fun s : KeyStore => s.lockedKey) e
    rw [hb] at this
    cases this

/-- Everything else is kept. -/
theorem C90_lockWith_partial (s s' : KeyStore) (p : Bytes) (rng rng' : Rng)
    (h : s.lockWith C p rng = .ok (s', false, rng')) : s' = s ∨ s' = { s with lockedKey := none } := by
  simp only [KeyStore.lockWith, Res.bind_eq_ok] at h
  obtain ⟨v, -, h⟩ := h
  split at h
  · simp at h; exact .inl h.1.symm
  split at h
  · simp at h
  simp only [Res.bind_eq_ok] at h
  obtain ⟨⟨o, r⟩, -, h⟩ := h
  cases o with
  | none => simp at h; exact .inr h.1.symm
  | some box =>
    simp only [Res.bind_eq_ok] at h
    obtain ⟨-, -, h⟩ := h
    simp at h

/-! ### C65: messages -/

/-- EncryptTo and Decrypt of key stores are Encrypt and Decrypt of the keys. -/
theorem encryptTo_keys (s1 s2 : KeyStore) (d seed : Bytes) (h2 : s2.valid = .ok true)
    (ho : s2.locked = false ∧ s2.privateKey = some (pairOf C d seed)) (label msg : Bytes) (rng : Rng)
    (hq : s1.validQuick = true)
    (hg : (label = self ∧ s1.pubBytes = ownerOf C d seed) ∨
      (label ≠ self ∧ ∃ r, s1.get label = some r ∧ r.keyBytes = ownerOf C d seed)) {ct : Bytes} {r : Res (Option Bytes)}
    (e1 : encrypt C (some (pubOf C d seed)) msg rng = .ok (some ct, rng.drop 56))
    (e2 : decrypt C (some (pairOf C d seed)) ct = r) :
    s1.encryptTo C label msg rng = .ok (some ct, rng.drop 56) ∧ s2.decrypt C ct = r := by
  have hu : unmarshalPublic (ownerOf C d seed) = some (pubOf C d seed) := by
    rw [unmarshalPublic_of_length (ownerOf_length C d seed), ownerOf_drop]
    simp [ownerOf, pubOf, List.take_left' (C.base_length d)]
  refine ⟨?_, ?_⟩
  · obtain ⟨-, -, m, hk⟩ := (quick_iff _).mp hq
    have hh : s1.has label = true := by
      rw [has_iff hq hk]
      rcases hg with ⟨h, -⟩ | ⟨-, r, h, -⟩
      · exact .inl h
      · exact .inr (by rw [(get_some hk).mp h]; simp)
    unfold KeyStore.encryptTo
    rw [hq, hh]
    rcases hg with ⟨h, hp⟩ | ⟨hne, r, h, hr⟩
    · simp [h, hp, hu, e1]
    · simp [hne, h, deref, hr, hu, e1]
  · unfold KeyStore.decrypt
    rw [h2]
    simp [ho.1, ho.2, e2]

/-- What EncryptTo makes for a label holding the public key of a pair, the owner of the pair
decrypts. Empty messages are left out: they are refused by Decrypt (C18). -/
theorem C65_encrypt_partial (s1 s2 : KeyStore) (d seed : Bytes) (h2 : s2.valid = .ok true)
    (ho : s2.locked = false ∧ s2.privateKey = some (pairOf C d seed)) (label msg : Bytes) (rng : Rng)
    (hq : s1.validQuick = true)
    (hg : (label = self ∧ s1.pubBytes = ownerOf C d seed) ∨
      (label ≠ self ∧ ∃ r, s1.get label = some r ∧ r.keyBytes = ownerOf C d seed))
    (hm : msg ≠ []) (hl : msg.length < 2 ^ 31) (hr : 56 ≤ rng.length) :
    ∃ ct, s1.encryptTo C label msg rng = .ok (some ct, rng.drop 56) ∧ s2.decrypt C ct = .ok (some msg) := by
  obtain ⟨ct, e1, -, e2⟩ := Props.Public.C18_roundtrip_partial C d seed msg rng hm hl hr
  exact ⟨ct, encryptTo_keys C s1 s2 d seed h2 ho label msg rng hq hg e1 e2⟩

/-- C65 is false of messages of 2 GiB and more: EncryptTo takes them, and Decrypt crashes on the result. -/
theorem C65_long_message_violated (s1 s2 : KeyStore) (d seed : Bytes) (h2 : s2.valid = .ok true)
    (ho : s2.locked = false ∧ s2.privateKey = some (pairOf C d seed)) (label msg : Bytes) (rng : Rng)
    (hq : s1.validQuick = true)
    (hg : (label = self ∧ s1.pubBytes = ownerOf C d seed) ∨
      (label ≠ self ∧ ∃ r, s1.get label = some r ∧ r.keyBytes = ownerOf C d seed))
    (hl : 2 ^ 31 ≤ msg.length) (hu : msg.length < 2 ^ 32) (hr : 56 ≤ rng.length) :
    ∃ ct, s1.encryptTo C label msg rng = .ok (some ct, rng.drop 56) ∧ s2.decrypt C ct = .panic := by
  obtain ⟨ct, e1, e2⟩ := Props.Public.C18_long_message_violated C d seed msg rng hl hu hr
  exact ⟨ct, encryptTo_keys C s1 s2 d seed h2 ho label msg rng hq hg e1 e2⟩

/-- EncryptAndSignTo and DecryptAndVerify of key stores are those of the keys. -/
theorem encryptAndSignTo_keys (s1 s2 : KeyStore) (d1 seed1 d2 seed2 : Bytes)
    (h1 : s1.valid = .ok true) (h2 : s2.valid = .ok true) (q1 : s1.validQuick = true) (q2 : s2.validQuick = true)
    (o1 : s1.locked = false ∧ s1.privateKey = some (pairOf C d1 seed1))
    (o2 : s2.locked = false ∧ s2.privateKey = some (pairOf C d2 seed2))
    (label1 label2 msg : Bytes) (rng : Rng) (r1 r2 : PublicKeyRecord) (n1 : label1 ≠ self) (n2 : label2 ≠ self)
    (g1 : s1.get label2 = some r2) (k1 : r2.keyBytes = ownerOf C d2 seed2)
    (g2 : s2.get label1 = some r1) (k2 : r1.keyBytes = ownerOf C d1 seed1) {ct : Bytes} {r : Res (Option Bytes)}
    (e1 : encryptAndSign C (some (pairOf C d1 seed1)) (some (pubOf C d2 seed2)) msg rng = .ok (some ct, rng.drop 56))
    (e2 : decryptAndVerify C (some (pairOf C d2 seed2)) (some (pubOf C d1 seed1)) ct = r) :
    s1.encryptAndSignTo C label2 msg rng = .ok (some ct, rng.drop 56) ∧ s2.decryptAndVerify C label1 ct = r := by
  have hu : ∀ d seed, unmarshalPublic (ownerOf C d seed) = some (pubOf C d seed) := by
    intro d seed
    rw [unmarshalPublic_of_length (ownerOf_length C d seed), ownerOf_drop]
    simp [ownerOf, pubOf, List.take_left' (C.base_length d)]
  obtain ⟨-, -, m1, hk1⟩ := (quick_iff _).mp q1
  obtain ⟨-, -, m2, hk2⟩ := (quick_iff _).mp q2
  have hh1 : s1.has label2 = true := (has_iff q1 hk1 _).mpr (.inr (by rw [(get_some hk1).mp g1]; simp))
  have hh2 : s2.has label1 = true := (has_iff q2 hk2 _).mpr (.inr (by rw [(get_some hk2).mp g2]; simp))
  refine ⟨?_, ?_⟩
  · unfold KeyStore.encryptAndSignTo KeyStore.getPublic
    rw [h1]
    simp [o1.1, o1.2, hh1, n2, g1, deref, k1, hu, e1]
  · unfold KeyStore.decryptAndVerify KeyStore.getPublic
    rw [h2]
    simp [o2.1, o2.2, hh2, n1, g2, deref, k2, hu, e2]

/-- EncryptAndSignTo and DecryptAndVerify round trip between two stores that hold each other's
keys. Empty messages are left out (C19). -/
theorem C65_signed_partial (s1 s2 : KeyStore) (d1 seed1 d2 seed2 : Bytes) (hs1 : seed1.length = 32)
    (h1 : s1.valid = .ok true) (h2 : s2.valid = .ok true) (q1 : s1.validQuick = true) (q2 : s2.validQuick = true)
    (o1 : s1.locked = false ∧ s1.privateKey = some (pairOf C d1 seed1))
    (o2 : s2.locked = false ∧ s2.privateKey = some (pairOf C d2 seed2))
    (label1 label2 msg : Bytes) (rng : Rng) (r1 r2 : PublicKeyRecord) (n1 : label1 ≠ self) (n2 : label2 ≠ self)
    (g1 : s1.get label2 = some r2) (k1 : r2.keyBytes = ownerOf C d2 seed2)
    (g2 : s2.get label1 = some r1) (k2 : r1.keyBytes = ownerOf C d1 seed1)
    (hm : msg ≠ []) (hl : msg.length < 2 ^ 31 - 69) (hr : 56 ≤ rng.length) :
    ∃ ct, s1.encryptAndSignTo C label2 msg rng = .ok (some ct, rng.drop 56) ∧
      s2.decryptAndVerify C label1 ct = .ok (some msg) := by
  obtain ⟨ct, e1, -, e2⟩ := Props.Public.C19_roundtrip_partial C d1 seed1 d2 seed2 msg rng hs1 hm hl hr
  exact ⟨ct, encryptAndSignTo_keys C s1 s2 d1 seed1 d2 seed2 h1 h2 q1 q2 o1 o2 label1 label2 msg rng r1 r2 n1 n2 g1 k1 g2 k2 e1 e2⟩

/-- C65 is false of long messages also when they are signed. -/
theorem C65_long_signed_violated (s1 s2 : KeyStore) (d1 seed1 d2 seed2 : Bytes)
    (h1 : s1.valid = .ok true) (h2 : s2.valid = .ok true) (q1 : s1.validQuick = true) (q2 : s2.validQuick = true)
    (o1 : s1.locked = false ∧ s1.privateKey = some (pairOf C d1 seed1))
    (o2 : s2.locked = false ∧ s2.privateKey = some (pairOf C d2 seed2))
    (label1 label2 msg : Bytes) (rng : Rng) (r1 r2 : PublicKeyRecord) (n1 : label1 ≠ self) (n2 : label2 ≠ self)
    (g1 : s1.get label2 = some r2) (k1 : r2.keyBytes = ownerOf C d2 seed2)
    (g2 : s2.get label1 = some r1) (k2 : r1.keyBytes = ownerOf C d1 seed1)
    (hl : 2 ^ 31 ≤ msg.length) (hu : msg.length < 2 ^ 32 - 69) (hr : 56 ≤ rng.length) :
    ∃ ct, s1.encryptAndSignTo C label2 msg rng = .ok (some ct, rng.drop 56) ∧
      s2.decryptAndVerify C label1 ct = .panic := by
  obtain ⟨ct, e1, e2⟩ := Props.Public.C19_long_message_violated C d1 seed1 d2 seed2 msg rng hl hu hr
  exact ⟨ct, encryptAndSignTo_keys C s1 s2 d1 seed1 d2 seed2 h1 h2 q1 q2 o1 o2 label1 label2 msg rng r1 r2 n1 n2 g1 k1 g2 k2 e1 e2⟩

/-- A store of the pair made from `d` and `seed` that holds one key under `label`. -/
def exHolds (d seed label key : Bytes) : KeyStore :=
  { fresh Toy.crypto Proofs.ToyJson.asn1 Pem.toy d seed 1 2 with
    keys := some (Map.empty.set label (some ⟨label, 1, 1, some key, [], [], 1, none⟩)) }

theorem exHolds_valid (d seed label key : Bytes) : (exHolds d seed label key).valid = .ok true :=
  valid_of (by rfl) rfl rfl (pairOf_valid Toy.crypto d seed) (pairOf_marshal Toy.crypto d seed) rfl
    (ownerOf_length Toy.crypto d seed)

/-- Two such stores meet all hypotheses of the two theorems, for any pairs. -/
example (d1 seed1 d2 seed2 msg : Bytes) (rng : Rng) (hs : seed1.length = 32) (hm : msg ≠ [])
    (hl : msg.length < 2 ^ 31 - 69) (hr : 56 ≤ rng.length) :
    let s1 := exHolds d1 seed1 [98] (ownerOf Toy.crypto d2 seed2)
    let s2 := exHolds d2 seed2 [97] (ownerOf Toy.crypto d1 seed1)
    (∃ ct, s1.encryptTo Toy.crypto [98] msg rng = .ok (some ct, rng.drop 56) ∧ s2.decrypt Toy.crypto ct = .ok (some msg)) ∧
    (∃ ct, s1.encryptAndSignTo Toy.crypto [98] msg rng = .ok (some ct, rng.drop 56) ∧
      s2.decryptAndVerify Toy.crypto [97] ct = .ok (some msg)) := by
  intro s1 s2
  exact ⟨C65_encrypt_partial _ s1 s2 d2 seed2 (exHolds_valid _ _ _ _) ⟨rfl, rfl⟩ [98] msg rng rfl
      (.inr ⟨by decide, _, rfl, rfl⟩) hm (by omega) hr,
    C65_signed_partial _ s1 s2 d1 seed1 d2 seed2 hs (exHolds_valid _ _ _ _) (exHolds_valid _ _ _ _) rfl rfl
      ⟨rfl, rfl⟩ ⟨rfl, rfl⟩ [97] [98] msg rng _ _ (by decide) (by decide) rfl rfl rfl rfl hm hl hr⟩

/-- They meet the hypotheses of the violations too. -/
example (d1 seed1 d2 seed2 msg : Bytes) (rng : Rng)
    (hl : 2 ^ 31 ≤ msg.length) (hu : msg.length < 2 ^ 32 - 69) (hr : 56 ≤ rng.length) :
    let s1 := exHolds d1 seed1 [98] (ownerOf Toy.crypto d2 seed2)
    let s2 := exHolds d2 seed2 [97] (ownerOf Toy.crypto d1 seed1)
    (∃ ct, s1.encryptTo Toy.crypto [98] msg rng = .ok (some ct, rng.drop 56) ∧ s2.decrypt Toy.crypto ct = .panic) ∧
    (∃ ct, s1.encryptAndSignTo Toy.crypto [98] msg rng = .ok (some ct, rng.drop 56) ∧
      s2.decryptAndVerify Toy.crypto [97] ct = .panic) := by
  intro s1 s2
  exact ⟨C65_long_message_violated _ s1 s2 d2 seed2 (exHolds_valid _ _ _ _) ⟨rfl, rfl⟩ [98] msg rng rfl
      (.inr ⟨by decide, _, rfl, rfl⟩) hl (by omega) hr,
    C65_long_signed_violated _ s1 s2 d1 seed1 d2 seed2 (exHolds_valid _ _ _ _) (exHolds_valid _ _ _ _) rfl rfl
      ⟨rfl, rfl⟩ ⟨rfl, rfl⟩ [97] [98] msg rng _ _ (by decide) (by decide) rfl rfl rfl rfl hl hu hr⟩

/-! ### C66: loaded stores -/

/-- C66 is false: a file with a null record loads, and Verify and EncryptTo for its label panic. -/
theorem C66_null_record_violated (owner locked : Bytes) :
    let f : KeyFields := ⟨1, 5, some (Map.empty.set [97] none), some locked, some owner, none⟩
    ∃ s, loadData J (J.enc f) = some s ∧ (∀ msg sig, s.verify C [97] msg sig = .panic) ∧
      (∀ msg rng, s.encryptTo C [97] msg rng = .panic) ∧
      (∀ fuel orders, s.keyAudit C [[97]] orders (fuel + 1) = some .panic) := by
  intro f
  let s : KeyStore := { f with privateKey := none, locked := true }
  have hload : loadData J (J.enc f) = some s := by
    unfold loadData
    rw [J.dec_enc f]
    · rfl
    · intro m hm
      cases hm
      refine ⟨Map.finite_empty.set _ _, fun k r md hk => ?_⟩
      cases (SecretStore.exMap_get hk).2
    · intro m hm k v hk
      cases hm
      obtain ⟨rfl, rfl⟩ := SecretStore.exMap_get hk
      exact ⟨by decide, fun r hr => by cases hr⟩
  have hq : s.validQuick = true := rfl
  have hh : s.has [97] = true := rfl
  have hg : s.get [97] = none := rfl
  have hne : ([97] : Bytes) ≠ self := by decide
  refine ⟨s, hload, fun msg sig => ?_, fun msg rng => ?_, fun fuel orders => ?_⟩
  · unfold KeyStore.verify KeyStore.getPublic
    simp [hq, hh, hne, hg, deref]
  · unfold KeyStore.encryptTo
    simp [hq, hh, hne, hg, deref]
  · unfold KeyFields.keyAudit KeyFields.auditLoop KeyFields.verifyChain KeyFields.chainLoop KeyFields.verifyKeySignature
    simp [hq, hh, hne, hg, deref]

/-- C66 is false: a file without a private key loads as unlocked, and Verify for "self" panics. -/
theorem C66_no_private_key_violated (owner : Bytes) :
    let f : KeyFields := ⟨1, 5, some Map.empty, none, some owner, none⟩
    ∃ s, loadData J (J.enc f) = some s ∧ ∀ msg sig, s.verify C self msg sig = .panic := by
  intro f
  let s : KeyStore := { f with privateKey := none, locked := false }
  have hload : loadData J (J.enc f) = some s := by
    unfold loadData
    rw [J.dec_enc f]
    · rfl
    · intro m hm
      cases hm
      exact ⟨Map.finite_empty, fun k r md hk => by cases hk⟩
    · intro m hm k v hk
      cases hm
      cases hk
  have hq : s.validQuick = true := rfl
  have hh : s.has self = true := rfl
  refine ⟨s, hload, fun msg sig => ?_⟩
  unfold KeyStore.verify KeyStore.getPublic
  simp [hq, hh, deref, s]

/-- C66 is false: VerifyKeySignature panics for every label that is not there, on every valid
store. -/
theorem C66_missing_label_violated (s : KeyFields) (hq : s.validQuick = true) (l : Bytes) (hl : l ≠ self)
    (hg : s.get l = none) (o : List Bytes) : s.verifyKeySignature C l o = .panic := by
  unfold KeyFields.verifyKeySignature
  simp [hq, hl, hg, deref]

/-- The store loaded from a file with a locked private key in which no record is null and every
record carries its label: no call but Unlock panics, given a working random source. Missing from
the property: other files, for which it is false, and Unlock (C17, C22). -/
theorem C66_no_panic_partial (data : Bytes) (s : KeyStore) (h : loadData J data = some s) (box : Bytes)
    (hb : s.lockedKey = some box) (m : Keys) (hm : s.keys = some m) (hn : NoNil m) (hlab : Labelled m) :
    s.locked = true ∧ s.valid ≠ .panic ∧ s.lock ≠ .panic ∧
    (∀ p rng, s.lockWith C p rng ≠ .panic) ∧
    (∀ label peer md t1 t2, s.addKey C label peer md t1 t2 ≠ .panic) ∧
    (∀ label blob o1 o2 now, s.importVerifiedKey C A P label blob o1 o2 now ≠ .panic) ∧
    (∀ pub o, s.findPublic pub o ≠ .panic) ∧
    (∀ orders fuel label, s.verifyChain C orders fuel label ≠ some .panic) ∧
    (∀ order orders fuel, s.keyAudit C order orders fuel ≠ some .panic) ∧
    (∀ label orders fuel now, s.exportVerified C A P label orders fuel now ≠ some .panic) ∧
    (∀ label msg rng, 56 ≤ rng.length → s.encryptTo C label msg rng ≠ .panic) ∧
    (∀ label msg sig, s.verify C label msg sig ≠ .panic) ∧
    (∀ msg, s.decrypt C msg ≠ .panic ∧ s.sign C msg ≠ .panic) ∧
    (∀ label msg rng, s.encryptAndSignTo C label msg rng ≠ .panic ∧ s.decryptAndVerify C label msg ≠ .panic) := by
  have hl : s.locked = true := by
    unfold loadData at h
    cases hd : J.dec data with
    | none => simp [hd] at h
    | some f =>
      simp only [hd] at h
      split at h
      · simp at h
      · simp at h; rw [← h] at hb ⊢; simp at hb; simp [hb]
  obtain ⟨c1, c2, c3, c4, c5, c6⟩ := C62_locked_refuses C A P s hl
  have hget : ∀ l r, m l = some r → ∃ q, s.get l = some q := by
    intro l r hr
    cases r with
    | none => exact absurd hr (hn l)
    | some q => exact ⟨q, (get_some hm).mpr hr⟩
  have hhas : ∀ l, s.has l = true → l = self ∨ (l ≠ self ∧ ∃ q, s.get l = some q) := by
    intro l hh
    have hq : s.validQuick = true := by
      cases hq : s.validQuick with
      | true => rfl
      | false => simp [KeyFields.has, hq] at hh
    by_cases hs : l = self
    · exact .inl hs
    · right
      refine ⟨hs, ?_⟩
      rcases (has_iff hq hm l).mp hh with h | h
      · exact absurd h hs
      · cases hml : m l with
        | none => exact absurd hml h
        | some r => exact hget l r hml
  have hloop : ∀ orders fuel i l, (l = self ∨ m l ≠ none) → s.chainLoop C orders fuel i l ≠ some .panic := by
    intro orders fuel
    induction fuel with
    | zero => intro i l _; simp [KeyFields.chainLoop]
    | succ n ih =>
      intro i l hl'
      rw [KeyFields.chainLoop]
      cases hv : s.verifyKeySignature C l (orders i) with
      | panic => exact absurd hv (vks_no_panic C hm hn hlab hl' _)
      | ok o =>
        cases o with
        | none => simp
        | some sl =>
          simp only
          split
          · simp
          · rename_i hsl
            refine ih (i + 1) sl (.inr ?_)
            obtain ⟨-, ⟨-, e⟩ | ⟨-, r, -, ⟨-, e, -⟩ | ⟨-, -, r', e, -⟩⟩⟩ := vks_some C hv
            · exact absurd e hsl
            · exact absurd e hsl
            · rw [(get_some hm).mp e]; simp
  have hchain : ∀ orders fuel label, s.verifyChain C orders fuel label ≠ some .panic := by
    intro orders fuel label
    unfold KeyFields.verifyChain
    split
    · simp
    rename_i hc
    split
    · simp
    · rename_i hne
      simp only [Bool.or_eq_true, Bool.not_eq_true', not_or, Bool.not_eq_false] at hc
      exact hloop _ _ _ _ (by rcases (has_iff hc.1 hm label).mp hc.2 with h | h; exact .inl h; exact .inr h)
  refine ⟨hl, valid_no_panic s, ?_, ?_, ?_, ?_, ?_, hchain, ?_, ?_, ?_, ?_, ?_, ?_⟩
  · unfold KeyStore.lock
    cases hv : s.valid with
    | panic => exact absurd hv (valid_no_panic s)
    | ok b => cases b <;> simp [hl]
  · intro p rng
    unfold KeyStore.lockWith
    cases hv : s.valid with
    | panic => exact absurd hv (valid_no_panic s)
    | ok b => cases b <;> simp [hl]
  · intro label peer md t1 t2; rw [c1]; simp
  · intro label blob o1 o2 now
    unfold KeyStore.importVerifiedKey
    split
    · simp
    split
    · simp
    · exact import_no_panic C hm hn hlab
  · intro pub o
    unfold KeyFields.findPublic
    split
    · simp
    · rw [hm]; exact findLoop_no_panic hn _ _
  · intro order orders fuel
    unfold KeyFields.keyAudit
    split
    · simp
    induction order with
    | nil => simp [KeyFields.auditLoop]
    | cons l ls ih =>
      rw [KeyFields.auditLoop]
      cases hv : s.verifyChain C (orders l) fuel l with
      | none => simp
      | some x =>
        cases x with
        | panic => exact absurd hv (hchain _ _ _)
        | ok b => cases b <;> simp [ih]
  · intro label orders fuel now; rw [c6]; simp
  · intro label msg rng hr
    unfold KeyStore.encryptTo
    split
    · simp
    rename_i hc
    simp only [Bool.or_eq_true, Bool.not_eq_true', not_or, Bool.not_eq_false] at hc
    have key : ∀ (b : Bytes) p, unmarshalPublic b = some p → Model.Public.encrypt C (some p) msg rng ≠ .panic := by
      intro b p hu
      obtain ⟨-, rfl⟩ := unmarshalPublic_some hu
      rw [encrypt_eq_raw, encryptRaw_eq, if_neg (by omega), if_neg (by omega)]
      simp
    rcases hhas label hc.2 with rfl | ⟨hne, q, hg⟩
    · cases hu : unmarshalPublic s.pubBytes with
      | none => simp [hu]
      | some p => simpa [hu] using key _ p hu
    · cases hu : unmarshalPublic q.keyBytes with
      | none => simp [hne, hg, deref, hu]
      | some p => simpa [hne, hg, deref, hu] using key _ p hu
  · intro label msg sig
    unfold KeyStore.verify
    split
    · simp
    split
    · simp
    rename_i hc
    simp only [Bool.not_eq_true', Bool.not_eq_false] at hc
    have hgp : ∃ o, s.getPublic label = .ok o := by
      unfold KeyStore.getPublic
      rw [hc]
      rcases hhas label hc with rfl | ⟨hne, q, hg⟩
      · simp [hl]
      · simp [hne, hg, deref]
    obtain ⟨o, hgp⟩ := hgp
    rw [hgp]
    cases o with
    | none => simp
    | some p =>
      simp only [Res.ok_bind]
      exact (Props.Public.C27_verify_exact C (some p) msg sig).1
  · intro msg; rw [c2, c3]; simp
  · intro label msg rng; rw [c4, c5]; simp

/-! ### C93: files -/

/-- A locked store in which all strings are UTF-8 is the same store when dumped and loaded again.
Missing from the property: other strings, for which it is false. -/
theorem C93_file_roundtrip_partial (s : KeyStore) (owner : Bytes) (m : Keys) (h : Sound C s owner m) (hl : s.locked = true)
    (hp : s.privateKey = none) (box : Bytes) (hb : s.lockedKey = some box) (hf : s.toKeyFields.Finite)
    (hc : s.toKeyFields.Clean) :
    dumpKeyStore J s = .ok (J.enc s.toKeyFields, s) ∧ s.dump J = J.enc s.toKeyFields ∧
      loadData J (J.enc s.toKeyFields) = some s := by
  refine ⟨?_, rfl, ?_⟩
  · unfold dumpKeyStore KeyStore.lock
    rw [sound_valid C h]
    simp [hl]
  · unfold loadData
    rw [J.dec_enc _ hf hc]
    simp only
    have e : ({ s.toKeyFields with keys := some (s.keys.getD Map.empty) } : KeyFields) = s.toKeyFields := by
      obtain ⟨⟨a1, a2, a3, a4, a5, a6⟩, a7, a8⟩ := s
      have := h.keys
      simp only at this
      subst this
      rfl
    rw [e, if_neg (by simp only [Bool.not_eq_true', Bool.not_eq_false]; exact h.quick), hb]
    obtain ⟨a1, a2, a3⟩ := s
    simp only at hl hp
    subst hl hp
    rfl

/-- A store locked with a passphrase, dumped, loaded and unlocked with the passphrase is the store
before, but for the locked key it now carries. Missing from the property: strings that are not
UTF-8. -/
theorem C93_save_and_open_partial (s : KeyStore) (owner : Bytes) (m : Keys) (h : Sound C s owner m) (hl : s.locked = false)
    (x : Bytes) (hx : s.exportKey = some x) (hf : s.toKeyFields.Finite) (hc : s.toKeyFields.Clean)
    (p : Bytes) (rng : Rng) (hr : 56 ≤ rng.length) (now : BitVec 64) :
    ∃ s1 s2 s3 data box, s.lockWith C p rng = .ok (s1, true, rng.drop 56) ∧ dumpKeyStore J s1 = .ok (data, s1) ∧
      loadData J data = some s2 ∧ s2.unlock C A P p now = .ok (s3, true) ∧ s3 = { s with lockedKey := some box } := by
  obtain ⟨k, h1, h2, h3, h4⟩ := h.priv hl
  obtain ⟨box, b1, -, b3⟩ := (Props.Public.C24_lock_roundtrip C k h3 h2 p rng).2 hr
  obtain ⟨k', hz, -⟩ := zeroPriv_valid h2
  let s' : KeyStore := { s with lockedKey := some box, privateKey := none, locked := true }
  have hlw : s.lockWith C p rng = .ok (s', true, rng.drop 56) := by
    unfold KeyStore.lockWith
    rw [sound_valid C h]
    simp [hl, h1, b1, hz, s']
  obtain ⟨e1, -, e2⟩ := C93_file_roundtrip_partial C J s' owner m (sound_lockWith C h hlw) rfl rfl box rfl hf hc
  refine ⟨s', s', _, _, box, hlw, e1, e2, ?_, rfl⟩
  have hq : s'.validQuick = true := h.quick
  unfold KeyStore.unlock
  rw [hq]
  simp only [Bool.not_true, Bool.false_eq_true, if_false, s', Option.getD_some, b3, Res.ok_bind, h4, hx,
    Option.isNone_some, Res.pure_eq]
  have := h.pub
  obtain ⟨⟨a1, a2, a3, a4, a5, a6⟩, a7, a8⟩ := s
  simp only at h1 hl hx this
  subst h1 hl hx this
  rfl

/-- C93 is false: labels that are not UTF-8 are lost. -/
theorem C93_not_utf8_violated (s : KeyStore) (m : Keys) (hm : s.keys = some m) (l : Bytes) (hl : m l ≠ none)
    (hu : ¬ ValidUtf8 l) (data : Bytes) (s2 : KeyStore) (h : loadData J data = some s2) : s2.has l = false ∧ s2 ≠ s := by
  unfold loadData at h
  cases hd : J.dec data with
  | none => simp [hd] at h
  | some f =>
    have hc := J.dec_clean data f hd
    simp only [hd] at h
    split at h
    · simp at h
    rename_i hq
    simp only [Bool.not_eq_true', Bool.not_eq_false] at hq
    simp only [Option.some.injEq] at h
    subst h
    have hn : (f.keys.getD Map.empty) l = none := by
      cases hk : f.keys with
      | none => rfl
      | some m' =>
        cases hml : m' l with
        | none => exact hml
        | some v => exact absurd (hc m' hk l v hml).1 hu
    constructor
    · refine (has_false hq rfl l).mpr ⟨?_, hn⟩
      rintro rfl
      exact hu (by decide)
    · rintro rfl
      simp only [Option.some.injEq] at hm
      rw [hm] at hn
      exact hl hn

/-- AddKey accepts such a label. -/
example : ∃ s', (fresh Toy.crypto Proofs.ToyJson.asn1 Pem.toy (List.replicate 32 1) (List.replicate 32 2) 1 2).addKey
    Toy.crypto [0xFF] (List.replicate 64 7) none 3 4 = .ok (s', true) ∧ ¬ ValidUtf8 [0xFF] :=
  ⟨_, addKey_owned Toy.crypto ⟨rfl, rfl, rfl, by decide⟩ rfl (by decide) (by decide) rfl (by decide) none 3 4, by decide⟩

example : ∃ s : KeyStore, Sound Toy.crypto s (ownerOf Toy.crypto (List.replicate 32 1) (List.replicate 32 2)) Map.empty ∧
    s.locked = false ∧ s.lockedKey = none ∧ s.toKeyFields.Finite ∧ s.toKeyFields.Clean := by
  refine ⟨_, exSound, rfl, rfl, ?_, ?_⟩
  · intro m hm
    cases hm
    exact ⟨Map.finite_empty, fun k r md hk => by cases hk⟩
  · intro m hm k v hk
    cases hm
    cases hk

end Verif.Props.KeyStore
