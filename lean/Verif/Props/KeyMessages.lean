import Verif.Props.KeyStore
/-! Property C105: which signatures the key store accepts, and which messages it releases. -/

namespace Verif.Props.KeyMessages
open Verif Verif.Go Verif.Model.Util Verif.Model.Public Verif.Model.KeyStore Verif.Spec.Public Verif.Spec.KeyStore Verif.Spec.Tlv
open Verif.Proofs.Public Verif.Proofs.KeyStore Verif.Props.KeyTrust Verif.Props.KeyStore

variable (C : Crypto) (A : Asn1) (P : Pem)

theorem names_key {s : KeyStore} {owner : Bytes} {m : Keys} (h : Sound C s owner m) {label : Bytes} :
    (∃ k, Names owner m label k ∧ k.length = 64 ∧
      ∃ pub e v, s.has label = true ∧ s.getPublic label = .ok (some pub) ∧ pub = { E := some e, V := some v } ∧ k = e ++ v ∧
        e.length = 32 ∧ v.length = 32) ∨
    ((∀ k, Names owner m label k → k.length ≠ 64) ∧ s.getPublic label = .ok none) := by
  by_cases hself : label = self
  · subst hself
    left
    have hh : s.has self = true := (has_iff h.quick h.keys _).mpr (.inl rfl)
    refine ⟨owner, .owner, h.len, ?_⟩
    unfold KeyStore.getPublic
    rw [hh]
    cases hl : s.locked with
    | true =>
      rw [sound_pub C h]
      refine ⟨{ E := some (owner.take 32), V := some (owner.drop 32) }, _, _, rfl, ?_, rfl, ?_, ?_, ?_⟩
      · simp [unmarshalPublic_of_length h.len]
      · simp
      · simp [h.len]
      · simp [h.len]
    | false =>
      obtain ⟨k, h1, -, h3, h4⟩ := h.priv hl
      obtain ⟨-, e, v, hp, he, hv, rfl⟩ := wt_marshal h3 h4
      exact ⟨_, e, v, rfl, by simp [h1, deref, hp], rfl, rfl, he, hv⟩
  · cases hm : m label with
    | none =>
      right
      refine ⟨?_, ?_⟩
      · intro k hk
        cases hk with
        | owner => exact absurd rfl hself
        | peer h1 _ => rw [hm] at h1; cases h1
      · have hh : s.has label = false := (has_false h.quick h.keys _).mpr ⟨hself, hm⟩
        unfold KeyStore.getPublic
        simp [hh]
    | some o =>
      cases o with
      | none => exact absurd hm (h.noNil label)
      | some r =>
        have hh : s.has label = true := (has_iff h.quick h.keys _).mpr (.inr (by rw [hm]; simp))
        have hg := (get_some h.keys).mpr hm
        have hgp : s.getPublic label = .ok (unmarshalPublic r.keyBytes) := by
          unfold KeyStore.getPublic
          simp [hh, hself, hg, deref]
        by_cases hlen : r.keyBytes.length = 64
        · left
          have hk : r.keys = some r.keyBytes := by
            unfold PublicKeyRecord.keyBytes at hlen ⊢
            cases hr : r.keys with
            | none => rw [hr] at hlen; simp at hlen
            | some k => simp
          refine ⟨_, .peer hm hk, hlen, { E := some (r.keyBytes.take 32), V := some (r.keyBytes.drop 32) }, _, _, hh, ?_, rfl,
            ?_, ?_, ?_⟩
          · rw [hgp, unmarshalPublic_of_length hlen]
          · simp
          · simp [hlen]
          · simp [hlen]
        · right
          refine ⟨?_, ?_⟩
          · intro k hk
            cases hk with
            | owner => exact absurd rfl hself
            | peer h1 h2 =>
              rw [hm] at h1; cases h1
              simpa [PublicKeyRecord.keyBytes, h2] using hlen
          · rw [hgp]
            cases hu : unmarshalPublic r.keyBytes with
            | none => rfl
            | some p => exact absurd (unmarshalPublic_some hu).1 hlen

theorem Names.unique {owner : Bytes} {m : Keys} (hs : m self = none) {l k k' : Bytes} (h : Names owner m l k)
    (h' : Names owner m l k') : k = k' := by
  cases h with
  | owner =>
    cases h' with
    | owner => rfl
    | peer h1 _ => rw [hs] at h1; cases h1
  | peer h1 h2 =>
    cases h' with
    | owner => rw [hs] at h1; cases h1
    | peer h3 h4 => rw [h1] at h3; cases h3; rw [h2] at h4; exact Option.some.inj h4

/-- C105: Verify accepts a signature if and only if it has 64 bytes and verifies under the
signature half of the 64-byte key the label stands for; it never panics. -/
theorem C105_verify (s : KeyStore) (owner : Bytes) (m : Keys) (h : Sound C s owner m) (label msg sig : Bytes) :
    ∃ b, s.verify C label msg sig = .ok b ∧
      (b = true ↔ ∃ k, Names owner m label k ∧ k.length = 64 ∧ sig.length = 64 ∧ C.verify (k.drop 32) msg sig = true) := by
  rcases names_key C h (label := label) with ⟨k, hk, hlen, pub, e, v, hh, hg, rfl, rfl, he, hv⟩ | ⟨hno, hg⟩
  · refine ⟨if sig.length = 64 then C.verify v msg sig else false, ?_, ?_⟩
    · unfold KeyStore.verify
      rw [h.quick, hh, hg]
      exact verify_mk C e v msg sig
    · constructor
      · intro hb
        refine ⟨_, hk, hlen, ?_⟩
        rw [List.drop_left' he]
        by_cases hs : sig.length = 64
        · rw [if_pos hs] at hb; exact ⟨hs, hb⟩
        · rw [if_neg hs] at hb; cases hb
      · rintro ⟨k', hk', -, hs, hb⟩
        rw [Names.unique h.noSelf hk' hk, List.drop_left' he] at hb
        rw [if_pos hs]; exact hb
  · refine ⟨false, ?_, ?_⟩
    · unfold KeyStore.verify
      rw [h.quick, hg]
      cases s.has label <;> rfl
    · constructor
      · intro h; cases h
      · rintro ⟨k, hk, hl, -⟩; exact absurd hl (hno k hk)

/-- C105: what DecryptAndVerify releases was sealed in the box together with a 64-byte signature of
it that verifies under the key the label stands for. -/
theorem C105_released (s : KeyStore) (owner : Bytes) (m : Keys) (h : Sound C s owner m) (label enc msg : Bytes)
    (hd : s.decryptAndVerify C label enc = .ok (some msg)) :
    s.locked = false ∧ msg ≠ [] ∧ ∃ k d sk e v p n sig, s.privateKey = some (mkPriv d sk e v) ∧ Names owner m label k ∧ k.length = 64 ∧ p.length = 32 ∧ n.length = 24 ∧
      sig.length = 64 ∧ enc = p ++ n ++ C.sealBox (C.shared p d) n (encodeAll [.bytes msg, .bytes sig]) ∧
      C.verify (k.drop 32) msg sig = true := by
  unfold KeyStore.decryptAndVerify at hd
  rw [sound_valid C h] at hd
  simp only [Res.ok_bind] at hd
  split at hd
  · cases hd
  rename_i hc
  split at hd
  · cases hd
  simp only [Bool.or_eq_true, Bool.not_eq_true', not_or, Bool.not_eq_true] at hc
  rcases names_key C h (label := label) with ⟨k, hk, hlen, pub, e, v, hh, hg, rfl, rfl, he, hv⟩ | ⟨hno, hg⟩
  · rw [hg] at hd
    simp only [Res.ok_bind] at hd
    obtain ⟨d, s', e1, v1, e', v', p, n, sig, hpriv, hpub, hp, hn, hs, hm, henc, hver⟩ := Public.C20_only_verified C _ _ _ _ hd
    cases hpub
    refine ⟨hc.2, hm, _, d, s', e1, v1, p, n, sig, hpriv, hk, hlen, hp, hn, hs, henc, ?_⟩
    rw [List.drop_left' he]; exact hver
  · rw [hg] at hd
    simp at hd

/-- C105: what the owner of an unlocked store signs, Verify accepts for every label standing for the
owner's key, in any store. -/
theorem C105_signed (s s' : KeyStore) (d seed owner : Bytes) (m : Keys) (ho : Owned C d seed s) (hv : s.valid = .ok true)
    (h' : Sound C s' owner m) (label msg : Bytes) (hn : Names owner m label (ownerOf C d seed)) (hseed : seed.length = 32) :
    ∃ sig, s.sign C msg = .ok (some sig) ∧ s'.verify C label msg sig = .ok true := by
  have hsign : s.sign C msg = .ok (some (C.sign (seed ++ C.edPub seed) msg)) := by
    unfold KeyStore.sign
    rw [hv, ho.1, ho.2.1, pairOf_eq]
    exact sign_mk C d (seed ++ C.edPub seed) (C.base d) (C.edPub seed) msg
  obtain ⟨b, hb, hiff⟩ := C105_verify C s' owner m h' label msg (C.sign (seed ++ C.edPub seed) msg)
  refine ⟨_, hsign, ?_⟩
  rw [hb, hiff.mpr ⟨_, hn, ownerOf_length C d seed, C.sign_length _ _, ?_⟩]
  rw [ownerOf_drop]
  exact C.verify_sign _ _ hseed

/-- A store holding the key of another pair, made by AddKey. -/
theorem exPeer : ∃ (s : KeyStore) (m : Keys), Sound Toy.crypto s (ownerOf Toy.crypto (List.replicate 32 1) (List.replicate 32 2)) m ∧
    Owned Toy.crypto (List.replicate 32 1) (List.replicate 32 2) s ∧
    ∃ r, m [97] = some (some r) ∧ r.keys = some (ownerOf Toy.crypto (List.replicate 32 3) (List.replicate 32 4)) := by
  have hs := fresh_sound Toy.crypto Proofs.ToyJson.asn1 Pem.toy (List.replicate 32 1) (List.replicate 32 2) 1 2 (by decide)
    (by decide) (by decide)
  have ha := addKey_owned Toy.crypto (s := fresh Toy.crypto Proofs.ToyJson.asn1 Pem.toy (List.replicate 32 1)
    (List.replicate 32 2) 1 2) ⟨rfl, rfl, rfl, hs.quick⟩ rfl (by decide) (label := [97])
    (peer := ownerOf Toy.crypto (List.replicate 32 3) (List.replicate 32 4)) (by decide) rfl (ownerOf_length _ _ _) none 3 4
  obtain ⟨m', hm'⟩ := sound_addKey Toy.crypto hs ha
  have := hm'.keys
  simp only [Option.some.injEq] at this
  subst this
  exact ⟨_, _, hm', ⟨rfl, rfl, rfl, hm'.quick⟩, _, Map.set_same _ _ _, rfl⟩

/-- The other pair's signature is accepted under its label and not under "self". -/
example : ∃ s m sig, Sound Toy.crypto s (ownerOf Toy.crypto (List.replicate 32 1) (List.replicate 32 2)) m ∧
    s.verify Toy.crypto [97] [104, 105] sig = .ok true ∧ s.verify Toy.crypto self [104, 105] sig = .ok false := by
  obtain ⟨s, m, hs, -, r, hr, hk⟩ := exPeer
  have ho := fresh_sound Toy.crypto Proofs.ToyJson.asn1 Pem.toy (List.replicate 32 3) (List.replicate 32 4) 1 2 (by decide)
    (by decide) (by decide)
  obtain ⟨sig, h1, h2⟩ := C105_signed Toy.crypto _ s (List.replicate 32 3) (List.replicate 32 4) _ m
    ⟨rfl, rfl, rfl, ho.quick⟩ (sound_valid _ ho) hs [97] [104, 105] (.peer hr hk) (by decide)
  refine ⟨s, m, sig, hs, h2, ?_⟩
  obtain ⟨b, hb, hiff⟩ := C105_verify Toy.crypto s _ m hs self [104, 105] sig
  rw [hb]
  cases b with
  | false => rfl
  | true =>
    obtain ⟨k, hk, -, -, hver⟩ := hiff.mp rfl
    rw [Names.unique hs.noSelf hk .owner] at hver
    have he : sig = Toy.crypto.sign (List.replicate 32 4 ++ Toy.crypto.edPub (List.replicate 32 4)) [104, 105] := by
      unfold KeyStore.sign at h1
      rw [sound_valid _ ho] at h1
      simp only [fresh] at h1
      rw [pairOf_eq] at h1
      have h3 := sign_mk Toy.crypto (List.replicate 32 3) (List.replicate 32 4 ++ Toy.crypto.edPub (List.replicate 32 4))
        (Toy.crypto.base (List.replicate 32 3)) (Toy.crypto.edPub (List.replicate 32 4)) [104, 105]
      simp only [Res.ok_bind, Bool.not_true, Bool.or_self, Bool.false_eq_true, if_false] at h1
      rw [h3] at h1
      simpa using h1.symm
    rw [he] at hver
    revert hver
    decide

/-- A sealed and signed message is released. -/
example : ∃ (s : KeyStore) (m : Keys) (enc : Bytes),
    Sound Toy.crypto s (ownerOf Toy.crypto (List.replicate 32 1) (List.replicate 32 2)) m ∧
    s.decryptAndVerify Toy.crypto [97] enc = .ok (some [104, 105]) := by
  obtain ⟨s, m, hs, ho, r, hr, hk⟩ := exPeer
  obtain ⟨ct, -, h⟩ := C65_signed_partial Toy.crypto
    (exHolds (List.replicate 32 3) (List.replicate 32 4) [98] (ownerOf Toy.crypto (List.replicate 32 1) (List.replicate 32 2)))
    s (List.replicate 32 3) (List.replicate 32 4) (List.replicate 32 1) (List.replicate 32 2) (by decide)
    (exHolds_valid _ _ _ _) (sound_valid _ hs) rfl hs.quick ⟨rfl, rfl⟩ ⟨ho.1, ho.2.1⟩ [97] [98] [104, 105]
    (List.replicate 60 9) r _ (by decide) (by decide) rfl rfl ((get_some hs.keys).mpr hr)
    (by simp [PublicKeyRecord.keyBytes, hk]) (by decide) (by decide) (by decide)
  exact ⟨s, m, ct, hs, h⟩

end Verif.Props.KeyMessages
