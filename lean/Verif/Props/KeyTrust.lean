import Verif.Proofs.KeyHistory
import Verif.Proofs.ToyKeyJson
import Verif.Props.SecretStore
/-! Properties C56-C61, C67, C91, C92, C94: trust in the key store (common/store/keystore.go). -/

namespace Verif.Props.KeyTrust
open Verif Verif.Go Verif.Model.Util Verif.Model.Public Verif.Model.KeyStore Verif.Spec.Public Verif.Spec.KeyStore
open Verif.Proofs.Public Verif.Proofs.KeyStore

variable (C : Crypto) (A : Asn1) (P : Pem)

/-! ### Concrete keys and stores used as examples and witnesses -/

theorem ownerOf_length (d seed : Bytes) : (ownerOf C d seed).length = 64 := by
  simp [ownerOf, C.base_length, C.edPub_length]

theorem ownerOf_drop (d seed : Bytes) : (ownerOf C d seed).drop 32 = C.edPub seed := by
  simp [ownerOf, List.drop_left' (C.base_length d)]

theorem statement_signed (d seed pk : Bytes) (t : BitVec 64) (h : seed.length = 32) :
    Signed C (ownerOf C d seed) pk (statement C d seed pk t).signature t :=
  ⟨ownerOf_length C d seed, C.sign_length _ _, by rw [ownerOf_drop]; exact C.verify_sign _ _ h⟩

theorem pairOf_wt (d seed : Bytes) (h1 : d.length = 32) (h2 : seed.length = 32) : (pairOf C d seed).WT := by
  refine ⟨?_, ?_, ?_⟩
  · intro x hx; cases hx; exact h1
  · intro x hx; cases hx; simp [h2, C.edPub_length]
  · intro p hp; cases hp
    refine ⟨?_, ?_⟩
    · intro x hx; cases hx; exact C.base_length _
    · intro x hx; cases hx; exact C.edPub_length _

theorem pairOf_valid (d seed : Bytes) : validPriv (some (pairOf C d seed)) = true :=
  (validPriv_iff _).mpr ⟨_, _, _, _, congrArg some (pairOf_eq C d seed)⟩

theorem pairOf_marshal (d seed : Bytes) : marshalPublic (pairOf C d seed).pub = .ok (some (ownerOf C d seed)) :=
  marshalPublic_mk _ _

theorem enum_empty {V : Type} : (Map.empty : Map V).Enumerates [] :=
  ⟨by simp, fun k => by simp [Map.empty]⟩

theorem enum_set {V : Type} {m : Map V} {o : List Bytes} (h : m.Enumerates o) {k : Bytes} (hk : m k = none) (v : V) :
    (m.set k v).Enumerates (k :: o) := by
  refine ⟨List.nodup_cons.mpr ⟨fun hm => (h.2 k).mp hm hk, h.1⟩, fun q => ?_⟩
  rw [List.mem_cons, h.2]
  by_cases hq : q = k
  · subst hq; simp
  · rw [Map.set_other _ _ hq]; simp [hq]

/-- A fresh store. -/
def fresh (d seed : Bytes) (t1 t2 : BitVec 64) : KeyStore :=
  { version := 1, timestamp := t2, keys := some Map.empty, lockedKey := none
    publicKey := some (ownerOf C d seed)
    exportKey := some ((statement C d seed (ownerOf C d seed) t1).serialise A P)
    privateKey := some (pairOf C d seed), locked := false }

theorem fresh_eq (d seed : Bytes) (t1 t2 : BitVec 64) :
    newPrivateKeyStore C A P (some (pairOf C d seed)) t1 t2 = .ok (some (fresh C A P d seed t1 t2)) := by
  unfold newPrivateKeyStore
  rw [pairOf_valid]
  simp only [Bool.not_true, Bool.false_eq_true, if_false, deref, Res.ok_bind, pairOf_marshal]
  rw [pairOf_eq, sign_mk]
  rfl

theorem fresh_sound (d seed : Bytes) (t1 t2 : BitVec 64) (h1 : d.length = 32) (h2 : seed.length = 32) (ht : t2 ≠ 0) :
    Sound C (fresh C A P d seed t1 t2) (ownerOf C d seed) Map.empty := by
  obtain ⟨o, h, -⟩ := sound_new C (pairOf_wt C d seed h1 h2) ht (fresh_eq C A P d seed t1 t2)
  have := h.pub
  simp only [fresh, Option.some.injEq] at this
  subst this
  exact h

/-- AddKey in an unlocked store of a genuine pair. -/
theorem addKey_owned {s : KeyStore} {m : Keys} {d seed : Bytes} (h : Owned C d seed s) (hm : s.keys = some m)
    (hs : seed.length = 32) {label peer : Bytes} (hl : label ≠ self) (hf : m label = none) (hp : peer.length = 64)
    (md : Option (Map Bytes)) (t1 t2 : BitVec 64) :
    s.addKey C label peer md t1 t2 = .ok ({ s with keys := some (m.set label (some {
      label := label, version := 0, timestamp := t2, keys := some peer
      keySignature := (statement C d seed peer t1).signature
      keySigner := ownerOf C d seed, signatureTime := t1, metadata := some (md.getD Map.empty) })) }, true) := by
  obtain ⟨h1, h2, h3, h4⟩ := h
  have hh : s.has label = false := (has_false h4 hm label).mpr ⟨hl, hf⟩
  have hpb : s.pubBytes = ownerOf C d seed := by simp [KeyFields.pubBytes, h3]
  have hv : verify C (pairOf C d seed).pub (peer ++ ownerOf C d seed ++ be 8 t1.toNat)
      (C.sign (seed ++ C.edPub seed) (peer ++ ownerOf C d seed ++ be 8 t1.toNat)) = .ok true := by
    show verify C (some (pubOf C d seed)) _ _ = _
    unfold pubOf
    rw [verify_mk, if_pos (C.sign_length _ _), C.verify_sign _ _ hs]
  unfold KeyStore.addKey
  simp only [h4, hh, h1, unmarshalPublic_of_length hp, Bool.not_true, Bool.false_eq_true, if_false,
    Option.isNone_some, h2, hpb, VerifiedKey.signatureData, hm]
  rw [pairOf_eq, sign_mk]
  simp only [Res.ok_bind, deref]
  rw [← pairOf_eq, hv]
  simp [statement]

/-! ### C56: the trust invariant -/

/-- After any history of calls on a store created from a complete key, every stored key has a
finite chain of verified signatures to the owner, each record naming the key that signed it; no
key is stored under "self"; labels are in place. The hypothesis of `History` on Unlock is that a
passphrase opening the locked key opens it to a key with the store's public key. Missing from the
property: a passphrase that opens the box to some other key pair (secretbox does not exclude it). -/
theorem C56_trust_partial (k : PrivateKey) (hw : k.WT) (t1 t2 : BitVec 64) (s s' : KeyStore)
    (ops : List (Op × Bool)) (hn : newPrivateKeyStore C A P (some k) t1 t2 = .ok (some s))
    (hh : History C A P s ops s') :
    ∃ owner m, s'.publicKey = some owner ∧ marshalPublic k.pub = .ok (some owner) ∧ s'.keys = some m ∧
      m self = none ∧ (∀ l, m l ≠ some none) ∧
      ∀ l r, m l = some (some r) → r.label = l ∧ Trust C owner m l ∧ Chain C owner m l := by
  by_cases ht : t2 = 0
  · subst ht
    unfold newPrivateKeyStore at hn
    split at hn
    · cases hn
    simp only [deref, Res.ok_bind, Res.bind_eq_ok] at hn
    obtain ⟨o, hm, h⟩ := hn
    cases o with
    | none => simp at h
    | some pub =>
      simp only [Res.bind_eq_ok] at h
      obtain ⟨o, -, h⟩ := h
      cases o with
      | none => simp at h
      | some sig =>
        simp at h
        subst h
        have := stuck_history C (by simp [KeyFields.validQuick]) hh
        subst this
        refine ⟨pub, Map.empty, rfl, hm, rfl, rfl, ?_, ?_⟩
        · intro l h; cases h
        · intro l r h; cases h
  · obtain ⟨owner, h, hl, hk⟩ := sound_new C hw ht hn
    obtain ⟨m', h'⟩ := sound_history C h hh
    obtain ⟨k', e1, -, -, e2⟩ := h.priv hl
    rw [hk] at e1; cases e1
    exact ⟨owner, m', h'.pub, e2, h'.keys, h'.noSelf, h'.noNil, fun l r hr =>
      ⟨h'.labelled l r hr, h'.trust l r hr, Trust.chain C (h'.trust l r hr)⟩⟩

/-- The same without any assumption on the box: after any history in which the store is only ever unlocked with the
passphrase it was locked with. -/
theorem C56_passphrase_partial (k : PrivateKey) (hw : k.WT) (t1 t2 : BitVec 64) (s s' : KeyStore)
    (ops : List (Op × Bool)) (hn : newPrivateKeyStore C A P (some k) t1 t2 = .ok (some s))
    (hh : OwnHistory C A P none s ops s') :
    ∃ owner m, s'.publicKey = some owner ∧ marshalPublic k.pub = .ok (some owner) ∧ s'.keys = some m ∧
      m self = none ∧ (∀ l, m l ≠ some none) ∧
      ∀ l r, m l = some (some r) → r.label = l ∧ Trust C owner m l ∧ Chain C owner m l := by
  by_cases ht : t2 = 0
  · have hq : s.validQuick = false := by
      subst ht
      unfold newPrivateKeyStore at hn
      split at hn
      · cases hn
      simp only [deref, Res.ok_bind, Res.bind_eq_ok] at hn
      obtain ⟨o, hm, h⟩ := hn
      cases o with
      | none => simp at h
      | some pub =>
        simp only [Res.bind_eq_ok] at h
        obtain ⟨o, -, h⟩ := h
        cases o with
        | none => simp at h
        | some sig =>
          simp at h
          subst h
          simp [KeyFields.validQuick]
    have := stuck_own C hq hh
    subst this
    exact C56_trust_partial C A P k hw t1 t2 s' s' [] hn (.nil _)
  · obtain ⟨owner, h, hl, hk⟩ := sound_new C hw ht hn
    obtain ⟨m', h'⟩ := own_history C h (fun p hp => by cases hp) hh
    obtain ⟨k', e1, -, -, e2⟩ := h.priv hl
    rw [hk] at e1; cases e1
    exact ⟨owner, m', h'.pub, e2, h'.keys, h'.noSelf, h'.noNil, fun l r hr =>
      ⟨h'.labelled l r hr, h'.trust l r hr, Trust.chain C (h'.trust l r hr)⟩⟩

/-- A history in which the store is locked and unlocked, and a key is added. -/
example (d seed peer pass : Bytes) (rng : Rng) (h1 : d.length = 32) (h2 : seed.length = 32) (h3 : peer.length = 64)
    (hr : 56 ≤ rng.length) :
    ∃ s' m, OwnHistory C A P none (fresh C A P d seed 1 2)
      [(.lockWith pass rng, true), (.unlock pass 3, true), (.addKey [97] peer none 4 5, true)] s' ∧
      s'.keys = some m ∧ m [97] ≠ none := by
  have hs := fresh_sound C A P d seed 1 2 h1 h2 (by decide)
  obtain ⟨box, e1, -, e2⟩ := (Props.Public.C24_lock_roundtrip C _ (pairOf_wt C d seed h1 h2) (pairOf_valid C d seed) pass rng).2 hr
  obtain ⟨k', hz, -⟩ := zeroPriv_valid (pairOf_valid C d seed)
  let s1 : KeyStore := { fresh C A P d seed 1 2 with lockedKey := some box, privateKey := none, locked := true }
  have hlock : (Op.lockWith pass rng).run C A P (fresh C A P d seed 1 2) = .ok (s1, true) := by
    have hp : (fresh C A P d seed 1 2).privateKey = some (pairOf C d seed) := rfl
    have hl : (fresh C A P d seed 1 2).locked = false := rfl
    simp only [Op.run, KeyStore.lockWith, sound_valid C hs, hp, hl, e1, hz, Res.ok_bind, Bool.not_true, Bool.false_eq_true,
      if_false, Res.pure_eq]
    rfl
  let s2 : KeyStore := { s1 with privateKey := some (pairOf C d seed), publicKey := some (ownerOf C d seed), locked := false }
  have hunl : (Op.unlock pass 3).run C A P s1 = .ok (s2, true) := by
    have hq : s1.validQuick = true := hs.quick
    have hl : s1.locked = true := rfl
    have hb : s1.lockedKey.getD [] = box := rfl
    simp only [Op.run, KeyStore.unlock, hq, hl, hb, e2, pairOf_marshal, Bool.not_true, Bool.false_eq_true, if_false, Res.ok_bind]
    rfl
  have hown : Owned C d seed s2 := ⟨rfl, rfl, rfl, hs.quick⟩
  have ha := addKey_owned C hown (m := Map.empty) rfl h2 (label := [97]) (by decide) rfl h3 none 4 5
  refine ⟨_, _, .cons trivial (by intro p now h; cases h) hlock (.cons trivial ?_ hunl (.cons trivial (by intro p now h; cases h) ha (.nil _ _))), rfl, by simp⟩
  intro p now h _ _
  cases h
  rfl

/-- A history in which a key is added, and another, signed by the first, is imported. -/
theorem exHistory (d seed d1 seed1 x : Bytes) (h1 : d.length = 32) (h2 : seed.length = 32) (h3 : seed1.length = 32) :
    ∃ s', History C A P (fresh C A P d seed 1 2)
      [(.addKey [97] (ownerOf C d1 seed1) none 3 4, true),
       (.importVerified [98] (A.enc (statement C d1 seed1 x 5)) [[97]] [[97]] 6, true)] s' ∧
      ∃ m, s'.keys = some m ∧ m [97] ≠ none ∧ m [98] ≠ none := by
  have hs := fresh_sound C A P d seed 1 2 h1 h2 (by decide)
  have hown : Owned C d seed (fresh C A P d seed 1 2) := ⟨rfl, rfl, rfl, hs.quick⟩
  have ha := addKey_owned C hown rfl h2 (label := [97]) (by decide) rfl (ownerOf_length C d1 seed1) none 3 4
  obtain ⟨m1, hm1⟩ := sound_addKey C hs ha
  have hk1 := hm1.keys
  simp only [Option.some.injEq] at hk1
  subst hk1
  have hen : ∀ r : PublicKeyRecord, (Map.empty.set [97] (some r) : Keys).Enumerates [[97]] :=
    fun r => enum_set enum_empty rfl _
  have hi := import_complete C (A := A) hm1 (by simp [Map.set, Map.empty]) (label := [98]) (blob := A.enc (statement C d1 seed1 x 5))
    (o1 := [[97]]) (o2 := [[97]]) (hen _) (hen _) (A.dec_enc _) (by decide) (by simp [Map.set, Map.empty])
    (statement_signed C d1 seed1 x 5 h3) (.inr ⟨[97], _, Map.set_same _ _ _, rfl⟩) 6
  refine ⟨_, .cons trivial trivial ha (.cons ?_ trivial hi (.nil _)), _, rfl, ?_, ?_⟩
  · intro m hm
    simp only [Option.some.injEq] at hm
    subst hm
    exact ⟨hen _, hen _⟩
  · rw [Map.set_other _ _ (by decide)]; simp
  · simp

example : ∃ s', History Toy.crypto Proofs.ToyJson.asn1 Pem.toy
    (fresh Toy.crypto Proofs.ToyJson.asn1 Pem.toy (List.replicate 32 1) (List.replicate 32 2) 1 2)
    [(.addKey [97] (ownerOf Toy.crypto (List.replicate 32 3) (List.replicate 32 4)) none 3 4, true),
     (.importVerified [98] (Proofs.ToyJson.asn1.enc (statement Toy.crypto (List.replicate 32 3) (List.replicate 32 4) [9] 5))
       [[97]] [[97]] 6, true)] s' ∧ ∃ m, s'.keys = some m ∧ m [97] ≠ none ∧ m [98] ≠ none :=
  exHistory Toy.crypto _ _ _ _ _ _ _ (by decide) (by decide) (by decide)

/-! ### C94: records are never replaced -/

/-- No call changes or removes a record that is there. -/
theorem C94_records_kept (s s' : KeyStore) (op : Op) (b : Bool) (m : Keys) (hm : s.keys = some m)
    (h : op.run C A P s = .ok (s', b)) :
    ∃ m', s'.keys = some m' ∧ (∀ l, m l ≠ none → m' l = m l) ∧
      (∀ l, m l = none → m' l ≠ none → b = true ∧
        ((∃ peer md t1 t2, op = .addKey l peer md t1 t2) ∨ ∃ blob o1 o2 now, op = .importVerified l blob o1 o2 now)) := by
  have trivial_case : s'.keys = s.keys → ∃ m', s'.keys = some m' ∧ (∀ l, m l ≠ none → m' l = m l) ∧
      (∀ l, m l = none → m' l ≠ none → b = true ∧
        ((∃ peer md t1 t2, op = .addKey l peer md t1 t2) ∨ ∃ blob o1 o2 now, op = .importVerified l blob o1 o2 now)) :=
    fun e => ⟨m, e.trans hm, fun _ _ => rfl, fun l h1 h2 => absurd h1 h2⟩
  have set_case : ∀ (label : Bytes) (r : PublicKeyRecord), s.validQuick = true → s.has label = false → b = true →
      s'.keys = some (m.set label (some r)) →
      ((∃ peer md t1 t2, op = .addKey label peer md t1 t2) ∨ ∃ blob o1 o2 now, op = .importVerified label blob o1 o2 now) →
      ∃ m', s'.keys = some m' ∧ (∀ l, m l ≠ none → m' l = m l) ∧
      (∀ l, m l = none → m' l ≠ none → b = true ∧
        ((∃ peer md t1 t2, op = .addKey l peer md t1 t2) ∨ ∃ blob o1 o2 now, op = .importVerified l blob o1 o2 now)) := by
    intro label r hq hh hb hk hop
    refine ⟨_, hk, fun l hl => ?_, fun l h1 h2 => ?_⟩
    · exact Map.set_other _ _ (fun e => hl (e ▸ ((has_false hq hm label).mp hh).2))
    · by_cases he : l = label
      · subst he; exact ⟨hb, hop⟩
      · rw [Map.set_other _ _ he] at h2; exact absurd h1 h2
  cases op with
  | addKey label peer md t1 t2 =>
    rcases addKey_true C h with ⟨-, rfl⟩ | ⟨hb, m', sig, k, hq, hm', hh, -, -, -, -, -, rfl⟩
    · exact trivial_case rfl
    · rw [hm] at hm'; cases hm'
      exact set_case label _ hq hh hb rfl (.inl ⟨peer, md, t1, t2, rfl⟩)
  | importVerified label blob o1 o2 now =>
    rcases import_true C h with ⟨-, rfl⟩ | ⟨hb, m', v, sl, pk, hq, hm', hh, -, -, -, -, -, -, -, rfl⟩
    · exact trivial_case rfl
    · rw [hm] at hm'; cases hm'
      exact set_case label _ hq hh hb rfl (.inr ⟨blob, o1, o2, now, rfl⟩)
  | lock =>
    refine trivial_case ?_
    simp only [Op.run, KeyStore.lock, Res.bind_eq_ok] at h
    obtain ⟨v, -, h⟩ := h
    split at h
    · simp at h; rw [← h.1]
    split at h
    · simp at h; rw [← h.1]
    simp only [Res.bind_eq_ok] at h
    obtain ⟨-, -, h⟩ := h
    simp at h; rw [← h.1]
  | lockWith p rng =>
    refine trivial_case ?_
    simp only [Op.run, KeyStore.lockWith, Res.bind_eq_ok] at h
    obtain ⟨⟨s1, b1, r1⟩, ⟨v, -, h⟩, h'⟩ := h
    simp at h'
    obtain ⟨rfl, -⟩ := h'
    split at h
    · simp at h; rw [← h.1]
    split at h
    · simp at h; rw [← h.1]
    simp only [Res.bind_eq_ok] at h
    obtain ⟨⟨o, r⟩, -, h⟩ := h
    cases o with
    | none => simp at h; rw [← h.1]
    | some box =>
      simp only [Res.bind_eq_ok] at h
      obtain ⟨-, -, h⟩ := h
      simp at h; rw [← h.1]
  | unlock p now =>
    refine trivial_case ?_
    simp only [Op.run, KeyStore.unlock] at h
    split at h
    · simp at h; rw [← h.1]
    split at h
    · simp at h; rw [← h.1]
    simp only [Res.bind_eq_ok] at h
    obtain ⟨o, -, h⟩ := h
    cases o with
    | none => simp at h; rw [← h.1]
    | some k =>
      simp only [Res.bind_eq_ok] at h
      obtain ⟨o, -, h⟩ := h
      cases o with
      | none =>
        simp only [Res.bind_eq_ok] at h
        obtain ⟨-, -, h⟩ := h
        simp at h; rw [← h.1]
      | some pub =>
        simp only at h
        split at h
        · simp only [Res.bind_eq_ok] at h
          obtain ⟨o, -, h⟩ := h
          cases o with
          | none =>
            simp only [KeyStore.lock, Res.bind_eq_ok] at h
            obtain ⟨⟨s1, b1⟩, ⟨v, -, h⟩, h'⟩ := h
            simp at h'
            obtain ⟨rfl, -⟩ := h'
            split at h
            · simp at h; rw [← h.1]
            split at h
            · simp at h; rw [← h.1]
            simp only [Res.bind_eq_ok] at h
            obtain ⟨-, -, h⟩ := h
            simp at h; rw [← h.1]
          | some sig => simp at h; rw [← h.1]
        · simp at h; rw [← h.1]

example : ∃ s', (Op.addKey [97] (List.replicate 64 7) none 3 4).run Toy.crypto Proofs.ToyJson.asn1 Pem.toy
    (fresh Toy.crypto Proofs.ToyJson.asn1 Pem.toy (List.replicate 32 1) (List.replicate 32 2) 1 2) = .ok (s', true) :=
  ⟨_, addKey_owned Toy.crypto ⟨rfl, rfl, rfl, by decide⟩ rfl (by decide) (by decide) rfl (by decide) none 3 4⟩

/-- No sequence of calls, whatever each of them returns, changes or removes a record. -/
theorem C94_sequence (ops : List Op) (s s' : KeyStore) (m : Keys) (hm : s.keys = some m)
    (h : ops.foldlM (fun s op => op.run C A P s >>= fun x => pure x.1) s = .ok s') :
    ∃ m', s'.keys = some m' ∧ ∀ l, m l ≠ none → m' l = m l := by
  induction ops generalizing s m with
  | nil => simp at h; exact ⟨m, h ▸ hm, fun _ _ => rfl⟩
  | cons op ops ih =>
    simp only [List.foldlM_cons, Res.bind_eq_ok] at h
    obtain ⟨s1, ⟨⟨s2, b⟩, h1, h2⟩, h3⟩ := h
    simp at h2
    subst h2
    obtain ⟨m1, e1, e2, -⟩ := C94_records_kept C A P s _ op b m hm h1
    obtain ⟨m', e3, e4⟩ := ih _ m1 e1 h3
    exact ⟨m', e3, fun l hl => by rw [e4 l (by rw [e2 l hl]; exact hl), e2 l hl]⟩

/-! ### C57: soundness of chain verification -/

theorem verifyChain_loop {s : KeyFields} {orders : Nat → List Bytes} {fuel : Nat} {l : Bytes} (hl : l ≠ self)
    (h : s.verifyChain C orders fuel l = some (.ok true)) : s.chainLoop C orders fuel 0 l = some (.ok true) := by
  unfold KeyFields.verifyChain at h
  split at h
  · simp at h
  · simpa [hl] using h

/-- In every store, built or loaded, in which no record is stored under "self", a successful
VerifyChain means there is a chain of verified signatures to the owner's key, and a successful
KeyAudit means there is one for every label. Missing from the property: stores with a record under
"self", for which it is false. -/
theorem C57_chain_sound_partial (s : KeyFields) (m : Keys) (hm : s.keys = some m) (hs : s.get self = none) :
    (∀ orders fuel l, l ≠ self → s.verifyChain C orders fuel l = some (.ok true) → Chain C s.pubBytes m l) ∧
    (∀ order orders fuel, m.Enumerates order → s.keyAudit C order orders fuel = some (.ok true) →
      ∀ l, l ≠ self → m l ≠ none → Chain C s.pubBytes m l) := by
  have h1 : ∀ orders fuel l, l ≠ self → s.verifyChain C orders fuel l = some (.ok true) → Chain C s.pubBytes m l :=
    fun orders fuel l hl h => chainLoop_sound C hm hs orders fuel 0 l hl (verifyChain_loop C hl h)
  refine ⟨h1, fun order orders fuel he h l hl hml => ?_⟩
  unfold KeyFields.keyAudit at h
  split at h
  · simp at h
  have hmem := (he.2 l).mpr hml
  clear he
  induction order with
  | nil => simp at hmem
  | cons q qs ih =>
    rw [KeyFields.auditLoop] at h
    cases hv : s.verifyChain C (orders q) fuel q with
    | none => simp [hv] at h
    | some x =>
      cases x with
      | panic => simp [hv] at h
      | ok b =>
        cases b with
        | false => simp [hv] at h
        | true =>
          simp only [hv] at h
          rcases List.mem_cons.mp hmem with rfl | hmem
          · exact h1 _ _ _ hl hv
          · exact ih h hmem

/-- The store a hostile file describes: the attacker's key under "self", unsigned, and any key
under "x", signed by the attacker. -/
def hostile (owner atk : Bytes) (v : VerifiedKey) (locked : Bytes) : KeyFields :=
  { version := 1, timestamp := 5
    keys := some ((Map.empty.set [120] (some (recordFor [120] v))).set self (some {
      label := self, version := 1, timestamp := 7, keys := some atk, keySignature := [], keySigner := []
      signatureTime := 0, metadata := none }))
    lockedKey := some locked, publicKey := some owner, exportKey := none }

theorem hostile_finite (owner atk : Bytes) (v : VerifiedKey) (locked : Bytes) :
    (hostile owner atk v locked).Finite := by
  intro m hm
  cases hm
  refine ⟨(Map.finite_empty.set _ _).set _ _, ?_⟩
  intro k r md hk hmd
  by_cases h1 : k = self
  · subst h1; simp at hk; subst hk; cases hmd
  · rw [Map.set_other _ _ h1] at hk
    obtain ⟨-, h⟩ := SecretStore.exMap_get hk
    cases h
    cases hmd

theorem hostile_clean (owner atk : Bytes) (v : VerifiedKey) (locked : Bytes) :
    (hostile owner atk v locked).Clean := by
  intro m hm k x hk
  cases hm
  by_cases h1 : k = self
  · subst h1; simp at hk; subst hk
    refine ⟨by decide, ?_⟩
    intro r hr; cases hr
    exact ⟨show ValidUtf8 self by decide, fun md j x h => by cases h⟩
  · rw [Map.set_other _ _ h1] at hk
    obtain ⟨rfl, rfl⟩ := SecretStore.exMap_get hk
    refine ⟨by decide, ?_⟩
    intro r hr; cases hr
    exact ⟨show ValidUtf8 [120] by decide, fun md j x h => by cases h⟩

theorem vks_self (s : KeyFields) (h : s.validQuick = true) (o : List Bytes) :
    s.verifyKeySignature C self o = .ok (some self) := by
  unfold KeyFields.verifyKeySignature; simp [h]

/-- C57 is false: a file with a record under "self" makes keys signed by whoever wrote the file
verify, and the audit of the loaded store succeeds, though no chain leads to the owner. This is
for every attacker's pair, owner and key `pk`, as long as the attacker's signature is not also
one by the owner. -/
theorem C57_self_record_violated (J : KeyJson) (owner d seed pk locked : Bytes) (t : BitVec 64)
    (hseed : seed.length = 32) (ho : owner ≠ ownerOf C d seed) (hpk : pk ≠ ownerOf C d seed)
    (hf : ¬ Signed C owner pk (statement C d seed pk t).signature t) :
    let f := hostile owner (ownerOf C d seed) (statement C d seed pk t) locked
    ∃ s m, loadData J (J.enc f) = some s ∧ s.keys = some m ∧ s.pubBytes = owner ∧
      (∀ orders fuel, (∀ i, m.Enumerates (orders i)) →
        s.verifyChain C orders (fuel + 1) [120] = some (.ok true)) ∧
      (∀ order orders fuel, m.Enumerates order → (∀ l i, m.Enumerates (orders l i)) →
        s.keyAudit C order orders (fuel + 1) = some (.ok true)) ∧
      ¬ Chain C owner m [120] := by
  intro f
  have hq : f.validQuick = true := (quick_iff _).mpr ⟨rfl, by simp [f, hostile], _, rfl⟩
  let s : KeyStore := { f with privateKey := none, locked := true }
  have hsq : s.validQuick = true := hq
  obtain ⟨m, hm⟩ : ∃ m, f.keys = some m := ⟨_, rfl⟩
  have hm' := hm
  simp only [f, hostile, Option.some.injEq] at hm'
  have hmx : m [120] = some (some (recordFor [120] (statement C d seed pk t))) := by
    rw [← hm', Map.set_other _ _ (by decide)]; simp
  have hms : ∃ r, m self = some (some r) ∧ r.label = self ∧ r.keyBytes = ownerOf C d seed ∧ r.keySignature = [] := by
    refine ⟨_, by rw [← hm']; exact Map.set_same _ _ _, rfl, rfl, rfl⟩
  have hother : ∀ l r, m l = some (some r) → l = self ∨ (l = [120] ∧ r = recordFor [120] (statement C d seed pk t)) := by
    intro l r hl
    by_cases h1 : l = self
    · exact .inl h1
    · rw [← hm', Map.set_other _ _ h1] at hl
      obtain ⟨e1, e2⟩ := SecretStore.exMap_get hl
      exact .inr ⟨e1, by simpa using e2⟩
  have hnn : NoNil m := by
    intro l hl
    by_cases h1 : l = self
    · rw [← hm', h1] at hl; simp at hl
    · rw [← hm', Map.set_other _ _ h1] at hl
      have := (SecretStore.exMap_get hl).2
      cases this
  obtain ⟨rs, hms, hrl, hrk, hrs⟩ := hms
  have hvks : ∀ o, m.Enumerates o → s.verifyKeySignature C [120] o = .ok (some self) := by
    intro o hen
    have hfind : s.findPublic (recordFor [120] (statement C d seed pk t)).keySigner o = .ok (some self) := by
      unfold KeyFields.findPublic
      rw [if_neg (show ¬ (recordFor [120] (statement C d seed pk t)).keySigner = s.pubBytes from Ne.symm ho)]
      show findLoop (f.keys.getD Map.empty) (ownerOf C d seed) o = _
      rw [hm]
      simp only [Option.getD_some]
      cases hl : findLoop m (ownerOf C d seed) o with
      | panic => exact absurd hl (findLoop_no_panic hnn _ _)
      | ok x =>
        cases x with
        | none => exact absurd hrk (findLoop_none hl self ((hen.2 self).mpr (by simp [hms])) rs hms)
        | some l =>
          obtain ⟨k, r, -, e1, e2, e3⟩ := findLoop_some hl
          rcases hother k r e1 with rfl | ⟨rfl, rfl⟩
          · rw [hms] at e1; cases e1; rw [← e3, hrl]
          · exact absurd e2 hpk
    refine vks_other C hsq (by decide) ((get_some hm).mpr hmx) (show ownerOf C d seed ≠ owner from Ne.symm ho) hfind
      ((get_some hm).mpr hms) ?_
    rw [hrk]
    exact statement_signed C d seed pk t hseed
  have hvc : ∀ orders fuel, (∀ i, m.Enumerates (orders i)) →
      s.verifyChain C orders (fuel + 1) [120] = some (.ok true) := by
    intro orders fuel hor
    have hh : s.has [120] = true := (has_iff hsq hm _).mpr (.inr (by simp [hmx]))
    unfold KeyFields.verifyChain
    rw [hsq, hh]
    simp [KeyFields.chainLoop, hvks _ (hor 0)]
  refine ⟨s, m, ?_, hm, rfl, hvc, ?_, ?_⟩
  · unfold loadData
    rw [J.dec_enc f (hostile_finite _ _ _ _) (hostile_clean _ _ _ _)]
    simp only
    have : ({ f with keys := some (f.keys.getD Map.empty) } : KeyFields) = f := rfl
    rw [if_neg (by simp only [Bool.not_eq_true', Bool.not_eq_false]; exact hq)]
    rfl
  · intro order orders fuel hen hor
    unfold KeyFields.keyAudit
    rw [hsq]
    simp only [Bool.not_true, Bool.false_eq_true, if_false]
    have hall : ∀ l ∈ order, l = self ∨ l = [120] := by
      intro l hl
      have := (hen.2 l).mp hl
      cases hml : m l with
      | none => exact absurd hml this
      | some v =>
        cases v with
        | none => exact absurd hml (hnn l)
        | some r =>
          rcases hother l r hml with h | ⟨h, -⟩
          · exact .inl h
          · exact .inr h
    clear hen
    induction order with
    | nil => rfl
    | cons l ls ih =>
      rw [KeyFields.auditLoop]
      have : s.verifyChain C (orders l) (fuel + 1) l = some (.ok true) := by
        rcases hall l List.mem_cons_self with rfl | rfl
        · unfold KeyFields.verifyChain
          rw [hsq, (has_iff hsq hm self).mpr (.inl rfl)]
          simp
        · exact hvc _ _ (hor _)
      rw [this]
      exact ih (fun l hl => hall l (List.mem_cons_of_mem _ hl))
  · intro hc
    have hself : ¬ Chain C owner m self := by
      intro hc
      cases hc with
      | owner h1 h2 => rw [hms] at h1; cases h1; have := h2.2.1; rw [hrs] at this; simp at this
      | link h1 _ h2 _ => rw [hms] at h1; cases h1; have := h2.2.1; rw [hrs] at this; simp at this
    have hx : ∀ l, l = [120] → ¬ Chain C owner m l := by
      intro l hl hc
      induction hc with
      | owner h1 h2 => subst hl; rw [hmx] at h1; cases h1; exact hf h2
      | @link l l' r r' h1 h2 h3 h4 ih =>
        rcases hother l' r' h2 with rfl | ⟨rfl, -⟩
        · exact hself h4
        · exact ih rfl
    exact hx _ rfl hc

example : let d : Bytes := List.replicate 32 3
    let seed : Bytes := List.replicate 32 4
    ownerOf Toy.crypto (List.replicate 32 1) (List.replicate 32 2) ≠ ownerOf Toy.crypto d seed ∧
    ([9] : Bytes) ≠ ownerOf Toy.crypto d seed ∧
    ¬ Signed Toy.crypto (ownerOf Toy.crypto (List.replicate 32 1) (List.replicate 32 2)) [9]
      (statement Toy.crypto d seed [9] 5).signature 5 := by
  refine ⟨by decide, by decide, ?_⟩
  rintro ⟨-, -, h⟩
  revert h
  decide

end Verif.Props.KeyTrust
