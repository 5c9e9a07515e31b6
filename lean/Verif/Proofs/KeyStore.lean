import Verif.Spec.KeyStore
import Verif.Props.Public
/-! Lemmas about the key store. -/

namespace Verif.Proofs.KeyStore
open Verif Verif.Go Verif.Model.Util Verif.Model.Public Verif.Model.KeyStore Verif.Spec.Public Verif.Spec.KeyStore
open Verif.Proofs.Public

variable (C : Crypto)

theorem quick_iff (s : KeyFields) : s.validQuick = true ↔
    s.version = 1 ∧ s.timestamp ≠ 0 ∧ ∃ m, s.keys = some m := by
  unfold KeyFields.validQuick
  constructor
  · intro h
    split at h
    · simp at h
    rename_i h1
    split at h
    · simp at h
    rename_i h2
    split at h
    · simp at h
    rename_i h3
    refine ⟨Decidable.not_not.mp h1, h2, ?_⟩
    cases hs : s.keys with
    | none => simp [hs] at h3
    | some m => exact ⟨m, rfl⟩
  · rintro ⟨h1, h2, m, h3⟩
    rw [if_neg (by simp [h1, keyStoreVersion]), if_neg h2, if_neg (by simp [h3])]

theorem get_eq {s : KeyFields} {m : Keys} (h : s.keys = some m) (l : Bytes) : s.get l = (m l).join := by
  unfold KeyFields.get; rw [h]

theorem get_some {s : KeyFields} {m : Keys} (h : s.keys = some m) {l : Bytes} {r : PublicKeyRecord} :
    s.get l = some r ↔ m l = some (some r) := by
  rw [get_eq h]
  cases hm : m l with
  | none => simp
  | some v => cases v <;> simp

theorem has_iff {s : KeyFields} {m : Keys} (hq : s.validQuick = true) (h : s.keys = some m) (l : Bytes) :
    s.has l = true ↔ l = self ∨ m l ≠ none := by
  unfold KeyFields.has
  rw [hq, h]
  simp only [Bool.not_true, Bool.false_eq_true, if_false]
  by_cases hl : l = self
  · simp [hl]
  · simp only [hl, if_false, Map.has, false_or]
    cases m l <;> simp

theorem has_false {s : KeyFields} {m : Keys} (hq : s.validQuick = true) (h : s.keys = some m) (l : Bytes) :
    s.has l = false ↔ l ≠ self ∧ m l = none := by
  have := has_iff hq h l
  cases hh : s.has l with
  | true => simp only [hh, true_iff] at this; simp only [Bool.true_eq_false, false_iff]; rintro ⟨h1, h2⟩; rcases this with h | h; exact h1 h; exact h h2
  | false =>
    simp only [hh, Bool.false_eq_true, false_iff, not_or, ne_eq, Decidable.not_not] at this
    simpa using this

theorem copyInto_exact (n : Nat) (b : Bytes) (h : b.length = n) : copyInto n b = b := by
  rw [copyInto_fit, List.take_left' h]

theorem unmarshalPublic_some {b : Bytes} {p : PublicKey} (h : unmarshalPublic b = some p) :
    b.length = 64 ∧ p = ⟨some (b.take 32), some (b.drop 32)⟩ := by
  unfold unmarshalPublic at h
  split at h
  · simp at h
  rename_i hl
  have hl : b.length = 64 := Decidable.not_not.mp hl
  simp only [Option.some.injEq] at h
  refine ⟨hl, h.symm.trans ?_⟩
  rw [copyInto_exact 32 (b.drop 32) (by simp [hl]), copyInto_fit,
    List.take_append_of_le_length (by omega)]

theorem unmarshalPublic_of_length {b : Bytes} (h : b.length = 64) :
    unmarshalPublic b = some ⟨some (b.take 32), some (b.drop 32)⟩ := by
  cases hu : unmarshalPublic b with
  | none => simp [unmarshalPublic, h] at hu
  | some p => rw [(unmarshalPublic_some hu).2]

/-- Verifying a key statement under a serialised key. -/
theorem verify_signed {signer : Bytes} {p : PublicKey} (h : unmarshalPublic signer = some p)
    (pk sig : Bytes) (t : BitVec 64) :
    ∃ b, verify C (some p) (pk ++ signer ++ be 8 t.toNat) sig = .ok b ∧ (b = true ↔ Signed C signer pk sig t) := by
  obtain ⟨hl, rfl⟩ := unmarshalPublic_some h
  rw [verify_mk]
  refine ⟨_, rfl, ?_⟩
  unfold Signed
  by_cases hs : sig.length = 64
  · simp [hs, hl]
  · simp [hs]

/-! ### Searching and verifying -/

theorem findLoop_some {m : Keys} {pub l : Bytes} {order : List Bytes} (h : findLoop m pub order = .ok (some l)) :
    ∃ k r, k ∈ order ∧ m k = some (some r) ∧ r.keyBytes = pub ∧ r.label = l := by
  induction order with
  | nil => simp [findLoop] at h
  | cons k ks ih =>
    rw [findLoop] at h
    cases hk : m k with
    | none =>
      simp only [hk] at h
      obtain ⟨k', r, h1, h2⟩ := ih h
      exact ⟨k', r, List.mem_cons_of_mem _ h1, h2⟩
    | some v =>
      cases v with
      | none => simp [hk] at h
      | some r =>
        simp only [hk] at h
        split at h
        · rename_i he
          cases h
          exact ⟨k, r, List.mem_cons_self, hk, he.symm, rfl⟩
        · obtain ⟨k', r, h1, h2⟩ := ih h
          exact ⟨k', r, List.mem_cons_of_mem _ h1, h2⟩

theorem findLoop_no_panic {m : Keys} (hn : NoNil m) (pub : Bytes) (order : List Bytes) :
    findLoop m pub order ≠ .panic := by
  induction order with
  | nil => simp [findLoop]
  | cons k ks ih =>
    rw [findLoop]
    cases hk : m k with
    | none => simpa using ih
    | some v =>
      cases v with
      | none => exact absurd hk (hn k)
      | some r => simp only; split <;> simp_all

theorem findLoop_none {m : Keys} {pub : Bytes} {order : List Bytes} (h : findLoop m pub order = .ok none) :
    ∀ k ∈ order, ∀ r, m k = some (some r) → r.keyBytes ≠ pub := by
  induction order with
  | nil => simp
  | cons k ks ih =>
    rw [findLoop] at h
    intro q hq r hr
    cases hk : m k with
    | none =>
      simp only [hk] at h
      rcases List.mem_cons.mp hq with rfl | hq
      · rw [hk] at hr; cases hr
      · exact ih h q hq r hr
    | some v =>
      cases v with
      | none => simp [hk] at h
      | some v =>
        simp only [hk] at h
        split at h
        · cases h
        · rename_i hne
          rcases List.mem_cons.mp hq with rfl | hq
          · rw [hk] at hr; cases hr; exact fun e => hne e.symm
          · exact ih h q hq r hr

/-- What a successful VerifyKeySignature says, for any store whatsoever. -/
theorem vks_some {s : KeyFields} {l sl : Bytes} {order : List Bytes}
    (h : s.verifyKeySignature C l order = .ok (some sl)) :
    s.validQuick = true ∧ ((l = self ∧ sl = self) ∨ (l ≠ self ∧ ∃ r, s.get l = some r ∧
      ((r.keySigner = s.pubBytes ∧ sl = self ∧ SignedRec C s.pubBytes r) ∨
       (r.keySigner ≠ s.pubBytes ∧ s.findPublic r.keySigner order = .ok (some sl) ∧
        ∃ r', s.get sl = some r' ∧ SignedRec C r'.keyBytes r)))) := by
  unfold KeyFields.verifyKeySignature at h
  split at h
  · simp at h
  rename_i hq
  refine ⟨by simpa using hq, ?_⟩
  split at h
  · rename_i hl; simp at h; exact Or.inl ⟨hl, h.symm⟩
  rename_i hl
  right
  refine ⟨hl, ?_⟩
  cases hg : s.get l with
  | none => simp [hg, deref] at h
  | some r =>
    simp only [hg, deref, Res.ok_bind] at h
    refine ⟨r, rfl, ?_⟩
    by_cases hk : r.keySigner = s.pubBytes
    · left
      simp only [hk, if_true, Res.pure_eq, Res.ok_bind] at h
      cases hu : unmarshalPublic s.pubBytes with
      | none => simp [hu] at h
      | some p =>
        simp only [hu] at h
        obtain ⟨b, h1, h2⟩ := verify_signed C hu r.keyBytes r.keySignature r.signatureTime
        simp only [VerifiedKey.signatureData, h1, Res.ok_bind] at h
        cases b with
        | false => simp at h
        | true => simp at h; exact ⟨hk, h.symm, h2.mp rfl⟩
    · right
      rw [if_neg hk] at h
      cases hf : s.findPublic r.keySigner order with
      | panic => simp [hf] at h
      | ok o =>
        cases o with
        | none => simp [hf] at h
        | some sl' =>
          simp only [hf, Res.ok_bind] at h
          cases hg' : s.get sl' with
          | none => simp [hg', deref] at h
          | some r' =>
            simp only [hg', deref, Res.ok_bind, Res.pure_eq] at h
            cases hu : unmarshalPublic r'.keyBytes with
            | none => simp [hu] at h
            | some p =>
              simp only [hu] at h
              obtain ⟨b, h1, h2⟩ := verify_signed C hu r.keyBytes r.keySignature r.signatureTime
              simp only [VerifiedKey.signatureData, h1, Res.ok_bind] at h
              cases b with
              | false => simp at h
              | true =>
                simp at h
                subst h
                exact ⟨hk, rfl, r', hg', h2.mp rfl⟩

/-- VerifyKeySignature on a record signed by the owner. -/
theorem vks_owner {s : KeyFields} {l : Bytes} {order : List Bytes} {r : PublicKeyRecord}
    (hq : s.validQuick = true) (hl : l ≠ self) (hg : s.get l = some r) (hk : r.keySigner = s.pubBytes)
    (hs : SignedRec C s.pubBytes r) : s.verifyKeySignature C l order = .ok (some self) := by
  unfold KeyFields.verifyKeySignature
  rw [hq]
  simp only [Bool.not_true, Bool.false_eq_true, if_false, hl, hg, deref, Res.ok_bind, hk, if_true, Res.pure_eq]
  have hu := unmarshalPublic_of_length hs.1
  obtain ⟨b, h1, h2⟩ := verify_signed C hu r.keyBytes r.keySignature r.signatureTime
  simp only [hu, VerifiedKey.signatureData, h1, Res.ok_bind, h2.mpr hs, if_true]

/-- VerifyKeySignature on a record signed by another key. -/
theorem vks_other {s : KeyFields} {l sl : Bytes} {order : List Bytes} {r r' : PublicKeyRecord}
    (hq : s.validQuick = true) (hl : l ≠ self) (hg : s.get l = some r) (hk : r.keySigner ≠ s.pubBytes)
    (hf : s.findPublic r.keySigner order = .ok (some sl)) (hg' : s.get sl = some r')
    (hs : SignedRec C r'.keyBytes r) : s.verifyKeySignature C l order = .ok (some sl) := by
  unfold KeyFields.verifyKeySignature
  rw [hq]
  simp only [Bool.not_true, Bool.false_eq_true, if_false, hl, hg, deref, Res.ok_bind, hk, hf, hg', Res.pure_eq]
  have hu := unmarshalPublic_of_length hs.1
  obtain ⟨b, h1, h2⟩ := verify_signed C hu r.keyBytes r.keySignature r.signatureTime
  simp only [hu, VerifiedKey.signatureData, h1, Res.ok_bind, h2.mpr hs, if_true]

/-- In a store without nil records whose labels are in place nothing panics. -/
theorem vks_no_panic {s : KeyFields} {m : Keys} (hm : s.keys = some m) (hn : NoNil m) (hlab : Labelled m)
    {l : Bytes} (hl : l = self ∨ m l ≠ none) (order : List Bytes) :
    s.verifyKeySignature C l order ≠ .panic := by
  unfold KeyFields.verifyKeySignature
  split
  · simp
  split
  · simp
  rename_i hne
  cases hml : m l with
  | none =>
    rcases hl with h | h
    · exact absurd h hne
    · exact absurd hml h
  | some v =>
    cases v with
    | none => exact absurd hml (hn l)
    | some r =>
      have hg := (get_some hm).mpr hml
      simp only [hg, deref, Res.ok_bind]
      by_cases hk : r.keySigner = s.pubBytes
      · simp only [hk, if_true, Res.pure_eq, Res.ok_bind]
        cases hu : unmarshalPublic s.pubBytes with
        | none => simp
        | some p =>
          obtain ⟨b, h1, -⟩ := verify_signed C hu r.keyBytes r.keySignature r.signatureTime
          simp only [VerifiedKey.signatureData, h1, Res.ok_bind]
          cases b <;> simp
      · simp only [hk, if_false]
        have hfp : s.findPublic r.keySigner order = findLoop m r.keySigner order := by
          unfold KeyFields.findPublic; rw [if_neg hk, hm]; rfl
        rw [hfp]
        cases hf : findLoop m r.keySigner order with
        | panic => exact absurd hf (findLoop_no_panic hn _ _)
        | ok o =>
          cases o with
          | none => simp
          | some sl =>
            obtain ⟨k, r', -, h2, -, h4⟩ := findLoop_some hf
            rw [← h4, hlab k r' h2]
            have hg' := (get_some hm).mpr h2
            simp only [Res.ok_bind, hg', Res.pure_eq]
            cases hu : unmarshalPublic r'.keyBytes with
            | none => simp
            | some p =>
              obtain ⟨b, h1, -⟩ := verify_signed C hu r.keyBytes r.keySignature r.signatureTime
              simp only [VerifiedKey.signatureData, h1, Res.ok_bind]
              cases b <;> simp

theorem trust_cases {owner : Bytes} {m : Keys} {l : Bytes} {r : PublicKeyRecord} (hr : m l = some (some r))
    (h : Trust C owner m l) : SignedRec C r.keySigner r ∧
    (r.keySigner = owner ∨ ∃ l' r', m l' = some (some r') ∧ r'.keyBytes = r.keySigner) := by
  cases h with
  | owner h1 h2 h3 => rw [hr] at h1; cases h1; exact ⟨h3, .inl h2⟩
  | link h1 h2 h3 h4 _ => rw [hr] at h1; cases h1; exact ⟨h4, .inr ⟨_, _, h2, h3.symm⟩⟩

/-- In a store as the package builds it VerifyKeySignature succeeds on every record. -/
theorem vks_vouched {s : KeyFields} {m : Keys} {owner : Bytes} (hq : s.validQuick = true)
    (hm : s.keys = some m) (hp : s.pubBytes = owner) (hn : NoNil m) (hlab : Labelled m)
    {order : List Bytes} (he : m.Enumerates order) {l : Bytes} {r : PublicKeyRecord} (hl : l ≠ self)
    (hr : m l = some (some r)) (ht : Trust C owner m l) :
    (r.keySigner = owner ∧ s.verifyKeySignature C l order = .ok (some self)) ∨
    (r.keySigner ≠ owner ∧ ∃ sl r', m sl = some (some r') ∧ r'.keyBytes = r.keySigner ∧
      s.verifyKeySignature C l order = .ok (some sl)) := by
  obtain ⟨h1, h2⟩ := trust_cases C hr ht
  have hg := (get_some hm).mpr hr
  by_cases hk : r.keySigner = owner
  · exact Or.inl ⟨hk, vks_owner C hq hl hg (by rw [hp]; exact hk) (by rw [hp, ← hk]; exact h1)⟩
  · right
    refine ⟨hk, ?_⟩
    have hne : r.keySigner ≠ s.pubBytes := by rw [hp]; exact hk
    have hfp : s.findPublic r.keySigner order = findLoop m r.keySigner order := by
      unfold KeyFields.findPublic; rw [if_neg hne, hm]; rfl
    rcases h2 with h2 | ⟨l', r', h2, h3⟩
    · exact absurd h2 hk
    cases hf : findLoop m r.keySigner order with
    | panic => exact absurd hf (findLoop_no_panic hn _ _)
    | ok o =>
      cases o with
      | none => exact absurd h3 (findLoop_none hf l' ((he.2 l').mpr (by simp [h2])) r' h2)
      | some sl =>
        obtain ⟨k, r'', -, e1, e2, e3⟩ := findLoop_some hf
        rw [hlab k r'' e1] at e3
        subst e3
        refine ⟨k, r'', e1, e2, vks_other C hq hl hg hne (by rw [hfp, hf]) ((get_some hm).mpr e1) ?_⟩
        rw [e2]; exact h1

/-! ### Chains -/

theorem Chain.mono {owner : Bytes} {m m' : Keys} (hs : ∀ k r, m k = some (some r) → m' k = some (some r))
    {l : Bytes} (h : Chain C owner m l) : Chain C owner m' l := by
  induction h with
  | owner h1 h2 => exact .owner (hs _ _ h1) h2
  | link h1 h2 h3 _ ih => exact .link (hs _ _ h1) (hs _ _ h2) h3 ih

theorem Trust.mono {owner : Bytes} {m m' : Keys} (hs : ∀ k r, m k = some (some r) → m' k = some (some r))
    {l : Bytes} (h : Trust C owner m l) : Trust C owner m' l := by
  induction h with
  | owner h1 h2 h3 => exact .owner (hs _ _ h1) h2 h3
  | link h1 h2 h3 h4 _ ih => exact .link (hs _ _ h1) (hs _ _ h2) h3 h4 ih

theorem Trust.chain {owner : Bytes} {m : Keys} {l : Bytes} (h : Trust C owner m l) : Chain C owner m l := by
  induction h with
  | owner h1 h2 h3 => exact .owner h1 (h2 ▸ h3)
  | link h1 h2 h3 h4 _ ih => exact .link h1 h2 (h3 ▸ h4) ih

/-- With no key stored twice the walk from a trusted record ends, whatever the iteration orders. -/
theorem chainLoop_trust {s : KeyFields} {m : Keys} {owner : Bytes} (hq : s.validQuick = true)
    (hm : s.keys = some m) (hp : s.pubBytes = owner) (hn : NoNil m) (hlab : Labelled m) (hs : m self = none)
    (hd : Distinct m) {l : Bytes} (ht : Trust C owner m l) :
    ∃ n, ∀ orders i, (∀ i, m.Enumerates (orders i)) → s.chainLoop C orders n i l = some (.ok true) := by
  induction ht with
  | @owner l r h1 h2 h3 =>
    have hl : l ≠ self := by rintro rfl; rw [hs] at h1; cases h1
    refine ⟨1, fun orders i ho => ?_⟩
    rcases vks_vouched C hq hm hp hn hlab (ho i) hl h1 (.owner h1 h2 h3) with ⟨-, h⟩ | ⟨h, -⟩
    · simp [KeyFields.chainLoop, h]
    · exact absurd h2 h
  | @link l l' r r' h1 h2 h3 h4 ht ih =>
    have hl : l ≠ self := by rintro rfl; rw [hs] at h1; cases h1
    obtain ⟨n, ih⟩ := ih
    refine ⟨n + 1, fun orders i ho => ?_⟩
    rw [KeyFields.chainLoop]
    rcases vks_vouched C hq hm hp hn hlab (ho i) hl h1 (.link h1 h2 h3 h4 ht) with ⟨-, h⟩ | ⟨h, sl, r'', e1, e2, e3⟩
    · simp [h]
    · have : sl = l' := hd _ _ _ _ e1 h2 (e2.trans h3)
      subst this
      have hsl : sl ≠ self := by rintro rfl; rw [hs] at h2; cases h2
      simp only [e3, hsl, if_false]
      exact ih orders (i + 1) ho

/-- The walk is sound in any store without an entry "self". -/
theorem chainLoop_sound {s : KeyFields} {m : Keys} (hm : s.keys = some m) (hs : s.get self = none)
    (orders : Nat → List Bytes) (fuel i : Nat) (l : Bytes) (hl : l ≠ self)
    (h : s.chainLoop C orders fuel i l = some (.ok true)) : Chain C s.pubBytes m l := by
  induction fuel generalizing i l with
  | zero => simp [KeyFields.chainLoop] at h
  | succ fuel ih =>
    rw [KeyFields.chainLoop] at h
    cases hv : s.verifyKeySignature C l (orders i) with
    | panic => simp [hv] at h
    | ok o =>
      cases o with
      | none => simp [hv] at h
      | some sl =>
        simp only [hv] at h
        obtain ⟨-, ⟨h1, -⟩ | ⟨-, r, h2, h3⟩⟩ := vks_some C hv
        · exact absurd h1 hl
        · have hr := (get_some hm).mp h2
          rcases h3 with ⟨-, -, h6⟩ | ⟨h4, h5, r', h6, h7⟩
          · exact .owner hr h6
          · by_cases hsl : sl = self
            · subst hsl; rw [hs] at h6; cases h6
            · rw [if_neg hsl] at h
              exact .link hr ((get_some hm).mp h6) h7 (ih (i + 1) sl hsl h)

/-- More fuel does not change the outcome. -/
theorem chainLoop_mono {s : KeyFields} (orders : Nat → List Bytes) (fuel k i : Nat) (l : Bytes) (x : Res Bool)
    (h : s.chainLoop C orders fuel i l = some x) : s.chainLoop C orders (fuel + k) i l = some x := by
  induction fuel generalizing i l with
  | zero => simp [KeyFields.chainLoop] at h
  | succ fuel ih =>
    rw [Nat.add_right_comm, KeyFields.chainLoop]
    rw [KeyFields.chainLoop] at h
    cases hv : s.verifyKeySignature C l (orders i) with
    | panic => simpa [hv] using h
    | ok o =>
      cases o with
      | none => simpa [hv] using h
      | some sl =>
        simp only [hv] at h ⊢
        split
        · rename_i hs; rw [if_pos hs] at h; exact h
        · rename_i hs; rw [if_neg hs] at h; exact ih _ _ h

/-! ### Locking -/

theorem valid_of {s : KeyStore} {k : PrivateKey} {pub : Bytes} (hq : s.validQuick = true) (hl : s.locked = false)
    (hk : s.privateKey = some k) (hv : validPriv (some k) = true) (hm : marshalPublic k.pub = .ok (some pub))
    (hp : s.publicKey = some pub) (hlen : pub.length = 64) : s.valid = .ok true := by
  unfold KeyStore.valid
  simp only [hq, Bool.not_true, Bool.false_eq_true, if_false, hl, Bool.not_false, if_true, hk, hv, deref,
    Res.ok_bind, hm, Res.pure_eq, KeyFields.pubBytes, hp, Option.getD_some, beq_self_eq_true,
    unmarshalPublic_of_length hlen, Option.isSome_some]

theorem valid_locked {s : KeyStore} {pub : Bytes} (hq : s.validQuick = true) (hl : s.locked = true)
    (hp : s.publicKey = some pub) (hlen : pub.length = 64) : s.valid = .ok true := by
  unfold KeyStore.valid
  simp only [hq, Bool.not_true, Bool.false_eq_true, if_false, hl, Res.pure_eq, Res.ok_bind, hp,
    unmarshalPublic_of_length hlen, Option.isSome_some]

theorem marshalPublic_mk (e v : Bytes) : marshalPublic (some { E := some e, V := some v }) = .ok (some (e ++ v)) := by
  have hv : validPub (some { E := some e, V := some v }) = true := (validPub_iff _).mpr ⟨_, _, rfl⟩
  unfold marshalPublic; rw [hv]; rfl

/-- Valid(false) never panics. -/
theorem valid_no_panic (s : KeyStore) : s.valid ≠ .panic := by
  unfold KeyStore.valid
  split
  · simp
  cases hl : s.locked with
  | true => cases hp : s.publicKey <;> simp
  | false =>
    cases hv : validPriv s.privateKey with
    | false => simp
    | true =>
      obtain ⟨d, sk, e, v, hk⟩ := (validPriv_iff s.privateKey).mp hv
      rw [hk]
      simp only [mkPriv, deref, Res.ok_bind, marshalPublic_mk, Res.pure_eq]
      cases (e ++ v == s.pubBytes) <;> cases hp : s.publicKey <;> simp

theorem sound_valid {s : KeyStore} {owner : Bytes} {m : Keys} (h : Sound C s owner m) : s.valid = .ok true := by
  cases hl : s.locked with
  | true => exact valid_locked h.quick hl h.pub h.len
  | false =>
    obtain ⟨k, h1, h2, -, h4⟩ := h.priv hl
    exact valid_of h.quick hl h1 h2 h4 h.pub h.len

theorem zeroPriv_valid {k : PrivateKey} (h : validPriv (some k) = true) :
    ∃ k', zeroPriv (some k) = .ok k' ∧ k'.D = none ∧ k'.S = none := by
  obtain ⟨d, sk, e, v, hk⟩ := (validPriv_iff (some k)).mp h
  cases hk
  exact ⟨_, rfl, rfl, rfl⟩

theorem wt_marshal {k : PrivateKey} {pub : Bytes} (hw : k.WT) (h : marshalPublic k.pub = .ok (some pub)) :
    pub.length = 64 ∧ ∃ e v, k.pub = some ⟨some e, some v⟩ ∧ e.length = 32 ∧ v.length = 32 ∧ pub = e ++ v := by
  cases hv : validPub k.pub with
  | false => simp [marshalPublic, hv] at h
  | true =>
    obtain ⟨e, v, hp⟩ := (validPub_iff _).mp hv
    rw [hp, marshalPublic_mk] at h
    simp only [Res.ok.injEq, Option.some.injEq] at h
    obtain ⟨h1, h2⟩ := hw.2.2 _ hp
    have h1 := h1 e rfl
    have h2 := h2 v rfl
    exact ⟨by rw [← h]; simp [h1, h2], e, v, hp, h1, h2, h.symm⟩

theorem copyInto_length (n : Nat) (b : Bytes) : (copyInto n b).length = n := by
  rw [copyInto_fit]; simp

/-- An unlocked key is complete. -/
theorem unlocked_wt {locked pass : Bytes} {k : PrivateKey} (h : unlockKey C locked pass = .ok (some k)) :
    validPriv (some k) = true ∧ k.WT := by
  obtain ⟨salt, nonce, out, -, -, -, h⟩ := (Props.Public.C24_unlock_only C locked pass k).mp h
  obtain ⟨d, s, e, v, -, rfl⟩ := (unmarshalPrivate_decodeN _ _).mp h
  refine ⟨(validPriv_iff _).mpr ⟨_, _, _, _, rfl⟩, ?_, ?_, ?_⟩
  · intro x hx; cases hx; exact copyInto_length _ _
  · intro x hx; cases hx; exact copyInto_length _ _
  · intro p hp; cases hp
    refine ⟨?_, ?_⟩
    · intro x hx; cases hx; exact copyInto_length _ _
    · intro x hx; cases hx; exact copyInto_length _ _

/-! ### Adding and importing -/

/-- What AddKey does, for any store. -/
theorem addKey_true {s s' : KeyStore} {label peer : Bytes} {md : Option (Map Bytes)} {t1 t2 : BitVec 64} {b : Bool}
    (h : s.addKey C label peer md t1 t2 = .ok (s', b)) :
    (b = false ∧ s' = s) ∨ (b = true ∧ ∃ m sig k, s.validQuick = true ∧ s.keys = some m ∧ s.has label = false ∧
      s.locked = false ∧ peer.length = 64 ∧ s.privateKey = some k ∧
      Model.Public.sign C (some k) (peer ++ s.pubBytes ++ be 8 t1.toNat) = .ok (some sig) ∧
      verify C k.pub (peer ++ s.pubBytes ++ be 8 t1.toNat) sig = .ok true ∧
      s' = { s with keys := some (m.set label (some {
        label := label, version := 0, timestamp := t2, keys := some peer, keySignature := sig
        keySigner := s.pubBytes, signatureTime := t1, metadata := some (md.getD Map.empty) })) }) := by
  unfold KeyStore.addKey at h
  split at h
  · cases h; exact .inl ⟨rfl, rfl⟩
  rename_i hq
  have hq : s.validQuick = true := by simpa using hq
  split at h
  · cases h; exact .inl ⟨rfl, rfl⟩
  rename_i hh
  have hh : s.has label = false := by simpa using hh
  split at h
  · cases h; exact .inl ⟨rfl, rfl⟩
  rename_i hl
  have hl : s.locked = false := by simpa using hl
  split at h
  · cases h; exact .inl ⟨rfl, rfl⟩
  rename_i hu
  obtain ⟨p, hu⟩ : ∃ p, unmarshalPublic peer = some p := by
    cases hx : unmarshalPublic peer with
    | none => simp [hx] at hu
    | some p => exact ⟨p, rfl⟩
  simp only [VerifiedKey.signatureData, Res.bind_eq_ok] at h
  obtain ⟨o, ho, h⟩ := h
  cases o with
  | none => simp at h; exact .inl ⟨h.2, h.1.symm⟩
  | some sig =>
    simp only [Res.bind_eq_ok] at h
    obtain ⟨k, hk, c, hc, h⟩ := h
    have hk : s.privateKey = some k := by
      cases hx : s.privateKey with
      | none => simp [hx, deref] at hk
      | some k' => simp [hx, deref] at hk; rw [hk]
    cases c with
    | false => simp at h; exact .inl ⟨h.2, h.1.symm⟩
    | true =>
      simp only [Bool.not_true, Bool.false_eq_true, if_false] at h
      obtain ⟨-, -, m, hm⟩ := (quick_iff _).mp hq
      rw [hm] at h
      simp at h
      exact .inr ⟨h.2, m, sig, k, hq, hm, hh, hl, (unmarshalPublic_some hu).1, hk, hk ▸ ho, hc, h.1.symm⟩

/-- What ImportVerified does, for any store. -/
theorem import_true {A : Asn1} {s s' : KeyStore} {label blob : Bytes} {o1 o2 : List Bytes} {now : BitVec 64} {b : Bool}
    (h : s.importVerified C A label blob o1 o2 now = .ok (s', b)) :
    (b = false ∧ s' = s) ∨ (b = true ∧ ∃ m v sl pk, s.validQuick = true ∧ s.keys = some m ∧ s.has label = false ∧
      A.dec blob = some v ∧
      ((v.signer = s.pubBytes ∧ sl = self ∧ pk = s.pubBytes) ∨
       (v.signer ≠ s.pubBytes ∧ findLoop m v.signer o1 = .ok (some sl) ∧ ∃ r, m sl = some (some r) ∧ pk = r.keyBytes)) ∧
      sl ≠ [] ∧ (∃ x, s.verifyKeySignature C sl o2 = .ok (some x)) ∧ pk.length = 64 ∧ v.signature.length = 64 ∧
      C.verify (pk.drop 32) (v.pub ++ v.signer ++ be 8 v.timestamp.toNat) v.signature = true ∧
      s' = { s with keys := some (m.set label (some {
        label := label, version := 1, timestamp := now, keys := some v.pub, keySignature := v.signature
        keySigner := pk, signatureTime := v.timestamp, metadata := none })) }) := by
  unfold KeyStore.importVerified at h
  split at h
  · cases h; exact .inl ⟨rfl, rfl⟩
  rename_i hq
  simp only [Bool.or_eq_true, Bool.not_eq_true', not_or, Bool.not_eq_false, Bool.not_eq_true] at hq
  obtain ⟨hq, hh⟩ := hq
  obtain ⟨-, -, m, hm⟩ := (quick_iff _).mp hq
  cases hv : A.dec blob with
  | none => simp [hv] at h; exact .inl ⟨h.2, h.1.symm⟩
  | some v =>
  simp only [hv] at h
  have key : ∀ sl pub, (do
      if sl = [] ∨ pub = none then (Pure.pure (s, false) : Res (KeyStore × Bool))
      else do
        match ← s.verifyKeySignature C sl o2 with
        | none => Pure.pure (s, false)
        | some _ =>
          match unmarshalPublic (pub.getD []) with
          | none => Pure.pure (s, false)
          | some pubkey => do
            if !(← Model.Public.verify C (some pubkey) v.signatureData v.signature) then Pure.pure (s, false)
            else
              match s.keys with
              | none => .panic
              | some m =>
                let r : PublicKeyRecord := {
                  label := label, version := keyStoreVersion, timestamp := now, keys := some v.pub
                  keySignature := v.signature, keySigner := pub.getD []
                  signatureTime := v.timestamp, metadata := none }
                Pure.pure ({ s with keys := some (m.set label (some r)) }, true)) = Res.ok (s', b) →
      (b = false ∧ s' = s) ∨ (b = true ∧ sl ≠ [] ∧ (∃ x, s.verifyKeySignature C sl o2 = .ok (some x)) ∧
        (pub.getD []).length = 64 ∧ v.signature.length = 64 ∧
        C.verify ((pub.getD []).drop 32) (v.pub ++ v.signer ++ be 8 v.timestamp.toNat) v.signature = true ∧
        s' = { s with keys := some (m.set label (some {
          label := label, version := 1, timestamp := now, keys := some v.pub, keySignature := v.signature
          keySigner := pub.getD [], signatureTime := v.timestamp, metadata := none })) }) := by
    intro sl pub h
    split at h
    · simp at h; exact .inl ⟨h.2, h.1.symm⟩
    rename_i hne
    simp only [not_or] at hne
    simp only [Res.bind_eq_ok] at h
    obtain ⟨o, ho, h⟩ := h
    cases o with
    | none => simp at h; exact .inl ⟨h.2, h.1.symm⟩
    | some x =>
      cases hu : unmarshalPublic (pub.getD []) with
      | none => simp [hu] at h; exact .inl ⟨h.2, h.1.symm⟩
      | some p =>
        obtain ⟨e1, e2⟩ := unmarshalPublic_some hu
        simp only [hu, e2, verify_mk, VerifiedKey.signatureData, Res.ok_bind, hm] at h
        by_cases hs : v.signature.length = 64
        · rw [if_pos hs] at h
          generalize hc : C.verify ((pub.getD []).drop 32) (v.pub ++ v.signer ++ be 8 v.timestamp.toNat) v.signature = c at h
          cases c with
          | false => simp at h; exact .inl ⟨h.2, h.1.symm⟩
          | true => simp at h; exact .inr ⟨h.2, hne.1, ⟨x, ho⟩, e1, hs, rfl, h.1.symm⟩
        · simp [hs] at h; exact .inl ⟨h.2, h.1.symm⟩
  by_cases hk : v.signer = s.pubBytes
  · simp only [hk, if_true, Res.pure_eq, Res.ok_bind] at h
    rcases key self s.publicKey h with h | ⟨h1, h2, h3, h4, h5, h6, h7⟩
    · exact .inl h
    · exact .inr ⟨h1, m, v, self, s.pubBytes, hq, hm, hh, rfl, .inl ⟨hk, rfl, rfl⟩, h2, h3, h4, h5, h6, h7⟩
  · simp only [hk, if_false] at h
    have hfp : s.findPublic v.signer o1 = findLoop m v.signer o1 := by
      unfold KeyFields.findPublic; rw [if_neg hk, hm]; rfl
    rw [hfp] at h
    cases hf : findLoop m v.signer o1 with
    | panic => simp [hf] at h
    | ok o =>
      cases o with
      | none => simp [hf] at h; exact .inl ⟨h.2, h.1.symm⟩
      | some sl =>
        simp only [hf, Res.ok_bind] at h
        cases hg : s.get sl with
        | none => simp [hg, deref] at h
        | some r =>
          simp only [hg, deref, Res.ok_bind, Res.pure_eq] at h
          rcases key sl r.keys h with h | ⟨h1, h2, h3, h4, h5, h6, h7⟩
          · exact .inl h
          · exact .inr ⟨h1, m, v, sl, r.keyBytes, hq, hm, hh, rfl,
              .inr ⟨hk, hf, r, (get_some hm).mp hg, rfl⟩, h2, h3, h4, h5, h6, h7⟩

end Verif.Proofs.KeyStore
