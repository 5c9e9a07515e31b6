import Verif.Proofs.SecretStore
import Verif.Proofs.ToyJson
/-! Properties C45-C52, C54, C55: the secret store (common/store/secretstore.go). -/

namespace Verif.Props.SecretStore
open Verif Verif.Go Verif.Model.Util Verif.Model.SecretStore Verif.Spec.SecretStore
open Verif.Proofs.SecretStore

variable (C : Crypto) (J : Json)

/-! ### Concrete stores used as examples -/

/-- A record. -/
def exRecord (name secret : Bytes) (t : BitVec 64) : SecretRecord :=
  { label := name, timestamp := t, secret := secret, metadata := some (Map.empty.set [117] [1, 2]) }

/-- A store with one record under the label "a". -/
def exStore (secret : Bytes) (t : BitVec 64) : SecretStore :=
  { version := 1, timestamp := 5, store := some (Map.empty.set [97] (some (exRecord [97] secret t))),
    passphrase := some [112, 119] }

theorem exMap_get {V : Type} {k q : Bytes} {v w : V} (h : (Map.empty.set k v : Map V) q = some w) :
    q = k ∧ w = v := by
  by_cases hq : q = k
  · subst hq; simp at h; exact ⟨rfl, h.symm⟩
  · rw [Map.set_other _ _ hq] at h; simp [Map.empty] at h

theorem exStore_valid (x : Bytes) (t : BitVec 64) : (exStore x t).valid = true := by
  rw [valid_iff]; exact ⟨rfl, by simp [exStore], ⟨_, rfl⟩, _, rfl⟩

theorem exStore_finite (x : Bytes) (t : BitVec 64) : (exStore x t).toFields.Finite := by
  intro m hm
  cases hm
  refine ⟨Map.finite_empty.set _ _, ?_⟩
  intro k r md hk hmd
  obtain ⟨-, h⟩ := exMap_get hk
  cases h
  cases hmd
  exact Map.finite_empty.set _ _

theorem exStore_clean (x : Bytes) (t : BitVec 64) : Clean (exStore x t).toFields := by
  intro m hm k v hk
  cases hm
  obtain ⟨rfl, rfl⟩ := exMap_get hk
  refine ⟨by decide, ?_⟩
  intro r hr
  cases hr
  refine ⟨show ValidUtf8 [97] by decide, ?_⟩
  intro md j y hmd hj
  cases hmd
  obtain ⟨rfl, -⟩ := exMap_get hj
  decide

theorem exStore_noNil (x : Bytes) (t : BitVec 64) : NoNil (exStore x t) := by
  intro m k hm hk
  cases hm
  obtain ⟨-, h⟩ := exMap_get hk
  cases h

theorem exStore_lookup (x : Bytes) (t : BitVec 64) :
    lookup (exStore x t) [97] = some (exRecord [97] x t) := rfl

/-! ### C45: round trip -/

/-- A saved store whose strings are UTF-8 opens again, with the same passphrase and mode, as
exactly the store that was saved. Missing from the property: labels that are not UTF-8. -/
theorem C45_roundtrip_partial (s s' : SecretStore) (p : Bytes) (mode : Int) (rng rng' : Rng) (out : Bytes)
    (hp : s.passphrase = some p) (hf : s.toFields.Finite) (hc : Clean s.toFields)
    (h : marshalSecretStore C J s mode rng = .ok (some out, s', rng')) :
    unmarshalSecretStore C J out p mode = .ok (some s) := by
  obtain ⟨-, -, q, hq, hfile⟩ := marshal_some C J h
  rw [hp] at hq
  cases hq
  obtain ⟨f, h1, h2⟩ := J.dec_enc s.toFields hf
  rw [fieldsSan_clean hc h2] at h1
  exact (unmarshal_iff C J out p mode s).mpr ⟨_, hfile, h1, hp⟩

/-- Whatever the labels, as long as no two of them collide in JSON, every record comes back under
its label with the ill-formed bytes replaced, with its secret and timestamp exact. -/
theorem C45_any_labels_partial (s s' : SecretStore) (p : Bytes) (mode : Int) (rng rng' : Rng) (out : Bytes)
    (hp : s.passphrase = some p) (hf : s.toFields.Finite) (hc : s.toFields.KeysApart)
    (h : marshalSecretStore C J s mode rng = .ok (some out, s', rng')) :
    ∃ t, unmarshalSecretStore C J out p mode = .ok (some t) ∧ t.passphrase = some p ∧
      t.version = s.version ∧ t.timestamp = s.timestamp ∧
      ∀ k r, lookup s k = some r → ∃ r', lookup t (sanitise k) = some r' ∧
        r'.secret = r.secret ∧ r'.timestamp = r.timestamp := by
  obtain ⟨-, -, q, hq, hfile⟩ := marshal_some C J h
  rw [hp] at hq
  cases hq
  obtain ⟨f, h1, h2, h3, h4⟩ := J.dec_enc s.toFields hf
  refine ⟨{ toFields := f, passphrase := some p }, (unmarshal_iff C J out p mode _).mpr ⟨_, hfile, h1, rfl⟩,
    rfl, h2, h3, ?_⟩
  intro k r hk
  cases hm : s.store with
  | none => simp [lookup, hm] at hk
  | some m =>
    rw [hm] at h4
    cases hm' : f.store with
    | none => rw [hm'] at h4; simp [OptRel] at h4
    | some m' =>
      rw [hm'] at h4
      simp only [OptRel] at h4
      rw [lookup_eq hm] at hk
      cases hmk : m k with
      | none => simp [hmk] at hk
      | some v =>
        obtain ⟨v', e1, e2⟩ := h4.get (hc m hm).1 hmk
        cases v with
        | none => simp [hmk] at hk
        | some r0 =>
          simp only [hmk, Option.join_some, Option.some.injEq] at hk
          subst hk
          cases v' with
          | none => simp [OptRel] at e2
          | some r' =>
            refine ⟨r', ?_, e2.2.2.1, e2.2.1⟩
            rw [lookup_eq (s := { toFields := f, passphrase := some p }) hm', e1]
            rfl

/-- Saving succeeds for every valid store, mode and long enough PRNG stream, so the round trip
is about something. -/
theorem C45_saves (s : SecretStore) (mode : Int) (rng : Rng) (hv : s.valid = true)
    (hm : mode = 0 ∨ mode = 1) (hr : 56 ≤ rng.length) :
    ∃ out, marshalSecretStore C J s mode rng = .ok (some out, s.zero, rng.drop 56) :=
  marshal_ok C J hv hm hr

example : ∃ out, marshalSecretStore Toy.crypto Proofs.ToyJson.json (exStore [1, 2, 3] 9) 0 (List.replicate 56 7) =
      .ok (some out, (exStore [1, 2, 3] 9).zero, []) ∧
    unmarshalSecretStore Toy.crypto Proofs.ToyJson.json out [112, 119] 0 = .ok (some (exStore [1, 2, 3] 9)) := by
  obtain ⟨out, h⟩ := C45_saves Toy.crypto Proofs.ToyJson.json (exStore [1, 2, 3] 9) 0 (List.replicate 56 7)
    (exStore_valid _ _) (Or.inl rfl) (by simp)
  exact ⟨out, by simpa using h, C45_roundtrip_partial Toy.crypto Proofs.ToyJson.json _ _ _ 0 _ _ _ rfl
    (exStore_finite _ _) (exStore_clean _ _) h⟩

/-- A store with a label that is not UTF-8. -/
def latin : SecretStore :=
  (((newSecretStore [112] 5).addRecord [0xFF] [1, 2, 3] none 6).1)

/-- With a label that is not UTF-8 the reopened store lacks the label. -/
theorem C45_violated (mode : Int) (hm : mode = 0 ∨ mode = 1) (rng : Rng) (hr : 56 ≤ rng.length) :
    latin.valid = true ∧ latin.has [0xFF] = true ∧
    ∃ out t, marshalSecretStore C J latin mode rng = .ok (some out, latin.zero, rng.drop 56) ∧
      unmarshalSecretStore C J out [112] mode = .ok (some t) ∧
      t.has [0xFF] = false ∧ t.has [0xEF, 0xBF, 0xBD] = true := by
  have hv : latin.valid = true := by rw [valid_iff]; exact ⟨rfl, by decide, ⟨_, rfl⟩, _, rfl⟩
  have hmap : latin.store = some (Map.empty.set [0xFF] (some ⟨[0xFF], 6, [1, 2, 3], none⟩)) := rfl
  refine ⟨hv, rfl, ?_⟩
  obtain ⟨out, h⟩ := marshal_ok C J hv hm hr
  obtain ⟨-, -, q, hq, hfile⟩ := marshal_some C J h
  cases hq
  have hf : latin.toFields.Finite := by
    intro m hm
    rw [hmap] at hm
    cases hm
    refine ⟨Map.finite_empty.set _ _, ?_⟩
    intro k r md hk hmd
    obtain ⟨-, h⟩ := exMap_get hk
    cases h
    cases hmd
  have ha : latin.toFields.KeysApart := by
    intro m hm
    rw [hmap] at hm
    cases hm
    constructor
    · intro k k' h1 h2 _
      cases e1 : (Map.empty.set [0xFF] (some ⟨[0xFF], 6, [1, 2, 3], none⟩) : Map (Option SecretRecord)) k with
      | none => exact absurd e1 h1
      | some => cases e2 : (Map.empty.set [0xFF] (some ⟨[0xFF], 6, [1, 2, 3], none⟩) : Map (Option SecretRecord)) k' with
        | none => exact absurd e2 h2
        | some => rw [(exMap_get e1).1, (exMap_get e2).1]
    · intro k r md hk hmd
      obtain ⟨-, h⟩ := exMap_get hk
      cases h
      cases hmd
  obtain ⟨f, h1, -, -, h4⟩ := J.dec_enc latin.toFields hf
  refine ⟨out, { toFields := f, passphrase := some [112] }, h,
    (unmarshal_iff C J out [112] mode _).mpr ⟨_, hfile, h1, rfl⟩, ?_⟩
  rw [hmap] at h4
  cases hm' : f.store with
  | none => rw [hm'] at h4; simp [OptRel] at h4
  | some m' =>
    rw [hm'] at h4
    simp only [OptRel] at h4
    have hs : sanitise [0xFF] = [0xEF, 0xBF, 0xBD] := by decide
    constructor
    · simp only [SecretStore.has, hm', Map.has]
      cases e : m' [0xFF] with
      | none => rfl
      | some v =>
        obtain ⟨k, e1, e2⟩ := h4.2 [0xFF] (by simp [e])
        cases e3 : (Map.empty.set [0xFF] (some ⟨[0xFF], 6, [1, 2, 3], none⟩) : Map (Option SecretRecord)) k with
        | none => exact absurd e3 e1
        | some =>
          rw [(exMap_get e3).1, hs] at e2
          exact absurd e2 (by decide)
    · simp only [SecretStore.has, hm', Map.has]
      obtain ⟨v', e1, -⟩ := h4.get (ha _ hmap).1 (Map.set_same _ _ _)
      rw [hs] at e1
      rw [e1]
      rfl

/-- A store with two labels that are not UTF-8. -/
def latin2 : SecretStore :=
  ((latin.addRecord [0xFE] [4, 5, 6] none 6).1)

/-- Two labels that are not UTF-8 become one label in the file, and a secret is lost. -/
theorem C45_collision_violated (mode : Int) (hm : mode = 0 ∨ mode = 1) (rng : Rng) (hr : 56 ≤ rng.length) :
    latin2.valid = true ∧ secretOf latin2 [0xFF] = some [1, 2, 3] ∧ secretOf latin2 [0xFE] = some [4, 5, 6] ∧
    ∃ out t, marshalSecretStore C J latin2 mode rng = .ok (some out, latin2.zero, rng.drop 56) ∧
      unmarshalSecretStore C J out [112] mode = .ok (some t) ∧ ∀ k, secretOf t k ≠ some [4, 5, 6] := by
  have hv : latin2.valid = true := by rw [valid_iff]; exact ⟨rfl, by decide, ⟨_, rfl⟩, _, rfl⟩
  have hmap : latin2.store = some ((Map.empty.set [0xFF] (some ⟨[0xFF], 6, [1, 2, 3], none⟩)).set [0xFE]
    (some ⟨[0xFE], 6, [4, 5, 6], none⟩)) := rfl
  refine ⟨hv, by decide, by decide, ?_⟩
  obtain ⟨out, h⟩ := marshal_ok C J hv hm hr
  obtain ⟨-, -, q, hq, hfile⟩ := marshal_some C J h
  cases hq
  have hget : ∀ k v, ((Map.empty.set [0xFF] (some ⟨[0xFF], 6, [1, 2, 3], none⟩)).set [0xFE]
      (some ⟨[0xFE], 6, [4, 5, 6], none⟩) : Map (Option SecretRecord)) k = some v →
      k = [0xFE] ∧ v = some ⟨[0xFE], 6, [4, 5, 6], none⟩ ∨ k = [0xFF] ∧ v = some ⟨[0xFF], 6, [1, 2, 3], none⟩ := by
    intro k v hk
    by_cases h1 : k = [0xFE]
    · subst h1
      simp only [Map.set_same, Option.some.injEq] at hk
      exact Or.inl ⟨rfl, hk.symm⟩
    · rw [Map.set_other _ _ h1] at hk
      exact Or.inr (exMap_get hk)
  have hf : latin2.toFields.Finite := by
    intro m hm
    rw [hmap] at hm
    cases hm
    refine ⟨(Map.finite_empty.set _ _).set _ _, ?_⟩
    intro k r md hk hmd
    rcases hget k _ hk with ⟨-, h⟩ | ⟨-, h⟩
    · cases h; cases hmd
    · cases h; cases hmd
  obtain ⟨f, h1, -, -, h4⟩ := J.dec_enc latin2.toFields hf
  refine ⟨out, { toFields := f, passphrase := some [112] }, h,
    (unmarshal_iff C J out [112] mode _).mpr ⟨_, hfile, h1, rfl⟩, ?_⟩
  rw [hmap] at h4
  cases hm' : f.store with
  | none => rw [hm'] at h4; simp [OptRel] at h4
  | some m' =>
    rw [hm'] at h4
    simp only [OptRel] at h4
    have s1 : sanitise [0xFF] = [0xEF, 0xBF, 0xBD] := by decide
    have s2 : sanitise [0xFE] = [0xEF, 0xBF, 0xBD] := by decide
    obtain ⟨v', e1, e2⟩ := h4.1 [0xFF] (some ⟨[0xFF], 6, [1, 2, 3], none⟩) rfl (by
      intro k2 hk2 _
      cases e : ((Map.empty.set [0xFF] (some ⟨[0xFF], 6, [1, 2, 3], none⟩)).set [0xFE]
          (some ⟨[0xFE], 6, [4, 5, 6], none⟩) : Map (Option SecretRecord)) k2 with
      | none => exact absurd e hk2
      | some v =>
        rcases hget k2 v e with ⟨rfl, -⟩ | ⟨rfl, -⟩
        · decide
        · decide)
    intro k hk
    rw [secretOf, lookup_eq (s := { toFields := f, passphrase := some [112] }) hm'] at hk
    cases e : m' k with
    | none => simp [e] at hk
    | some v =>
      have hk' : k = [0xEF, 0xBF, 0xBD] := by
        obtain ⟨k0, e3, e4⟩ := h4.2 k (by simp [e])
        cases e5 : ((Map.empty.set [0xFF] (some ⟨[0xFF], 6, [1, 2, 3], none⟩)).set [0xFE]
            (some ⟨[0xFE], 6, [4, 5, 6], none⟩) : Map (Option SecretRecord)) k0 with
        | none => exact absurd e5 e3
        | some v0 =>
          rcases hget k0 v0 e5 with ⟨rfl, -⟩ | ⟨rfl, -⟩
          · rw [← e4]; exact s2
          · rw [← e4]; exact s1
      rw [s1, ← hk', e] at e1
      cases e1
      cases v' with
      | none => simp [OptRel] at e2
      | some r =>
        simp only [OptRel] at e2
        simp only [e, Option.join, Option.bind, id, Option.map_some, Option.some.injEq] at hk
        have := e2.2.2.1
        rw [hk] at this
        exact absurd this (by decide)

/-! ### C46: wiping -/

/-- A successful save leaves only zero bytes where secrets, metadata values and the passphrase
were (labels, timestamps and lengths stay); a failed one leaves the store as it was. -/
theorem C46_wipes (s s' : SecretStore) (mode : Int) (rng rng' : Rng) (o : Option Bytes)
    (h : marshalSecretStore C J s mode rng = .ok (o, s', rng')) :
    (o = none → s' = s) ∧
    (o ≠ none →
      (∀ p, s'.passphrase = some p → AllZero p) ∧
      (∀ k r, lookup s' k = some r → AllZero r.secret ∧
        ∀ md j v, r.metadata = some md → md j = some v → AllZero v) ∧
      (∀ k, (lookup s' k).map (fun r => (r.label, r.timestamp, r.secret.length)) =
        (lookup s k).map (fun r => (r.label, r.timestamp, r.secret.length)))) := by
  constructor
  · rintro rfl
    cases hv : s.valid with
    | false => rw [marshal_invalid C J s mode rng hv] at h; cases h; rfl
    | true =>
      obtain ⟨-, -, -, p, hp⟩ := (valid_iff s).mp hv
      rw [marshal_eq C J s p mode rng hv hp] at h
      split at h
      · cases h; rfl
      split at h
      · cases h; rfl
      split at h
      · cases h; rfl
      · simp at h
  · intro ho
    cases o with
    | none => exact absurd rfl ho
    | some out =>
      obtain ⟨hv, rfl, p, hp, -⟩ := marshal_some C J h
      obtain ⟨-, -, ⟨m, hm⟩, -⟩ := (valid_iff s).mp hv
      have hzm : s.zero.store = some (fun k => (m k).map (Option.map SecretRecord.zero)) := by
        simp [SecretStore.zero, hm]
      have hl : ∀ k, lookup s.zero k = (lookup s k).map SecretRecord.zero := by
        intro k
        rw [lookup_eq hzm, lookup_eq hm]
        cases m k with
        | none => rfl
        | some v => cases v <;> rfl
      refine ⟨?_, ?_, ?_⟩
      · intro q hq
        simp only [SecretStore.zero, hp, Option.map_some, Option.some.injEq] at hq
        subst hq
        exact zero_allZero p
      · intro k r hr
        rw [hl] at hr
        obtain ⟨r0, -, rfl⟩ := Option.map_eq_some_iff.mp hr
        refine ⟨zero_allZero _, ?_⟩
        intro md j v hmd hj
        obtain ⟨md0, -, rfl⟩ := Option.map_eq_some_iff.mp hmd
        obtain ⟨v0, -, rfl⟩ := Option.map_eq_some_iff.mp hj
        exact zero_allZero v0
      · intro k
        rw [hl]
        cases lookup s k with
        | none => rfl
        | some r => simp [SecretRecord.zero, zero_eq]

example : ∃ out, marshalSecretStore Toy.crypto Proofs.ToyJson.json (exStore [1, 2, 3] 9) 1 (List.replicate 60 7) =
      .ok (some out, (exStore [1, 2, 3] 9).zero, List.replicate 4 7) ∧
    secretOf (exStore [1, 2, 3] 9).zero [97] = some [0, 0, 0] := by
  obtain ⟨out, h⟩ := C45_saves Toy.crypto Proofs.ToyJson.json (exStore [1, 2, 3] 9) 1 (List.replicate 60 7)
    (exStore_valid _ _) (Or.inr rfl) (by simp)
  exact ⟨out, by simpa using h, rfl⟩

/-! ### C47: saving again -/

/-- The store left by a save is still valid, and a second save succeeds: the second file opens
under the passphrase of zero bytes, with every secret zeroed. So saving twice loses everything. -/
theorem C47_violated (s s1 : SecretStore) (p : Bytes) (mode : Int) (rng rng1 : Rng) (out1 : Bytes)
    (hp : s.passphrase = some p) (hf : s.toFields.Finite) (hc : Clean s.toFields)
    (hm : mode = 0 ∨ mode = 1) (hr : 56 ≤ rng1.length)
    (h : marshalSecretStore C J s mode rng = .ok (some out1, s1, rng1)) :
    ∃ out2 t, marshalSecretStore C J s1 mode rng1 = .ok (some out2, s1.zero, rng1.drop 56) ∧
      unmarshalSecretStore C J out2 (List.replicate p.length 0) mode = .ok (some t) ∧
      ∀ k, secretOf t k = (secretOf s k).map (fun x => List.replicate x.length 0) := by
  obtain ⟨hv, rfl, -⟩ := marshal_some C J h
  obtain ⟨v1, v2, ⟨m, hm'⟩, -⟩ := (valid_iff s).mp hv
  have hpz : s.zero.passphrase = some (List.replicate p.length 0) := by
    simp [SecretStore.zero, hp, zero_eq]
  have hzm : s.zero.store = some (fun k => (m k).map (Option.map SecretRecord.zero)) := by
    simp [SecretStore.zero, hm']
  have hvz : s.zero.valid = true := (valid_iff _).mpr ⟨v1, v2, ⟨_, hzm⟩, _, hpz⟩
  obtain ⟨out2, h2⟩ := marshal_ok C J hvz hm hr
  have hfz : s.zero.toFields.Finite := by
    intro mz e
    rw [hzm] at e
    cases e
    obtain ⟨⟨keys, hk⟩, hmd⟩ := hf m hm'
    refine ⟨⟨keys, fun k h => hk k (fun e => h (by simp [e]))⟩, ?_⟩
    intro k r md hkr hrm
    obtain ⟨v, e1, e2⟩ := Option.map_eq_some_iff.mp hkr
    obtain ⟨r0, rfl, rfl⟩ := Option.map_eq_some_iff.mp e2
    obtain ⟨md0, e3, rfl⟩ := Option.map_eq_some_iff.mp hrm
    obtain ⟨keys, hk⟩ := hmd k r0 md0 e1 e3
    exact ⟨keys, fun k h => hk k (fun e => h (by simp [e]))⟩
  have hcz : Clean s.zero.toFields := by
    intro mz e k v hkv
    rw [hzm] at e
    cases e
    obtain ⟨v0, e1, rfl⟩ := Option.map_eq_some_iff.mp hkv
    obtain ⟨c1, c2⟩ := hc m hm' k v0 e1
    refine ⟨c1, ?_⟩
    intro r hr
    obtain ⟨r0, rfl, rfl⟩ := Option.map_eq_some_iff.mp hr
    obtain ⟨d1, d2⟩ := c2 r0 rfl
    refine ⟨d1, ?_⟩
    intro md j x hmd hj
    obtain ⟨md0, e3, rfl⟩ := Option.map_eq_some_iff.mp hmd
    obtain ⟨x0, e4, -⟩ := Option.map_eq_some_iff.mp hj
    exact d2 md0 j x0 e3 e4
  refine ⟨out2, s.zero, h2, C45_roundtrip_partial C J _ _ _ mode _ _ _ hpz hfz hcz h2, ?_⟩
  intro k
  unfold secretOf
  rw [lookup_eq hzm, lookup_eq hm']
  cases m k with
  | none => rfl
  | some v => cases v with
    | none => rfl
    | some r => simp [SecretRecord.zero, zero_eq]

/-- The witness is an ordinary store: after two saves its secret has become zeros. -/
example : ∃ out1 s1 rng1 out2 t,
    marshalSecretStore Toy.crypto Proofs.ToyJson.json (exStore [1, 2, 3] 9) 0 (List.replicate 112 7) =
      .ok (some out1, s1, rng1) ∧
    marshalSecretStore Toy.crypto Proofs.ToyJson.json s1 0 rng1 = .ok (some out2, s1.zero, []) ∧
    unmarshalSecretStore Toy.crypto Proofs.ToyJson.json out2 [0, 0] 0 = .ok (some t) ∧
    secretOf t [97] = some [0, 0, 0] := by
  obtain ⟨out1, h1⟩ := C45_saves Toy.crypto Proofs.ToyJson.json (exStore [1, 2, 3] 9) 0 (List.replicate 112 7)
    (exStore_valid _ _) (Or.inl rfl) (by simp)
  obtain ⟨out2, t, h2, h3, h4⟩ := C47_violated Toy.crypto Proofs.ToyJson.json _ _ [112, 119] 0 _ _ _ rfl
    (exStore_finite _ _) (exStore_clean _ _) (Or.inl rfl) (by simp) h1
  refine ⟨out1, _, _, out2, t, h1, by simpa using h2, h3, ?_⟩
  rw [h4]
  rfl

/-- What holds: a store that is opened again after each save can be saved any number of times. -/
theorem C47_reopened_partial (s s1 : SecretStore) (p : Bytes) (mode : Int) (rng rng1 : Rng) (out1 : Bytes)
    (hp : s.passphrase = some p) (hf : s.toFields.Finite) (hc : Clean s.toFields)
    (hm : mode = 0 ∨ mode = 1) (hr : 56 ≤ rng1.length)
    (h : marshalSecretStore C J s mode rng = .ok (some out1, s1, rng1)) :
    ∃ t out2, unmarshalSecretStore C J out1 p mode = .ok (some t) ∧
      marshalSecretStore C J t mode rng1 = .ok (some out2, t.zero, rng1.drop 56) ∧
      unmarshalSecretStore C J out2 p mode = .ok (some s) := by
  have h1 := C45_roundtrip_partial C J s s1 p mode rng rng1 out1 hp hf hc h
  obtain ⟨out2, h2⟩ := marshal_ok C J (marshal_some C J h).1 hm hr
  exact ⟨s, out2, h1, h2, C45_roundtrip_partial C J _ _ _ mode _ _ _ hp hf hc h2⟩

/-! ### C48: AddRecord -/

/-- AddRecord succeeds exactly on a valid store lacking the label; then the label holds the
given secret and metadata and nothing else changed. A failing call changes nothing. -/
theorem C48_addRecord (s : SecretStore) (name secret : Bytes) (md : Option (Map Bytes)) (now : BitVec 64) :
    ((s.addRecord name secret md now).2 = true ↔ s.valid = true ∧ s.has name = false) ∧
    ((s.addRecord name secret md now).2 = false → (s.addRecord name secret md now).1 = s) ∧
    ((s.addRecord name secret md now).2 = true →
      lookup (s.addRecord name secret md now).1 name = some ⟨name, now, secret, md⟩ ∧
      (∀ k, k ≠ name → lookup (s.addRecord name secret md now).1 k = lookup s k) ∧
      (s.addRecord name secret md now).1.passphrase = s.passphrase ∧
      (s.addRecord name secret md now).1.version = s.version ∧
      (s.addRecord name secret md now).1.valid = true) := by
  cases hv : s.valid with
  | false => simp [SecretStore.addRecord, hv]
  | true =>
    obtain ⟨v1, v2, ⟨m, hm⟩, p, hp⟩ := (valid_iff s).mp hv
    cases hh : s.has name with
    | true => simp [SecretStore.addRecord, hv, hh]
    | false =>
      have e : s.addRecord name secret md now =
          ({ s with store := some (m.set name (some ⟨name, now, secret, md⟩)) }, true) := by
        simp [SecretStore.addRecord, hv, hh, hm]
      rw [e]
      refine ⟨by simp, by simp, fun _ => ⟨?_, ?_, rfl, rfl, ?_⟩⟩
      · rw [lookup_eq rfl]; simp
      · intro k hk
        rw [lookup_eq rfl, lookup_eq hm, Map.set_other _ _ hk]
      · exact (valid_iff _).mpr ⟨v1, v2, ⟨_, rfl⟩, p, hp⟩

example : ((exStore [1] 9).addRecord [98] [5] none 10).2 = true ∧
    ((exStore [1] 9).addRecord [97] [5] none 10).2 = false := by
  constructor <;> rfl

/-! ### C49: UpdateSecret -/

/-- UpdateSecret on a store without nil records succeeds exactly when the label exists, and
then changes only that record's secret and timestamp. Missing from the property: stores with a
nil record. -/
theorem C49_updateSecret_partial (s : SecretStore) (hn : NoNil s) (name secret : Bytes) (now : BitVec 64) :
    ∃ s' b, s.updateSecret name secret now = .ok (s', b) ∧
      (b = true ↔ s.has name = true) ∧
      (b = false → s' = s) ∧
      (b = true → ∃ r, lookup s name = some r ∧
        lookup s' name = some ⟨r.label, now, secret, r.metadata⟩ ∧
        (∀ k, k ≠ name → lookup s' k = lookup s k) ∧
        s'.passphrase = s.passphrase ∧ s'.version = s.version ∧ s'.timestamp = s.timestamp) := by
  cases hh : s.has name with
  | false => exact ⟨s, false, by simp [SecretStore.updateSecret, hh], by simp, by simp, by simp⟩
  | true =>
    have hl := has_eq hn name
    rw [hh] at hl
    obtain ⟨r, hr⟩ := Option.isSome_iff_exists.mp hl.symm
    cases hm : s.store with
    | none => simp [SecretStore.has, hm] at hh
    | some m =>
      have hmn := noNil_get hn hm name
      rw [hr] at hmn
      refine ⟨{ s with store := some (m.set name (some ⟨r.label, now, secret, r.metadata⟩)) }, true,
        by simp [SecretStore.updateSecret, hh, hm, hmn], by simp, by simp, fun _ =>
        ⟨r, hr, ?_, ?_, rfl, rfl, rfl⟩⟩
      · rw [lookup_eq rfl]; simp
      · intro k hk
        rw [lookup_eq rfl, lookup_eq hm, Map.set_other _ _ hk]

example : ∃ s', (exStore [1] 9).updateSecret [97] [7, 7] 10 = .ok (s', true) ∧ secretOf s' [97] = some [7, 7] :=
  ⟨_, rfl, rfl⟩

/-- A store in which "a" maps to null. -/
def nullStore : SecretStore :=
  { version := 1, timestamp := 5, store := some (Map.empty.set [97] none), passphrase := some [112] }

theorem nullStore_clean : nullStore.toFields.Finite ∧ Clean nullStore.toFields ∧ nullStore.valid = true := by
  refine ⟨?_, ?_, ?_⟩
  · intro m hm
    cases hm
    refine ⟨Map.finite_empty.set _ _, ?_⟩
    intro k r md hk hmd
    obtain ⟨-, h⟩ := exMap_get hk
    cases h
  · intro m hm k v hk
    cases hm
    obtain ⟨rfl, rfl⟩ := exMap_get hk
    exact ⟨by decide, by rintro r ⟨⟩⟩
  · rw [valid_iff]; exact ⟨rfl, by decide, ⟨_, rfl⟩, _, rfl⟩

/-- A file in which a label maps to `null` opens as a valid store that has the label, and
updating it panics. -/
theorem C49_violated (mode : Int) (hm : mode = 0 ∨ mode = 1) (rng : Rng) (hr : 56 ≤ rng.length)
    (secret : Bytes) (now : BitVec 64) :
    ∃ out t, marshalSecretStore C J nullStore mode rng = .ok (some out, nullStore.zero, rng.drop 56) ∧
      unmarshalSecretStore C J out [112] mode = .ok (some t) ∧ t.valid = true ∧ t.has [97] = true ∧
      t.updateSecret [97] secret now = .panic := by
  obtain ⟨h1, h2, h3⟩ := nullStore_clean
  obtain ⟨out, h⟩ := marshal_ok C J h3 hm hr
  exact ⟨out, nullStore, h, C45_roundtrip_partial C J _ _ _ mode _ _ _ rfl h1 h2 h, h3, rfl, rfl⟩

/-! ### C50: a map -/

theorem run_spec (s : SecretStore) (hg : Good s) (m : Map Bytes) (hm : ∀ k, secretOf s k = m k) (op : Op) :
    ∃ s', op.run s = .ok (s', (op.spec m).2) ∧ Good s' ∧ ∀ k, secretOf s' k = (op.spec m).1 k := by
  obtain ⟨hv, hn⟩ := hg
  have hhas : ∀ k, s.has k = (m k).isSome := by
    intro k; rw [has_eq hn, ← hm k, secretOf, Option.isSome_map]
  have nn : ∀ (t : SecretStore) (q : Map (Option SecretRecord)) (name : Bytes) (r : SecretRecord),
      s.store = some q → t.store = some (q.set name (some r)) → NoNil t := by
    intro t q name r h1 h2 m' k h3 h4
    rw [h2] at h3
    cases h3
    by_cases hk : k = name
    · subst hk; simp at h4
    · rw [Map.set_other _ _ hk] at h4; exact hn q k h1 h4
  obtain ⟨v1, v2, ⟨q, hq⟩, p, hp⟩ := (valid_iff s).mp hv
  cases op with
  | add name secret md now =>
    obtain ⟨a1, a2, a3⟩ := C48_addRecord s name secret md now
    by_cases h : m name = none
    · have ht := a1.mpr ⟨hv, by rw [hhas, h]; rfl⟩
      obtain ⟨b1, b2, -, -, b5⟩ := a3 ht
      have e : s.addRecord name secret md now =
          ({ s with store := some (q.set name (some ⟨name, now, secret, md⟩)) }, true) := by
        simp [SecretStore.addRecord, hv, hhas, h, hq]
      refine ⟨(s.addRecord name secret md now).1, ?_, ⟨b5, ?_⟩, ?_⟩
      · simp only [Op.run, Op.spec, h, if_true, ← ht]
      · rw [e]; exact nn _ q name _ hq rfl
      · intro k
        simp only [Op.spec, h, if_true]
        by_cases hk : k = name
        · subst hk; simp [secretOf, b1]
        · rw [Map.set_other _ _ hk, ← hm k, secretOf, b2 k hk, secretOf]
    · have ht : (s.addRecord name secret md now).2 = false := by
        cases hb : (s.addRecord name secret md now).2 with
        | false => rfl
        | true =>
          have := (a1.mp hb).2
          rw [hhas] at this
          cases hmn : m name with
          | none => exact absurd hmn h
          | some => simp [hmn] at this
      refine ⟨s, ?_, ⟨hv, hn⟩, ?_⟩
      · simp only [Op.run, Op.spec, h, if_false]
        have : s.addRecord name secret md now = (s, false) := by
          exact Prod.ext (a2 ht) ht
        rw [this]
      · intro k; simp only [Op.spec, h, if_false]; exact hm k
  | update name secret now =>
    obtain ⟨s', b, h1, h2, h3, h4⟩ := C49_updateSecret_partial s hn name secret now
    by_cases h : m name = none
    · have hb : b = false := by
        cases b with
        | false => rfl
        | true => have := h2.mp rfl; rw [hhas, h] at this; simp at this
      subst hb
      cases h3 rfl
      exact ⟨s, by simp [Op.run, Op.spec, h, h1], ⟨hv, hn⟩, fun k => by simp [Op.spec, h, hm]⟩
    · have hb : b = true := by
        apply h2.mpr
        rw [hhas]
        cases hmn : m name with
        | none => exact absurd hmn h
        | some => rfl
      subst hb
      obtain ⟨r, c1, c2, c3, c4, c5, c6⟩ := h4 rfl
      have hs' : ∃ r', s'.store = some (q.set name (some r')) := by
        unfold SecretStore.updateSecret at h1
        rw [hhas] at h1
        cases hmn : m name with
        | none => exact absurd hmn h
        | some y =>
          have := noNil_get hn hq name
          rw [c1] at this
          simp only [hmn, hq, this, Option.map_some, Option.isSome_some, Bool.not_true, Bool.false_eq_true,
            if_false, Res.ok.injEq, Prod.mk.injEq, and_true] at h1
          rw [← h1]
          exact ⟨_, rfl⟩
      obtain ⟨r', hs'⟩ := hs'
      refine ⟨s', by simp [Op.run, Op.spec, h, h1], ⟨?_, nn _ q name r' hq hs'⟩, ?_⟩
      · exact (valid_iff s').mpr ⟨by rw [c5, v1], by rw [c6]; exact v2, ⟨_, hs'⟩, p, by rw [c4, hp]⟩
      · intro k
        simp only [Op.spec, h, if_false]
        by_cases hk : k = name
        · subst hk; simp [secretOf, c2]
        · rw [Map.set_other _ _ hk, ← hm k, secretOf, c3 k hk, secretOf]
  | delete name =>
    have hs' : (s.delete name).store = some (q.erase name) := by simp [SecretStore.delete, hq]
    refine ⟨s.delete name, rfl, ⟨(valid_iff _).mpr ⟨v1, v2, ⟨_, hs'⟩, p, hp⟩, ?_⟩, ?_⟩
    · intro m' k h3 h4
      rw [hs'] at h3
      cases h3
      by_cases hk : k = name
      · subst hk; simp at h4
      · rw [Map.erase_other _ hk] at h4; exact hn q k hq h4
    · intro k
      simp only [Op.spec]
      by_cases hk : k = name
      · subst hk; simp [secretOf, lookup_eq hs']
      · rw [Map.erase_other _ hk, ← hm k]
        unfold secretOf
        rw [lookup_eq hs', lookup_eq hq, Map.erase_other _ hk]

theorem runAll_spec (ops : List Op) (s : SecretStore) (hg : Good s) (m : Map Bytes)
    (hm : ∀ k, secretOf s k = m k) :
    ∃ s', runAll s ops = .ok (s', (specAll m ops).2) ∧ Good s' ∧ ∀ k, secretOf s' k = (specAll m ops).1 k := by
  induction ops generalizing s m with
  | nil => exact ⟨s, rfl, hg, hm⟩
  | cons op ops ih =>
    obtain ⟨s1, h1, h2, h3⟩ := run_spec s hg m hm op
    obtain ⟨s2, h4, h5, h6⟩ := ih s1 h2 _ h3
    exact ⟨s2, by simp [runAll, h1, h4, specAll], h5, h6⟩

/-- Whatever operations are run on a fresh store, nothing panics, every answer is the one a
finite map from labels to secrets gives, and at the end every label holds what the map holds. -/
theorem C50_map (p : Bytes) (t0 : BitVec 64) (ht : t0 ≠ 0) (ops : List Op) :
    ∃ s, runAll (newSecretStore p t0) ops = .ok (s, (specAll Map.empty ops).2) ∧
      (∀ k, secretOf s k = (specAll Map.empty ops).1 k) ∧
      (∀ k, s.has k = ((specAll Map.empty ops).1 k).isSome) ∧ s.valid = true := by
  have hg : Good (newSecretStore p t0) :=
    ⟨(valid_iff _).mpr ⟨rfl, ht, ⟨_, rfl⟩, p, rfl⟩, by intro m k hm hk; cases hm; simp [Map.empty] at hk⟩
  obtain ⟨s, h1, h2, h3⟩ := runAll_spec ops (newSecretStore p t0) hg Map.empty (fun _ => rfl)
  exact ⟨s, h1, h3, fun k => by rw [has_eq h2.2, ← h3 k, secretOf, Option.isSome_map], h2.1⟩

example : (specAll Map.empty [.add [1] [5] none 3, .add [1] [6] none 4, .update [1] [7] 5, .update [2] [8] 6,
    .delete [1], .add [1] [9] none 7]).2 = [true, false, true, false, true, true] := by decide

/-! ### C51: Merge -/

/-- After a merge of stores without nil records, each label holds the record with the larger
timestamp, the store's own on ties; nothing depends on the iteration order. Missing from the
property: stores with nil records, and the exact list when a record's label is not its key. -/
theorem C51_newest_partial (s o : SecretStore) (b : Map (Option SecretRecord)) (hs : Good s) (ho : NoNil o)
    (hb : o.store = some b) (order : List Bytes) (he : b.Enumerates order) (now : BitVec 64) :
    ∃ s' list, s.merge o order now = .ok (s', list) ∧ Good { s' with timestamp := s.timestamp } ∧
      s'.timestamp = now ∧ s'.passphrase = s.passphrase ∧ s'.version = s.version ∧
      (∀ k, s'.has k = (s.has k || o.has k)) ∧
      (∀ k, lookup s' k = match lookup s k, lookup o k with
        | none, r => r
        | r, none => r
        | some x, some y => if x.timestamp.toInt < y.timestamp.toInt then some y else some x) ∧
      (Labelled o → list.Nodup ∧ ∀ k, k ∈ list ↔ ∃ y, lookup o k = some y ∧
        ∀ x, lookup s k = some x → x.timestamp.toInt < y.timestamp.toInt) := by
  obtain ⟨hv, hn⟩ := hs
  obtain ⟨v1, v2, ⟨a, ha⟩, p, hp⟩ := (valid_iff s).mp hv
  have hspec := merge_spec ha hb hn ho he now
  have hstore : ∀ t : SecretStore, t.store = some (fun k => (newest (lookup s k) (lookup o k)).map some) →
      NoNil t ∧ ∀ k, lookup t k = newest (lookup s k) (lookup o k) := by
    intro t e
    refine ⟨?_, ?_⟩
    · intro m k hm hk
      rw [e] at hm
      cases hm
      cases h : newest (lookup s k) (lookup o k) <;> simp [h] at hk
    · intro k
      rw [lookup_eq e]
      cases newest (lookup s k) (lookup o k) <;> rfl
  have hl := (hstore { s with timestamp := now, store := some (fun k => (newest (lookup s k) (lookup o k)).map some) } rfl)
  refine ⟨_, _, hspec, ⟨(valid_iff _).mpr ⟨v1, v2, ⟨_, rfl⟩, p, hp⟩, (hstore _ rfl).1⟩, rfl, rfl, rfl, ?_, ?_, ?_⟩
  · intro k
    rw [has_eq hl.1, hl.2, has_eq hn, has_eq ho]
    cases lookup s k with
    | none => rfl
    | some x =>
      cases lookup o k with
      | none => rfl
      | some y => simp only [newest]; split <;> rfl
  · intro k
    rw [hl.2]
    cases lookup s k with
    | none => rfl
    | some x =>
      cases lookup o k with
      | none => rfl
      | some y =>
        simp only [newest]
        by_cases h : y.timestamp.toInt ≤ x.timestamp.toInt
        · rw [if_pos h, if_neg (by omega)]
        · rw [if_neg h, if_pos (by omega)]
  · intro hlab
    have hf : ∀ k z, (lookup o k).bind (fun rb =>
        match lookup s k with
        | none => some rb.label
        | some ra => if rb.timestamp.toInt ≤ ra.timestamp.toInt then none else some rb.label) = some z →
        z = k ∧ ∃ y, lookup o k = some y ∧
          ∀ x, lookup s k = some x → x.timestamp.toInt < y.timestamp.toInt := by
      intro k z hz
      obtain ⟨y, hy, hz⟩ := Option.bind_eq_some_iff.mp hz
      cases hx : lookup s k with
      | none =>
        rw [hx] at hz
        cases hz
        exact ⟨hlab k y hy, y, hy, by simp⟩
      | some x =>
        rw [hx] at hz
        simp only at hz
        split at hz
        · simp at hz
        · cases hz
          rename_i h
          exact ⟨hlab k y hy, y, hy, by rintro _ ⟨⟩; omega⟩
    constructor
    · exact nodup_filterMap he.1 (fun k z hz => (hf k z hz).1)
    · intro k
      unfold taken
      rw [List.mem_filterMap]
      constructor
      · rintro ⟨q, -, hq⟩
        obtain ⟨rfl, h⟩ := hf q k hq
        exact h
      · rintro ⟨y, hy, h⟩
        refine ⟨k, (he.2 k).mpr ?_, ?_⟩
        · have := noNil_get ho hb k
          rw [hy] at this
          simp [this]
        · rw [hy]
          simp only [Option.bind_some]
          cases hx : lookup s k with
          | none => simp [hlab k y hy]
          | some x =>
            have := h x hx
            simp only
            rw [if_neg (by omega), hlab k y hy]

/-- The iteration order is irrelevant: same store, and the list permuted. -/
theorem C51_order (s o : SecretStore) (b : Map (Option SecretRecord)) (hs : Good s) (ho : NoNil o)
    (hb : o.store = some b) (o1 o2 : List Bytes) (h1 : b.Enumerates o1) (h2 : b.Enumerates o2) (now : BitVec 64) :
    ∃ s' l1 l2, s.merge o o1 now = .ok (s', l1) ∧ s.merge o o2 now = .ok (s', l2) ∧ l1.Perm l2 := by
  obtain ⟨-, -, ⟨a, ha⟩, -⟩ := (valid_iff s).mp hs.1
  refine ⟨_, _, _, merge_spec ha hb hs.2 ho h1 now, merge_spec ha hb hs.2 ho h2 now, ?_⟩
  exact List.Perm.filterMap _ ((List.perm_ext_iff_of_nodup h1.1 h2.1).mpr (fun k => by rw [h1.2, h2.2]))

theorem exEnumerates {V : Type} (k : Bytes) (v : V) : (Map.empty.set k v : Map V).Enumerates [k] := by
  refine ⟨by simp, fun q => ?_⟩
  rw [List.mem_singleton]
  constructor
  · rintro rfl; simp
  · intro h
    by_cases hq : q = k
    · exact hq
    · rw [Map.set_other _ _ hq] at h; exact absurd rfl h

/-- A newer record replaces, an older one does not. -/
example : (∃ s', (exStore [1] 9).merge (exStore [2] 10) [[97]] 11 = .ok (s', [[97]]) ∧ secretOf s' [97] = some [2]) ∧
    (∃ s', (exStore [2] 10).merge (exStore [1] 9) [[97]] 11 = .ok (s', []) ∧ secretOf s' [97] = some [2]) := by
  obtain ⟨h1, h2⟩ : Good (exStore [1] 9) ∧ Good (exStore [2] 10) :=
    ⟨⟨exStore_valid _ _, exStore_noNil _ _⟩, ⟨exStore_valid _ _, exStore_noNil _ _⟩⟩
  constructor
  · refine ⟨_, merge_spec rfl rfl h1.2 h2.2 (exEnumerates _ _) 11, ?_⟩
    decide
  · refine ⟨_, merge_spec rfl rfl h2.2 h1.2 (exEnumerates _ _) 11, ?_⟩
    decide

/-- A record stored under "a" with an empty label, as the interactive tool leaves them. -/
def unlabelled : SecretStore :=
  { version := 1, timestamp := 5, passphrase := some [112],
    store := some (Map.empty.set [97] (some ⟨[], 9, [1], none⟩)) }

/-- The list names the label inside the record, not the one it is stored under. -/
theorem C51_list_violated (p : Bytes) (t0 now : BitVec 64) :
    ∃ s', (newSecretStore p t0).merge unlabelled [[97]] now = .ok (s', [[]]) ∧
      s'.has [97] = true ∧ s'.has [] = false := ⟨_, rfl, rfl, rfl⟩

/-- A nil record in the other store makes Merge panic. -/
theorem C51_null_violated (p : Bytes) (t0 now : BitVec 64) :
    (newSecretStore p t0).merge nullStore [[97]] now = .panic := rfl

/-! ### C52: laws -/

theorem lookup_merge {s o s' : SecretStore} {b : Map (Option SecretRecord)} {order list : List Bytes}
    {now : BitVec 64} (hs : ∃ a, s.store = some a) (ns : NoNil s) (ho : NoNil o) (hb : o.store = some b)
    (he : b.Enumerates order) (h : s.merge o order now = .ok (s', list)) :
    s'.store = some (fun k => (newest (lookup s k) (lookup o k)).map some) ∧ NoNil s' ∧
      ∀ k, lookup s' k = newest (lookup s k) (lookup o k) := by
  obtain ⟨a, ha⟩ := hs
  rw [merge_spec ha hb ns ho he now] at h
  simp only [Res.ok.injEq, Prod.mk.injEq] at h
  obtain ⟨rfl, -⟩ := h
  refine ⟨rfl, ?_, ?_⟩
  · intro m k hm hk
    simp only [Option.some.injEq] at hm
    subst hm
    cases h : newest (lookup s k) (lookup o k) <;> simp [h] at hk
  · intro k
    rw [lookup_eq rfl]
    cases newest (lookup s k) (lookup o k) <;> rfl

/-- Merging a store into itself, or into a copy of itself, changes no record. -/
theorem C52_idempotent (s s' : SecretStore) (m : Map (Option SecretRecord)) (hm : s.store = some m) (ns : NoNil s)
    (order list : List Bytes) (he : m.Enumerates order) (now : BitVec 64)
    (h : s.merge s order now = .ok (s', list)) : s'.store = s.store ∧ list = [] := by
  constructor
  · rw [(lookup_merge ⟨m, hm⟩ ns ns hm he h).1, hm]
    congr 1
    funext k
    rw [newest_self, noNil_get ns hm]
  · rw [merge_spec hm hm ns ns he now] at h
    simp only [Res.ok.injEq, Prod.mk.injEq] at h
    rw [← h.2, taken]
    apply List.eq_nil_iff_forall_not_mem.mpr
    intro x hx
    obtain ⟨k, -, hk⟩ := List.mem_filterMap.mp hx
    cases hl : lookup s k with
    | none => simp [hl] at hk
    | some r => simp [hl] at hk

/-- Merging `b` then `c` is merging the merge of `b` and `c`. -/
theorem C52_associative (a b c ab abc bc abc' : SecretStore) (ma mb mc mbc : Map (Option SecretRecord))
    (ha : a.store = some ma) (hb : b.store = some mb) (hc : c.store = some mc) (hbc : bc.store = some mbc)
    (na : NoNil a) (nb : NoNil b) (nc : NoNil c) (o1 o2 o3 o4 l1 l2 l3 l4 : List Bytes) (t1 t2 t3 t4 : BitVec 64)
    (e1 : mb.Enumerates o1) (e2 : mc.Enumerates o2) (e3 : mc.Enumerates o3) (e4 : mbc.Enumerates o4)
    (h1 : a.merge b o1 t1 = .ok (ab, l1)) (h2 : ab.merge c o2 t2 = .ok (abc, l2))
    (h3 : b.merge c o3 t3 = .ok (bc, l3)) (h4 : a.merge bc o4 t4 = .ok (abc', l4)) :
    abc.store = abc'.store := by
  obtain ⟨s1, n1, k1⟩ := lookup_merge ⟨_, ha⟩ na nb hb e1 h1
  obtain ⟨s2, n2, k2⟩ := lookup_merge ⟨_, s1⟩ n1 nc hc e2 h2
  obtain ⟨s3, n3, k3⟩ := lookup_merge ⟨_, hb⟩ nb nc hc e3 h3
  obtain ⟨s4, n4, k4⟩ := lookup_merge ⟨_, ha⟩ na n3 hbc e4 h4
  rw [s2, s4]
  congr 1
  funext k
  rw [k1, k3, newest_assoc]

/-- Merging either way round gives the same records when there are no ties. -/
theorem C52_commutative (a b ab ba : SecretStore) (ma mb : Map (Option SecretRecord))
    (ha : a.store = some ma) (hb : b.store = some mb) (na : NoNil a) (nb : NoNil b) (ht : NoTies a b)
    (o1 o2 l1 l2 : List Bytes) (t1 t2 : BitVec 64) (e1 : mb.Enumerates o1) (e2 : ma.Enumerates o2)
    (h1 : a.merge b o1 t1 = .ok (ab, l1)) (h2 : b.merge a o2 t2 = .ok (ba, l2)) : ab.store = ba.store := by
  rw [(lookup_merge ⟨_, ha⟩ na nb hb e1 h1).1, (lookup_merge ⟨_, hb⟩ nb na ha e2 h2).1]
  congr 1
  funext k
  rw [newest_comm (fun x y hx hy => ht k x y hx hy)]

/-- Without the condition it does not: each side keeps its own record on a tie. -/
theorem C52_ties_needed : ∃ ab ba, (exStore [1] 9).merge (exStore [2] 9) [[97]] 11 = .ok (ab, []) ∧
    (exStore [2] 9).merge (exStore [1] 9) [[97]] 11 = .ok (ba, []) ∧
    secretOf ab [97] = some [1] ∧ secretOf ba [97] = some [2] :=
  ⟨_, _, merge_spec rfl rfl (exStore_noNil _ _) (exStore_noNil _ _) (exEnumerates _ _) 11,
    merge_spec rfl rfl (exStore_noNil _ _) (exStore_noNil _ _) (exEnumerates _ _) 11, by decide, by decide⟩

theorem merges_lookup {s s' : SecretStore} {os : List SecretStore} (h : Merges s os s')
    (hs : ∃ a, s.store = some a) (ns : NoNil s) (no : ∀ o ∈ os, NoNil o) :
    (∃ a, s'.store = some a) ∧ NoNil s' ∧
      ∀ k, lookup s' k = (os.map (fun o => lookup o k)).foldl newest (lookup s k) := by
  induction h with
  | nil s => exact ⟨hs, ns, fun k => rfl⟩
  | cons h1 h2 h3 h4 ih =>
    obtain ⟨s1, n1, k1⟩ := lookup_merge hs ns (no _ List.mem_cons_self) h1 h2 h3
    obtain ⟨i1, i2, i3⟩ := ih ⟨_, s1⟩ n1 (fun o ho => no o (List.mem_cons_of_mem _ ho))
    exact ⟨i1, i2, fun k => by rw [i3, k1]; rfl⟩

/-- Folding `newest` over a permutation. -/
theorem newest_fold_perm {l l' : List (Option SecretRecord)} (hp : l.Perm l')
    (ht : ∀ a ∈ l, ∀ b ∈ l, ∀ x y, a = some x → b = some y → x.timestamp = y.timestamp → x = y) :
    l.foldr newest none = l'.foldr newest none := by
  induction hp with
  | nil => rfl
  | cons x _ ih =>
    simp only [List.foldr_cons]
    rw [ih (fun a ha b hb => ht a (List.mem_cons_of_mem _ ha) b (List.mem_cons_of_mem _ hb))]
  | swap x y l =>
    simp only [List.foldr_cons]
    rw [← newest_assoc, ← newest_assoc, newest_comm (ht y (by simp) x (by simp))]
  | trans h1 _ ih1 ih2 =>
    rw [ih1 ht, ih2 (fun a ha b hb => ht a (h1.mem_iff.mpr ha) b (h1.mem_iff.mpr hb))]

theorem newest_foldl (l : List (Option SecretRecord)) (a : Option SecretRecord) :
    l.foldl newest a = newest a (l.foldr newest none) := by
  induction l generalizing a with
  | nil => rw [List.foldl_nil, List.foldr_nil, newest_none_right]
  | cons x l ih => rw [List.foldl_cons, ih, List.foldr_cons, newest_assoc]

/-- Convergence: take any stores, no two of which have different records of one label with one
timestamp. Whichever store starts, and in whatever order the others are merged into it, the
records at the end are the same. -/
theorem C52_converge (s t s' t' : SecretStore) (os ps : List SecretStore)
    (hp : (s :: os).Perm (t :: ps)) (hn : ∀ x ∈ s :: os, NoNil x ∧ x.store.isSome = true)
    (ht : ∀ x ∈ s :: os, ∀ y ∈ s :: os, NoTies x y)
    (hs : Merges s os s') (hm : Merges t ps t') : s'.store = t'.store := by
  have hn' : ∀ x ∈ t :: ps, NoNil x ∧ x.store.isSome = true := fun x hx => hn x (hp.mem_iff.mpr hx)
  obtain ⟨⟨a, ha⟩, na, ka⟩ := merges_lookup hs (Option.isSome_iff_exists.mp (hn s List.mem_cons_self).2)
    (hn s List.mem_cons_self).1 (fun o ho => (hn o (List.mem_cons_of_mem _ ho)).1)
  obtain ⟨⟨b, hb⟩, nb, kb⟩ := merges_lookup hm (Option.isSome_iff_exists.mp (hn' t List.mem_cons_self).2)
    (hn' t List.mem_cons_self).1 (fun o ho => (hn' o (List.mem_cons_of_mem _ ho)).1)
  rw [ha, hb]
  congr 1
  funext k
  rw [noNil_get na ha, noNil_get nb hb, ka, kb, newest_foldl, newest_foldl]
  congr 1
  have := newest_fold_perm (hp.map (fun o => lookup o k)) (by
    intro u hu v hv x y hx hy
    obtain ⟨p, hp1, rfl⟩ := List.mem_map.mp hu
    obtain ⟨q, hq1, rfl⟩ := List.mem_map.mp hv
    exact ht p hp1 q hq1 k x y hx hy)
  simpa using this

/-- The hypotheses are met by three stores with different timestamps. -/
example (x y : SecretStore) (hx : Merges (exStore [1] 9) [exStore [2] 10, exStore [3] 11] x)
    (hy : Merges (exStore [2] 10) [exStore [3] 11, exStore [1] 9] y) : x.store = y.store := by
  have key : ∀ (u : Bytes) (i : BitVec 64) k r, lookup (exStore u i) k = some r → r = exRecord [97] u i := by
    intro u i k r h
    rw [lookup_eq (m := Map.empty.set [97] (some (exRecord [97] u i))) rfl] at h
    by_cases hk : k = [97]
    · subst hk; simp at h; exact h.symm
    · rw [Map.set_other _ _ hk] at h; simp [Map.empty] at h
  refine C52_converge _ _ x y _ _ ?_ ?_ ?_ hx hy
  · exact ((List.Perm.swap _ _ _).trans (List.Perm.cons _ (List.Perm.swap _ _ _)))
  · intro s hs
    simp only [List.mem_cons, List.not_mem_nil, or_false] at hs
    rcases hs with rfl | rfl | rfl <;> exact ⟨exStore_noNil _ _, rfl⟩
  · intro s hs t ht k a b ha hb hab
    simp only [List.mem_cons, List.not_mem_nil, or_false] at hs ht
    rcases hs with rfl | rfl | rfl <;> rcases ht with rfl | rfl | rfl <;>
      (cases key _ _ k a ha; cases key _ _ k b hb; first | rfl | (simp [exRecord] at hab))

/-! ### C54: ChangePassword -/

/-- After ChangePassword the saved store opens with the new passphrase; if its strings are UTF-8,
as the same store. -/
theorem C54_new_opens (s s' : SecretStore) (p : Bytes) (mode : Int) (rng rng' : Rng) (out : Bytes)
    (hf : s.toFields.Finite)
    (h : marshalSecretStore C J (s.changePassword p) mode rng = .ok (some out, s', rng')) :
    ∃ t, unmarshalSecretStore C J out p mode = .ok (some t) ∧ t.passphrase = some p ∧
      (Clean s.toFields → t.toFields = s.toFields) := by
  by_cases hc : Clean s.toFields
  · exact ⟨s.changePassword p, C45_roundtrip_partial C J (s.changePassword p) _ p mode _ _ _ rfl hf hc h, rfl,
      fun _ => rfl⟩
  · obtain ⟨-, -, q, hq, hfile⟩ := marshal_some C J h
    cases hq
    obtain ⟨f, h1, -⟩ := J.dec_enc_any _ hf
    exact ⟨{ toFields := f, passphrase := some p }, (unmarshal_iff C J out p mode _).mpr ⟨_, hfile, h1, rfl⟩,
      rfl, fun h => absurd h hc⟩

/-- It opens with another passphrase `q` only if the box made with the key of `p` is also a box
under the key of `q`, of something that parses as a store. -/
theorem C54_old_only_if (s s' : SecretStore) (p q : Bytes) (mode : Int) (rng rng' : Rng) (out : Bytes) (t : SecretStore)
    (h : marshalSecretStore C J (s.changePassword p) mode rng = .ok (some out, s', rng'))
    (hq : unmarshalSecretStore C J out q mode = .ok (some t)) :
    ∃ kp kq nonce, nonce.length = 24 ∧
      Model.Secret.deriveKeyStrength C p (out.take 32) mode = some kp ∧
      Model.Secret.deriveKeyStrength C q (out.take 32) mode = some kq ∧
      ∃ m, C.sealBox kp nonce (J.enc s.toFields) = C.sealBox kq nonce m ∧ J.dec m = some t.toFields := by
  obtain ⟨-, -, p', hp', salt, nonce, kp, l1, l2, hkp, rfl⟩ := marshal_some C J h
  cases hp'
  obtain ⟨data, ⟨salt', nonce', kq, l1', l2', hkq, e⟩, hd, -⟩ := (unmarshal_iff C J _ q mode t).mp hq
  obtain ⟨rfl, e2⟩ := List.append_inj e (by rw [l1, l1'])
  obtain ⟨rfl, e3⟩ := List.append_inj e2 (by rw [l2, l2'])
  refine ⟨kp, kq, nonce, l2, ?_, ?_, data, e3, hd⟩
  · rw [List.take_left' l1]; exact hkp
  · rw [List.take_left' l1]; exact hkq

/-- And if both passphrases give the same key, the old one does open it. -/
theorem C54_same_key (s s' : SecretStore) (p q : Bytes) (mode : Int) (rng rng' : Rng) (out : Bytes)
    (hf : s.toFields.Finite)
    (h : marshalSecretStore C J (s.changePassword p) mode rng = .ok (some out, s', rng'))
    (hk : Model.Secret.deriveKeyStrength C q (out.take 32) mode =
      Model.Secret.deriveKeyStrength C p (out.take 32) mode) :
    ∃ t, unmarshalSecretStore C J out q mode = .ok (some t) := by
  obtain ⟨-, -, p', hp', salt, nonce, kp, l1, l2, hkp, rfl⟩ := marshal_some C J h
  cases hp'
  rw [List.take_left' l1] at hk
  obtain ⟨f, h1, -⟩ := J.dec_enc_any s.toFields hf
  exact ⟨{ toFields := f, passphrase := some q }, (unmarshal_iff C J _ q mode _).mpr
    ⟨_, ⟨salt, nonce, kp, l1, l2, by rw [hk, hkp], rfl⟩, h1, rfl⟩⟩

example : ∃ out, marshalSecretStore Toy.crypto Proofs.ToyJson.json ((exStore [1, 2, 3] 9).changePassword [113]) 0
      (List.replicate 56 7) = .ok (some out, ((exStore [1, 2, 3] 9).changePassword [113]).zero, []) ∧
    ∃ t, unmarshalSecretStore Toy.crypto Proofs.ToyJson.json out [113] 0 = .ok (some t) ∧
      t.toFields = (exStore [1, 2, 3] 9).toFields := by
  obtain ⟨out, h⟩ := C45_saves Toy.crypto Proofs.ToyJson.json ((exStore [1, 2, 3] 9).changePassword [113]) 0
    (List.replicate 56 7) ((valid_iff _).mpr ⟨rfl, by simp [exStore, SecretStore.changePassword], ⟨_, rfl⟩, _, rfl⟩)
    (Or.inl rfl) (by simp)
  obtain ⟨t, h1, -, h2⟩ := C54_new_opens Toy.crypto Proofs.ToyJson.json (exStore [1, 2, 3] 9) _ [113] 0 _ _ _
    (exStore_finite _ _) h
  exact ⟨out, by simpa using h, t, h1, h2 (exStore_clean _ _)⟩

/-! ### C55: opened stores -/

/-- Fields no store function writes: another version and no map. -/
def oddFields : Fields := { version := 0, timestamp := 0, store := none }

/-- An authenticated file whose JSON lacks the fields opens "successfully" as an invalid store:
it cannot be saved, and merging anything into it panics. -/
theorem C55_violated (p salt nonce key : Bytes) (mode : Int) (hs : salt.length = 32) (hn : nonce.length = 24)
    (hk : Model.Secret.deriveKeyStrength C p salt mode = some key) :
    ∃ t, unmarshalSecretStore C J (salt ++ (nonce ++ C.sealBox key nonce (J.enc oddFields))) p mode = .ok (some t) ∧
      t.valid = false ∧ (∀ rng, marshalSecretStore C J t mode rng = .ok (none, t, rng)) ∧
      t.merge (exStore [1] 9) [[97]] 11 = .panic := by
  have hc : Clean oddFields := by intro m hm; cases hm
  obtain ⟨f, h1, h2⟩ := J.dec_enc oddFields (by intro m hm; cases hm)
  rw [fieldsSan_clean hc h2] at h1
  exact ⟨{ toFields := oddFields, passphrase := some p }, (unmarshal_iff C J _ p mode _).mpr
    ⟨_, ⟨salt, nonce, key, hs, hn, hk, rfl⟩, h1, rfl⟩, rfl, fun rng => marshal_invalid C J _ mode rng rfl, rfl⟩

/-- Opening is exact: it succeeds precisely on a salt followed by the box, under the key of
passphrase, salt and mode, of something that parses, and yields those fields and that
passphrase. It never panics. -/
theorem C55_opening_exact (b p : Bytes) (mode : Int) :
    unmarshalSecretStore C J b p mode ≠ .panic ∧
    ∀ s, unmarshalSecretStore C J b p mode = .ok (some s) ↔
      ∃ data, IsFile C b p mode data ∧ J.dec data = some s.toFields ∧ s.passphrase = some p :=
  ⟨unmarshal_no_panic C J b p mode, unmarshal_iff C J b p mode⟩

/-- What holds: files written by MarshalSecretStore from a valid store open as valid stores,
whatever their labels. -/
theorem C55_own_files_partial (s s' : SecretStore) (p : Bytes) (mode : Int) (rng rng' : Rng) (out : Bytes)
    (hp : s.passphrase = some p) (hf : s.toFields.Finite)
    (h : marshalSecretStore C J s mode rng = .ok (some out, s', rng')) :
    ∃ t, unmarshalSecretStore C J out p mode = .ok (some t) ∧ t.valid = true := by
  obtain ⟨hv, -, q, hq, hfile⟩ := marshal_some C J h
  rw [hp] at hq
  cases hq
  obtain ⟨f, h1, h2, h3, h4⟩ := J.dec_enc_any s.toFields hf
  obtain ⟨v1, v2, ⟨m, hm⟩, -⟩ := (valid_iff s).mp hv
  refine ⟨{ toFields := f, passphrase := some p }, (unmarshal_iff C J out p mode _).mpr ⟨_, hfile, h1, rfl⟩,
    (valid_iff _).mpr ⟨by rw [← v1]; exact h2, by rw [show f.timestamp = s.timestamp from h3]; exact v2, ?_, p, rfl⟩⟩
  rw [hm] at h4
  exact Option.isSome_iff_exists.mp h4

end Verif.Props.SecretStore
