import Verif.Go.Map
import Verif.Go.Utf8
import Verif.Model.Secret
/-!
Model of common/store/secretstore.go at the level of values (who shares memory with whom is
the subject of Model/SecretHeap). A nil and an empty byte slice are told apart only for the
passphrase, where the code looks at the difference.
-/

namespace Verif.Model.SecretStore
open Verif.Go Verif.Model.Util

variable (C : Crypto)

/-- `SecretStoreVersion` (common/store/secretstore.go:13). -/
abbrev storeVersion : BitVec 64 := 1
/-- `saltSize` (common/store/secretstore.go:15). -/
abbrev saltSize : Nat := 32

/-- `SecretRecord` (common/store/secretstore.go:21-35). Timestamps are int64; the metadata map
may be nil. -/
structure SecretRecord where
  label : Bytes
  timestamp : BitVec 64
  secret : Bytes
  metadata : Option (Map Bytes)

/-- The exported fields of `SecretStore` (common/store/secretstore.go:55-66), which are what
encoding/json sees. Records are pointers and can be nil, and so can the map. -/
structure Fields where
  version : BitVec 64
  timestamp : BitVec 64
  store : Option (Map (Option SecretRecord))

/-- `SecretStore` (common/store/secretstore.go:55-69). -/
structure SecretStore extends Fields where
  passphrase : Option Bytes

/-- `SecretRecord.Zero` (common/store/secretstore.go:40-49). -/
def SecretRecord.zero (r : SecretRecord) : SecretRecord :=
  { r with
    secret := Util.zero r.secret
    metadata := r.metadata.map (fun m k => (m k).map Util.zero) }

/-- `SecretStore.Zero` (common/store/secretstore.go:72-77). -/
def SecretStore.zero (s : SecretStore) : SecretStore :=
  { s with
    store := s.store.map (fun m k => (m k).map (Option.map SecretRecord.zero))
    passphrase := s.passphrase.map Util.zero }

/-- `SecretStore.Valid` (common/store/secretstore.go:81-99). -/
def SecretStore.valid (s : SecretStore) : Bool :=
  if storeVersion ≠ s.version then false
  else if s.timestamp = 0 then false
  else if s.store.isNone then false
  else if s.passphrase.isNone then false
  else true

/-- `NewSecretStore` (common/store/secretstore.go:102-111). `make` never returns nil. -/
def newSecretStore (passphrase : Bytes) (now : BitVec 64) : SecretStore :=
  { version := storeVersion, timestamp := now, store := some Map.empty, passphrase := some passphrase }

/-- `SecretStore.Has` (common/store/secretstore.go:114-117); reading a nil map finds nothing. -/
def SecretStore.has (s : SecretStore) (name : Bytes) : Bool :=
  match s.store with
  | none => false
  | some m => m.has name

/-- `SecretStore.AddRecord` (common/store/secretstore.go:122-142). The local copy of the
metadata is never used. -/
def SecretStore.addRecord (s : SecretStore) (name secret : Bytes) (md : Option (Map Bytes))
    (now : BitVec 64) : SecretStore × Bool :=
  if !s.valid then (s, false)
  else if !s.has name then
    match s.store with
    | none => (s, false) -- not reached: the store is valid
    | some m =>
      let r : SecretRecord := { label := name, secret := secret, metadata := md, timestamp := now }
      ({ s with store := some (m.set name (some r)) }, true)
  else (s, false)

/-- `SecretStore.UpdateSecret` (common/store/secretstore.go:145-153). A nil record is
dereferenced. -/
def SecretStore.updateSecret (s : SecretStore) (name secret : Bytes) (now : BitVec 64) :
    Res (SecretStore × Bool) :=
  if !s.has name then .ok (s, false)
  else match s.store with
    | none => .ok (s, false) -- not reached: the name was found
    | some m =>
      match m name with
      | some (some r) =>
        .ok ({ s with store := some (m.set name (some { r with secret := secret, timestamp := now })) }, true)
      | _ => .panic

/-- `delete(s.Store, name)`, as in cmd/secrets/secrets.go:292. -/
def SecretStore.delete (s : SecretStore) (name : Bytes) : SecretStore :=
  { s with store := s.store.map (fun m => m.erase name) }

/-- `SecretRecord.Merge` (common/store/secretstore.go:157-163). Both pointers are dereferenced.
The comparison is between int64 values. -/
def mergeRecord (r other : Option SecretRecord) : Res (Option SecretRecord × Bool) :=
  match r, other with
  | some a, some b => if b.timestamp.toInt ≤ a.timestamp.toInt then .ok (some a, false) else .ok (some b, true)
  | _, _ => .panic

/-- One turn of the loop of `SecretStore.Merge` (common/store/secretstore.go:170-182).
`m` is `s.Store`, which may be nil; assigning to a nil map panics. -/
def mergeStep (other : Map (Option SecretRecord))
    (st : Option (Map (Option SecretRecord)) × List Bytes) (k : Bytes) :
    Res (Option (Map (Option SecretRecord)) × List Bytes) :=
  match other k with
  | none => .ok st -- not reached: `k` is a key of `other`
  | some v =>
    match st.1 with
    | none => .panic
    | some m => do
      let (new, merged) ← match m k with
        | none => pure (v, true)
        | some r => mergeRecord r v
      let m := m.set k new
      if merged then
        match new with
        | none => .panic
        | some r => pure (some m, st.2 ++ [r.label])
      else pure (some m, st.2)

/-- The loop over an order of the keys. -/
def mergeLoop (other : Map (Option SecretRecord)) :
    Option (Map (Option SecretRecord)) × List Bytes → List Bytes →
      Res (Option (Map (Option SecretRecord)) × List Bytes)
  | st, [] => .ok st
  | st, k :: ks => do
    let st ← mergeStep other st k
    mergeLoop other st ks

/-- `SecretStore.Merge` (common/store/secretstore.go:168-185); `order` is the order in which
the runtime iterates over `other.Store`. -/
def SecretStore.merge (s other : SecretStore) (order : List Bytes) (now : BitVec 64) :
    Res (SecretStore × List Bytes) := do
  let (m, list) ← mergeLoop (other.store.getD Map.empty) (s.store, []) order
  pure ({ s with store := m, timestamp := now }, list)

/-- `SecretStore.ChangePassword` (common/store/secretstore.go:257-261). -/
def SecretStore.changePassword (s : SecretStore) (newPass : Bytes) : SecretStore :=
  { s with passphrase := some newPass }

/-! ### JSON -/

/-- Every iterated map is finite. -/
def Fields.Finite (f : Fields) : Prop :=
  ∀ m, f.store = some m → m.Finite ∧
    ∀ k r md, m k = some (some r) → r.metadata = some md → md.Finite

/-- `sanitise` does not identify two keys of the map. -/
def KeysApart {V : Type} (m : Map V) : Prop :=
  ∀ k k', m k ≠ none → m k' ≠ none → sanitise k = sanitise k' → k = k'

/-- No two labels collide in JSON. -/
def Fields.KeysApart (f : Fields) : Prop :=
  ∀ m, f.store = some m → SecretStore.KeysApart m ∧
    ∀ k r md, m k = some (some r) → r.metadata = some md → SecretStore.KeysApart md

/-- `m'` is `m` after a trip through JSON: keys sanitised, values related by `R`. encoding/json
writes the entries sorted by key, and when keys collide the reader keeps the last. -/
def MapSan {V : Type} (R : V → V → Prop) (m m' : Map V) : Prop :=
  (∀ k v, m k = some v → (∀ k2, m k2 ≠ none → sanitise k2 = sanitise k → ¬ k < k2) →
    ∃ v', m' (sanitise k) = some v' ∧ R v v') ∧
  (∀ k', m' k' ≠ none → ∃ k, m k ≠ none ∧ sanitise k = k')

theorem MapSan.get {V : Type} {R : V → V → Prop} {m m' : Map V} (h : MapSan R m m') (hk : KeysApart m)
    {k : Bytes} {v : V} (hm : m k = some v) : ∃ v', m' (sanitise k) = some v' ∧ R v v' :=
  h.1 k v hm (fun k2 h1 h2 => by
    rw [hk k2 k h1 (by simp [hm]) h2]
    exact List.lt_irrefl k)

/-- Lift a relation to values that may be nil. -/
def OptRel {V : Type} (R : V → V → Prop) : Option V → Option V → Prop
  | none, none => True
  | some a, some b => R a b
  | _, _ => False

/-- A record after a trip through JSON. -/
def RecordSan (r r' : SecretRecord) : Prop :=
  r'.label = sanitise r.label ∧ r'.timestamp = r.timestamp ∧ r'.secret = r.secret ∧
    OptRel (MapSan (· = ·)) r.metadata r'.metadata

/-- The fields after a trip through JSON. -/
def FieldsSan (f f' : Fields) : Prop :=
  f'.version = f.version ∧ f'.timestamp = f.timestamp ∧
    OptRel (MapSan (OptRel RecordSan)) f.store f'.store

/-- All strings are UTF-8. -/
def Fields.Utf8 (f : Fields) : Prop :=
  ∀ m, f.store = some m → ∀ k v, m k = some v → ValidUtf8 k ∧
    ∀ r, v = some r → ValidUtf8 r.label ∧ ∀ md j x, r.metadata = some md → md j = some x → ValidUtf8 j

/-- `json.Marshal` and `json.Unmarshal` for `SecretStore`, as a parameter. Marshalling these
types never fails. Byte slices travel as base64 and are exact, strings that are not UTF-8 are
altered (`sanitise`), nil pointers and maps become null and come back nil. -/
structure Json where
  enc : Fields → Bytes
  dec : Bytes → Option Fields
  dec_enc : ∀ f, f.Finite → ∃ f', dec (enc f) = some f' ∧ FieldsSan f f'
  /-- What is parsed is finite, and its strings are UTF-8, since the decoder replaces what is not. -/
  dec_finite : ∀ b f, dec b = some f → f.Finite
  dec_utf8 : ∀ b f, dec b = some f → f.Utf8

/-- In particular, what was marshalled parses. -/
theorem Json.dec_enc_any (J : Json) (f : Fields) (h : f.Finite) : ∃ f', J.dec (J.enc f) = some f' ∧
    f'.version = f.version ∧ f'.timestamp = f.timestamp ∧ f'.store.isSome = f.store.isSome := by
  obtain ⟨f', h1, h2, h3, h4⟩ := J.dec_enc f h
  refine ⟨f', h1, h2, h3, ?_⟩
  cases hs : f.store <;> cases hs' : f'.store <;> simp [hs, hs', OptRel] at h4 ⊢

/-! ### Files -/

variable (J : Json)

/-- `MarshalSecretStore` (common/store/secretstore.go:189-219): the output, what the store
then is, and the PRNG. The deferred `s.Zero()` is reached only on success. -/
def marshalSecretStore (s : SecretStore) (mode : Int) (rng : Rng) :
    Res (Option Bytes × SecretStore × Rng) :=
  if !s.valid then .ok (none, s, rng)
  else
    let out := J.enc s.toFields
    match randBytes rng saltSize with
    | (none, rng') => .ok (none, s, rng')
    | (some salt, rng') =>
      match Secret.deriveKeyStrength C (s.passphrase.getD []) salt mode with
      | none => .ok (none, s, rng')
      | some key => do
        match ← Secret.encrypt C (some key) out rng' with
        | (none, rng'') => pure (none, s, rng'')
        | (some enc, rng'') => pure (some (salt ++ enc), s.zero, rng'')

/-- `UnmarshalSecretStore` (common/store/secretstore.go:223-253). -/
def unmarshalSecretStore (b passphrase : Bytes) (mode : Int) : Res (Option SecretStore) :=
  if b.length < saltSize then .ok none
  else
    let salt := b.take saltSize
    let enc := b.drop saltSize
    match Secret.deriveKeyStrength C passphrase salt mode with
    | none => .ok none
    | some key => do
      match ← Secret.decrypt C (some key) enc with
      | none => pure none
      | some data =>
        match J.dec data with
        | none => pure none
        | some f => pure (some { toFields := f, passphrase := some passphrase })

end Verif.Model.SecretStore
