import Verif.Model.SecretStore
/-!
Model of common/store/secretstore.go at the level of memory: which byte arrays, metadata maps
and records are shared. Buffers, metadata maps and records have addresses. A slice is a whole
buffer (the package never re-slices one). Each store owns its record map, as in the package,
which never copies a `SecretStore`.
-/

namespace Verif.Model.SecretHeap
open Verif.Go Verif.Model.SecretStore

/-- `SecretRecord` (common/store/secretstore.go:21-35) with addresses for the slice and map. -/
structure HRecord where
  label : Bytes
  timestamp : BitVec 64
  secret : Nat
  metadata : Option Nat

/-- Memory. `next` is above every record address in use; `nextBuf` above every buffer. -/
structure Heap where
  bufs : Nat → Bytes
  maps : Nat → Map Nat
  recs : Nat → HRecord
  next : Nat
  nextBuf : Nat

/-- `SecretStore` (common/store/secretstore.go:55-69) with addresses. -/
structure HStore where
  version : BitVec 64
  timestamp : BitVec 64
  store : Option (Map (Option Nat))
  passphrase : Option Nat

/-- `util.Zero` on a buffer (common/util/util.go:72-76). -/
def Heap.zeroBuf (h : Heap) (a : Nat) : Heap :=
  { h with bufs := fun q => if q = a then Util.zero (h.bufs a) else h.bufs q }

/-- `SecretRecord.Zero` (common/store/secretstore.go:40-49); `order m` is the iteration order of
the metadata map `m`. -/
def Heap.zeroRecord (h : Heap) (order : Nat → List Bytes) : Option Nat → Heap
  | none => h
  | some a =>
    let h' := h.zeroBuf (h.recs a).secret
    match (h.recs a).metadata with
    | none => h'
    | some m => (order m).foldl (fun h k => match h.maps m k with
      | none => h
      | some b => h.zeroBuf b) h'

/-- `SecretStore.Zero` (common/store/secretstore.go:72-77). -/
def Heap.zeroStore (h : Heap) (s : HStore) (keys : List Bytes) (order : Nat → List Bytes) : Heap :=
  let h := match s.store with
    | none => h
    | some m => keys.foldl (fun h k => match m k with
      | none => h
      | some r => h.zeroRecord order r) h
  match s.passphrase with
  | none => h
  | some p => h.zeroBuf p

/-- A fresh copy of a byte string: `make` and `copy`. -/
def Heap.alloc (h : Heap) (b : Bytes) : Heap × Nat :=
  ({ h with bufs := fun q => if q = h.nextBuf then b else h.bufs q, nextBuf := h.nextBuf + 1 }, h.nextBuf)

/-- `NewSecretStore` (common/store/secretstore.go:102-111); `p` is the caller's buffer. -/
def newHStore (h : Heap) (p : Nat) (now : BitVec 64) : Heap × HStore :=
  let (h, c) := h.alloc (h.bufs p)
  (h, { version := storeVersion, timestamp := now, store := some Map.empty, passphrase := some c })

/-- `SecretStore.ChangePassword` (common/store/secretstore.go:257-261). The old passphrase is
wiped first, then the new one is copied: passing the store's own buffer would copy zeros. -/
def HStore.changePassword (h : Heap) (s : HStore) (p : Nat) : Heap × HStore :=
  let h := match s.passphrase with
    | none => h
    | some a => h.zeroBuf a
  let (h, c) := h.alloc (h.bufs p)
  (h, { s with passphrase := some c })

/-- `SecretStore.Valid` (common/store/secretstore.go:81-99). -/
def HStore.valid (s : HStore) : Bool :=
  if storeVersion ≠ s.version then false
  else if s.timestamp = 0 then false
  else if s.store.isNone then false
  else if s.passphrase.isNone then false
  else true

/-- `SecretStore.AddRecord` (common/store/secretstore.go:122-142): the new record points to the
caller's secret and to the caller's map; the copy made at lines 128-131 is dropped. -/
def HStore.addRecord (h : Heap) (s : HStore) (name : Bytes) (secret : Nat) (md : Option Nat)
    (now : BitVec 64) : Heap × HStore × Bool :=
  if !s.valid then (h, s, false)
  else match s.store with
    | none => (h, s, false) -- not reached: the store is valid
    | some m =>
      if !m.has name then
        let r : HRecord := { label := name, timestamp := now, secret := secret, metadata := md }
        ({ h with recs := fun q => if q = h.next then r else h.recs q, next := h.next + 1 },
          { s with store := some (m.set name (some h.next)) }, true)
      else (h, s, false)

/-- `SecretStore.UpdateSecret` (common/store/secretstore.go:145-153): writes through the record
pointer. -/
def HStore.updateSecret (h : Heap) (s : HStore) (name : Bytes) (secret : Nat) (now : BitVec 64) :
    Res (Heap × Bool) :=
  match s.store with
  | none => .ok (h, false)
  | some m => match m name with
    | none => .ok (h, false)
    | some none => .panic
    | some (some a) =>
      .ok ({ h with recs := fun q =>
        if q = a then { h.recs a with secret := secret, timestamp := now } else h.recs q }, true)

/-- One turn of the loop of `SecretStore.Merge` (common/store/secretstore.go:157-182), on
pointers. -/
def hmergeStep (h : Heap) (other : Map (Option Nat)) (st : Option (Map (Option Nat)) × List Bytes)
    (k : Bytes) : Res (Option (Map (Option Nat)) × List Bytes) :=
  match other k with
  | none => .ok st -- not reached: `k` is a key of `other`
  | some v =>
    match st.1 with
    | none => .panic
    | some m => do
      let (new, merged) ← match m k with
        | none => pure (v, true)
        | some r => match r, v with
          | some a, some b =>
            if (h.recs b).timestamp.toInt ≤ (h.recs a).timestamp.toInt then pure (some a, false)
            else pure (some b, true)
          | _, _ => .panic
      let m := m.set k new
      if merged then
        match new with
        | none => .panic
        | some r => pure (some m, st.2 ++ [(h.recs r).label])
      else pure (some m, st.2)

/-- The loop over an order of the keys. -/
def hmergeLoop (h : Heap) (other : Map (Option Nat)) :
    Option (Map (Option Nat)) × List Bytes → List Bytes → Res (Option (Map (Option Nat)) × List Bytes)
  | st, [] => .ok st
  | st, k :: ks => do
    let st ← hmergeStep h other st k
    hmergeLoop h other st ks

/-- `SecretStore.Merge` (common/store/secretstore.go:168-185): no memory is allocated, the
store takes over the other's record pointers. -/
def HStore.merge (h : Heap) (s other : HStore) (order : List Bytes) (now : BitVec 64) :
    Res (HStore × List Bytes) := do
  let (m, list) ← hmergeLoop h (other.store.getD Map.empty) (s.store, []) order
  pure ({ s with store := m, timestamp := now }, list)

/-! ### What a user sees -/

/-- The record at an address. -/
def Heap.record (h : Heap) (a : Nat) : SecretRecord :=
  { label := (h.recs a).label, timestamp := (h.recs a).timestamp, secret := h.bufs (h.recs a).secret
    metadata := (h.recs a).metadata.map (fun m k => (h.maps m k).map h.bufs) }

/-- The store as a value. -/
def Heap.view (h : Heap) (s : HStore) : SecretStore :=
  { version := s.version, timestamp := s.timestamp
    store := s.store.map (fun m k => (m k).map (Option.map h.record))
    passphrase := s.passphrase.map h.bufs }

/-- The buffer holds secret data of the record. -/
def Heap.RecordHolds (h : Heap) (a b : Nat) : Prop :=
  b = (h.recs a).secret ∨ ∃ m k, (h.recs a).metadata = some m ∧ h.maps m k = some b

/-- The buffer holds secret data of the store. -/
def Heap.Holds (h : Heap) (s : HStore) (b : Nat) : Prop :=
  s.passphrase = some b ∨ ∃ m k a, s.store = some m ∧ m k = some (some a) ∧ h.RecordHolds a b

end Verif.Model.SecretHeap
