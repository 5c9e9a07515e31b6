import Verif.Model.KeyStore
import Verif.Proofs.ToyJson
/-!
Instances of the `Asn1` and `KeyJson` parameters, so that the theorems taking them are not
vacuous: values are numbered, and the number is written in unary.
-/

namespace Verif.Proofs.ToyJson
open Verif Verif.Go Verif.Model.KeyStore

abbrev KeyRepr := Bytes × Bytes × BitVec 64 × Bytes

def keyRepr (v : VerifiedKey) : KeyRepr := (v.pub, v.signer, v.timestamp, v.signature)
def keyOf (r : KeyRepr) : VerifiedKey := ⟨r.1, r.2.1, r.2.2.1, r.2.2.2⟩

/-- The instance of `Asn1`. -/
def asn1 : Asn1 where
  enc v := 0 :: List.replicate (Encodable.encode (keyRepr v)) 0
  dec b := (Encodable.decode (α := KeyRepr) (b.length - 1)).map keyOf
  enc_ne _ := by simp
  dec_enc v := by simp [keyRepr, keyOf]

/-- The entries of a map in some order. -/
noncomputable def entriesRaw {V W : Type} (m : Map V) (g : V → W) : List (Bytes × W) :=
  (orderOf m).filterMap (fun k => (m k).map (fun v => (k, g v)))

theorem assoc_raw {V W : Type} (m : Map V) (hf : m.Finite) (g : V → W) (g' : W → V)
    (hR : ∀ k v, m k = some v → g' (g v) = v) : assoc (entriesRaw m g) g' = m := by
  have key : ∀ (o : List Bytes) (k : Bytes), assoc (o.filterMap (fun k => (m k).map (fun v => (k, g v)))) g' k =
      if k ∈ o then m k else none := by
    intro o k
    induction o with
    | nil => simp [assoc]
    | cons q o ih =>
      cases hq : m q with
      | none =>
        simp only [List.filterMap_cons, hq, Option.map_none, ih]
        by_cases hk : k = q
        · subst hk; simp [hq]
        · simp [hk]
      | some v =>
        simp only [List.filterMap_cons, hq, Option.map_some, assoc] at ih ⊢
        by_cases hk : q = k
        · subst hk; simp [hq, hR q v hq]
        · rw [List.find?_cons_of_neg (by simpa using hk), ih]
          simp [Ne.symm hk]
  funext k
  unfold entriesRaw
  rw [key]
  have := (orderOf_spec hf).1 k
  split
  · rfl
  · rename_i h
    rw [this] at h
    exact (Decidable.not_not.mp h).symm

abbrev PubRepr := Bytes × BitVec 64 × BitVec 64 × Option Bytes × Bytes × Bytes × BitVec 64 × Option (List (Bytes × Bytes))
abbrev StoreRepr := BitVec 64 × BitVec 64 × Option (List (Bytes × Option PubRepr)) × Option Bytes × Option Bytes × Option Bytes

noncomputable def pubRepr (r : PublicKeyRecord) : PubRepr :=
  (r.label, r.version, r.timestamp, r.keys, r.keySignature, r.keySigner, r.signatureTime,
    r.metadata.map (fun m => entriesRaw m id))

def pubOf (r : PubRepr) : PublicKeyRecord :=
  ⟨r.1, r.2.1, r.2.2.1, r.2.2.2.1, r.2.2.2.2.1, r.2.2.2.2.2.1, r.2.2.2.2.2.2.1,
    r.2.2.2.2.2.2.2.map (fun l => assoc l id)⟩

noncomputable def storeRepr (f : KeyFields) : StoreRepr :=
  (f.version, f.timestamp, f.keys.map (fun m => entriesRaw m (Option.map pubRepr)), f.lockedKey, f.publicKey, f.exportKey)

def storeOf (r : StoreRepr) : KeyFields :=
  ⟨r.1, r.2.1, r.2.2.1.map (fun l => assoc l (Option.map pubOf)), r.2.2.2.1, r.2.2.2.2.1, r.2.2.2.2.2⟩

theorem storeOf_repr (f : KeyFields) (h : f.Finite) : storeOf (storeRepr f) = f := by
  obtain ⟨a, b, c, d, e, g⟩ := f
  simp only [storeOf, storeRepr, KeyFields.mk.injEq, true_and, and_true]
  cases c with
  | none => rfl
  | some m =>
    obtain ⟨h1, h2⟩ := h m rfl
    simp only [Option.map_some, Option.some.injEq]
    refine assoc_raw m h1 _ _ ?_
    intro k v hv
    cases v with
    | none => rfl
    | some r =>
      simp only [Option.map_some, Option.some.injEq]
      have := h2 k r
      obtain ⟨r1, r2, r3, r4, r5, r6, r7, r8⟩ := r
      simp only [pubOf, pubRepr, PublicKeyRecord.mk.injEq, true_and]
      cases r8 with
      | none => rfl
      | some md =>
        simp only [Option.map_some, Option.some.injEq]
        exact assoc_raw md (this md hv rfl) _ _ (fun _ _ _ => rfl)

theorem assoc_some {W X : Type} {l : List (Bytes × W)} {g : W → X} {k : Bytes} {x : X} (h : assoc l g k = some x) :
    ∃ w, x = g w := by
  unfold assoc at h
  obtain ⟨w, -, hw⟩ := Option.map_eq_some_iff.mp h
  exact ⟨w, hw.symm⟩

theorem storeOf_finite (r : StoreRepr) : (storeOf r).Finite := by
  intro m hm
  obtain ⟨l, -, rfl⟩ := Option.map_eq_some_iff.mp hm
  refine ⟨assoc_finite l _, fun k r md hk hmd => ?_⟩
  obtain ⟨w, hw⟩ := assoc_some hk
  obtain ⟨q, -, rfl⟩ := Option.map_eq_some_iff.mp hw.symm
  obtain ⟨l', -, rfl⟩ := Option.map_eq_some_iff.mp hmd
  exact assoc_finite l' _

/-- The instance of `KeyJson`. -/
noncomputable def keyJson : KeyJson where
  enc f := List.replicate (Encodable.encode (storeRepr f)) 0
  dec b := open Classical in
    ((Encodable.decode (α := StoreRepr) b.length).map storeOf).filter (fun f => decide f.Clean)
  dec_enc f h hc := by simp [storeOf_repr f h, Option.filter, hc]
  dec_clean b f h := by
    have := (Option.filter_eq_some_iff.mp h).2
    simpa using this
  dec_finite b f h := by
    obtain ⟨r, -, rfl⟩ := Option.map_eq_some_iff.mp (Option.filter_eq_some_iff.mp h).1
    exact storeOf_finite r

end Verif.Proofs.ToyJson
