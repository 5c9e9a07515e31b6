import Verif.Model.SecretStore
import Mathlib.Logic.Encodable.Basic
import Mathlib.Logic.Equiv.List
/-!
An instance of the `Json` parameter, so that the theorems taking one are not vacuous: the
fields are written as a finite list of entries, numbered, and the number is written in unary.
-/

namespace Verif.Proofs.ToyJson
open Verif Verif.Go Verif.Model.SecretStore

instance : Encodable UInt8 :=
  Encodable.ofLeftInjection UInt8.toNat (fun n => some (UInt8.ofNat n)) (by intro x; simp)

instance : Encodable (BitVec 64) :=
  Encodable.ofLeftInjection BitVec.toNat (fun n => some (BitVec.ofNat 64 n)) (by intro x; simp)

abbrev RecordRepr := Bytes × BitVec 64 × Bytes × Option (List (Bytes × Bytes))
abbrev FieldsRepr := BitVec 64 × BitVec 64 × Option (List (Bytes × Option RecordRepr))

/-- Greater keys first. -/
def ge (a b : Bytes) : Bool := decide (¬ a < b)

theorem ge_trans (a b c : Bytes) (h1 : ge a b = true) (h2 : ge b c = true) : ge a c = true := by
  simp only [ge, decide_eq_true_eq] at *
  exact List.le_trans (α := UInt8) h2 h1

theorem ge_total (a b : Bytes) : (ge a b || ge b a) = true := by
  simp only [ge, Bool.or_eq_true, decide_eq_true_eq]
  exact (List.le_total (α := UInt8) b a)

/-- The keys in descending order. -/
noncomputable def orderOf {V : Type} (m : Map V) : List Bytes :=
  open Classical in if h : ∃ o, m.Enumerates o then (Classical.choose h).mergeSort ge else []

theorem orderOf_spec {V : Type} {m : Map V} (h : m.Finite) :
    (∀ k, k ∈ orderOf m ↔ m k ≠ none) ∧ (orderOf m).Pairwise (fun a b => ¬ a < b) := by
  unfold orderOf
  rw [dif_pos h.enumerates]
  constructor
  · intro k
    rw [List.mem_mergeSort]
    exact (Classical.choose_spec h.enumerates).2 k
  · have := List.pairwise_mergeSort (le := ge) ge_trans ge_total (Classical.choose h.enumerates)
    exact this.imp (by simp [ge])

noncomputable def entries {V W : Type} (m : Map V) (g : V → W) : List (Bytes × W) :=
  (orderOf m).filterMap (fun k => (m k).map (fun v => (sanitise k, g v)))

def assoc {W X : Type} (l : List (Bytes × W)) (g : W → X) : Map X := fun k =>
  ((l.find? (fun p => p.1 == k)).map (·.2)).map g

theorem assoc_mem {V W X : Type} (m : Map V) (g : V → W) (g' : W → X) (o : List Bytes)
    (ho : o.Pairwise (fun a b => ¬ a < b)) (k : Bytes) (v : V) (hk : k ∈ o) (hv : m k = some v)
    (hl : ∀ k2, m k2 ≠ none → sanitise k2 = sanitise k → ¬ k < k2) :
    assoc (o.filterMap (fun k => (m k).map (fun v => (sanitise k, g v)))) g' (sanitise k) = some (g' (g v)) := by
  induction o with
  | nil => simp at hk
  | cons q o ih =>
    obtain ⟨ho1, ho2⟩ := List.pairwise_cons.mp ho
    cases hq : m q with
    | none =>
      have : k ∈ o := by
        rcases List.mem_cons.mp hk with rfl | h
        · rw [hq] at hv; simp at hv
        · exact h
      simpa [List.filterMap_cons, hq] using ih ho2 this
    | some w =>
      by_cases he : sanitise q = sanitise k
      · have : q = k := by
          rcases List.mem_cons.mp hk with rfl | h
          · rfl
          · exact List.le_antisymm (α := UInt8) (hl q (by simp [hq]) he) (ho1 k h)
        subst this
        rw [hq] at hv
        cases hv
        simp [List.filterMap_cons, hq, assoc]
      · have : k ∈ o := by
          rcases List.mem_cons.mp hk with rfl | h
          · exact absurd rfl he
          · exact h
        have := ih ho2 this
        simp only [assoc, List.filterMap_cons, hq, Option.map_some] at this ⊢
        rw [List.find?_cons_of_neg (by simpa using he)]
        exact this

theorem assoc_san {V W : Type} {R : V → V → Prop} (m : Map V) (hf : m.Finite)
    (g : V → W) (g' : W → V) (hR : ∀ k v, m k = some v → R v (g' (g v))) :
    MapSan R m (assoc (entries m g) g') := by
  constructor
  · intro k v hk hl
    exact ⟨_, assoc_mem m g g' _ (orderOf_spec hf).2 k v ((orderOf_spec hf).1 k |>.mpr (by simp [hk])) hk hl, hR k v hk⟩
  · intro k' hk'
    unfold assoc at hk'
    cases hq : (entries m g).find? (fun p => p.1 == k') with
    | none => simp [hq] at hk'
    | some p =>
      have h1 := List.find?_some hq
      have h2 := List.mem_of_find?_eq_some hq
      unfold entries at h2
      obtain ⟨q, -, h3⟩ := List.mem_filterMap.mp h2
      cases hmq : m q with
      | none => simp [hmq] at h3
      | some v =>
        simp only [hmq, Option.map_some, Option.some.injEq] at h3
        subst h3
        exact ⟨q, by simp [hmq], by simpa using h1⟩

noncomputable def recordRepr (r : SecretRecord) : RecordRepr :=
  (sanitise r.label, r.timestamp, r.secret, r.metadata.map (fun m => entries m id))

def recordOf (r : RecordRepr) : SecretRecord :=
  { label := r.1, timestamp := r.2.1, secret := r.2.2.1, metadata := r.2.2.2.map (fun l => assoc l id) }

noncomputable def fieldsRepr (f : Fields) : FieldsRepr :=
  (f.version, f.timestamp, f.store.map (fun m => entries m (Option.map recordRepr)))

def fieldsOf (f : FieldsRepr) : Fields :=
  { version := f.1, timestamp := f.2.1, store := f.2.2.map (fun l => assoc l (Option.map recordOf)) }

theorem fields_san (f : Fields) (h1 : f.Finite) :
    FieldsSan f (fieldsOf (fieldsRepr f)) := by
  refine ⟨rfl, rfl, ?_⟩
  cases hs : f.store with
  | none => simp [fieldsOf, fieldsRepr, hs, OptRel]
  | some m =>
    simp only [fieldsOf, fieldsRepr, hs, Option.map_some, OptRel]
    refine assoc_san m (h1 m hs).1 _ _ ?_
    intro k v hk
    cases v with
    | none => simp [OptRel]
    | some r =>
      simp only [Option.map_some, OptRel]
      refine ⟨rfl, rfl, rfl, ?_⟩
      cases hmd : r.metadata with
      | none => simp [recordOf, recordRepr, hmd, OptRel]
      | some md =>
        simp only [recordOf, recordRepr, hmd, Option.map_some, OptRel]
        exact assoc_san md ((h1 m hs).2 k r md hk hmd) _ _ (fun _ _ _ => rfl)

theorem assoc_finite {W X : Type} (l : List (Bytes × W)) (g : W → X) : (assoc l g).Finite := by
  refine ⟨l.map (·.1), fun k hk => ?_⟩
  unfold assoc at hk
  cases hq : l.find? (fun p => p.1 == k) with
  | none => simp [hq] at hk
  | some p =>
    have h1 := List.find?_some hq
    have h2 := List.mem_of_find?_eq_some hq
    exact List.mem_map.mpr ⟨p, h2, by simpa using h1⟩

theorem fieldsOf_finite (f : FieldsRepr) : (fieldsOf f).Finite := by
  intro m hm
  obtain ⟨v, t, l⟩ := f
  cases l with
  | none => simp [fieldsOf] at hm
  | some l =>
    simp only [fieldsOf, Option.map_some, Option.some.injEq] at hm
    subst hm
    refine ⟨assoc_finite _ _, ?_⟩
    intro k r md hk hmd
    unfold assoc at hk
    cases hq : l.find? (fun p => p.1 == k) with
    | none => simp [hq] at hk
    | some p =>
      simp only [hq, Option.map_some, Option.some.injEq] at hk
      cases hp : p.2 with
      | none => simp [hp] at hk
      | some q =>
        simp only [hp, Option.map_some, Option.some.injEq] at hk
        subst hk
        unfold recordOf at hmd
        cases hl : q.2.2.2 with
        | none => simp [hl] at hmd
        | some l' =>
          simp only [hl, Option.map_some, Option.some.injEq] at hmd
          subst hmd
          exact assoc_finite _ _

theorem entries_utf8 {V W X : Type} (m : Map V) (g : V → W) (g' : W → X) {k : Bytes} {x : X}
    (h : assoc (entries m g) g' k = some x) : ValidUtf8 k ∧ ∃ q v, m q = some v ∧ x = g' (g v) := by
  unfold assoc at h
  cases hq : (entries m g).find? (fun p => p.1 == k) with
  | none => simp [hq] at h
  | some p =>
    have h1 := List.find?_some hq
    have h2 := List.mem_of_find?_eq_some hq
    unfold entries at h2
    obtain ⟨q, -, h3⟩ := List.mem_filterMap.mp h2
    cases hmq : m q with
    | none => simp [hmq] at h3
    | some v =>
      simp only [hmq, Option.map_some, Option.some.injEq] at h3
      subst h3
      simp only [beq_iff_eq] at h1
      subst h1
      simp only [hq, Option.map_some, Option.some.injEq] at h
      exact ⟨validUtf8_sanitise q, q, v, hmq, h.symm⟩

theorem fieldsOf_utf8 (f : Fields) : (fieldsOf (fieldsRepr f)).Utf8 := by
  intro m hm k v hk
  cases hs : f.store with
  | none => simp [fieldsOf, fieldsRepr, hs] at hm
  | some m0 =>
    simp only [fieldsOf, fieldsRepr, hs, Option.map_some, Option.some.injEq] at hm
    subst hm
    obtain ⟨h1, q, v0, h2, rfl⟩ := entries_utf8 m0 _ _ hk
    refine ⟨h1, fun r hr => ?_⟩
    cases v0 with
    | none => simp at hr
    | some r0 =>
      simp only [Option.map_some, Option.some.injEq] at hr
      subst hr
      refine ⟨validUtf8_sanitise _, fun md j x hmd hj => ?_⟩
      cases hmd0 : r0.metadata with
      | none => simp [recordOf, recordRepr, hmd0] at hmd
      | some md0 =>
        simp only [recordOf, recordRepr, hmd0, Option.map_some, Option.some.injEq] at hmd
        subst hmd
        exact (entries_utf8 md0 _ _ hj).1

/-- The instance. -/
noncomputable def json : Json where
  enc f := List.replicate (Encodable.encode (fieldsRepr f)) 0
  dec b := open Classical in
    ((Encodable.decode (α := FieldsRepr) b.length).map fieldsOf).filter (fun f => decide f.Utf8)
  dec_enc f h1 := ⟨fieldsOf (fieldsRepr f), by simp [Option.filter, fieldsOf_utf8], fields_san f h1⟩
  dec_finite b f h := by
    obtain ⟨g, -, rfl⟩ := Option.map_eq_some_iff.mp (Option.filter_eq_some_iff.mp h).1
    exact fieldsOf_finite g
  dec_utf8 b f h := by
    have := (Option.filter_eq_some_iff.mp h).2
    simpa using this

end Verif.Proofs.ToyJson
