import Verif.Go.Basic
/-!
Go maps with string keys, as lookup functions. Two maps with the same entries are equal.
`for k := range m` visits the keys in an order the runtime picks: functions that iterate take
the order as an argument, and theorems quantify over every `Enumerates` order. (Such an order
only exists for finite maps.)
-/

namespace Verif.Go

abbrev Map (V : Type) := Bytes → Option V

namespace Map

/-- `map[string]V{}` -/
def empty : Map V := fun _ => none

/-- `m[k] = v` -/
def set (m : Map V) (k : Bytes) (v : V) : Map V := fun q => if q = k then some v else m q

/-- `delete(m, k)` -/
def erase (m : Map V) (k : Bytes) : Map V := fun q => if q = k then none else m q

/-- `_, ok := m[k]` -/
def has (m : Map V) (k : Bytes) : Bool := (m k).isSome

/-- `order` lists every key once. -/
def Enumerates (m : Map V) (order : List Bytes) : Prop :=
  order.Nodup ∧ ∀ k, k ∈ order ↔ m k ≠ none

def Finite (m : Map V) : Prop := ∃ keys : List Bytes, ∀ k, m k ≠ none → k ∈ keys

@[simp] theorem set_same (m : Map V) (k : Bytes) (v : V) : m.set k v k = some v := by simp [set]
theorem set_other (m : Map V) {k q : Bytes} (v : V) (h : q ≠ k) : m.set k v q = m q := by
  simp [set, h]
@[simp] theorem erase_same (m : Map V) (k : Bytes) : m.erase k k = none := by simp [erase]
theorem erase_other (m : Map V) {k q : Bytes} (h : q ≠ k) : m.erase k q = m q := by
  simp [erase, h]

theorem set_self (m : Map V) {k : Bytes} {v : V} (h : m k = some v) : m.set k v = m := by
  funext q
  by_cases hq : q = k
  · subst hq; simp [h]
  · exact set_other m v hq

theorem Finite.set {m : Map V} (h : m.Finite) (k : Bytes) (v : V) : (m.set k v).Finite := by
  obtain ⟨keys, h⟩ := h
  refine ⟨k :: keys, fun q hq => ?_⟩
  by_cases hk : q = k
  · subst hk; exact List.mem_cons_self
  · rw [set_other m v hk] at hq
    exact List.mem_cons_of_mem _ (h q hq)

theorem Finite.erase {m : Map V} (h : m.Finite) (k : Bytes) : (m.erase k).Finite := by
  obtain ⟨keys, h⟩ := h
  refine ⟨keys, fun q hq => h q ?_⟩
  by_cases hk : q = k
  · subst hk; simp at hq
  · rwa [erase_other m hk] at hq

theorem finite_empty : (empty : Map V).Finite := ⟨[], fun _ h => absurd rfl h⟩

theorem Enumerates.finite {m : Map V} {o : List Bytes} (h : m.Enumerates o) : m.Finite :=
  ⟨o, fun k hk => (h.2 k).mpr hk⟩

theorem exists_nodup (l : List Bytes) : ∃ o : List Bytes, o.Nodup ∧ ∀ k, k ∈ o ↔ k ∈ l := by
  induction l with
  | nil => exact ⟨[], List.nodup_nil, fun _ => Iff.rfl⟩
  | cons x l ih =>
    obtain ⟨o, h1, h2⟩ := ih
    by_cases hx : x ∈ l
    · refine ⟨o, h1, fun k => ?_⟩
      rw [h2, List.mem_cons]
      constructor
      · exact Or.inr
      · rintro (rfl | h)
        · exact hx
        · exact h
    · exact ⟨x :: o, List.nodup_cons.mpr ⟨fun h => hx ((h2 x).mp h), h1⟩, fun k => by
        rw [List.mem_cons, List.mem_cons, h2]⟩

/-- Every finite map has an iteration order. -/
theorem Finite.enumerates {m : Map V} (h : m.Finite) : ∃ o, m.Enumerates o := by
  obtain ⟨keys, h⟩ := h
  obtain ⟨o, h1, h2⟩ := exists_nodup (keys.filter (fun k => (m k).isSome))
  refine ⟨o, h1, fun k => ?_⟩
  rw [h2, List.mem_filter]
  constructor
  · rintro ⟨-, h2⟩ h3
    rw [h3] at h2; simp at h2
  · intro h2
    refine ⟨h k h2, ?_⟩
    cases hm : m k with
    | none => exact absurd hm h2
    | some => rfl

end Map
end Verif.Go
