import Verif.Go.Basic
/-!
Model of common/util/util.go.
-/

namespace Verif.Model.Util
open Verif.Go

/-- The PRNG variable (common/util/util.go:36): what `io.ReadFull` can still read before
the reader fails. -/
abbrev Rng := Bytes

/-- `io.ReadFull(prng, p)` with `len(p) = n`. A failing read has consumed what was left. -/
def readFull (r : Rng) (n : Nat) : Option Bytes × Rng :=
  if n ≤ r.length then (some (r.take n), r.drop n) else (none, [])

/-- `RandBytes` (common/util/util.go:40-47); `none` is nil. A negative size, which panics,
is never passed. -/
def randBytes (r : Rng) (size : Nat) : Option Bytes × Rng := readFull r size

/-- `NonceSize` (common/util/util.go:79). -/
abbrev nonceSize : Nat := 24

/-- `copy(dst[:], src)` into a zeroed `[n]byte` array. -/
def copyInto (n : Nat) (src : Bytes) : Bytes := src.take n ++ List.replicate (n - src.length) 0

/-- `NewNonce` (common/util/util.go:84-92). -/
def newNonce (r : Rng) : Option Bytes × Rng :=
  match randBytes r nonceSize with
  | (none, r') => (none, r')
  | (some p, r') => (some (copyInto nonceSize p), r')

/-- `Zero` (common/util/util.go:72-76): `in[i] ^= in[i]` for every index. -/
def zero (b : Bytes) : Bytes := b.map fun x => x ^^^ x

theorem zero_eq (b : Bytes) : zero b = List.replicate b.length 0 := by
  induction b with
  | nil => rfl
  | cons x b ih => simp_all [zero, List.replicate_succ]

theorem copyInto_length (n : Nat) (b : Bytes) : (copyInto n b).length = n := by
  simp only [copyInto, List.length_append, List.length_take, List.length_replicate]; omega

theorem copyInto_eq {n : Nat} {b : Bytes} (h : b.length = n) : copyInto n b = b := by
  subst h; simp [copyInto]

theorem copyInto_append {n : Nat} {a b : Bytes} (h : a.length = n) : copyInto n (a ++ b) = a := by
  subst h; simp [copyInto]

theorem readFull_some {r : Rng} {n : Nat} {p : Bytes} {r' : Rng}
    (h : readFull r n = (some p, r')) : r = p ++ r' ∧ p.length = n := by
  unfold readFull at h
  split at h
  · simp only [Prod.mk.injEq, Option.some.injEq] at h
    obtain ⟨rfl, rfl⟩ := h
    refine ⟨by simp, by simp only [List.length_take]; omega⟩
  · simp at h

theorem readFull_append {p r : Bytes} {n : Nat} (h : p.length = n) :
    readFull (p ++ r) n = (some p, r) := by
  subst h; simp [readFull]

theorem readFull_none {r : Rng} {n : Nat} (h : r.length < n) : readFull r n = (none, []) := by
  unfold readFull; rw [if_neg (by omega)]

theorem newNonce_some {r : Rng} {p : Bytes} {r' : Rng} (h : newNonce r = (some p, r')) :
    r = p ++ r' ∧ p.length = 24 := by
  unfold newNonce at h
  split at h
  · simp at h
  · rename_i q r'' hq
    obtain ⟨h1, h2⟩ := readFull_some hq
    simp only [Prod.mk.injEq, Option.some.injEq] at h
    obtain ⟨rfl, rfl⟩ := h
    rw [copyInto_eq h2]
    exact ⟨h1, h2⟩

theorem newNonce_append {p r : Bytes} (h : p.length = 24) : newNonce (p ++ r) = (some p, r) := by
  unfold newNonce randBytes
  rw [nonceSize, readFull_append h]
  simp [copyInto_eq h]

theorem newNonce_none {r : Rng} (h : r.length < 24) : newNonce r = (none, []) := by
  unfold newNonce randBytes
  rw [nonceSize, readFull_none h]

end Verif.Model.Util
