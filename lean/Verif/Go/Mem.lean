import Verif.Go.Basic
/-!
Memory behind slices: a list of arrays that are never freed, and slices that
point into them.
-/

namespace Verif.Go

/-- All byte arrays ever allocated; an address is an index. -/
structure Mem where
  arrays : List Bytes := []
deriving DecidableEq, Repr

/-- A Go slice header. The nil slice has `cap = 0`. -/
structure Slice where
  arr : Nat := 0
  off : Nat := 0
  len : Nat := 0
  cap : Nat := 0
deriving DecidableEq, Repr

namespace Mem

def get (m : Mem) (a : Nat) : Bytes := m.arrays[a]?.getD []

/-- Bytes visible through a slice. -/
def read (m : Mem) (s : Slice) : Bytes := ((m.get s.arr).drop s.off).take s.len

/-- Overwrite `bs.length` bytes of an array from `pos` on. -/
def setAt (b : Bytes) (pos : Nat) (bs : Bytes) : Bytes :=
  b.take pos ++ bs ++ b.drop (pos + bs.length)

def write (m : Mem) (a pos : Nat) (bs : Bytes) : Mem :=
  { arrays := m.arrays.set a (setAt (m.get a) pos bs) }

/-- `make([]byte, len, cap)`. -/
def make (m : Mem) (len cap : Nat) : Mem × Slice :=
  ({ arrays := m.arrays ++ [List.replicate cap 0] },
   { arr := m.arrays.length, off := 0, len := len, cap := cap })

/-- `append(s, bs...)`: in place when the capacity suffices, otherwise into a new
array with some extra capacity that the runtime chooses (`grow` of old capacity and
needed length). -/
def append (grow : Nat → Nat → Nat) (m : Mem) (s : Slice) (bs : Bytes) : Mem × Slice :=
  if s.len + bs.length ≤ s.cap then
    (m.write s.arr (s.off + s.len) bs, { s with len := s.len + bs.length })
  else
    let extra := grow s.cap (s.len + bs.length)
    ({ arrays := m.arrays ++ [m.read s ++ bs ++ List.replicate extra 0] },
     { arr := m.arrays.length, off := 0, len := s.len + bs.length,
       cap := s.len + bs.length + extra })

/-- Zero every byte visible through a slice. -/
def zero (m : Mem) (s : Slice) : Mem := m.write s.arr s.off (List.replicate s.len 0)

/-- A slice header that fits its array. -/
structure WF (m : Mem) (s : Slice) : Prop where
  len_le : s.len ≤ s.cap
  cap_le : s.off + s.cap ≤ (m.get s.arr).length
  live : 0 < s.cap → s.arr < m.arrays.length

theorem read_length {m : Mem} {s : Slice} (h : WF m s) : (m.read s).length = s.len := by
  have h1 := h.cap_le
  have h2 := h.len_le
  simp only [read, List.length_take, List.length_drop]; omega

theorem setAt_length {b : Bytes} {pos : Nat} {bs : Bytes} (h : pos + bs.length ≤ b.length) :
    (setAt b pos bs).length = b.length := by
  simp only [setAt, List.length_append, List.length_take, List.length_drop]; omega

theorem get_write_self {m : Mem} {a pos : Nat} {bs : Bytes} (h : a < m.arrays.length) :
    (m.write a pos bs).get a = setAt (m.get a) pos bs := by
  simp [write, get, h]

theorem get_write_ne {m : Mem} {a c pos : Nat} {bs : Bytes} (h : a ≠ c) :
    (m.write a pos bs).get c = m.get c := by
  simp [write, get, h]

theorem write_nil {m : Mem} {a pos : Nat} : m.write a pos [] = m := by
  cases m with
  | mk arrays =>
    simp only [write, setAt, get, List.append_nil, List.length_nil, Nat.add_zero,
      List.take_append_drop]
    congr 1
    apply List.ext_getElem?
    intro i
    rw [List.getElem?_set]
    split
    · rename_i h
      subst h
      split
      · rename_i h; simp [h]
      · rename_i h; simp [h]
    · rfl

theorem append_wf (grow) {m : Mem} {s : Slice} (h : WF m s) (bs : Bytes) :
    WF (append grow m s bs).1 (append grow m s bs).2 ∧
    (append grow m s bs).1.read (append grow m s bs).2 = m.read s ++ bs := by
  have hcl := h.cap_le
  have hll := h.len_le
  have hrl := read_length h
  unfold append
  split
  · rename_i hc
    by_cases h0 : s.cap = 0
    · have hbs : bs = [] := List.length_eq_zero_iff.mp (by omega)
      subst hbs
      simp only [List.length_nil, Nat.add_zero, List.append_nil, write_nil]
      exact ⟨h, trivial⟩
    have hlive := h.live (by omega)
    have hset : (setAt (m.get s.arr) (s.off + s.len) bs).length = (m.get s.arr).length :=
      setAt_length (by omega)
    refine ⟨⟨by simpa using hc, ?_, ?_⟩, ?_⟩
    · simp only [get_write_self hlive, hset]; omega
    · intro _; simpa [write] using hlive
    · simp only [read, get_write_self hlive]
      have hd : ((m.get s.arr).take (s.off + s.len)).length = s.off + s.len := by
        simp only [List.length_take]; omega
      rw [setAt, List.append_assoc, List.drop_append_of_le_length (by omega), List.drop_take,
        Nat.add_sub_cancel_left, ← List.append_assoc]
      have : (List.take s.len (List.drop s.off (m.get s.arr)) ++ bs).length = s.len + bs.length := by
        simp only [List.length_append, List.length_take, List.length_drop]; omega
      rw [← this, List.take_left' rfl]
  · rename_i hc
    have hget : ∀ x : Bytes, ({ arrays := m.arrays ++ [x] } : Mem).get m.arrays.length = x := by
      intro x; simp [get]
    refine ⟨⟨by simp, ?_, by simp⟩, ?_⟩
    · simp only [hget, List.length_append, hrl, List.length_replicate]; omega
    · simp only [read, hget, List.drop_zero]
      have : (m.read s ++ bs).length = s.len + bs.length := by simp [hrl]
      rw [← this]
      exact List.take_left' rfl

end Mem
end Verif.Go
