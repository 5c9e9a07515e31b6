/-!
Go primitives used by every model file.

Trusted reading of Go: a call either returns or panics; a `[]byte` or `string`
is a list of bytes; `encoding/binary.BigEndian` is base-256 positional notation.
-/

namespace Verif.Go

/-- `[]byte`, `string`. -/
abbrev Bytes := List UInt8

/-- Outcome of a Go call: it returns a value, or it panics. -/
inductive Res (α : Type u) where
  | ok (a : α)
  | panic
deriving DecidableEq, Repr

namespace Res

@[reducible] def bind (x : Res α) (f : α → Res β) : Res β :=
  match x with
  | ok a => f a
  | panic => panic

instance : Monad Res where
  pure := ok
  bind := bind

@[simp] theorem pure_eq (a : α) : (pure a : Res α) = ok a := rfl
@[simp] theorem ok_bind (a : α) (f : α → Res β) : (ok a >>= f) = f a := rfl
@[simp] theorem panic_bind (f : α → Res β) : ((panic : Res α) >>= f) = panic := rfl
@[simp] theorem map_ok (f : α → β) (a : α) : f <$> (ok a) = ok (f a) := rfl
@[simp] theorem map_panic (f : α → β) : f <$> (panic : Res α) = panic := rfl

theorem bind_eq_ok {x : Res α} {f : α → Res β} {b : β} :
    (x >>= f) = ok b ↔ ∃ a, x = ok a ∧ f a = ok b := by
  cases x <;> simp

theorem bind_eq_panic {x : Res α} {f : α → Res β} :
    (x >>= f) = panic ↔ x = panic ∨ ∃ a, x = ok a ∧ f a = panic := by
  cases x <;> simp

end Res

/-- `binary.BigEndian.PutUint16/32/64` for `n` = 2, 4, 8: the `n` low base-256
digits of `x`, most significant first. -/
def be : (n : Nat) → (x : Nat) → Bytes
  | 0, _ => []
  | n + 1, x => UInt8.ofNat (x / 256 ^ n) :: be n x

/-- `binary.BigEndian.Uint16/32/64` of a slice: base-256 value. -/
def ofBe (b : Bytes) : Nat := b.foldl (fun acc x => acc * 256 + x.toNat) 0

/-- `int32(x)` for an unsigned or wider integer `x`: two's complement truncation. -/
def toInt32 (x : Nat) : Int := (BitVec.ofNat 32 x).toInt

@[simp] theorem be_length (n x : Nat) : (be n x).length = n := by
  induction n with
  | zero => rfl
  | succ n ih => simp [be, ih]

theorem foldl_ofBe (b : Bytes) (acc : Nat) :
    b.foldl (fun acc x => acc * 256 + x.toNat) acc = acc * 256 ^ b.length + ofBe b := by
  unfold ofBe
  induction b generalizing acc with
  | nil => simp
  | cons x b ih =>
    simp only [List.foldl_cons, List.length_cons]
    rw [ih, ih (0 * 256 + x.toNat)]
    rw [Nat.pow_succ, Nat.add_mul, Nat.zero_mul, Nat.zero_add, Nat.mul_assoc,
      Nat.mul_comm 256 (256 ^ b.length), Nat.add_assoc]

@[simp] theorem ofBe_nil : ofBe [] = 0 := rfl

theorem ofBe_cons (x : UInt8) (b : Bytes) : ofBe (x :: b) = x.toNat * 256 ^ b.length + ofBe b := by
  rw [ofBe, List.foldl_cons, foldl_ofBe]; simp

theorem ofBe_append (a b : Bytes) : ofBe (a ++ b) = ofBe a * 256 ^ b.length + ofBe b := by
  rw [ofBe, List.foldl_append, foldl_ofBe]; rfl

theorem ofBe_lt (b : Bytes) : ofBe b < 256 ^ b.length := by
  induction b with
  | nil => simp
  | cons x b ih =>
    rw [ofBe_cons, List.length_cons, Nat.pow_succ]
    have hx : x.toNat < 256 := x.toNat_lt
    have : x.toNat * 256 ^ b.length ≤ 255 * 256 ^ b.length := Nat.mul_le_mul_right _ (by omega)
    omega

/-- Reading back what was written gives the value modulo the width. -/
theorem ofBe_be (n x : Nat) : ofBe (be n x) = x % 256 ^ n := by
  induction n with
  | zero => simp [be, Nat.mod_one]
  | succ n ih =>
    rw [be, ofBe_cons, be_length, ih, Nat.pow_succ, Nat.mod_mul]
    simp only [UInt8.toNat_ofNat']
    rw [Nat.mul_comm, Nat.add_comm]

theorem be_ofBe (b : Bytes) : be b.length (ofBe b) = b := by
  induction b with
  | nil => rfl
  | cons x b ih =>
    have hpos : 0 < 256 ^ b.length := Nat.pow_pos (by omega)
    have hlt := ofBe_lt b
    rw [List.length_cons, be]
    congr 1
    · rw [ofBe_cons, Nat.mul_comm, Nat.mul_add_div hpos, Nat.div_eq_of_lt hlt]
      apply UInt8.toNat_inj.mp
      simp
    · have hbe : ∀ (n k x : Nat), be n (k * 256 ^ n + x) = be n x := by
        intro n
        induction n with
        | zero => intros; rfl
        | succ n ih =>
          intro k x
          rw [be, be]
          have h1 : (k * 256 ^ (n + 1) + x) = 256 ^ n * (k * 256) + x := by
            rw [Nat.pow_succ]; simp only [Nat.mul_comm, Nat.mul_assoc]
          congr 1
          · rw [h1, Nat.mul_add_div (Nat.pow_pos (by omega))]
            apply UInt8.toNat_inj.mp
            simp
          · have h2 : (k * 256 ^ (n + 1) + x) = (k * 256) * 256 ^ n + x := by
              rw [h1, Nat.mul_comm]
            rw [h2, ih]
      rw [ofBe_cons, hbe, ih]

theorem be_inj {n x y : Nat} (hx : x < 256 ^ n) (hy : y < 256 ^ n) (h : be n x = be n y) :
    x = y := by
  have := congrArg ofBe h
  rwa [ofBe_be, ofBe_be, Nat.mod_eq_of_lt hx, Nat.mod_eq_of_lt hy] at this

theorem toInt32_of_lt {x : Nat} (h : x < 2 ^ 31) : toInt32 x = x := by
  unfold toInt32
  rw [BitVec.toInt_eq_toNat_of_lt]
  · simp only [BitVec.toNat_ofNat]; rw [Nat.mod_eq_of_lt (by omega)]
  · simp only [BitVec.toNat_ofNat]; omega

theorem toInt32_bounds (x : Nat) : -2 ^ 31 ≤ toInt32 x ∧ toInt32 x < 2 ^ 31 := by
  unfold toInt32
  have h1 := BitVec.le_toInt (BitVec.ofNat 32 x)
  have h2 := @BitVec.toInt_lt 32 (BitVec.ofNat 32 x)
  constructor <;> simp_all

/-- A non-negative truncation never exceeds the original. -/
theorem toInt32_le (x : Nat) : toInt32 x ≤ x := by
  unfold toInt32
  rw [BitVec.toInt_eq_toNat_cond]
  simp only [BitVec.toNat_ofNat]
  have := Nat.mod_le x (2^32)
  split <;> omega

end Verif.Go
