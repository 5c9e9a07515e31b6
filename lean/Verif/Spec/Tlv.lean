import Verif.Model.Tlv
import Verif.Model.TlvMem
/-!
Vocabulary for the TLV properties: what a caller does with the package.
-/

namespace Verif.Spec.Tlv
open Verif.Go Verif.Model.Tlv Verif.Model.TlvMem

/-- Number of payload bytes of a value: its width, or the length of the string. -/
def size : Val → Nat
  | .i8 _ | .u8 _ => 1
  | .i16 _ | .u16 _ => 2
  | .i32 _ | .u32 _ => 4
  | .i64 _ | .u64 _ => 8
  | .bytes b => b.length

/-- The nine Go types the package supports. -/
inductive Ty where
  | i8 | u8 | bytes | i16 | u16 | i32 | u32 | i64 | u64
deriving DecidableEq, Repr

def ty : Val → Ty
  | .i8 _ => .i8 | .u8 _ => .u8 | .bytes _ => .bytes
  | .i16 _ => .i16 | .u16 _ => .u16 | .i32 _ => .i32
  | .u32 _ => .u32 | .i64 _ => .i64 | .u64 _ => .u64

/-- Tag byte documented for each type. -/
def Ty.tag : Ty → UInt8
  | .u8 => 1 | .i8 => 2 | .bytes => 3 | .i16 => 4 | .u16 => 5
  | .i32 => 6 | .u32 => 7 | .i64 => 8 | .u64 => 9

/-- Bytes an integer type occupies; `none` for byte strings. -/
def Ty.width : Ty → Option Nat
  | .i8 | .u8 => some 1
  | .i16 | .u16 => some 2
  | .i32 | .u32 => some 4
  | .i64 | .u64 => some 8
  | .bytes => none

/-- Call `Encode` on each argument in turn, keeping the encoder. -/
def encodeCalls (e : Encoder) : List Any → Encoder
  | [] => e
  | a :: as => encodeCalls (e.encode a).1 as

/-- Call `Encode` on each argument in turn, at the memory level. -/
def encodeCallsM (grow : Nat → Nat → Nat) (e : MEncoder) : List Any → MEncoder
  | [] => e
  | a :: as => encodeCallsM grow (e.encode grow a).1 as

/-- The bytes of a fresh encoder after encoding `vs`. -/
def encodeAll (vs : List Val) : Bytes := (encodeCalls {} (vs.map .val)).bytes

/-- Call `Decode` on each pointer in turn, stop at the first error, and return the
decoder and the contents of the targets. -/
def decodeCalls (d : Decoder) : List Val → Res (Option (Decoder × List Val))
  | [] => .ok (some (d, []))
  | t :: ts =>
    match d.decode (.ptr t) with
    | .panic => .panic
    | .ok ⟨d', .ptr v, none⟩ =>
      match decodeCalls d' ts with
      | .panic => .panic
      | .ok none => .ok none
      | .ok (some (d'', vs)) => .ok (some (d'', v :: vs))
    | .ok _ => .ok none

/-- The same at the memory level; each value comes with the slice that was put into the target, if
one was. -/
def decodeCallsM (d : MDecoder) : List Val → Res (Option (MDecoder × List (Val × Option Slice)))
  | [] => .ok (some (d, []))
  | t :: ts =>
    match d.decode (.ptr t) with
    | .panic => .panic
    | .ok ⟨d', .ptr v, a, none⟩ =>
      match decodeCallsM d' ts with
      | .panic => .panic
      | .ok none => .ok none
      | .ok (some (d'', vs)) => .ok (some (d'', (v, a) :: vs))
    | .ok _ => .ok none

/-- A byte string whose length fits the 4-byte length field. -/
def Fits (v : Val) : Prop := size v < 2 ^ 32

/-- Split a buffer into tag, declared length (the four length bytes read as a signed
32-bit number) and what follows the five-byte header. -/
def split : Bytes → Option (UInt8 × Int × Bytes)
  | t :: a :: b :: c :: e :: rest => some (t, (BitVec.ofNat 32 (ofBe [a, b, c, e])).toInt, rest)
  | _ => none

/-- The integer type cannot be read at all: not even with the spare capacity are there
enough bytes (8-bit values are indexed, so capacity does not help them). -/
def Lacks (τ : Ty) (rest spare : Bytes) : Prop :=
  match τ.width with
  | none => False
  | some 1 => rest = []
  | some w => rest.length + spare.length < w

end Verif.Spec.Tlv
