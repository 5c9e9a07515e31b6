import Verif.Go.Basic
/-!
Model of common/tlv/tlv.go (value level; see `Model/TlvMem.lean` for the memory
behind the encoder).
-/

namespace Verif.Model.Tlv
open Verif.Go

/-- A value `Encode` supports. Signed and unsigned integers are their bits.
(common/tlv/tlv.go:85-141, the cases of the type switch.) -/
inductive Val where
  | i8 (v : BitVec 8)
  | u8 (v : BitVec 8)
  | bytes (v : Bytes)
  | i16 (v : BitVec 16)
  | u16 (v : BitVec 16)
  | i32 (v : BitVec 32)
  | u32 (v : BitVec 32)
  | i64 (v : BitVec 64)
  | u64 (v : BitVec 64)
deriving DecidableEq, Repr

/-- Any `interface{}` argument of `Encode` (common/tlv/tlv.go:82): a supported
value, or a value of some other type. -/
inductive Any where
  | val (v : Val)
  | other
deriving DecidableEq, Repr

/-- The constants of common/tlv/tlv.go:17-44. -/
abbrev tagUint8 : UInt8 := 1
@[inherit_doc tagUint8] abbrev tagInt8 : UInt8 := 2
@[inherit_doc tagUint8] abbrev tagBytes : UInt8 := 3
@[inherit_doc tagUint8] abbrev tagInt16 : UInt8 := 4
@[inherit_doc tagUint8] abbrev tagUint16 : UInt8 := 5
@[inherit_doc tagUint8] abbrev tagInt32 : UInt8 := 6
@[inherit_doc tagUint8] abbrev tagUint32 : UInt8 := 7
@[inherit_doc tagUint8] abbrev tagInt64 : UInt8 := 8
@[inherit_doc tagUint8] abbrev tagUint64 : UInt8 := 9

/-- The bytes one case of the switch appends (common/tlv/tlv.go:86-141): tag,
literal or computed 4-byte length, payload. `uint32(len(v))` truncates, which is
what `be 4` does. -/
def record : Val → Bytes
  | .i8 v => [tagInt8, 0, 0, 0, 1, UInt8.ofNat v.toNat]
  | .u8 v => [tagUint8, 0, 0, 0, 1, UInt8.ofNat v.toNat]
  | .bytes v => tagBytes :: be 4 v.length ++ v
  | .i16 v => [tagInt16, 0, 0, 0, 2] ++ be 2 v.toNat
  | .u16 v => [tagUint16, 0, 0, 0, 2] ++ be 2 v.toNat
  | .i32 v => [tagInt32, 0, 0, 0, 4] ++ be 4 v.toNat
  | .u32 v => [tagUint32, 0, 0, 0, 4] ++ be 4 v.toNat
  | .i64 v => [tagInt64, 0, 0, 0, 8] ++ be 8 v.toNat
  | .u64 v => [tagUint64, 0, 0, 0, 8] ++ be 8 v.toNat

/-- `Encoder` (common/tlv/tlv.go:47-49). -/
structure Encoder where
  buf : Bytes := []
deriving DecidableEq, Repr

/-- `Encoder.Encode` (common/tlv/tlv.go:82-146): new state, and whether the error
is nil. -/
def Encoder.encode (e : Encoder) : Any → Encoder × Bool
  | .val v => ({ buf := e.buf ++ record v }, true)
  | .other => (e, false)

/-- `Encoder.Bytes` (common/tlv/tlv.go:52-54). -/
def Encoder.bytes (e : Encoder) : Bytes := e.buf

/-- `Encoder.Length` (common/tlv/tlv.go:57-59). -/
def Encoder.length (e : Encoder) : Nat := e.buf.length

/-- `Decoder` (common/tlv/tlv.go:151-153). `buf` is the visible slice, `spare` the
bytes of the backing array between `len` and `cap`. -/
structure Decoder where
  buf : Bytes
  spare : Bytes := []
deriving DecidableEq, Repr

/-- The `interface{}` argument of `Decode` (common/tlv/tlv.go:171): untyped nil, a
non-nil pointer to a variable of a supported type (with its current content), or
anything else. Typed nil pointers, which no caller passes, are left out. -/
inductive Target where
  | nil
  | ptr (cur : Val)
  | other
deriving DecidableEq, Repr

/-- `DecErr` lists the error returns of `Decode` in order
(common/tlv/tlv.go:178, 184, 192, 200 and its copies, 245). -/
inductive DecErr where
  | tooShort
  | badLength
  | nilPointer
  | badTag
  | unknownType
deriving DecidableEq, Repr

/-- `buf[0]`: panics on an empty slice, whatever its capacity. -/
def index0 : Bytes → Res UInt8
  | [] => .panic
  | b :: _ => .ok b

/-- `buf[:n]` for a slice with visible bytes `b` and spare capacity `spare`: Go
allows `n` up to the capacity. -/
def upTo (n : Nat) (b spare : Bytes) : Res Bytes :=
  if n ≤ b.length + spare.length then .ok ((b ++ spare).take n) else .panic

/-- `buf[int(l):]`: panics when `l` is negative or beyond the length. -/
def sliceFrom (l : Int) (b : Bytes) : Res Bytes :=
  if 0 ≤ l ∧ l ≤ b.length then .ok (b.drop l.toNat) else .panic

/-- `make([]byte, int(l))` followed by `copy(*v, buf)` (common/tlv/tlv.go:212-213).
`l ≤ len(buf)` is known here except for truncated lengths, for which `copy` stops
at the shorter of the two; the rest stays zero. -/
def makeCopy (l : Int) (b : Bytes) : Res Bytes :=
  if 0 ≤ l then .ok (b.take l.toNat ++ List.replicate (l.toNat - b.length) 0) else .panic

/-- The type switch of `Decode` (common/tlv/tlv.go:197-246): `buf` is already past
the header, `t` and `l` are tag and length. -/
def readValue (t : UInt8) (l : Int) (buf spare : Bytes) : Val → Res (Except DecErr Val)
  | .i8 _ => if t = tagInt8 then do
      let x ← index0 buf; pure (.ok (.i8 (BitVec.ofNat 8 x.toNat))) else pure (.error .badTag)
  | .u8 _ => if t = tagUint8 then do
      let x ← index0 buf; pure (.ok (.u8 (BitVec.ofNat 8 x.toNat))) else pure (.error .badTag)
  | .bytes _ => if t = tagBytes then do
      let x ← makeCopy l buf; pure (.ok (.bytes x)) else pure (.error .badTag)
  | .i16 _ => if t = tagInt16 then do
      let x ← upTo 2 buf spare; pure (.ok (.i16 (BitVec.ofNat 16 (ofBe x)))) else pure (.error .badTag)
  | .u16 _ => if t = tagUint16 then do
      let x ← upTo 2 buf spare; pure (.ok (.u16 (BitVec.ofNat 16 (ofBe x)))) else pure (.error .badTag)
  | .i32 _ => if t = tagInt32 then do
      let x ← upTo 4 buf spare; pure (.ok (.i32 (BitVec.ofNat 32 (ofBe x)))) else pure (.error .badTag)
  | .u32 _ => if t = tagUint32 then do
      let x ← upTo 4 buf spare; pure (.ok (.u32 (BitVec.ofNat 32 (ofBe x)))) else pure (.error .badTag)
  | .i64 _ => if t = tagInt64 then do
      let x ← upTo 8 buf spare; pure (.ok (.i64 (BitVec.ofNat 64 (ofBe x)))) else pure (.error .badTag)
  | .u64 _ => if t = tagUint64 then do
      let x ← upTo 8 buf spare; pure (.ok (.u64 (BitVec.ofNat 64 (ofBe x)))) else pure (.error .badTag)

/-- What a `Decode` call leaves behind: the decoder, the target and the error. -/
structure Out where
  dec : Decoder
  tgt : Target
  err : Option DecErr
deriving DecidableEq, Repr

/-- `Decoder.Decode` (common/tlv/tlv.go:171-250). `len(buf[5:])` is truncated to
int32 as in line 182. The spare capacity is unchanged by `buf[int(l):]`. A panic
loses the state (nothing recovers in this code base). -/
def Decoder.decode (d : Decoder) (tgt : Target) : Res Out :=
  match d.buf with
  | t :: a :: b :: c :: e :: rest =>
    let l := toInt32 (ofBe [a, b, c, e])
    if l > toInt32 rest.length then pure ⟨d, tgt, some .badLength⟩
    else if t = tagBytes ∧ l = 0 then pure ⟨d, tgt, none⟩
    else match tgt with
      | .nil => pure ⟨d, tgt, some .nilPointer⟩
      | .other => pure ⟨d, tgt, some .unknownType⟩
      | .ptr cur => do
        match ← readValue t l rest d.spare cur with
        | .error e => pure ⟨d, tgt, some e⟩
        | .ok v => do
          let rest' ← sliceFrom l rest
          pure ⟨{ buf := rest', spare := d.spare }, .ptr v, none⟩
  | _ => pure ⟨d, tgt, some .tooShort⟩

/-- `Decoder.Length` (common/tlv/tlv.go:254-256). -/
def Decoder.length (d : Decoder) : Nat := d.buf.length

/-- `NewDecoder` (common/tlv/tlv.go:156-158); `spare` is the capacity behind `in`. -/
def newDecoder (b : Bytes) (spare : Bytes := []) : Decoder := { buf := b, spare := spare }

end Verif.Model.Tlv
