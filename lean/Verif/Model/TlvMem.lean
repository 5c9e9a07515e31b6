import Verif.Model.Tlv
import Verif.Go.Mem
/-!
Model of the `Encoder` and the `Decoder` of common/tlv/tlv.go at the level of slices and arrays, to
speak about what remains in memory.
-/

namespace Verif.Model.TlvMem
open Verif.Go Verif.Model.Tlv

/-- The successive `append` calls of one case of `Encode` (common/tlv/tlv.go:86-141):
tag, four length bytes, payload. -/
def parts : Val → List Bytes
  | .i8 v => [[tagInt8], [0, 0, 0, 1], [UInt8.ofNat v.toNat]]
  | .u8 v => [[tagUint8], [0, 0, 0, 1], [UInt8.ofNat v.toNat]]
  | .bytes v => [[tagBytes], be 4 v.length, v]
  | .i16 v => [[tagInt16], [0, 0, 0, 2], be 2 v.toNat]
  | .u16 v => [[tagUint16], [0, 0, 0, 2], be 2 v.toNat]
  | .i32 v => [[tagInt32], [0, 0, 0, 4], be 4 v.toNat]
  | .u32 v => [[tagUint32], [0, 0, 0, 4], be 4 v.toNat]
  | .i64 v => [[tagInt64], [0, 0, 0, 8], be 8 v.toNat]
  | .u64 v => [[tagUint64], [0, 0, 0, 8], be 8 v.toNat]

/-- Memory and the encoder's slice (common/tlv/tlv.go:47-49). -/
structure MEncoder where
  mem : Mem
  buf : Slice
deriving DecidableEq, Repr

/-- `NewFixedEncoder` (common/tlv/tlv.go:72-78), non-negative arguments. -/
def newFixedEncoder (m : Mem) (dataLength numRecords : Nat) : MEncoder :=
  let (m', s) := m.make 0 (dataLength + numRecords * 5)
  ⟨m', s⟩

/-- `&tlv.Encoder{}`: nil slice. -/
def newEncoder (m : Mem) : MEncoder := ⟨m, {}⟩

/-- One `enc.buf = append(enc.buf, bs...)`. -/
def MEncoder.app (grow : Nat → Nat → Nat) (e : MEncoder) (bs : Bytes) : MEncoder :=
  let (m', s) := e.mem.append grow e.buf bs
  ⟨m', s⟩

/-- `Encoder.Encode` (common/tlv/tlv.go:82-146). -/
def MEncoder.encode (grow : Nat → Nat → Nat) (e : MEncoder) : Any → MEncoder × Bool
  | .val v => ((parts v).foldl (MEncoder.app grow) e, true)
  | .other => (e, false)

/-- `Encoder.Bytes` (common/tlv/tlv.go:52-54): a slice sharing the encoder's array. -/
def MEncoder.bytes (e : MEncoder) : Slice := e.buf

/-- `Encoder.Length` (common/tlv/tlv.go:57-59). -/
def MEncoder.length (e : MEncoder) : Nat := e.buf.len

/-- `Encoder.Zero` (common/tlv/tlv.go:62-69): wipe the visible bytes, drop the slice. -/
def MEncoder.zero (e : MEncoder) : MEncoder := ⟨e.mem.zero e.buf, {}⟩

/-- Memory and the decoder's slice (common/tlv/tlv.go:151-153). -/
structure MDecoder where
  mem : Mem
  buf : Slice
deriving DecidableEq, Repr

/-- `NewDecoder` (common/tlv/tlv.go:156-158): the decoder keeps the caller's slice itself. -/
def newDecoderM (m : Mem) (s : Slice) : MDecoder := ⟨m, s⟩

/-- The bytes between length and capacity of the decoder's slice. -/
def MDecoder.spare (d : MDecoder) : Bytes :=
  ((d.mem.get d.buf.arr).drop (d.buf.off + d.buf.len)).take (d.buf.cap - d.buf.len)

/-- What a `Decode` call leaves behind: the decoder with the memory, the target, the slice put
into a byte-string target, and the error. -/
structure MOut where
  dec : MDecoder
  tgt : Target
  place : Option Slice
  err : Option DecErr
deriving DecidableEq, Repr

/-- `Decoder.Decode` (common/tlv/tlv.go:171-250) in memory. The values, errors and panics are those
of `Tlv.Decoder.decode` on the bytes of the slice. On success `dec.buf = buf[int(l):]` (line 248) moves
the slice forward in the same array, and a byte string is a new array made by `make` and filled by
`copy` (lines 212-213). The early return for empty byte strings (lines 187-189) does neither. -/
def MDecoder.decode (d : MDecoder) (tgt : Target) : Res MOut :=
  match (Tlv.newDecoder (d.mem.read d.buf) d.spare).decode tgt with
  | .panic => .panic
  | .ok ⟨_, t, some e⟩ => .ok ⟨d, t, none, some e⟩
  | .ok ⟨v, t, none⟩ =>
    let k := d.buf.len - v.buf.length
    let s : Slice := ⟨d.buf.arr, d.buf.off + k, d.buf.len - k, d.buf.cap - k⟩
    match t with
    | .ptr (.bytes b) =>
      if k = 0 then .ok ⟨d, t, none, none⟩
      else .ok ⟨⟨{ arrays := d.mem.arrays ++ [b] }, s⟩, t,
        some ⟨d.mem.arrays.length, 0, b.length, b.length⟩, none⟩
    | _ => .ok ⟨⟨d.mem, s⟩, t, none, none⟩

/-- `Decoder.Zero` (common/tlv/tlv.go:161-168): wipe the visible bytes, drop the slice. -/
def MDecoder.zero (d : MDecoder) : MDecoder := ⟨d.mem.zero d.buf, {}⟩

/-- `Decoder.Length` (common/tlv/tlv.go:254-256). -/
def MDecoder.length (d : MDecoder) : Nat := d.buf.len

end Verif.Model.TlvMem
