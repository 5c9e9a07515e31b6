import Verif.Proofs.TlvDecMem
import Verif.Props.Tlv
/-! What `Decoder.Zero` of common/tlv leaves in memory (C184). -/

namespace Verif.Props.TlvDecMem
open Verif.Go Verif.Model.Tlv Verif.Model.TlvMem Verif.Spec.Tlv Verif.Proofs.Tlv Verif.Proofs.TlvDecMem

/-- C184, what holds: after any successful `Decode` calls, `Zero` turns what had not been decoded yet into
zeros and leaves a decoder of length 0 that reports every further `Decode` as too short. The values are those
the bytes stand for, and stay as they are: byte strings are copies in arrays of their own. Memory
outside the array of the buffer is untouched. Missing: the decoded part of the buffer. -/
theorem C184_unread_partial (m : Mem) (s : Slice) (hs : Mem.WF m s) (ts : List Val) (d : MDecoder)
    (outs : List (Val × Option Slice)) (h : decodeCallsM (newDecoderM m s) ts = .ok (some (d, outs))) :
    d.length ≤ s.len ∧ d.zero.length = 0 ∧
    d.zero.mem.read s = (m.read s).take (s.len - d.length) ++ List.replicate d.length 0 ∧
    (∃ x, decodeCalls (newDecoder (m.read s) (newDecoderM m s).spare) ts = .ok (some (x, outs.map Prod.fst)) ∧
      x.length = d.length) ∧
    (∀ v a, (v, some a) ∈ outs → v = .bytes (d.zero.mem.read a)) ∧
    (∀ b, (.bytes b, none) ∈ outs → .bytes b ∈ ts) ∧
    (∀ a, Mem.WF m a → a.arr ≠ s.arr → d.zero.mem.read a = m.read a) ∧
    ∀ v, d.zero.decode (.ptr v) = .ok ⟨d.zero, .ptr v, none, some .tooShort⟩ := by
  obtain ⟨k, extra, hk, hb, hm, hx, hv, hl, hn⟩ := calls_end ts (d := newDecoderM m s) hs h
  obtain ⟨⟨ar⟩, b⟩ := d
  simp only [newDecoderM] at hk hb hm hx hl hv
  subst hb hm
  have hcl := hs.len_le
  have hw : Mem.WF { arrays := m.arrays ++ extra } s := by
    by_cases h0 : extra = []
    · subst h0; rw [List.append_nil]; exact hs
    · exact wf_append hs (hx h0)
  have hlen : (MDecoder.mk { arrays := m.arrays ++ extra } (ahead s k)).length = s.len - k := rfl
  rw [hlen]
  have hother : ∀ a : Slice, (a.arr ≠ s.arr ∨ s.cap = 0) →
      (({ arrays := m.arrays ++ extra } : Mem).zero (ahead s k)).read a =
        ({ arrays := m.arrays ++ extra } : Mem).read a := by
    intro a ha
    rcases ha with ha | ha
    · exact read_zero_other (fun h => ha h.symm)
    · have h0 : (ahead s k).len = 0 := by simp only [ahead]; omega
      rw [Mem.zero, h0]
      exact congrArg (fun x => Mem.read x a) Mem.write_nil
  refine ⟨by omega, rfl, ?_, ⟨_, hv, ?_⟩, ?_, hn, ?_, fun v => ?_⟩
  · rw [show s.len - (s.len - k) = k by omega]
    show (({ arrays := m.arrays ++ extra } : Mem).zero (ahead s k)).read s = _
    rw [read_zero_self hw hk, read_append hs]
  · simp only [Decoder.length, newDecoder, List.length_drop, Mem.read_length hs]
  · intro v a hmem
    obtain ⟨h1, h2, -⟩ := hl v a hmem
    rw [h1]
    congr 1
    refine (hother a ?_).symm
    by_cases h0 : s.cap = 0
    · exact .inr h0
    · have := hs.live (by omega)
      exact .inl (by omega)
  · intro a ha hne
    exact (hother a (.inl hne)).trans (read_append ha)
  · exact decode_empty rfl (.ptr v)

/-- An example: two records, one of them decoded, three bytes of other data in the array. -/
example : ∃ m s ts d outs, Mem.WF m s ∧ decodeCallsM (newDecoderM m s) ts = .ok (some (d, outs)) ∧ d.length = 6 ∧
    outs = [(.bytes [0xAA, 0xBB], some ⟨1, 0, 2, 2⟩)] ∧
    d.zero.mem.arrays = [[9, 3, 0, 0, 0, 2, 0xAA, 0xBB, 0, 0, 0, 0, 0, 0, 8, 7], [0xAA, 0xBB]] :=
  ⟨⟨[[9, 3, 0, 0, 0, 2, 0xAA, 0xBB, 1, 0, 0, 0, 1, 5, 8, 7]]⟩, ⟨0, 1, 13, 15⟩, [.bytes []], _, _,
    ⟨by decide, by decide, by decide⟩, rfl, by decide, by decide, by decide⟩

/-- C184: a decoder that is wiped before anything is decoded wipes the whole of the caller's buffer. -/
theorem C184_all_unread (m : Mem) (s : Slice) (hs : Mem.WF m s) :
    (newDecoderM m s).zero.mem.read s = List.replicate s.len 0 := by
  have := (C184_unread_partial m s hs [] _ _ rfl).2.2.1
  rw [this]
  simp [MDecoder.length, newDecoderM]

example : ∃ m s, Mem.WF m s ∧ m.read s = [7, 8] :=
  ⟨⟨[[7, 8]]⟩, ⟨0, 0, 2, 2⟩, ⟨by decide, by decide, by decide⟩, by decide⟩

/-- C184 is false: once the values are decoded, `Zero` leaves their encoding in the caller's buffer as it was;
after the last value it wipes nothing at all. -/
theorem C184_read_violated (m : Mem) (s : Slice) (hs : Mem.WF m s) (vs ts : List Val) (rest : Bytes)
    (hty : ts.map ty = vs.map ty) (hne : Val.bytes [] ∉ vs) (hm : m.read s = encodeAll vs ++ rest)
    (hlen : s.len < 2 ^ 31) :
    ∃ d outs, decodeCallsM (newDecoderM m s) ts = .ok (some (d, outs)) ∧ outs.map Prod.fst = vs ∧
      d.zero.mem.read s = encodeAll vs ++ List.replicate rest.length 0 := by
  have hl := Mem.read_length hs
  have hc := Props.Tlv.C01_roundtrip vs ts rest (newDecoderM m s).spare hty hne (by rw [← hm, hl]; exact hlen)
  rw [← hm] at hc
  obtain ⟨d, outs, h⟩ := calls_total ts (d := newDecoderM m s) hs hc
  obtain ⟨h1, -, h3, ⟨x, hx, hxl⟩, -⟩ := C184_unread_partial m s hs ts d outs h
  rw [hc] at hx
  cases hx
  have hd : rest.length = d.length := hxl
  refine ⟨d, outs, h, rfl, ?_⟩
  rw [h3, hm, ← hd]
  have he : s.len - rest.length = (encodeAll (outs.map Prod.fst)).length := by
    rw [← hl, hm, List.length_append]; omega
  rw [he, List.take_left' rfl]

example : ∃ m s, ∃ vs ts : List Val, Mem.WF m s ∧ ts.map ty = vs.map ty ∧ Val.bytes [] ∉ vs ∧
    m.read s = encodeAll vs ++ [] ∧ s.len < 2 ^ 31 ∧ vs = [.bytes [0xAA, 0xBB], .u8 5] :=
  ⟨⟨[[3, 0, 0, 0, 2, 0xAA, 0xBB, 1, 0, 0, 0, 1, 5]]⟩, ⟨0, 0, 13, 13⟩, _, [.bytes [], .u8 0],
    ⟨by decide, by decide, by decide⟩, by decide, by decide, by decide, by decide, rfl⟩

end Verif.Props.TlvDecMem
