import Verif.Proofs.TlvMem
/-! The memory-level decoder refines the value-level one and only moves forward. -/

namespace Verif.Proofs.TlvDecMem
open Verif.Go Verif.Model.Tlv Verif.Model.TlvMem Verif.Spec.Tlv Verif.Proofs.Tlv

/-- The slice `k` bytes further on. -/
def ahead (s : Slice) (k : Nat) : Slice := ⟨s.arr, s.off + k, s.len - k, s.cap - k⟩

theorem get_append {m : Mem} {extra : List Bytes} {a : Nat} (h : a < m.arrays.length) :
    ({ arrays := m.arrays ++ extra } : Mem).get a = m.get a := by
  simp [Mem.get, List.getElem?_append_left h]

theorem get_dead {m : Mem} {a : Nat} (h : ¬ a < m.arrays.length) : m.get a = [] := by
  simp only [Mem.get]
  rw [List.getElem?_eq_none (by omega)]; rfl

theorem read_none {m : Mem} {s : Slice} (h : s.len = 0) : m.read s = [] := by
  simp [Mem.read, h]

theorem read_append {m : Mem} {extra : List Bytes} {s : Slice} (h : Mem.WF m s) :
    ({ arrays := m.arrays ++ extra } : Mem).read s = m.read s := by
  by_cases h0 : s.cap = 0
  · have := h.len_le
    rw [read_none (by omega), read_none (by omega)]
  · simp only [Mem.read, get_append (h.live (by omega))]

theorem wf_ahead {m : Mem} {s : Slice} {k : Nat} (h : Mem.WF m s) (hk : k ≤ s.len) :
    Mem.WF m (ahead s k) := by
  have h1 := h.len_le
  have h2 := h.cap_le
  refine ⟨?_, ?_, fun hp => h.live ?_⟩ <;> simp only [ahead] at * <;> omega

theorem wf_append {m : Mem} {extra : List Bytes} {s : Slice} (h : Mem.WF m s) (hc : 0 < s.cap) :
    Mem.WF { arrays := m.arrays ++ extra } s := by
  refine ⟨h.len_le, ?_, fun hp => ?_⟩
  · rw [get_append (h.live hc)]; exact h.cap_le
  · have := h.live hp
    simp only [List.length_append]; omega

theorem read_ahead {m : Mem} {s : Slice} {k : Nat} (hk : k ≤ s.len) :
    m.read (ahead s k) = (m.read s).drop k := by
  simp only [Mem.read, ahead, List.drop_take, List.drop_drop]

theorem split_length {buf : Bytes} {t l rest} (h : split buf = some (t, l, rest)) :
    rest = buf.drop 5 ∧ rest.length + 5 = buf.length := by
  obtain ⟨a, b, c, e, rfl, -⟩ := split_some_buf h
  exact ⟨rfl, rfl⟩

/-- What one successful call did. -/
structure Step (d : MDecoder) (cur : Val) (o : MOut) : Prop where
  ex : ∃ v k extra, o.tgt = .ptr v ∧ k ≤ d.buf.len ∧ o.dec.buf = ahead d.buf k ∧
    o.dec.mem.arrays = d.mem.arrays ++ extra ∧ (extra ≠ [] → 0 < d.buf.cap) ∧
    (o.place = none → v = cur ∨ ∀ b, v ≠ .bytes b) ∧
    (∀ a, o.place = some a → ∃ b, v = .bytes b ∧ extra = [b] ∧ a = ⟨d.mem.arrays.length, 0, b.length, b.length⟩) ∧
    (newDecoder (d.mem.read d.buf) d.spare).decode (.ptr cur) =
      .ok ⟨newDecoder ((d.mem.read d.buf).drop k) d.spare, .ptr v, none⟩

theorem decode_step {d : MDecoder} (h : Mem.WF d.mem d.buf) {cur : Val} {o : MOut}
    (hd : d.decode (.ptr cur) = .ok o) (he : o.err = none) : Step d cur o := by
  unfold MDecoder.decode at hd
  have hl := Mem.read_length h
  cases hv : (newDecoder (d.mem.read d.buf) d.spare).decode (.ptr cur) with
  | panic => rw [hv] at hd; cases hd
  | ok r =>
    rw [hv] at hd
    obtain ⟨v, t, err⟩ := r
    cases err with
    | some e => cases hd; cases he
    | none =>
      cases hs : split (d.mem.read d.buf) with
      | none =>
        rw [newDecoder, decode_nosplit _ _ _ hs] at hv; simp at hv
      | some x =>
        obtain ⟨tg, l, rest⟩ := x
        obtain ⟨hr, hrl⟩ := split_length hs
        rcases decode_success hs hv with ⟨-, -, hd', ht⟩ | ⟨-, h0, hll, -, hd', w, ht, hw, -⟩
        · subst hd' ht
          have hk : d.buf.len - (d.mem.read d.buf).length = 0 := by omega
          refine ⟨cur, 0, [], ?_⟩
          have ho : o = ⟨d, .ptr cur, none, none⟩ := by
            cases cur <;> simp only [hk] at hd <;> cases hd <;> rfl
          subst ho
          exact ⟨rfl, by omega, rfl, by simp, by simp, fun _ => .inl rfl, by simp, hv⟩
        · subst hd' ht
          have hlen : (rest.drop l.toNat).length + (5 + l.toNat) = d.buf.len := by
            rw [List.length_drop]; omega
          have hk : d.buf.len - (rest.drop l.toNat).length = 5 + l.toNat := by omega
          have hbuf : rest.drop l.toNat = (d.mem.read d.buf).drop (5 + l.toNat) := by
            rw [hr, List.drop_drop]
          have hcap := h.len_le
          have hv' : (newDecoder (d.mem.read d.buf) d.spare).decode (.ptr cur) =
              .ok ⟨newDecoder ((d.mem.read d.buf).drop (5 + l.toNat)) d.spare, .ptr w, none⟩ := by
            rw [hv, hbuf]; rfl
          cases w with
          | bytes b =>
            simp only [hk] at hd
            rw [if_neg (by omega)] at hd
            cases hd
            exact ⟨.bytes b, 5 + l.toNat, [b], rfl, by omega, rfl, rfl, fun _ => by omega, by simp,
              fun a ha => ⟨b, rfl, rfl, by cases ha; rfl⟩, hv'⟩
          | _ =>
            simp only [hk] at hd
            cases hd
            exact ⟨_, 5 + l.toNat, [], rfl, by omega, rfl, by simp, by simp, fun _ => .inr (by simp),
              by simp, hv'⟩

theorem step_wf {d : MDecoder} {m' : Mem} {k : Nat} {extra : List Bytes} (h : Mem.WF d.mem d.buf)
    (hk : k ≤ d.buf.len) (hm : m'.arrays = d.mem.arrays ++ extra) (hx : extra ≠ [] → 0 < d.buf.cap) :
    Mem.WF m' (ahead d.buf k) ∧ m'.read (ahead d.buf k) = (d.mem.read d.buf).drop k ∧
      (MDecoder.mk m' (ahead d.buf k)).spare = d.spare := by
  obtain ⟨ar⟩ := m'
  simp only at hm
  subst hm
  have h1 := h.len_le
  by_cases h0 : extra = []
  · subst h0
    simp only [List.append_nil]
    refine ⟨wf_ahead h hk, read_ahead hk, ?_⟩
    simp only [MDecoder.spare, ahead]
    rw [show d.buf.off + k + (d.buf.len - k) = d.buf.off + d.buf.len by omega,
      show d.buf.cap - k - (d.buf.len - k) = d.buf.cap - d.buf.len by omega]
  · have hc := hx h0
    have hw := wf_append (extra := extra) h hc
    refine ⟨wf_ahead hw hk, ?_, ?_⟩
    · rw [read_ahead hk, read_append h]
    · simp only [MDecoder.spare, ahead, get_append (h.live hc)]
      rw [show d.buf.off + k + (d.buf.len - k) = d.buf.off + d.buf.len by omega,
        show d.buf.cap - k - (d.buf.len - k) = d.buf.cap - d.buf.len by omega]

/-- Where some calls have got to. -/
theorem calls_end (ts : List Val) : ∀ {d d' : MDecoder} {outs}, Mem.WF d.mem d.buf →
    decodeCallsM d ts = .ok (some (d', outs)) →
    ∃ k extra, k ≤ d.buf.len ∧ d'.buf = ahead d.buf k ∧ d'.mem.arrays = d.mem.arrays ++ extra ∧
      (extra ≠ [] → 0 < d.buf.cap) ∧
      decodeCalls (newDecoder (d.mem.read d.buf) d.spare) ts =
        .ok (some (newDecoder ((d.mem.read d.buf).drop k) d.spare, outs.map Prod.fst)) ∧
      (∀ v a, (v, some a) ∈ outs → v = .bytes (d'.mem.read a) ∧ d.mem.arrays.length ≤ a.arr ∧
        a.arr < d'.mem.arrays.length) ∧
      (∀ b, (.bytes b, none) ∈ outs → .bytes b ∈ ts) := by
  induction ts with
  | nil =>
    intro d d' outs h hc
    cases hc
    exact ⟨0, [], by omega, rfl, by simp, by simp, rfl, by simp, by simp⟩
  | cons t ts ih =>
    intro d d' outs h hc
    rw [decodeCallsM] at hc
    cases hd : d.decode (.ptr t) with
    | panic => rw [hd] at hc; cases hc
    | ok o =>
      rw [hd] at hc
      obtain ⟨d1, tg, pl, er⟩ := o
      cases er with
      | some e => cases tg <;> cases hc
      | none =>
        obtain ⟨v, k, extra, htg, hk, hb, hm, hx, hp0, hp1, hv⟩ := (decode_step h hd rfl).ex
        simp only at htg hb hm hp0 hp1
        subst htg
        obtain ⟨m1, s1⟩ := d1
        simp only at hb hm
        subst hb
        obtain ⟨w1, r1, sp1⟩ := step_wf h hk hm hx
        simp only at hc
        cases hr : decodeCallsM ⟨m1, ahead d.buf k⟩ ts with
        | panic => rw [hr] at hc; cases hc
        | ok q =>
          rw [hr] at hc
          cases q with
          | none => cases hc
          | some q =>
            obtain ⟨d2, vs⟩ := q
            cases hc
            obtain ⟨k2, extra2, hk2, hb2, hm2, hx2, hv2, hl2, hn2⟩ := ih w1 hr
            simp only at hm2 hl2 hv2 hk2 hx2
            rw [hm] at hm2 hl2
            rw [r1, sp1] at hv2
            have hak : (ahead d.buf k).len = d.buf.len - k := rfl
            refine ⟨k + k2, extra ++ extra2, by omega, ?_, by rw [hm2, List.append_assoc], ?_, ?_, ?_, ?_⟩
            · rw [hb2]
              simp only [ahead, Slice.mk.injEq, true_and]
              omega
            · intro hne
              by_cases h0 : extra = []
              · have := hx2 (by intro h2; exact hne (by rw [h0, h2]; rfl))
                simp only [ahead] at this; omega
              · exact hx h0
            · rw [decodeCalls, hv]
              simp only [hv2, List.drop_drop, List.map_cons]
            · intro v' a hmem
              rcases List.mem_cons.1 hmem with heq | hmem
              · cases heq
                obtain ⟨b, hvb, hex, ha⟩ := hp1 a rfl
                subst hex ha
                refine ⟨?_, Nat.le_refl _, ?_⟩
                · rw [hvb]
                  congr 1
                  simp [Mem.read, Mem.get, hm2]
                · rw [hm2]; simp only [List.length_append, List.length_singleton]; omega
              · obtain ⟨h1, h2, h3⟩ := hl2 v' a hmem
                refine ⟨h1, ?_, h3⟩
                rw [List.length_append] at h2; omega
            · intro b hmem
              rcases List.mem_cons.1 hmem with heq | hmem
              · cases heq
                rcases hp0 rfl with h' | h'
                · exact List.mem_cons.2 (.inl h')
                · exact absurd rfl (h' b)
              · exact List.mem_cons.2 (.inr (hn2 b hmem))

theorem decode_total {d : MDecoder} {t : Target} {x : Decoder} {t' : Target}
    (h : (newDecoder (d.mem.read d.buf) d.spare).decode t = .ok ⟨x, t', none⟩) :
    ∃ o, d.decode t = .ok o ∧ o.err = none := by
  unfold MDecoder.decode
  rw [h]
  cases t' with
  | ptr v =>
    cases v with
    | bytes b => simp only; split <;> exact ⟨_, rfl, rfl⟩
    | _ => exact ⟨_, rfl, rfl⟩
  | _ => exact ⟨_, rfl, rfl⟩

/-- Calls that succeed on the bytes succeed in memory. -/
theorem calls_total (ts : List Val) : ∀ {d : MDecoder} {r}, Mem.WF d.mem d.buf →
    decodeCalls (newDecoder (d.mem.read d.buf) d.spare) ts = .ok (some r) →
    ∃ d' outs, decodeCallsM d ts = .ok (some (d', outs)) := by
  induction ts with
  | nil => intro d r _ _; exact ⟨_, _, rfl⟩
  | cons t ts ih =>
    intro d r h hc
    rw [decodeCalls] at hc
    cases hv : (newDecoder (d.mem.read d.buf) d.spare).decode (.ptr t) with
    | panic => rw [hv] at hc; cases hc
    | ok q =>
      rw [hv] at hc
      obtain ⟨x, tg, er⟩ := q
      cases er with
      | some e => cases tg <;> cases hc
      | none =>
        obtain ⟨o, ho, he⟩ := decode_total hv
        obtain ⟨v, k, extra, htg, hk, hb, hm, hx, -, -, hv'⟩ := (decode_step h ho he).ex
        rw [hv] at hv'
        cases hv'
        obtain ⟨⟨m1, s1⟩, tg1, pl, er1⟩ := o
        simp only at htg hb hm he
        subst htg hb he
        obtain ⟨w1, r1, sp1⟩ := step_wf h hk hm hx
        simp only at hc
        cases hr : decodeCalls (newDecoder (List.drop k (d.mem.read d.buf)) d.spare) ts with
        | panic => rw [hr] at hc; cases hc
        | ok q =>
          rw [hr] at hc
          cases q with
          | none => cases hc
          | some q =>
            rw [← r1, ← sp1] at hr
            obtain ⟨d', outs, h'⟩ := ih (d := ⟨m1, ahead d.buf k⟩) w1 hr
            refine ⟨d', (v, pl) :: outs, ?_⟩
            rw [decodeCallsM, ho]
            simp only [h']

theorem decode_empty {d : MDecoder} (h : d.buf.len = 0) (t : Target) :
    d.decode t = .ok ⟨d, t, none, some .tooShort⟩ := by
  unfold MDecoder.decode
  rw [read_none h, newDecoder, decode_nosplit _ _ _ rfl]

theorem read_zero_self {m : Mem} {s : Slice} (h : Mem.WF m s) {k : Nat} (hk : k ≤ s.len) :
    (m.zero (ahead s k)).read s = (m.read s).take k ++ List.replicate (s.len - k) 0 := by
  have hcl := h.cap_le
  have hll := h.len_le
  by_cases h0 : s.len = 0
  · have : k = 0 := by omega
    subst this
    simp [read_none h0, h0]
  have hlive := h.live (by omega)
  have hg : (m.zero (ahead s k)).get s.arr = Mem.setAt (m.get s.arr) (s.off + k) (List.replicate (s.len - k) 0) :=
    Mem.get_write_self hlive
  simp only [Mem.read, hg, Mem.setAt]
  have hlt : ((m.get s.arr).take (s.off + k)).length = s.off + k := by
    simp only [List.length_take]; omega
  rw [List.append_assoc, List.drop_append_of_le_length (by omega), List.drop_take, Nat.add_sub_cancel_left,
    ← List.append_assoc, List.take_take, Nat.min_eq_left hk]
  exact List.take_left' (by simp only [List.length_append, List.length_take, List.length_drop, List.length_replicate]; omega)

theorem read_zero_other {m : Mem} {s a : Slice} (h : s.arr ≠ a.arr) : (m.zero s).read a = m.read a := by
  simp only [Mem.read, Mem.zero, Mem.get_write_ne h]

end Verif.Proofs.TlvDecMem
