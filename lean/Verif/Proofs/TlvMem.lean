import Verif.Model.TlvMem
import Verif.Proofs.Tlv
/-! The memory-level encoder refines the value-level one. -/

namespace Verif.Proofs.TlvMem
open Verif.Go Verif.Model.Tlv Verif.Model.TlvMem Verif.Spec.Tlv Verif.Proofs.Tlv

theorem parts_flatten (v : Val) : (parts v).flatten = record v := by
  cases v <;> simp [parts, record]

def WF (e : MEncoder) : Prop := Mem.WF e.mem e.buf

def content (e : MEncoder) : Bytes := e.mem.read e.buf

theorem app_wf (grow) {e : MEncoder} (h : WF e) (bs : Bytes) :
    WF (e.app grow bs) ∧ content (e.app grow bs) = content e ++ bs :=
  Mem.append_wf grow h bs

theorem foldl_app_wf (grow) {e : MEncoder} (h : WF e) (ps : List Bytes) :
    WF (ps.foldl (MEncoder.app grow) e) ∧
    content (ps.foldl (MEncoder.app grow) e) = content e ++ ps.flatten := by
  induction ps generalizing e with
  | nil => simpa using h
  | cons p ps ih =>
    obtain ⟨h1, h2⟩ := app_wf grow h p
    obtain ⟨h3, h4⟩ := ih h1
    exact ⟨h3, by rw [List.foldl_cons, h4, h2]; simp⟩

theorem encode_wf (grow) {e : MEncoder} (h : WF e) (a : Any) :
    WF (e.encode grow a).1 ∧
    content (e.encode grow a).1 = (Encoder.encode ⟨content e⟩ a).1.buf ∧
    (e.encode grow a).2 = (Encoder.encode ⟨content e⟩ a).2 := by
  cases a with
  | other => exact ⟨h, rfl, rfl⟩
  | val v =>
    obtain ⟨h1, h2⟩ := foldl_app_wf grow h (parts v)
    exact ⟨h1, by simpa [MEncoder.encode, Encoder.encode, parts_flatten] using h2, rfl⟩

theorem encodeCallsM_content (grow) (as : List Any) {e : MEncoder} (h : WF e) :
    WF (encodeCallsM grow e as) ∧
    content (encodeCallsM grow e as) = (encodeCalls ⟨content e⟩ as).buf := by
  induction as generalizing e with
  | nil => exact ⟨h, rfl⟩
  | cons a as ih =>
    obtain ⟨h1, h2, -⟩ := encode_wf grow h a
    obtain ⟨h3, h4⟩ := ih h1
    refine ⟨h3, ?_⟩
    rw [encodeCallsM, h4, h2, encodeCalls]

theorem newEncoder_wf (m : Mem) : WF (newEncoder m) ∧ content (newEncoder m) = [] := by
  constructor
  · constructor <;> simp [newEncoder]
  · simp [content, Mem.read, newEncoder]

theorem newFixedEncoder_wf (m : Mem) (d n : Nat) :
    WF (newFixedEncoder m d n) ∧ content (newFixedEncoder m d n) = [] := by
  constructor
  · constructor <;> simp [newFixedEncoder, Mem.make, Mem.get]
  · simp [content, Mem.read, newFixedEncoder, Mem.make]

/-- State of an encoder that has not outgrown its first array, which was allocated last. -/
def InPlace (m : Mem) (c : Nat) (e : MEncoder) : Prop :=
  e.buf.arr = m.arrays.length ∧ e.buf.off = 0 ∧ e.buf.cap = c ∧ (e.buf.len ≤ c ∧ (content e).length = e.buf.len) ∧
  e.mem.arrays = m.arrays ++ [content e ++ List.replicate (c - e.buf.len) 0]

theorem inPlace_len {m c e} (h : InPlace m c e) : (content e).length = e.buf.len := h.2.2.2.1.2

theorem inPlace_app (grow) {m c e} (h : InPlace m c e) (bs : Bytes)
    (hc : e.buf.len + bs.length ≤ c) :
    InPlace m c (e.app grow bs) ∧ (e.app grow bs).buf.len = e.buf.len + bs.length := by
  have hlen := inPlace_len h
  obtain ⟨h1, h2, h3, ⟨h4, -⟩, h5⟩ := h
  have hget : e.mem.get e.buf.arr = content e ++ List.replicate (c - e.buf.len) 0 := by
    simp [Mem.get, h5, h1]
  have hset : Mem.setAt (content e ++ List.replicate (c - e.buf.len) 0) e.buf.len bs =
      content e ++ bs ++ List.replicate (c - (e.buf.len + bs.length)) 0 := by
    have hdd : c - e.buf.len - bs.length = c - (e.buf.len + bs.length) := by omega
    simp [Mem.setAt, List.drop_append, hlen, hdd, List.drop_eq_nil_of_le]
  have hmem : (e.mem.write e.buf.arr e.buf.len bs).arrays =
      m.arrays ++ [content e ++ bs ++ List.replicate (c - (e.buf.len + bs.length)) 0] := by
    simp only [Mem.write, hget, hset]
    rw [h5, h1, List.set_append_right _ _ (by omega)]
    simp
  have happ : e.app grow bs =
      ⟨e.mem.write e.buf.arr e.buf.len bs, { e.buf with len := e.buf.len + bs.length }⟩ := by
    simp [MEncoder.app, Mem.append, h3, hc, h2]
  have hcont : content (e.app grow bs) = content e ++ bs := by
    simp only [content, happ, Mem.read, h2, List.drop_zero]
    have : (e.mem.write e.buf.arr e.buf.len bs).get e.buf.arr =
        content e ++ bs ++ List.replicate (c - (e.buf.len + bs.length)) 0 := by
      rw [Mem.get, hmem, h1]; simp
    rw [this]
    have hl : (content e ++ bs).length = e.buf.len + bs.length := by simp [hlen]
    rw [← hl, List.take_left' rfl, content, Mem.read, h2]; rfl
  refine ⟨⟨?_, ?_, ?_, ?_, ?_⟩, ?_⟩
  · simp [happ, h1]
  · simp [happ, h2]
  · simp [happ, h3]
  · rw [hcont, happ]; exact ⟨hc, by simp [hlen]⟩
  · rw [hcont, happ]; exact hmem
  · simp [happ]

theorem inPlace_parts (grow) {m c} (ps : List Bytes) {e} (h : InPlace m c e)
    (hc : e.buf.len + ps.flatten.length ≤ c) :
    InPlace m c (ps.foldl (MEncoder.app grow) e) ∧
    (ps.foldl (MEncoder.app grow) e).buf.len = e.buf.len + ps.flatten.length := by
  induction ps generalizing e with
  | nil => exact ⟨h, rfl⟩
  | cons p ps ih =>
    simp only [List.flatten_cons, List.length_append] at hc ⊢
    obtain ⟨h1, h2⟩ := inPlace_app grow h p (by omega)
    obtain ⟨h3, h4⟩ := ih h1 (by omega)
    exact ⟨h3, by rw [List.foldl_cons, h4, h2]; omega⟩

theorem inPlace_calls (grow) {m c} (vs : List Val) {e} (h : InPlace m c e)
    (hc : e.buf.len + (vs.flatMap record).length ≤ c) :
    InPlace m c (encodeCallsM grow e (vs.map .val)) := by
  induction vs generalizing e with
  | nil => exact h
  | cons v vs ih =>
    simp only [List.flatMap_cons, List.length_append] at hc
    have hp := parts_flatten v
    obtain ⟨h1, h2⟩ := inPlace_parts grow (parts v) h (by rw [hp]; omega)
    rw [hp] at h2
    exact ih h1 (by simp only [MEncoder.encode] at *; omega)

theorem inPlace_zero {m c e} (h : InPlace m c e) :
    e.zero.mem.arrays = m.arrays ++ [List.replicate c 0] := by
  have hlen := inPlace_len h
  obtain ⟨h1, h2, h3, ⟨h4, -⟩, h5⟩ := h
  have hget : e.mem.get e.buf.arr = content e ++ List.replicate (c - e.buf.len) 0 := by
    simp [Mem.get, h5, h1]
  simp only [MEncoder.zero, Mem.zero, Mem.write, hget, h2]
  rw [h5, h1, List.set_append_right _ _ (by omega)]
  have hle : e.buf.len + (c - e.buf.len) = c := by omega
  simp [Mem.setAt, hlen, hle]

theorem newFixed_inPlace (m : Mem) (d n : Nat) :
    InPlace m (d + n * 5) (newFixedEncoder m d n) := by
  refine ⟨rfl, rfl, rfl, ⟨by simp [newFixedEncoder, Mem.make], ?_⟩, ?_⟩
  · rw [(newFixedEncoder_wf m d n).2]; rfl
  rw [(newFixedEncoder_wf m d n).2]
  simp [newFixedEncoder, Mem.make]

theorem zero_read {e : MEncoder} (h : WF e) :
    e.zero.mem.read e.bytes = List.replicate e.length 0 := by
  have hcl := Mem.WF.cap_le h
  have hll := Mem.WF.len_le h
  simp only [MEncoder.zero, MEncoder.bytes, MEncoder.length, Mem.zero]
  by_cases h0 : e.buf.len = 0
  · simp [Mem.read, h0]
  have hlive := Mem.WF.live h (by omega)
  simp only [Mem.read, Mem.get_write_self hlive, Mem.setAt]
  rw [List.append_assoc, List.drop_append_of_le_length (by simp only [List.length_take]; omega)]
  have : (List.take e.buf.off (e.mem.get e.buf.arr)).drop e.buf.off = [] :=
    List.drop_eq_nil_of_le (by simp only [List.length_take]; omega)
  rw [this, List.nil_append, List.take_left' (by simp)]

/-! ### Arrays that are left behind -/

/-- An `append` that does not fit leaves everything as it was and goes to a new array. -/
theorem inPlace_grow (grow) {e : MEncoder} (h : WF e) (bs : Bytes) (hc : ¬ e.buf.len + bs.length ≤ e.buf.cap) :
    ∃ c, InPlace e.mem c (e.app grow bs) := by
  obtain ⟨h1, h2⟩ := app_wf grow h bs
  have hl := Mem.read_length h
  have happ : e.app grow bs = ⟨{ arrays := e.mem.arrays ++ [content e ++ bs ++
      List.replicate (grow e.buf.cap (e.buf.len + bs.length)) 0] },
      { arr := e.mem.arrays.length, off := 0, len := e.buf.len + bs.length,
        cap := e.buf.len + bs.length + grow e.buf.cap (e.buf.len + bs.length) }⟩ := by
    simp only [MEncoder.app, Mem.append, if_neg hc, content]
  refine ⟨_, ?_, ?_, rfl, ⟨h1.len_le, ?_⟩, ?_⟩
  · rw [happ]
  · rw [happ]
  · rw [h2, happ, List.length_append]
    show _ = e.buf.len + bs.length
    rw [← hl]; rfl
  · rw [h2, happ]
    simp only
    congr 4
    omega

/-- However values are appended, the encoder works on the array allocated last, which has only zeros behind the data. -/
theorem inPlace_step (grow) {m c e} (hw : WF e) (h : InPlace m c e) (bs : Bytes) :
    ∃ m' c', InPlace m' c' (e.app grow bs) := by
  by_cases hc : e.buf.len + bs.length ≤ e.buf.cap
  · exact ⟨m, c, (inPlace_app grow h bs (by rw [h.2.2.1] at hc; exact hc)).1⟩
  · obtain ⟨c', h'⟩ := inPlace_grow grow hw bs hc
    exact ⟨_, c', h'⟩

theorem inPlace_foldl (grow) (ps : List Bytes) {m c e} (hw : WF e) (h : InPlace m c e) :
    ∃ m' c', InPlace m' c' (ps.foldl (MEncoder.app grow) e) := by
  induction ps generalizing m c e with
  | nil => exact ⟨m, c, h⟩
  | cons p ps ih =>
    obtain ⟨m1, c1, h1⟩ := inPlace_step grow hw h p
    exact ih (app_wf grow hw p).1 h1

theorem inPlace_any (grow) (as : List Any) {m c e} (hw : WF e) (h : InPlace m c e) :
    ∃ m' c', InPlace m' c' (encodeCallsM grow e as) := by
  induction as generalizing m c e with
  | nil => exact ⟨m, c, h⟩
  | cons a as ih =>
    cases a with
    | other => exact ih hw h
    | val v =>
      obtain ⟨m1, c1, h1⟩ := inPlace_foldl grow (parts v) hw h
      exact ih (encode_wf grow hw (.val v)).1 h1

theorem parts_cons (v : Val) : ∃ ps, parts v = [(ty v).tag] :: ps := by
  cases v <;> exact ⟨_, rfl⟩

/-- A first value makes the nil slice an array. -/
theorem inPlace_first (grow) (m : Mem) (d n : Nat) (e : MEncoder) (he : e = newEncoder m ∨ e = newFixedEncoder m d n)
    (v : Val) : ∃ m' c, InPlace m' c (e.encode grow (.val v)).1 := by
  rcases he with rfl | rfl
  · obtain ⟨ps, hps⟩ := parts_cons v
    have hw := (newEncoder_wf m).1
    obtain ⟨c, h⟩ := inPlace_grow grow hw [(ty v).tag] (by simp [newEncoder])
    simp only [MEncoder.encode, hps, List.foldl_cons]
    exact inPlace_foldl grow ps (app_wf grow hw _).1 h
  · exact inPlace_foldl grow (parts v) (newFixedEncoder_wf m d n).1 (newFixed_inPlace m d n)

/-- Some array that is not the encoder's begins with `x`. -/
def Kept (x : Bytes) (e : MEncoder) : Prop :=
  ∃ i y, i ≠ e.buf.arr ∧ e.mem.arrays[i]? = some y ∧ x <+: y

theorem kept_app (grow) {x : Bytes} {e : MEncoder} (h : Kept x e) (bs : Bytes) : Kept x (e.app grow bs) := by
  obtain ⟨i, y, h1, h2, h3⟩ := h
  by_cases hc : e.buf.len + bs.length ≤ e.buf.cap
  · have happ : e.app grow bs = ⟨e.mem.write e.buf.arr (e.buf.off + e.buf.len) bs, { e.buf with len := e.buf.len + bs.length }⟩ := by
      simp only [MEncoder.app, Mem.append, if_pos hc]
    refine ⟨i, y, by rw [happ]; exact h1, ?_, h3⟩
    rw [happ]
    simp only [Mem.write]
    rw [List.getElem?_set_ne (Ne.symm h1)]
    exact h2
  · have happ : e.app grow bs = ⟨{ arrays := e.mem.arrays ++ [e.mem.read e.buf ++ bs ++
        List.replicate (grow e.buf.cap (e.buf.len + bs.length)) 0] },
        { arr := e.mem.arrays.length, off := 0, len := e.buf.len + bs.length,
          cap := e.buf.len + bs.length + grow e.buf.cap (e.buf.len + bs.length) }⟩ := by
      simp only [MEncoder.app, Mem.append, if_neg hc]
    obtain ⟨hi, -⟩ := List.getElem?_eq_some_iff.mp h2
    refine ⟨i, y, by rw [happ]; exact Nat.ne_of_lt hi, ?_, h3⟩
    rw [happ]
    simp only
    rw [List.getElem?_append_left hi]
    exact h2

theorem kept_grow (grow) {x : Bytes} {m c e} (h : InPlace m c e) (hw : WF e) (bs : Bytes)
    (hc : ¬ e.buf.len + bs.length ≤ e.buf.cap) (hx : x <+: content e) : Kept x (e.app grow bs) := by
  obtain ⟨c', h'⟩ := inPlace_grow grow hw bs hc
  obtain ⟨h1, -, -, -, h5⟩ := h
  obtain ⟨g1, -, -, -, g5⟩ := h'
  have hlen : e.mem.arrays.length = m.arrays.length + 1 := by rw [h5]; simp
  refine ⟨m.arrays.length, _, by omega, ?_, hx.trans (List.prefix_append _ (List.replicate (c - e.buf.len) 0))⟩
  rw [g5, List.getElem?_append_left (by omega), h5, List.getElem?_append_right (Nat.le_refl _), Nat.sub_self]
  rfl

theorem kept_zero {x : Bytes} {e : MEncoder} (h : Kept x e) : ∃ y ∈ e.zero.mem.arrays, x <+: y := by
  obtain ⟨i, y, h1, h2, h3⟩ := h
  refine ⟨y, List.mem_of_getElem? (i := i) ?_, h3⟩
  simp only [MEncoder.zero, Mem.zero, Mem.write]
  rw [List.getElem?_set_ne (Ne.symm h1)]
  exact h2

end Verif.Proofs.TlvMem
