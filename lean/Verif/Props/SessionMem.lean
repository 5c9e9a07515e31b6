import Verif.Model.SessionMem
import Verif.Props.Auth
/-! What `Session.Zero` of common/auth leaves of a session (C195). -/

namespace Verif.Props.SessionMem
open Verif Verif.Go Verif.Model.Util Verif.Model.Auth Verif.Model.SessionMem Verif.Spec.Auth Verif.Spec.Public
  Verif.Proofs.Auth
open Verif.Model.SessionMem (Session)

variable (C : Crypto)

/-- A key that is the whole of its array. -/
theorem read_whole {m : Mem} {a : Nat} {k : Bytes} (h : m.get a = k) :
    m.read { arr := a, off := 0, len := k.length, cap := k.length } = k := by
  simp [Mem.read, h]

/-- What `KeySession` leaves: the session key in a new array of its own. -/
theorem keySession_fresh {m m' : Mem} {priv pub : Bytes} {s : Session}
    (h : Model.SessionMem.keySession C m priv pub = .ok (m', some s)) :
    ∃ k, Model.Auth.keySession C priv pub = .ok (some k) ∧ m' = { arrays := m.arrays ++ [k] } ∧
      s = { shared := { arr := m.arrays.length, off := 0, len := k.length, cap := k.length } } := by
  unfold Model.SessionMem.keySession at h
  obtain ⟨o, ho, h⟩ := Res.bind_eq_ok.mp h
  cases o with
  | none => simp [pure] at h
  | some k =>
    simp only [pure, Res.ok.injEq, Prod.mk.injEq, Option.some.injEq] at h
    exact ⟨k, ho, h.1.symm, h.2.symm⟩

/-- The key `KeySession` arrives at has 32 bytes. -/
theorem keySession_length {priv pub k : Bytes} (h : Model.Auth.keySession C priv pub = .ok (some k)) : k.length = 32 := by
  unfold Model.Auth.keySession at h
  obtain ⟨o, -, h⟩ := Res.bind_eq_ok.mp h
  cases o with
  | none => simp [pure] at h
  | some p =>
    simp only at h
    split at h
    · simp [pure] at h
    · obtain ⟨k', hk, h⟩ := Res.bind_eq_ok.mp h
      simp only [pure, Res.ok.injEq, Option.some.injEq] at h
      subst h
      unfold Model.Public.keyExchange at hk
      obtain ⟨_, -, hk⟩ := Res.bind_eq_ok.mp hk
      obtain ⟨_, -, hk⟩ := Res.bind_eq_ok.mp hk
      obtain ⟨_, -, hk⟩ := Res.bind_eq_ok.mp hk
      obtain ⟨_, -, hk⟩ := Res.bind_eq_ok.mp hk
      cases hk
      exact C.shared_length _ _

/-- The answers of a wiped session, wherever the challenge lies. -/
theorem otp_value (s : Session) (grow : Nat → Nat → Nat) (m : Mem) (next : Slice) (hw : Mem.WF m next) :
    (s.otp C grow m next).2 = sessionOTP C (m.read s.shared) (m.read next) :=
  (Props.Auth.C89_otp_memory_partial C grow m (m.read s.shared) next hw).1

/-- Wiping the session that `KeySession` made: its array is zeros, every other is as before. -/
theorem zero_arrays {m m₀ m₁ : Mem} {priv pub : Bytes} {s : Session}
    (h : Model.SessionMem.keySession C m₀ priv pub = .ok (m, some s)) (hm : m.arrays.length ≤ m₁.arrays.length)
    (hk : m₁.get s.shared.arr = m.get s.shared.arr) :
    (s.zero m₁).get s.shared.arr = List.replicate 32 0 ∧ (s.zero m₁).read s.shared = List.replicate 32 0 ∧
    ∀ a, a ≠ s.shared.arr → (s.zero m₁).get a = m₁.get a := by
  obtain ⟨k, h1, h2, h3⟩ := keySession_fresh C h
  have hl := keySession_length C h1
  subst h2 h3
  simp only [List.length_append, List.length_singleton] at hm
  have hget : ({ arrays := m₀.arrays ++ [k] } : Mem).get m₀.arrays.length = k := by simp [Mem.get]
  simp only [hget] at hk
  have hself : ∀ x : Mem, x.get m₀.arrays.length = List.replicate 32 0 →
      x.read { arr := m₀.arrays.length, off := 0, len := k.length, cap := k.length } = List.replicate 32 0 := by
    intro x hx
    rw [hl]
    have := read_whole hx
    simpa only [List.length_replicate] using this
  have hz : (Session.zero { shared := { arr := m₀.arrays.length, off := 0, len := k.length, cap := k.length } }
      m₁).get m₀.arrays.length = List.replicate 32 0 := by
    unfold Session.zero
    simp only
    rw [read_whole hk, zero_eq, Mem.get_write_self (by omega), hk, hl]
    simp [Mem.setAt, hl]
  exact ⟨hz, hself _ hz, fun a ha => Mem.get_write_ne (Ne.symm ha)⟩

/-- C195, what holds: a session that `KeySession` made, and that is wiped at any later time, whatever the arrays
then hold, has 32 zeros where its key was; no other array changes. A server that still holds the session key
refuses what the session answers from then on, and does not change, unless the two keys have the same HMAC of the
challenge. Missing: that the session answers nothing. -/
theorem C195_wiped_partial (m m₀ m₁ : Mem) (priv pub : Bytes) (s : Session)
    (h : Model.SessionMem.keySession C m₀ priv pub = .ok (m, some s)) (hm : m.arrays.length ≤ m₁.arrays.length)
    (hk : m₁.get s.shared.arr = m.get s.shared.arr) :
    (s.zero m₁).get s.shared.arr = List.replicate 32 0 ∧
    (∀ a, a ≠ s.shared.arr → (s.zero m₁).get a = m₁.get a) ∧
    ∀ grow next a rng, Mem.WF (s.zero m₁) next → a.secret = m.read s.shared →
      hexDecode a.last = some ((s.zero m₁).read next) →
      C.hmacSha256 (m.read s.shared) ((s.zero m₁).read next) ≠
        C.hmacSha256 (List.replicate 32 0) ((s.zero m₁).read next) →
      ∃ e r, validateSession C (some a) (s.otp C grow (s.zero m₁) next).2 rng = (⟨some a, false, some e⟩, r) := by
  obtain ⟨h1, h2, h3⟩ := zero_arrays C h hm hk
  refine ⟨h1, h3, fun grow next a rng hw ha hl hne => ?_⟩
  have hv := validateSession_bad (C := C) (a := a) (otp := (s.otp C grow (s.zero m₁) next).2) (rng := rng) ?_
  · obtain ⟨e, he⟩ := hv
    exact ⟨e, _, he⟩
  · rintro ⟨-, ch, -, hc1, hc2⟩
    rw [hl] at hc1
    cases hc1
    rw [otp_value C s grow _ next hw, h2, sessionOTP, hexDecode_encode] at hc2
    have := List.append_cancel_left (Option.some.inj hc2)
    rw [ha] at this
    exact hne this.symm

/-- C195 is false: a wiped session goes on answering. Its answer to any challenge is the proper answer under a key
of 32 zeros, whoever's session it was: two people who wiped theirs give the same answers, and everybody can
compute them. -/
theorem C195_answers_violated (m m₀ m₁ : Mem) (priv pub : Bytes) (s : Session)
    (h : Model.SessionMem.keySession C m₀ priv pub = .ok (m, some s)) (hm : m.arrays.length ≤ m₁.arrays.length)
    (hk : m₁.get s.shared.arr = m.get s.shared.arr) (grow : Nat → Nat → Nat) (next : Slice)
    (hw : Mem.WF (s.zero m₁) next) :
    (s.otp C grow (s.zero m₁) next).2 = sessionOTP C (List.replicate 32 0) ((s.zero m₁).read next) := by
  rw [otp_value C s grow _ next hw, (zero_arrays C h hm hk).2.1]

/-- An example: a session is made from two keys, a challenge is received, the session is wiped. -/
example : ∃ (m : Mem) (s : Session) (m₁ : Mem) (next : Slice), ∃ priv pub : Bytes,
    Model.SessionMem.keySession Toy.crypto ⟨[[5]]⟩ priv pub = .ok (m, some s) ∧
    m.arrays.length ≤ m₁.arrays.length ∧ m₁.get s.shared.arr = m.get s.shared.arr ∧
    m.read s.shared ≠ List.replicate 32 0 ∧
    Mem.WF (s.zero m₁) next ∧ (s.zero m₁).read next = List.replicate 32 4 := by
  obtain ⟨privB, pubB, k, h1, h2, h3, h4⟩ := Props.Auth.C38_shared_key_partial Toy.crypto (List.replicate 32 1)
    (List.replicate 32 2) (List.replicate 32 3) (List.replicate 32 4) (by decide) (by decide)
  refine ⟨⟨[[5], k]⟩, { shared := ⟨1, 0, k.length, k.length⟩ }, ⟨[[5], k, List.replicate 32 4]⟩, ⟨2, 0, 32, 32⟩,
    privB, pubB, ?_, by simp, rfl, ?_, ?_, ?_⟩
  · unfold Model.SessionMem.keySession
    rw [h3]; rfl
  · have : k = Toy.crypto.shared (Toy.crypto.base (List.replicate 32 1)) (List.replicate 32 3) := by
      have h5 : (Res.ok k : Res Bytes) = .ok _ := h4.symm.trans rfl
      exact Res.ok.inj h5
    rw [show Mem.read ⟨[[5], k]⟩ ⟨1, 0, k.length, k.length⟩ = k from read_whole rfl, this]
    decide
  · refine ⟨by decide, ?_, ?_⟩
    · show 0 + 32 ≤ _
      rw [show (Session.zero { shared := ⟨1, 0, k.length, k.length⟩ } ⟨[[5], k, List.replicate 32 4]⟩).get 2 =
        List.replicate 32 4 from Mem.get_write_ne (show 1 ≠ 2 by decide)]
      decide
    · intro _; simp [Session.zero, Mem.write]
  · rw [Mem.read, show (Session.zero { shared := ⟨1, 0, k.length, k.length⟩ } ⟨[[5], k, List.replicate 32 4]⟩).get 2 =
        List.replicate 32 4 from Mem.get_write_ne (show 1 ≠ 2 by decide)]
    decide

end Verif.Props.SessionMem
