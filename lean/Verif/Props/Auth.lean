import Verif.Proofs.Auth
import Verif.Props.Totp
import Verif.Props.Public
/-! Properties of the YubiKey, session and password authenticators and of the dispatcher
(C34-C44, C88). -/

namespace Verif.Props.Auth
open Verif Verif.Go Verif.Model.Util Verif.Model.Tlv Verif.Model.Auth Verif.Spec.Auth
  Verif.Spec.Tlv Verif.Spec.Public Verif.Proofs.Tlv Verif.Proofs.Public Verif.Proofs.Auth

variable (C : Crypto)

/-! ### YubiKey -/

/-- C34 (serialised size below 2 GiB): configurations with a 16-byte key survive, others are
refused. -/
theorem C34_roundtrip (c : YubiKeyConfig) (spare : Bytes)
    (hl : c.key.length + c.pub.length < 2 ^ 31 - 19) :
    (c.key.length = 16 → parseYubiKeyConfig c.bytes spare = .ok (some c)) ∧
    (c.key.length ≠ 16 → parseYubiKeyConfig c.bytes spare = .ok none) :=
  ⟨fun hk => parseYk_bytes c spare hk (by omega), fun hk => parseYk_bad c spare hk hl⟩

/-- C34: whatever parses, from any source, has a 16-byte key. -/
theorem C34_parsed_key (b spare : Bytes) (c : YubiKeyConfig)
    (h : parseYubiKeyConfig b spare = .ok (some c)) : c.key.length = 16 := parseYk_key h

/-- A toy YubiKey library: four bytes of identity, then counter (two bytes) and use counter;
the key is ignored. -/
def toyYubi : Yubi where
  parseOTP b := if b.length = 7 then some (b.take 4, b.drop 4) else none
  parseToken _ b := match b with
    | [x, y, u] => some ⟨BitVec.ofNat 16 (x.toNat * 256 + y.toNat), BitVec.ofNat 8 u.toNat⟩
    | _ => none

/-- A toy authenticator with counter 7. -/
def toyYk : Authenticator :=
  { typ := typeYubiKey,
    secret := ({ key := List.replicate 16 1, counter := 7, pub := [1, 2, 3, 4] } : YubiKeyConfig).bytes }

theorem toyYk_parse : parseYubiKeyConfig toyYk.secret =
    .ok (some { key := List.replicate 16 1, counter := 7, pub := [1, 2, 3, 4] }) :=
  parseYk_bytes _ [] (by decide) (by decide)

example : ∃ c : YubiKeyConfig, c.key.length = 16 ∧ c.key.length + c.pub.length < 2 ^ 31 - 19 :=
  ⟨⟨List.replicate 16 1, 7, [1]⟩, by decide, by decide⟩
example : ∃ c : YubiKeyConfig, c.key.length ≠ 16 ∧ c.key.length + c.pub.length < 2 ^ 31 - 19 :=
  ⟨⟨[], 7, [1]⟩, by decide, by decide⟩

/-- C35: acceptance is exact. The token counter that is compared and stored is the insertion
counter; the use counter plays no part (C88). -/
theorem C35_acceptance (Y : Yubi) (a : Authenticator) (c : YubiKeyConfig) (otp spare : Bytes)
    (hp : parseYubiKeyConfig a.secret spare = .ok (some c)) :
    (∀ t, a.typ = typeYubiKey → a.last ≠ otp → YkGood Y c otp t →
      ∃ a', validateYubiKey Y (some a) otp spare = .ok ⟨some a', true, none⟩ ∧
        a'.typ = a.typ ∧ a'.label = a.label ∧ a'.last = otp ∧
        a'.secret = ({ c with counter := BitVec.ofNat 32 (insertions t) } : YubiKeyConfig).bytes) ∧
    (¬ (a.typ = typeYubiKey ∧ a.last ≠ otp ∧ ∃ t, YkGood Y c otp t) →
      ∃ e, validateYubiKey Y (some a) otp spare = .ok ⟨some a, false, some e⟩) := by
  constructor
  · intro t ht hl hg
    refine ⟨_, validateYk_accepts ht hl hp hg, rfl, rfl, rfl, ?_⟩
    have : getTokenCounter t = BitVec.ofNat 32 (insertions t) := by
      apply BitVec.eq_of_toNat_eq
      rw [tokenCounter_toNat, BitVec.toNat_ofNat, Nat.mod_eq_of_lt]
      unfold insertions; omega
    rw [this]
  · intro hn
    cases hv : validateYubiKey Y (some a) otp spare with
    | ok v =>
      rcases validateYk_result hv with ⟨c', t, ht, hl, hp', hg, -⟩ | ⟨e, rfl⟩
      · rw [hp] at hp'
        simp only [Res.ok.injEq, Option.some.injEq] at hp'
        subst hp'
        exact absurd ⟨ht, hl, t, hg⟩ hn
      · exact ⟨e, rfl⟩
    | panic =>
      exfalso
      unfold validateYubiKey at hv
      simp only at hv
      split at hv
      · simp at hv
      split at hv
      · simp at hv
      simp only [hp, Res.ok_bind] at hv
      split at hv
      · simp at hv
      split at hv
      · simp at hv
      split at hv
      · simp at hv
      split at hv <;> simp at hv

/-- C35: a secret that does not parse accepts nothing. -/
theorem C35_unparsable (Y : Yubi) (a : Authenticator) (otp spare : Bytes)
    (hp : parseYubiKeyConfig a.secret spare = .ok none) :
    ∃ e, validateYubiKey Y (some a) otp spare = .ok ⟨some a, false, some e⟩ := by
  cases hv : validateYubiKey Y (some a) otp spare with
  | ok v =>
    rcases validateYk_result hv with ⟨c', t, ht, hl, hp', hg, -⟩ | ⟨e, rfl⟩
    · rw [hp] at hp'; simp at hp'
    · exact ⟨e, rfl⟩
  | panic =>
    exfalso
    unfold validateYubiKey at hv
    simp only at hv
    split at hv
    · simp at hv
    split at hv
    · simp at hv
    simp [hp] at hv

/-- C35: a secret on which the parser crashes accepts nothing either: ValidateYubiKey crashes with
it, or refuses before it gets there. -/
theorem C35_crash (Y : Yubi) (a : Authenticator) (otp spare : Bytes) (hp : parseYubiKeyConfig a.secret spare = .panic) :
    (a.typ = typeYubiKey ∧ a.last ≠ otp → validateYubiKey Y (some a) otp spare = .panic) ∧
    (¬ (a.typ = typeYubiKey ∧ a.last ≠ otp) → ∃ e, validateYubiKey Y (some a) otp spare = .ok ⟨some a, false, some e⟩) := by
  refine ⟨fun ⟨h1, h2⟩ => ?_, fun h => ?_⟩
  · unfold validateYubiKey
    simp only [h1, ne_eq, not_true_eq_false, if_false, h2, hp]
    rfl
  · unfold validateYubiKey
    by_cases h1 : a.typ = typeYubiKey
    · have h2 : a.last = otp := Classical.byContradiction fun h2 => h ⟨h1, h2⟩
      exact ⟨.fail, by simp only [h1, ne_eq, not_true_eq_false, if_false, h2, if_true]⟩
    · exact ⟨.invalidAuth, by simp only [ne_eq, h1, not_false_eq_true, if_true]⟩

/-- There are such secrets: a key record whose length field is negative. -/
example : parseYubiKeyConfig [3, 0x80, 0, 0, 0] = .panic := by decide

example : parseYubiKeyConfig toyYk.secret = .ok (some
      { key := List.replicate 16 1, counter := 7, pub := [1, 2, 3, 4] }) ∧
    toyYk.typ = typeYubiKey ∧ toyYk.last ≠ [1, 2, 3, 4, 0, 9, 0] ∧
    YkGood toyYubi { key := List.replicate 16 1, counter := 7, pub := [1, 2, 3, 4] }
      [1, 2, 3, 4, 0, 9, 0] ⟨9, 0⟩ :=
  ⟨toyYk_parse, rfl, by decide, ⟨[0, 9, 0], by decide, by decide, by decide⟩⟩

/-- The stored state of a YubiKey authenticator whose secret was written by the package: it
parses, with a counter and an identity of reasonable size. -/
def Stored (a : Authenticator) (n : Nat) : Prop :=
  ∃ c : YubiKeyConfig, c.key.length = 16 ∧ c.pub.length < 2 ^ 31 - 35 ∧ a.secret = c.bytes ∧
    c.counter.toNat = n

theorem ykStep_cases (Y : Yubi) (a a' : Authenticator) (otp : Bytes) (ok : Bool) (n : Nat)
    (hs : ykStep Y a otp ok a') (hst : Stored a n) :
    (ok = false ∧ a' = a) ∨
    (ok = true ∧ a.last ≠ otp ∧ a'.last = otp ∧ ∃ key pub box t, key.length = 16 ∧ Y.parseOTP otp = some (pub, box) ∧
      Y.parseToken key box = some t ∧ n ≤ insertions t ∧ Stored a' (insertions t) ∧
      a.secret = (⟨key, BitVec.ofNat 32 n, pub⟩ : YubiKeyConfig).bytes ∧
      a'.secret = (⟨key, BitVec.ofNat 32 (insertions t), pub⟩ : YubiKeyConfig).bytes) := by
  obtain ⟨c, hk, hl, hsec, rfl⟩ := hst
  obtain ⟨spare, u, e, hv, rfl⟩ := hs
  rcases validateYk_result hv with ⟨c', t, ht, hlast, hp', ⟨box, h1, h2, h3⟩, hv'⟩ | ⟨e', hv'⟩
  · right
    rw [hsec, parseYk_bytes c spare hk hl] at hp'
    simp only [Res.ok.injEq, Option.some.injEq] at hp'
    subst hp'
    simp only [VRes.mk.injEq, Option.some.injEq] at hv'
    obtain ⟨rfl, -, rfl⟩ := hv'
    have hc : getTokenCounter t = BitVec.ofNat 32 (insertions t) := by
      apply BitVec.eq_of_toNat_eq
      rw [tokenCounter_toNat, BitVec.toNat_ofNat, Nat.mod_eq_of_lt]
      unfold insertions; omega
    refine ⟨rfl, hlast, rfl, c.key, c.pub, box, t, hk, h1, h2, h3, ?_, ?_, ?_⟩
    · exact ⟨{ c with counter := getTokenCounter t }, hk, hl, rfl, tokenCounter_toNat t⟩
    · rw [hsec, BitVec.ofNat_toNat, BitVec.setWidth_eq]
    · simp only [hc]
  · left
    simp only [VRes.mk.injEq, Option.some.injEq] at hv'
    obtain ⟨rfl, -, rfl⟩ := hv'
    exact ⟨rfl, rfl⟩

/-- C36: the stored counter never decreases, in any history. -/
theorem C36_monotone (Y : Yubi) (a a' : Authenticator) (hist : List (Bytes × Bool)) (n : Nat)
    (h : History (ykStep Y) a hist a') (hst : Stored a n) : ∃ m, n ≤ m ∧ Stored a' m := by
  induction h generalizing n with
  | nil => exact ⟨n, Nat.le_refl _, hst⟩
  | @cons s i ok s' hist s'' hs _ ih =>
    rcases ykStep_cases Y _ _ _ _ n hs hst with ⟨-, rfl⟩ | ⟨-, -, -, key, pub, box, t, -, -, -, hle, hst', -⟩
    · exact ih n hst
    · obtain ⟨m, hm, hst''⟩ := ih _ hst'
      exact ⟨m, by omega, hst''⟩

/-- One attempt, for an authenticator with a known configuration. -/
theorem ykStep_config (Y : Yubi) (a a' : Authenticator) (otp : Bytes) (ok : Bool) (c : YubiKeyConfig)
    (hk : c.key.length = 16) (hl : c.pub.length < 2 ^ 31 - 35) (hsec : a.secret = c.bytes) (hs : ykStep Y a otp ok a') :
    (ok = false ∧ a' = a) ∨
    (ok = true ∧ ∃ box t, Y.parseOTP otp = some (c.pub, box) ∧ Y.parseToken c.key box = some t ∧
      c.counter.toNat ≤ insertions t ∧ a'.secret = ({ c with counter := BitVec.ofNat 32 (insertions t) } : YubiKeyConfig).bytes) := by
  rcases ykStep_cases Y a a' otp ok c.counter.toNat hs ⟨c, hk, hl, hsec, rfl⟩ with h |
    ⟨h0, -, -, key, pub, box, t, hk', ho, ht, hle, hst, hsec1, hsec2⟩
  · exact .inl h
  · right
    have hlen := congrArg List.length (hsec.symm.trans hsec1)
    rw [yk_bytes_eq, yk_bytes_eq] at hlen
    simp only [List.length_append, bytesRecord_length, record_length, size] at hlen
    have p1 := parseYk_bytes c [] hk hl
    have p2 := parseYk_bytes ⟨key, BitVec.ofNat 32 c.counter.toNat, pub⟩ [] hk' (by simp only; omega)
    rw [← hsec] at p1
    rw [← hsec1, p1] at p2
    simp only [Res.ok.injEq, Option.some.injEq] at p2
    have e1 : key = c.key := by rw [p2]
    have e2 : pub = c.pub := by rw [p2]
    subst e1 e2
    exact ⟨h0, box, t, ho, ht, hle, hsec2⟩

/-- Attempts keep key and identity, and the counter never goes down. -/
theorem ykHistory_config (Y : Yubi) (a a' : Authenticator) (hist : List (Bytes × Bool)) (h : History (ykStep Y) a hist a')
    (c : YubiKeyConfig) (hk : c.key.length = 16) (hl : c.pub.length < 2 ^ 31 - 35) (hsec : a.secret = c.bytes) :
    ∃ n, c.counter.toNat ≤ n.toNat ∧ a'.secret = ({ c with counter := n } : YubiKeyConfig).bytes := by
  induction h generalizing c with
  | nil => exact ⟨c.counter, Nat.le_refl _, hsec⟩
  | cons hs _ ih =>
    rcases ykStep_config Y _ _ _ _ c hk hl hsec hs with ⟨-, rfl⟩ | ⟨-, box, t, -, -, hle, hsec'⟩
    · exact ih c hk hl hsec
    · obtain ⟨n, hn, hsec''⟩ := ih { c with counter := BitVec.ofNat 32 (insertions t) } hk hl hsec'
      refine ⟨n, ?_, hsec''⟩
      simp only [BitVec.toNat_ofNat] at hn
      have : insertions t < 2 ^ 32 := by unfold insertions; omega
      omega

/-- C36: an OTP whose token, under the key of the authenticator, has a lower count of insertions than
that of an OTP accepted before, is rejected, whatever was tried in between. -/
theorem C36_order (Y : Yubi) (a a' : Authenticator) (c : YubiKeyConfig) (hk : c.key.length = 16) (hl : c.pub.length < 2 ^ 31 - 35)
    (hsec : a.secret = c.bytes) (o1 o2 p1 b1 p2 b2 : Bytes) (t1 t2 : Token) (ok : Bool) (h1 h2 h3 : List (Bytes × Bool))
    (h : History (ykStep Y) a (h1 ++ (o1, true) :: (h2 ++ (o2, ok) :: h3)) a')
    (ho1 : Y.parseOTP o1 = some (p1, b1)) (ht1 : Y.parseToken c.key b1 = some t1)
    (ho2 : Y.parseOTP o2 = some (p2, b2)) (ht2 : Y.parseToken c.key b2 = some t2)
    (hlt : insertions t2 < insertions t1) : ok = false := by
  obtain ⟨m, hpre, h⟩ := history_append h
  obtain ⟨n, -, hm⟩ := ykHistory_config Y _ _ _ hpre c hk hl hsec
  cases h with
  | cons hs h =>
  obtain ⟨m2, hmid, h⟩ := history_append h
  cases h with
  | cons hs' h =>
  rcases ykStep_config Y _ _ _ _ { c with counter := n } hk hl hm hs with ⟨hf, -⟩ | ⟨-, box, t, ho, ht, -, hm1⟩
  · simp at hf
  rw [ho1] at ho
  simp only [Option.some.injEq, Prod.mk.injEq] at ho
  obtain ⟨-, rfl⟩ := ho
  rw [show ({ c with counter := n } : YubiKeyConfig).key = c.key from rfl, ht1] at ht
  simp only [Option.some.injEq] at ht
  subst ht
  obtain ⟨n2, hn2, hm2⟩ := ykHistory_config Y _ _ _ hmid { c with counter := BitVec.ofNat 32 (insertions t1) } hk hl hm1
  rcases ykStep_config Y _ _ _ _ { c with counter := n2 } hk hl hm2 hs' with ⟨hf, -⟩ | ⟨-, box, t, ho, ht, hle, -⟩
  · exact hf
  rw [ho2] at ho
  simp only [Option.some.injEq, Prod.mk.injEq] at ho
  obtain ⟨-, rfl⟩ := ho
  rw [show ({ c with counter := n2 } : YubiKeyConfig).key = c.key from rfl, ht2] at ht
  simp only [Option.some.injEq] at ht
  subst ht
  have : insertions t1 < 2 ^ 32 := by unfold insertions; omega
  simp only [BitVec.toNat_ofNat] at hn2 hle
  omega

example : Stored toyYk 7 :=
  ⟨⟨List.replicate 16 1, 7, [1, 2, 3, 4]⟩, by decide, by decide, rfl, rfl⟩

/-- A history with two accepted OTPs exists. -/
example : ∃ a', History (ykStep toyYubi) toyYk
    [([1, 2, 3, 4, 0, 9, 0], true), ([1, 2, 3, 4, 0, 8, 0], false), ([1, 2, 3, 4, 0, 10, 0], true)] a' := by
  let a1 : Authenticator := { toyYk with last := [1, 2, 3, 4, 0, 9, 0], secret :=
    (⟨List.replicate 16 1, getTokenCounter ⟨9, 0⟩, [1, 2, 3, 4]⟩ : YubiKeyConfig).bytes }
  have h1 : ykStep toyYubi toyYk [1, 2, 3, 4, 0, 9, 0] true a1 :=
    ⟨[], true, none, validateYk_accepts rfl (by decide)
      (c := ⟨List.replicate 16 1, 7, [1, 2, 3, 4]⟩) toyYk_parse (t := ⟨9, 0⟩) ⟨[0, 9, 0], by decide, by decide, by decide⟩, rfl⟩
  have h2 : ykStep toyYubi a1 [1, 2, 3, 4, 0, 8, 0] false a1 := by
    have h := (C35_acceptance toyYubi a1 ⟨List.replicate 16 1, getTokenCounter ⟨9, 0⟩, [1, 2, 3, 4]⟩
      [1, 2, 3, 4, 0, 8, 0] [] (parseYk_bytes _ [] (by decide) (by decide))).2 (by
        rintro ⟨-, -, t, box, hb, ht, hc⟩
        have : box = [0, 8, 0] := by
          have : toyYubi.parseOTP [1, 2, 3, 4, 0, 8, 0] = some ([1, 2, 3, 4], [0, 8, 0]) := by decide
          rw [this] at hb; simpa using hb.symm
        subst this
        have : toyYubi.parseToken (List.replicate 16 1) [0, 8, 0] = some ⟨8, 0⟩ := by decide
        rw [this] at ht
        simp only [Option.some.injEq] at ht
        subst ht
        revert hc
        decide)
    obtain ⟨e, he⟩ := h
    exact ⟨[], false, some e, he, rfl⟩
  exact ⟨_, .cons h1 (.cons h2 (.cons ⟨[], true, none, validateYk_accepts rfl (by decide)
    (c := ⟨List.replicate 16 1, getTokenCounter ⟨9, 0⟩, [1, 2, 3, 4]⟩)
    (parseYk_bytes _ [] (by decide) (by decide))
    (t := ⟨10, 0⟩) ⟨[0, 10, 0], by decide, by decide, by decide⟩, rfl⟩ (.nil _)))⟩

/-- C37 is false: two OTPs from one insertion of the YubiKey can be replayed in turn without
end, because the use counter is lost and only the very last OTP is remembered. -/
theorem C37_replay_violated (Y : Yubi) (a : Authenticator) (c : YubiKeyConfig) (p q : Bytes)
    (tp tq : Token) (ht : a.typ = typeYubiKey) (hk : c.key.length = 16)
    (hl : c.pub.length < 2 ^ 31 - 35) (hsec : a.secret = c.bytes) (hne : p ≠ q) (hlast : a.last ≠ p)
    (hp : YkGood Y c p tp) (hq : YkGood Y c q tq) (heq : insertions tp = insertions tq) :
    ∃ a1 a2 a3, validateYubiKey Y (some a) p = .ok ⟨some a1, true, none⟩ ∧
      validateYubiKey Y (some a1) q = .ok ⟨some a2, true, none⟩ ∧
      validateYubiKey Y (some a2) p = .ok ⟨some a3, true, none⟩ := by
  obtain ⟨bp, hp1, hp2, hp3⟩ := hp
  obtain ⟨bq, hq1, hq2, hq3⟩ := hq
  refine ⟨_, _, _, validateYk_accepts (c := c) ht hlast ?_ ⟨bp, hp1, hp2, hp3⟩,
    validateYk_accepts (c := { c with counter := getTokenCounter tp }) ht hne ?_ ⟨bq, hq1, hq2, ?_⟩,
    validateYk_accepts (c := { c with counter := getTokenCounter tq }) ht hne.symm ?_
      ⟨bp, hp1, hp2, ?_⟩⟩
  · rw [hsec]; exact parseYk_bytes c [] hk hl
  · exact parseYk_bytes _ [] hk hl
  · rw [tokenCounter_toNat]; omega
  · exact parseYk_bytes _ [] hk hl
  · rw [tokenCounter_toNat]; omega

example : YkGood toyYubi ⟨List.replicate 16 1, 7, [1, 2, 3, 4]⟩ [1, 2, 3, 4, 0, 9, 0] ⟨9, 0⟩ ∧
    YkGood toyYubi ⟨List.replicate 16 1, 7, [1, 2, 3, 4]⟩ [1, 2, 3, 4, 0, 9, 1] ⟨9, 1⟩ ∧
    insertions ⟨9, 0⟩ = insertions ⟨9, 1⟩ :=
  ⟨⟨[0, 9, 0], by decide, by decide, by decide⟩, ⟨[0, 9, 1], by decide, by decide, by decide⟩, rfl⟩

/-- C37, what holds in any history: between two acceptances of one OTP another OTP is accepted. In
particular nothing is accepted twice in a row. Missing: the use counter. -/
theorem C37_history_partial (Y : Yubi) (a a' : Authenticator) (otp : Bytes) (n : Nat)
    (h1 h2 h3 : List (Bytes × Bool)) (hst : Stored a n)
    (h : History (ykStep Y) a (h1 ++ (otp, true) :: (h2 ++ (otp, true) :: h3)) a') :
    ∃ other, other ≠ otp ∧ (other, true) ∈ h2 := by
  obtain ⟨m, hpre, h⟩ := history_append h
  obtain ⟨n1, -, hst1⟩ := C36_monotone Y _ _ _ n hpre hst
  cases h with
  | @cons _ _ _ m1 _ _ hs h =>
    obtain ⟨m2, hmid, h⟩ := history_append h
    cases h with
    | cons hs' h =>
      rcases ykStep_cases Y _ _ _ _ n1 hs hst1 with ⟨hf, -⟩ | ⟨-, -, hlast, key, pub, b1, t1, -, -, -, -, hst', -⟩
      · exact absurd hf (by decide)
      obtain ⟨n2, -, hst2⟩ := C36_monotone Y _ _ _ _ hmid hst'
      rcases ykStep_cases Y _ _ _ _ n2 hs' hst2 with ⟨hf, -⟩ | ⟨-, hne, -⟩
      · exact absurd hf (by decide)
      have walk : ∀ s hist s', History (ykStep Y) s hist s' → ∀ n, Stored s n → s.last = otp →
          s'.last ≠ otp → ∃ other, other ≠ otp ∧ (other, true) ∈ hist := by
        intro s hist s' hh
        induction hh with
        | nil => intro _ _ h1 h2; exact absurd h1 h2
        | @cons s o ok s' hist s'' hs hr ih =>
          intro n hsn h1 h2
          rcases ykStep_cases Y _ _ _ _ n hs hsn with ⟨rfl, rfl⟩ | ⟨rfl, hne', hl, -⟩
          · obtain ⟨o', ho, hm⟩ := ih n hsn h1 h2
            exact ⟨o', ho, List.mem_cons_of_mem _ hm⟩
          · exact ⟨o, fun e => hne' (h1.trans e.symm), List.mem_cons_self⟩
      exact walk _ _ _ hmid _ hst' hlast hne

/-- C37, the same with what is known of the other OTP: it carries the stored public identity, and a
token, under the key of the authenticator, of the very insertion of the repeated one. So an OTP is
never accepted again once a token of a later insertion was accepted. Missing: the use counter. -/
theorem C37_insertion_partial (Y : Yubi) (a a' : Authenticator) (c : YubiKeyConfig) (hk : c.key.length = 16)
    (hl : c.pub.length < 2 ^ 31 - 35) (hsec : a.secret = c.bytes) (otp pub box : Bytes) (t : Token)
    (ho : Y.parseOTP otp = some (pub, box)) (ht : Y.parseToken c.key box = some t)
    (h1 h2 h3 : List (Bytes × Bool))
    (h : History (ykStep Y) a (h1 ++ (otp, true) :: (h2 ++ (otp, true) :: h3)) a') :
    (∃ other box' t', other ≠ otp ∧ (other, true) ∈ h2 ∧ Y.parseOTP other = some (c.pub, box') ∧
      Y.parseToken c.key box' = some t' ∧ insertions t' = insertions t) ∧
    ∀ other, (other, true) ∈ h2 → ∃ box' t', Y.parseOTP other = some (c.pub, box') ∧
      Y.parseToken c.key box' = some t' ∧ insertions t' = insertions t := by
  have all : ∀ other, (other, true) ∈ h2 → ∃ box' t', Y.parseOTP other = some (c.pub, box') ∧
      Y.parseToken c.key box' = some t' ∧ insertions t' = insertions t := by
    intro other hm
    obtain ⟨u, v, rfl⟩ := List.append_of_mem hm
    have h' := h
    rw [List.append_cons] at h'
    obtain ⟨m, hpre, hrest⟩ := history_append h'
    obtain ⟨n, -, hsm⟩ := ykHistory_config Y _ _ _ hpre c hk hl hsec
    rw [List.append_assoc] at hrest
    obtain ⟨m1, hu, hrest⟩ := history_append hrest
    obtain ⟨n1, -, hsm1⟩ := ykHistory_config Y _ _ _ hu { c with counter := n } hk hl hsm
    cases hrest with
    | cons hs hrest =>
    rcases ykStep_config Y _ _ _ _ { c with counter := n1 } hk hl hsm1 hs with ⟨hf, -⟩ | ⟨-, box', t', ho', ht', -, -⟩
    · simp at hf
    refine ⟨box', t', ho', ht', ?_⟩
    refine Nat.le_antisymm (Nat.le_of_not_lt fun hlt => ?_) (Nat.le_of_not_lt fun hlt => ?_)
    · have := C36_order Y a a' c hk hl hsec other otp c.pub box' pub box t' t true
        (h1 ++ (otp, true) :: u) v h3 (by simpa [List.append_assoc] using h) ho' ht' ho ht hlt
      simp at this
    · have := C36_order Y a a' c hk hl hsec otp other pub box c.pub box' t t' true
        h1 u (v ++ (otp, true) :: h3) (by simpa [List.append_assoc] using h) ho ht ho' ht' hlt
      simp at this
  refine ⟨?_, all⟩
  obtain ⟨other, hne, hm⟩ := C37_history_partial Y a a' otp c.counter.toNat h1 h2 h3 ⟨c, hk, hl, hsec, rfl⟩ h
  obtain ⟨box', t', r⟩ := all other hm
  exact ⟨other, box', t', hne, hm, r⟩

/-- Such a history: two OTPs of one insertion in turn. -/
example : ∃ a', History (ykStep toyYubi) toyYk
    ([] ++ ([1, 2, 3, 4, 0, 9, 0], true) :: ([([1, 2, 3, 4, 0, 9, 1], true)] ++ ([1, 2, 3, 4, 0, 9, 0], true) :: [])) a' := by
  obtain ⟨a1, a2, a3, h1, h2, h3⟩ := C37_replay_violated toyYubi toyYk ⟨List.replicate 16 1, 7, [1, 2, 3, 4]⟩
    [1, 2, 3, 4, 0, 9, 0] [1, 2, 3, 4, 0, 9, 1] ⟨9, 0⟩ ⟨9, 1⟩ rfl (by decide) (by decide) rfl (by decide) (by decide)
    ⟨[0, 9, 0], by decide, by decide, by decide⟩ ⟨[0, 9, 1], by decide, by decide, by decide⟩ rfl
  exact ⟨a3, .cons ⟨[], true, none, h1, rfl⟩ (.cons ⟨[], true, none, h2, rfl⟩ (.cons ⟨[], true, none, h3, rfl⟩ (.nil _)))⟩

/-- C88, what holds: after a token has been accepted, one of an earlier insertion is rejected. Missing:
tokens of the same insertion. -/
theorem C88_insertions_partial (Y : Yubi) (a a1 : Authenticator) (c : YubiKeyConfig) (hk : c.key.length = 16)
    (hl : c.pub.length < 2 ^ 31 - 35) (hsec : a.secret = c.bytes) (p q spare : Bytes) (tp tq : Token)
    (hp : YkGood Y c p tp) (hq : YkGood Y c q tq) (hlt : insertions tq < insertions tp)
    (h : validateYubiKey Y (some a) p = .ok ⟨some a1, true, none⟩) :
    ∃ e, validateYubiKey Y (some a1) q spare = .ok ⟨some a1, false, some e⟩ := by
  obtain ⟨bp, hbp, htp, -⟩ := hp
  obtain ⟨bq, hbq, htq, -⟩ := hq
  rcases ykStep_config Y a a1 p true c hk hl hsec ⟨[], true, none, h, rfl⟩ with ⟨hf, -⟩ | ⟨-, box, t, ho, ht, -, hsec1⟩
  · simp at hf
  rw [hbp] at ho
  simp only [Option.some.injEq, Prod.mk.injEq, true_and] at ho
  subst ho
  rw [htp] at ht
  simp only [Option.some.injEq] at ht
  subst ht
  have hparse := parseYk_bytes { c with counter := BitVec.ofNat 32 (insertions tp) } spare hk hl
  rw [← hsec1] at hparse
  refine (C35_acceptance Y a1 _ q spare hparse).2 ?_
  rintro ⟨-, -, t, b, ho, ht, hle⟩
  rw [hbq] at ho
  simp only [Option.some.injEq, Prod.mk.injEq, true_and] at ho
  subst ho
  rw [show ({ c with counter := BitVec.ofNat 32 (insertions tp) } : YubiKeyConfig).key = c.key from rfl, htq] at ht
  simp only [Option.some.injEq] at ht
  subst ht
  have : insertions tp < 2 ^ 32 := by unfold insertions; omega
  simp only [BitVec.toNat_ofNat] at hle
  omega

/-- Two tokens that are both good, the second of an earlier insertion; the first is accepted. -/
example : ∃ a1 tp tq, YkGood toyYubi ⟨List.replicate 16 1, 7, [1, 2, 3, 4]⟩ [1, 2, 3, 4, 0, 9, 0] tp ∧
    YkGood toyYubi ⟨List.replicate 16 1, 7, [1, 2, 3, 4]⟩ [1, 2, 3, 4, 0, 8, 0] tq ∧ insertions tq < insertions tp ∧
    validateYubiKey toyYubi (some toyYk) [1, 2, 3, 4, 0, 9, 0] = .ok ⟨some a1, true, none⟩ :=
  ⟨_, ⟨9, 0⟩, ⟨8, 0⟩, ⟨[0, 9, 0], by decide, by decide, by decide⟩, ⟨[0, 8, 0], by decide, by decide, by decide⟩, by decide,
    validateYk_accepts rfl (by decide) (c := ⟨List.replicate 16 1, 7, [1, 2, 3, 4]⟩) toyYk_parse (t := ⟨9, 0⟩)
      ⟨[0, 9, 0], by decide, by decide, by decide⟩⟩

/-- C88 is false: a token from earlier in the same insertion (same insertion count, smaller
use count) is accepted after a later one. -/
theorem C88_use_counter_violated (Y : Yubi) (a : Authenticator) (c : YubiKeyConfig) (p q : Bytes)
    (tp tq : Token) (ht : a.typ = typeYubiKey) (hk : c.key.length = 16)
    (hl : c.pub.length < 2 ^ 31 - 35) (hsec : a.secret = c.bytes) (hne : p ≠ q) (hlast : a.last ≠ p)
    (hp : YkGood Y c p tp) (hq : YkGood Y c q tq) (heq : insertions tp = insertions tq)
    (_huse : tq.use < tp.use) :
    ∃ a1 a2, validateYubiKey Y (some a) p = .ok ⟨some a1, true, none⟩ ∧
      validateYubiKey Y (some a1) q = .ok ⟨some a2, true, none⟩ := by
  obtain ⟨a1, a2, -, h1, h2, -⟩ := C37_replay_violated Y a c p q tp tq ht hk hl hsec hne hlast hp hq heq
  exact ⟨a1, a2, h1, h2⟩

/-! ### Sessions -/

/-- C38: a client holding the server's session key is accepted in every one of any number of
rounds, and every round leaves the server ready for the next. Partial: it starts from the
authenticator that `NewSession` is written to return, because `NewSession` itself crashes
(C41). -/
theorem C38_rounds_partial (shared label challenge : Bytes) (rng : Rng) (n : Nat)
    (hc : challenge.length = 32) (hr : 32 * n ≤ rng.length) :
    ∃ a', History (sessionStep C)
      ({ typ := typeSession, label := label, last := hexEncode challenge, secret := shared }, rng)
      ((clientAnswers C shared n challenge rng).map (fun o => (o, true)))
      (a', rng.drop (32 * n)) ∧ a'.secret = shared ∧ a'.typ = typeSession := by
  induction n generalizing challenge rng with
  | zero => exact ⟨_, by simpa [clientAnswers] using History.nil _, rfl, rfl⟩
  | succ n ih =>
    obtain ⟨a', h, h1, h2⟩ := ih (rng.take 32) (rng.drop 32)
      (by simp only [List.length_take]; omega) (by simp only [List.length_drop]; omega)
    refine ⟨a', ?_, h1, h2⟩
    rw [List.drop_drop, show 32 + 32 * n = 32 * (n + 1) by omega] at h
    rw [clientAnswers, List.map_cons]
    refine .cons ⟨true, none, ?_, rfl⟩ h
    rw [validateSession_good C rfl
      ⟨challenge, hc, hexDecode_encode _, by rw [sessionOTP, hexDecode_encode]⟩,
      if_pos (show 32 ≤ rng.length by omega)]

/-- C38: the client arrives at the server's session key: `KeySession` over the serialised
client key pair and the serialised ephemeral public key gives the key the server computes. -/
theorem C38_shared_key_partial (d seed d' seed' : Bytes) (hd : d.length = 32)
    (hs : seed.length = 32) :
    ∃ privB pubB k, Model.Public.marshalPrivate (some (pairOf C d seed)) = .ok (some privB) ∧
      Model.Public.marshalPublic (some (pubOf C d' seed')) = .ok (some pubB) ∧
      keySession C privB pubB = .ok (some k) ∧
      Model.Public.keyExchange C (some (pairOf C d' seed')) (some (pubOf C d seed)) = .ok k := by
  have hwt : (pairOf C d seed).WT := by
    refine ⟨?_, ?_, ?_⟩
    · rintro x ⟨⟩; exact hd
    · rintro x ⟨⟩; simp [hs, C.edPub_length]
    · rintro p ⟨⟩
      exact ⟨by rintro x ⟨⟩; exact C.base_length _, by rintro x ⟨⟩; exact C.edPub_length _⟩
  have hwt' : (pubOf C d' seed').WT :=
    ⟨by rintro x ⟨⟩; exact C.base_length _, by rintro x ⟨⟩; exact C.edPub_length _⟩
  obtain ⟨_, _, _, _, b, -, h1, -, -, h2⟩ := Props.Public.C16_private_roundtrip _ hwt rfl
  obtain ⟨pb, h3, -, h4⟩ := Props.Public.C16_public_roundtrip.1 _ hwt' rfl
  obtain ⟨k, -, h5, h6⟩ := Props.Public.C86_key_exchange C d seed d' seed'
  refine ⟨b, pb, k, h1, h3, ?_, h6⟩
  unfold keySession
  rw [h2]
  simp only [Res.ok_bind, h4, h5]
  rfl

example : ∃ (challenge : Bytes) (rng : Rng), challenge.length = 32 ∧ 32 * 3 ≤ rng.length :=
  ⟨List.replicate 32 1, List.replicate 96 2, by decide, by decide⟩

/-- C39: acceptance is exact. -/
theorem C39_acceptance (a : Authenticator) (otp : Bytes) (rng : Rng) :
    (a.typ = typeSession ∧ SessionGood C a otp ∧ 32 ≤ rng.length →
      validateSession C (some a) otp rng =
        (⟨some { a with last := hexEncode (rng.take 32) }, true, none⟩, rng.drop 32)) ∧
    (¬ (a.typ = typeSession ∧ SessionGood C a otp ∧ 32 ≤ rng.length) →
      ∃ e r, validateSession C (some a) otp rng = (⟨some a, false, some e⟩, r)) := by
  constructor
  · rintro ⟨ht, hg, hr⟩
    rw [validateSession_good C ht hg, if_pos hr]
  · intro hn
    by_cases h : a.typ = typeSession ∧ SessionGood C a otp
    · rw [validateSession_good C h.1 h.2, if_neg (fun hr => hn ⟨h.1, h.2, hr⟩)]
      exact ⟨_, _, rfl⟩
    · obtain ⟨e, he⟩ := validateSession_bad C h (rng := rng)
      exact ⟨e, _, he⟩

example : ∃ (a : Authenticator) (otp : Bytes) (rng : Rng),
    a.typ = typeSession ∧ SessionGood Toy.crypto a otp ∧ 32 ≤ rng.length :=
  ⟨{ typ := typeSession, last := hexEncode (List.replicate 32 5), secret := [1] },
    sessionOTP Toy.crypto [1] (List.replicate 32 5), List.replicate 32 9, rfl,
    ⟨List.replicate 32 5, by decide, hexDecode_encode _, by rw [sessionOTP, hexDecode_encode]⟩,
    by decide⟩

/-- C40: as long as challenges do not repeat, no token is accepted twice, in either hex case. -/
theorem C40_single_use (a : Authenticator) (rng : Rng) (challenge : Bytes)
    (hc : hexDecode a.last = some challenge) (hf : FreshChallenges challenge rng)
    (s' : Authenticator × Rng) (h1 h2 h3 : List (Bytes × Bool)) (o1 o2 : Bytes)
    (h : History (sessionStep C) (a, rng) (h1 ++ (o1, true) :: (h2 ++ (o2, true) :: h3)) s') :
    hexDecode o1 ≠ hexDecode o2 := by
  -- one step, seen from outside
  have step_cases : ∀ s o ok s', sessionStep C s o ok s' →
      (ok = true ∧ SessionGood C s.1 o ∧ 32 ≤ s.2.length ∧
        hexDecode s'.1.last = some (s.2.take 32) ∧ s'.2 = s.2.drop 32) ∨
      (ok = false ∧ s'.1 = s.1 ∧ (s'.2 = s.2 ∨ s'.2 = [])) := by
    rintro ⟨a, r⟩ o ok ⟨a', r'⟩ ⟨u, e, hv, rfl⟩
    simp only at hv ⊢
    by_cases hg : a.typ = typeSession ∧ SessionGood C a o
    · rw [validateSession_good C hg.1 hg.2] at hv
      by_cases hr : 32 ≤ r.length
      · rw [if_pos hr] at hv
        simp only [Prod.mk.injEq, VRes.mk.injEq, Option.some.injEq] at hv
        obtain ⟨⟨rfl, -, rfl⟩, rfl⟩ := hv
        exact Or.inl ⟨rfl, hg.2, hr, hexDecode_encode _, rfl⟩
      · rw [if_neg hr] at hv
        simp only [Prod.mk.injEq, VRes.mk.injEq, Option.some.injEq] at hv
        obtain ⟨⟨rfl, -, rfl⟩, rfl⟩ := hv
        exact Or.inr ⟨rfl, rfl, Or.inr rfl⟩
    · obtain ⟨e', he⟩ := validateSession_bad C hg (rng := r)
      rw [he] at hv
      simp only [Prod.mk.injEq, VRes.mk.injEq, Option.some.injEq] at hv
      obtain ⟨⟨rfl, -, rfl⟩, rfl⟩ := hv
      exact Or.inr ⟨rfl, rfl, Or.inl rfl⟩
  have block_drop : ∀ (r : Rng) k, block (r.drop 32) k = block r (k + 1) := by
    intro r k
    unfold block
    rw [List.drop_drop, show 32 + 32 * k = 32 * (k + 1) by omega]
  -- freshness is an invariant
  let Inv : Authenticator × Rng → Prop := fun s =>
    ∃ ch, hexDecode s.1.last = some ch ∧ FreshChallenges ch s.2
  have inv_step : ∀ s o ok s', sessionStep C s o ok s' → Inv s → Inv s' := by
    rintro s o ok s' hs ⟨ch, h1, h2, h3⟩
    rcases step_cases _ _ _ _ hs with ⟨-, -, hr, hl, h4⟩ | ⟨-, h4, h5⟩
    · refine ⟨_, hl, ?_, ?_⟩
      · intro k hk
        rw [h4, List.length_drop] at hk
        rw [h4, block_drop]
        have := h3 0 (k + 1) (by omega) (by omega)
        simpa [block] using this.symm
      · intro i j hij hj
        rw [h4, List.length_drop] at hj
        rw [h4, block_drop, block_drop]
        exact h3 (i + 1) (j + 1) (by omega) (by omega)
    · refine ⟨ch, by rw [h4]; exact h1, ?_⟩
      rcases h5 with h5 | h5
      · rw [h5]; exact ⟨h2, h3⟩
      · rw [h5]
        exact ⟨fun k hk => by simp at hk, fun i j _ hj => by simp at hj⟩
  -- a spent challenge stays spent
  let Spent : Bytes → Authenticator × Rng → Prop := fun x s =>
    hexDecode s.1.last ≠ some x ∧ ∀ k, 32 * (k + 1) ≤ s.2.length → block s.2 k ≠ x
  have spent_step : ∀ x s o ok s', sessionStep C s o ok s' → Spent x s → Spent x s' := by
    rintro x s o ok s' hs ⟨h1, h2⟩
    rcases step_cases _ _ _ _ hs with ⟨-, -, hr, hl, h4⟩ | ⟨-, h4, h5⟩
    · refine ⟨?_, ?_⟩
      · rw [hl]
        intro he
        simp only [Option.some.injEq] at he
        exact h2 0 (by omega) (by simpa [block] using he)
      · intro k hk
        rw [h4, List.length_drop] at hk
        rw [h4, block_drop]
        exact h2 (k + 1) (by omega)
    · refine ⟨by rw [h4]; exact h1, ?_⟩
      rcases h5 with h5 | h5
      · rw [h5]; exact h2
      · rw [h5]; intro k hk; simp at hk
  obtain ⟨m, hpre, h⟩ := history_append h
  have hInv : Inv m := history_inv inv_step hpre ⟨challenge, hc, hf⟩
  cases h with
  | @cons _ _ _ m1 _ _ hs h =>
    obtain ⟨m2, hmid, h⟩ := history_append h
    cases h with
    | @cons _ _ _ m3 _ _ hs' h =>
      rcases step_cases _ _ _ _ hs with ⟨-, ⟨x, hxl, hx, hox⟩, hr, hl, h4⟩ | ⟨hf', -⟩
      rotate_left
      · exact absurd hf' (by decide)
      rcases step_cases _ _ _ _ hs' with ⟨-, ⟨y, hyl, hy, hoy⟩, -⟩ | ⟨hf', -⟩
      rotate_left
      · exact absurd hf' (by decide)
      have hsp : Spent x m1 := by
        obtain ⟨ch, hch, hf1, hf2⟩ := hInv
        rw [hx] at hch
        simp only [Option.some.injEq] at hch
        subst hch
        refine ⟨?_, ?_⟩
        · rw [hl]
          intro he
          simp only [Option.some.injEq] at he
          exact hf1 0 (by omega) (by simpa [block] using he)
        · intro k hk
          rw [h4, List.length_drop] at hk
          rw [h4, block_drop]
          exact hf1 (k + 1) (by omega)
      have hsp2 : Spent x m2 := history_inv (spent_step x) hmid hsp
      intro he
      rw [hox, hoy] at he
      simp only [Option.some.injEq] at he
      have hxy : x = y := by
        have := congrArg (List.take 32) he
        rwa [List.take_left' hxl, List.take_left' hyl] at this
      subst hxy
      exact hsp2.1 hy

example : FreshChallenges (List.replicate 32 0) (List.replicate 32 1 ++ List.replicate 32 2) := by
  have hk : ∀ k, 32 * (k + 1) ≤ (List.replicate 32 (1 : UInt8) ++ List.replicate 32 2).length →
      k = 0 ∨ k = 1 := by intro k h; simp at h; omega
  refine ⟨fun k h => ?_, fun i j hij h => ?_⟩
  · rcases hk k h with rfl | rfl <;> decide
  · rcases hk j h with rfl | rfl
    · omega
    · obtain rfl : i = 0 := by omega
      decide

/-- C41 is false: whatever the peer key, with a working PRNG `NewSession` crashes. -/
theorem C41_setup_violated (pub : Bytes) (rng : Rng) (hr : 96 ≤ rng.length) :
    newSession C pub rng = .panic := by
  unfold newSession randBytes
  have h1 : readFull rng sessionLength = (some (rng.take 32), rng.drop 32) := by
    unfold readFull; rw [if_pos (by simp only [sessionLength]; omega)]
  rw [h1]
  simp only [Props.Public.C23_generate_violated C (rng.drop 32)
    (by simp only [List.length_drop]; omega), Res.panic_bind]

/-- C41, what holds: a failing PRNG is reported. -/
theorem C41_prng_partial (pub : Bytes) (rng : Rng) (hr : rng.length < 96) :
    ∃ e r, newSession C pub rng = .ok (.error e, r) := by
  unfold newSession randBytes
  by_cases h0 : 32 ≤ rng.length
  · have h1 : readFull rng sessionLength = (some (rng.take 32), rng.drop 32) := by
      unfold readFull; rw [if_pos h0]
    rw [h1]
    simp only [Props.Public.C23_short_rng_partial C (rng.drop 32)
      (by simp only [List.length_drop]; omega), Res.ok_bind]
    exact ⟨_, _, rfl⟩
  · rw [readFull_none (by simp only [sessionLength]; omega)]
    exact ⟨_, _, rfl⟩

/-- C38 is false of the whole program: no call of `NewSession` ever returns an authenticator, so that no client is
accepted by a server that uses it. -/
theorem C38_no_session_violated (pub : Bytes) (rng : Rng) (a : Authenticator) (ephemeral : Bytes) (r : Rng) :
    newSession C pub rng ≠ .ok (.ok (a, ephemeral), r) := by
  by_cases h : 96 ≤ rng.length
  · rw [C41_setup_violated C pub rng h]
    simp
  · obtain ⟨e, r', h'⟩ := C41_prng_partial C pub rng (by omega)
    rw [h']
    simp

example : ∃ rng : Rng, 96 ≤ rng.length := ⟨List.replicate 96 7, by decide⟩

/-- C89, what holds: the answer is right whatever the memory layout, the argument itself is
unchanged, every other array is unchanged, and when there is no room behind the argument
nothing at all that existed before changes. Missing: spare capacity of 32 bytes or more. -/
theorem C89_otp_memory_partial (grow : Nat → Nat → Nat) (m : Mem) (shared : Bytes) (next : Slice)
    (hw : Mem.WF m next) :
    (sessionOTPMem C grow m shared next).2 = sessionOTP C shared (m.read next) ∧
    (sessionOTPMem C grow m shared next).1.read next = m.read next ∧
    (∀ a, a ≠ next.arr → a < m.arrays.length →
      (sessionOTPMem C grow m shared next).1.get a = m.get a) ∧
    (next.cap < next.len + 32 → ∀ a, a < m.arrays.length →
      (sessionOTPMem C grow m shared next).1.get a = m.get a) := by
  have hlen := C.hmacSha256_length shared (m.read next)
  have hcap := hw.cap_le
  have hll := hw.len_le
  obtain ⟨-, hread⟩ := Mem.append_wf grow hw (C.hmacSha256 shared (m.read next))
  have hold : next.cap < next.len + 32 → ∀ a, a < m.arrays.length →
      (sessionOTPMem C grow m shared next).1.get a = m.get a := by
    intro h a ha
    simp only [sessionOTPMem, Mem.append, hlen]
    rw [if_neg (by omega)]
    simp [Mem.get, List.getElem?_append_left ha]
  refine ⟨by simp only [sessionOTPMem, sessionOTP, hread], ?_, ?_, hold⟩
  · by_cases h : next.cap < next.len + 32
    · by_cases hc : 0 < next.cap
      · simp only [Mem.read, hold h _ (hw.live hc)]
      · have : next.len = 0 := by omega
        simp [Mem.read, this]
    · have hl := hw.live (by omega)
      simp only [sessionOTPMem, Mem.append, hlen]
      rw [if_pos (by omega)]
      simp only [Mem.read, Mem.get_write_self hl, Mem.setAt]
      rw [List.append_assoc, List.drop_append_of_le_length (by simp only [List.length_take]; omega),
        List.take_append_of_le_length (by simp only [List.length_drop, List.length_take]; omega),
        List.drop_take, List.take_take]
      congr 1
      omega
  · intro a hne ha
    by_cases h : next.cap < next.len + 32
    · exact hold h a ha
    · simp only [sessionOTPMem, Mem.append, hlen]
      rw [if_pos (by omega)]
      exact Mem.get_write_ne (Ne.symm hne)

/-- C89 is false: if the challenge is the front part of a larger buffer, computing the answer
overwrites the 32 bytes behind it. -/
theorem C89_otp_memory_violated (grow : Nat → Nat → Nat) (shared challenge behind : Bytes)
    (hb : behind.length = 32) :
    let m : Mem := { arrays := [challenge ++ behind] }
    let next : Slice := { arr := 0, off := 0, len := challenge.length, cap := challenge.length + 32 }
    m.read next = challenge ∧ (sessionOTPMem C grow m shared next).1.get 0 =
      challenge ++ C.hmacSha256 shared challenge := by
  have hread : Mem.read { arrays := [challenge ++ behind] }
      { arr := 0, off := 0, len := challenge.length, cap := challenge.length + 32 } = challenge := by
    simp [Mem.read, Mem.get]
  refine ⟨hread, ?_⟩
  simp only [sessionOTPMem, Mem.append, hread, C.hmacSha256_length]
  rw [if_pos (by omega), Mem.get_write_self (by simp)]
  simp [Mem.setAt, Mem.get, C.hmacSha256_length, hb]

example : Mem.WF { arrays := [List.replicate 40 1] } { arr := 0, off := 0, len := 32, cap := 40 } :=
  ⟨by decide, by decide, by decide⟩
/-- The overwritten bytes really change. -/
example : Toy.crypto.hmacSha256 [1] [2] ≠ List.replicate 32 9 := by decide

/-! ### Passwords and dispatch -/

/-- C42: the right password is accepted; the verdict is exactly bcrypt's; nothing changes. -/
theorem C42_password (password salt : Bytes) (cost : Int) (hp : password.length ≤ 72) :
    (∃ a, newPasswordAuth C password cost (some salt) = .ok a ∧
      validatePassword C (some a) password = ⟨some a, false, none⟩) ∧
    (∀ a pw, validatePassword C (some a) pw =
      ⟨some a, false, (validatePassword C (some a) pw).err⟩) ∧
    (∀ a pw, (validatePassword C (some a) pw).err = none ↔
      a.typ = typePassword ∧ C.bcryptMatch a.secret pw = true) := by
  refine ⟨?_, ?_, ?_⟩
  · unfold newPasswordAuth
    simp only
    rw [if_neg (by omega)]
    refine ⟨_, rfl, ?_⟩
    unfold validatePassword
    simp [C.bcrypt_match]
  · intro a pw
    unfold validatePassword
    simp only
    split
    · rfl
    split <;> rfl
  · intro a pw
    unfold validatePassword
    simp only
    by_cases ht : a.typ = typePassword
    · rw [if_neg (by simpa using ht)]
      cases h : C.bcryptMatch a.secret pw <;> simp [ht]
    · rw [if_pos (by simpa using ht)]
      simp [ht]

/-- C42: longer passwords are refused when the authenticator is made, and so is a failing
system PRNG. -/
theorem C42_refused (password : Bytes) (cost : Int) (salt : Option Bytes)
    (h : 72 < password.length ∨ salt = none) :
    ∃ e, newPasswordAuth C password cost salt = .error e := by
  unfold newPasswordAuth
  simp only
  split
  · exact ⟨_, rfl⟩
  · rcases h with h | rfl
    · omega
    · exact ⟨_, rfl⟩

example : ([112, 119] : Bytes).length ≤ 72 := by decide

/-- C43, what holds: 8 to 31 is used as given, and below 4 or above 31 gives 14. Missing: 4
to 7. -/
theorem C43_cost_partial (password salt : Bytes) (cost : Int) (hp : password.length ≤ 72) :
    (8 ≤ cost ∧ cost ≤ 31 → newPasswordAuth C password cost (some salt) =
      .ok { typ := typePassword, secret := C.bcryptHash password salt cost.toNat }) ∧
    (cost < 4 ∨ 31 < cost → newPasswordAuth C password cost (some salt) =
      .ok { typ := typePassword, secret := C.bcryptHash password salt 14 }) := by
  constructor
  · intro h
    unfold newPasswordAuth
    simp only
    rw [if_neg (by omega), if_neg (by omega)]
  · intro h
    unfold newPasswordAuth
    simp only
    rw [if_neg (by omega), if_pos (by omega)]
    rfl

/-- C43 is false for 4 to 7: the documented minimum is 8, but these are used as given. -/
theorem C43_low_cost_violated (password salt : Bytes) (cost : Int) (hp : password.length ≤ 72)
    (h4 : 4 ≤ cost) (h7 : cost ≤ 7) :
    newPasswordAuth C password cost (some salt) =
      .ok { typ := typePassword, secret := C.bcryptHash password salt cost.toNat } := by
  unfold newPasswordAuth
  simp only
  rw [if_neg (by omega), if_neg (by omega)]

/-- In particular a cost-5 hash need not be a cost-14 hash. -/
example : newPasswordAuth Toy.crypto [112] 5 (some []) ≠
    .ok { typ := typePassword, secret := Toy.crypto.bcryptHash [112] [] 14 } := by
  rw [C43_low_cost_violated _ _ _ _ (by decide) (by decide) (by decide)]
  simp [Toy.crypto]

theorem type_names : ascii "TOTP" = typeTOTP ∧ ascii "yubikey" = typeYubiKey ∧ ascii "session" = typeSession ∧
    ascii "password" = typePassword := by decide

/-- C44: nil and unknown types are refused. -/
theorem C44_unknown (Y : Yubi) (password : Bytes) (now : BitVec 64) (rng : Rng) (spare : Bytes) :
    validate C Y none password now rng spare = .ok (⟨none, false, some .invalidAuth⟩, rng) ∧
    (∀ a, a.typ ≠ ascii "TOTP" → a.typ ≠ ascii "yubikey" → a.typ ≠ ascii "session" → a.typ ≠ ascii "password" →
      validate C Y (some a) password now rng spare =
        .ok (⟨some a, false, some .invalidAuth⟩, rng)) := by
  refine ⟨rfl, fun a h1 h2 h3 h4 => ?_⟩
  unfold validate
  simp only
  rw [if_neg (type_names.2.1 ▸ h2), if_neg (type_names.1 ▸ h1), if_neg (type_names.2.2.1 ▸ h3), if_neg (type_names.2.2.2 ▸ h4)]

/-- C44: every known type goes to its own validator. -/
theorem C44_dispatch (Y : Yubi) (a : Authenticator) (password : Bytes) (now : BitVec 64)
    (rng : Rng) (spare : Bytes) :
    (a.typ = ascii "TOTP" → validate C Y (some a) password now rng spare =
      (validateTOTP C (some a) password now spare >>= fun v => .ok (v, rng))) ∧
    (a.typ = ascii "yubikey" → validate C Y (some a) password now rng spare =
      (validateYubiKey Y (some a) password spare >>= fun v => .ok (v, rng))) ∧
    (a.typ = ascii "session" → validate C Y (some a) password now rng spare =
      .ok (validateSession C (some a) password rng)) ∧
    (a.typ = ascii "password" → validate C Y (some a) password now rng spare =
      .ok (validatePassword C (some a) password, rng)) := by
  obtain ⟨n1, n2, n3, n4⟩ := type_names
  rw [n1, n2, n3, n4]
  refine ⟨fun h => ?_, fun h => ?_, fun h => ?_, fun h => ?_⟩ <;>
    (unfold validate; simp only [h]; rfl)

/-- C44: an update is signalled only without an error, and the authenticator changes only when
an update is signalled; type and label never change. -/
theorem C44_update (Y : Yubi) (a : Authenticator) (password : Bytes) (now : BitVec 64)
    (rng : Rng) (spare : Bytes) (v : VRes) (r : Rng)
    (h : validate C Y (some a) password now rng spare = .ok (v, r)) :
    (v.update = true → v.err = none) ∧ (v.update = false → v.auth = some a) ∧
      ∃ a', v.auth = some a' ∧ a'.typ = a.typ ∧ a'.label = a.label := by
  unfold validate at h
  simp only at h
  split at h
  · simp only [Res.bind_eq_ok, Res.pure_eq, Res.ok.injEq, Prod.mk.injEq] at h
    obtain ⟨w, hw, rfl, rfl⟩ := h
    rcases validateYk_result hw with ⟨c, t, -, -, -, -, rfl⟩ | ⟨e, rfl⟩
    · exact ⟨fun _ => rfl, fun h => by simp at h, _, rfl, rfl, rfl⟩
    · exact ⟨fun h => by simp at h, fun _ => rfl, _, rfl, rfl, rfl⟩
  split at h
  · simp only [Res.bind_eq_ok, Res.pure_eq, Res.ok.injEq, Prod.mk.injEq] at h
    obtain ⟨w, hw, rfl, rfl⟩ := h
    rcases validateTOTP_result C hw with ⟨rfl, -, -⟩ | ⟨e, rfl⟩
    · exact ⟨fun _ => rfl, fun h => by simp at h, _, rfl, rfl, rfl⟩
    · exact ⟨fun h => by simp at h, fun _ => rfl, _, rfl, rfl, rfl⟩
  split at h
  · simp only [Res.ok.injEq] at h
    by_cases hg : a.typ = typeSession ∧ SessionGood C a password ∧ 32 ≤ rng.length
    · rw [(C39_acceptance C a password rng).1 hg, Prod.mk.injEq] at h
      obtain ⟨rfl, rfl⟩ := h
      exact ⟨fun _ => rfl, fun h => by simp at h, _, rfl, rfl, rfl⟩
    · obtain ⟨e, r', he⟩ := (C39_acceptance C a password rng).2 hg
      rw [he, Prod.mk.injEq] at h
      obtain ⟨rfl, rfl⟩ := h
      exact ⟨fun h => by simp at h, fun _ => rfl, _, rfl, rfl, rfl⟩
  split at h
  · simp only [Res.ok.injEq, Prod.mk.injEq] at h
    obtain ⟨rfl, rfl⟩ := h
    rw [(C42_password C [] [] 0 (by decide)).2.1]
    exact ⟨fun h => by simp at h, fun _ => rfl, _, rfl, rfl, rfl⟩
  · simp only [Res.ok.injEq, Prod.mk.injEq] at h
    obtain ⟨rfl, rfl⟩ := h
    exact ⟨fun h => by simp at h, fun _ => rfl, _, rfl, rfl, rfl⟩

example : ∃ (a : Authenticator) (v : VRes) (r : Rng),
    validate Toy.crypto toyYubi (some a) [112] 0 [] = .ok (v, r) ∧ a.typ = typePassword ∧ v.err = none :=
  ⟨{ typ := typePassword, secret := Toy.crypto.bcryptHash [112] [] 9 }, _, _, rfl, rfl, rfl⟩

end Verif.Props.Auth
