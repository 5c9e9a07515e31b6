import Verif.Proofs.KeyStore
/-! The invariant of the key store, and imports into stores that satisfy it. -/

namespace Verif.Proofs.KeyStore
open Verif Verif.Go Verif.Model.Util Verif.Model.Public Verif.Model.KeyStore Verif.Spec.Public Verif.Spec.KeyStore
open Verif.Proofs.Public

variable (C : Crypto)

theorem sound_pub {s : KeyStore} {owner : Bytes} {m : Keys} (h : Sound C s owner m) : s.pubBytes = owner := by
  simp [KeyFields.pubBytes, h.pub]

theorem sound_set {s : KeyStore} {owner : Bytes} {m : Keys} (h : Sound C s owner m) {label : Bytes}
    {r : PublicKeyRecord} (hl : label ≠ self) (hn : m label = none) (hr : r.label = label)
    (hs : SignedRec C r.keySigner r)
    (hk : r.keySigner = owner ∨ ∃ l' r', m l' = some (some r') ∧ r'.keyBytes = r.keySigner) :
    Sound C { s with keys := some (m.set label (some r)) } owner (m.set label (some r)) := by
  have hmono : ∀ k q, m k = some (some q) → m.set label (some r) k = some (some q) := by
    intro k q hq
    rw [Map.set_other]
    · exact hq
    · rintro rfl; rw [hn] at hq; cases hq
  refine ⟨?_, h.pub, h.len, rfl, ?_, ?_, ?_, ?_, h.priv⟩
  · obtain ⟨q1, q2, -⟩ := (quick_iff _).mp h.quick
    exact (quick_iff _).mpr ⟨q1, q2, _, rfl⟩
  · intro k hk
    by_cases he : k = label
    · subst he; simp at hk
    · rw [Map.set_other _ _ he] at hk; exact h.noNil k hk
  · intro k q hq
    by_cases he : k = label
    · subst he; simp at hq; rw [← hq]; exact hr
    · rw [Map.set_other _ _ he] at hq; exact h.labelled k q hq
  · rw [Map.set_other _ _ (Ne.symm hl)]; exact h.noSelf
  · intro k q hq
    by_cases he : k = label
    · subst he
      rcases hk with hk | ⟨l', r', h1, h2⟩
      · exact .owner (Map.set_same _ _ _) hk hs
      · exact .link (Map.set_same _ _ _) (hmono _ _ h1) h2.symm hs (Trust.mono C hmono (h.trust _ _ h1))
    · rw [Map.set_other _ _ he] at hq
      exact Trust.mono C hmono (h.trust _ _ hq)

theorem verify_owner {k : PrivateKey} {owner msg sig : Bytes} (hw : k.WT) (hm : marshalPublic k.pub = .ok (some owner)) :
    verify C k.pub msg sig = .ok (if sig.length = 64 then C.verify (owner.drop 32) msg sig else false) := by
  obtain ⟨-, e, v, hp, he, -, rfl⟩ := wt_marshal hw hm
  rw [hp, verify_mk, List.drop_left' he]

theorem sound_addKey {s s' : KeyStore} {owner : Bytes} {m : Keys} (h : Sound C s owner m) {label peer : Bytes}
    {md : Option (Map Bytes)} {t1 t2 : BitVec 64} {b : Bool} (hs : s.addKey C label peer md t1 t2 = .ok (s', b)) :
    ∃ m', Sound C s' owner m' := by
  rcases addKey_true C hs with ⟨-, rfl⟩ | ⟨-, m', sig, k, hq, hm, hh, hl, hp, hk, -, hv, rfl⟩
  · exact ⟨m, h⟩
  rw [h.keys] at hm; cases hm
  obtain ⟨k', h1, -, h3, h4⟩ := h.priv hl
  rw [hk] at h1; cases h1
  obtain ⟨e1, e2⟩ := (has_false hq h.keys label).mp hh
  rw [sound_pub C h] at hv ⊢
  rw [verify_owner C h3 h4] at hv
  refine ⟨_, sound_set C h e1 e2 rfl ?_ (.inl rfl)⟩
  refine ⟨h.len, ?_⟩
  by_cases hsl : sig.length = 64
  · rw [if_pos hsl] at hv
    exact ⟨hsl, by simpa [PublicKeyRecord.keyBytes] using hv⟩
  · simp [hsl] at hv

theorem sound_import {A : Asn1} {s s' : KeyStore} {owner : Bytes} {m : Keys} (h : Sound C s owner m)
    {label blob : Bytes} {o1 o2 : List Bytes} {now : BitVec 64} {b : Bool}
    (hs : s.importVerified C A label blob o1 o2 now = .ok (s', b)) : ∃ m', Sound C s' owner m' := by
  rcases import_true C hs with ⟨-, rfl⟩ | ⟨-, m', v, sl, pk, hq, hm, hh, hd, hsig, -, -, hpl, hsl, hv, rfl⟩
  · exact ⟨m, h⟩
  rw [h.keys] at hm; cases hm
  obtain ⟨e1, e2⟩ := (has_false hq h.keys label).mp hh
  rw [sound_pub C h] at hsig
  rcases hsig with ⟨h1, -, rfl⟩ | ⟨-, h2, r, h3, rfl⟩
  · exact ⟨_, sound_set C h e1 e2 rfl ⟨hpl, hsl, by rw [← h1] at hv ⊢; exact hv⟩ (.inl rfl)⟩
  · obtain ⟨k, r', -, f1, f2, f3⟩ := findLoop_some h2
    rw [h.labelled k r' f1] at f3
    subst f3
    rw [f1] at h3; cases h3
    exact ⟨_, sound_set C h e1 e2 rfl ⟨hpl, hsl, by rw [f2] at hv ⊢; exact hv⟩ (.inr ⟨k, _, f1, rfl⟩)⟩

theorem sound_lock {s s' : KeyStore} {owner : Bytes} {m : Keys} (h : Sound C s owner m) {b : Bool}
    (hs : s.lock = .ok (s', b)) : Sound C s' owner m ∧ b = true := by
  unfold KeyStore.lock at hs
  rw [sound_valid C h] at hs
  cases hl : s.locked with
  | true => simp [hl] at hs; obtain ⟨rfl, rfl⟩ := hs; exact ⟨h, rfl⟩
  | false =>
    obtain ⟨k, h1, h2, -, -⟩ := h.priv hl
    obtain ⟨k', hz, -⟩ := zeroPriv_valid h2
    simp [hl, h1, hz] at hs
    obtain ⟨rfl, rfl⟩ := hs
    exact ⟨⟨h.quick, h.pub, h.len, h.keys, h.noNil, h.labelled, h.noSelf, h.trust, by simp⟩, rfl⟩

theorem sound_lockWith {s s' : KeyStore} {owner : Bytes} {m : Keys} (h : Sound C s owner m) {p : Bytes}
    {rng rng' : Rng} {b : Bool} (hs : s.lockWith C p rng = .ok (s', b, rng')) : Sound C s' owner m := by
  unfold KeyStore.lockWith at hs
  rw [sound_valid C h] at hs
  cases hl : s.locked with
  | true => simp [hl] at hs; obtain ⟨rfl, -⟩ := hs; exact h
  | false =>
    obtain ⟨k, h1, h2, h3, -⟩ := h.priv hl
    obtain ⟨k', hz, -⟩ := zeroPriv_valid h2
    simp only [hl, h1, Res.ok_bind, Bool.not_true, Bool.false_eq_true, if_false, Res.bind_eq_ok] at hs
    obtain ⟨⟨o, r⟩, -, hs⟩ := hs
    cases o with
    | none =>
      simp at hs
      obtain ⟨rfl, -⟩ := hs
      exact ⟨h.quick, h.pub, h.len, h.keys, h.noNil, h.labelled, h.noSelf, h.trust, fun _ => by simpa [h1] using h.priv hl⟩
    | some box =>
      simp [hz] at hs
      obtain ⟨rfl, -⟩ := hs
      exact ⟨h.quick, h.pub, h.len, h.keys, h.noNil, h.labelled, h.noSelf, h.trust, by simp⟩

theorem sound_unlock {A : Asn1} {P : Pem} {s s' : KeyStore} {owner : Bytes} {m : Keys} (h : Sound C s owner m)
    {p : Bytes} {now : BitVec 64} {b : Bool} (ho : (Op.unlock p now).Honest C s)
    (hs : s.unlock C A P p now = .ok (s', b)) : Sound C s' owner m := by
  unfold KeyStore.unlock at hs
  rw [h.quick] at hs
  cases hl : s.locked with
  | false => simp [hl] at hs; obtain ⟨rfl, -⟩ := hs; exact h
  | true =>
    simp only [hl, Bool.not_true, Bool.false_eq_true, if_false, Res.bind_eq_ok] at hs
    obtain ⟨o, hu, hs⟩ := hs
    cases o with
    | none => simp at hs; obtain ⟨rfl, -⟩ := hs; exact h
    | some k =>
      simp only [Res.bind_eq_ok] at hs
      obtain ⟨o, hm, hs⟩ := hs
      cases o with
      | none =>
        simp only [Res.bind_eq_ok] at hs
        obtain ⟨-, -, hs⟩ := hs
        simp at hs; obtain ⟨rfl, -⟩ := hs; exact h
      | some pub =>
        have hpub := ho k pub hu hm
        rw [h.pub] at hpub; cases hpub
        obtain ⟨w1, w2⟩ := unlocked_wt C hu
        have hpriv : ∃ k', some k = some k' ∧ validPriv (some k') = true ∧ k'.WT ∧
          marshalPublic k'.pub = .ok (some owner) := ⟨k, rfl, w1, w2, hm⟩
        simp only at hs
        split at hs
        · simp only [Res.bind_eq_ok] at hs
          obtain ⟨o, hsg, hs⟩ := hs
          cases o with
          | none =>
            obtain ⟨d, sk, e, v, hk⟩ := (validPriv_iff _).mp w1
            cases hk
            rw [sign_mk] at hsg; simp at hsg
          | some sig =>
            simp at hs; obtain ⟨rfl, -⟩ := hs
            exact ⟨h.quick, rfl, h.len, h.keys, h.noNil, h.labelled, h.noSelf, h.trust, fun _ => hpriv⟩
        · simp at hs; obtain ⟨rfl, -⟩ := hs
          exact ⟨h.quick, rfl, h.len, h.keys, h.noNil, h.labelled, h.noSelf, h.trust, fun _ => hpriv⟩

theorem sound_step {A : Asn1} {P : Pem} {s s' : KeyStore} {owner : Bytes} {m : Keys} (h : Sound C s owner m)
    {op : Op} {b : Bool} (ho : op.Honest C s) (hs : op.run C A P s = .ok (s', b)) : ∃ m', Sound C s' owner m' := by
  cases op with
  | addKey => exact sound_addKey C h hs
  | importVerified => exact sound_import C h hs
  | lock => exact ⟨m, (sound_lock C h hs).1⟩
  | lockWith p rng =>
    simp only [Op.run, Res.bind_eq_ok] at hs
    obtain ⟨⟨s1, b1, r⟩, h1, h2⟩ := hs
    simp at h2; obtain ⟨rfl, -⟩ := h2
    exact ⟨m, sound_lockWith C h h1⟩
  | unlock => exact ⟨m, sound_unlock C h ho hs⟩

theorem sound_history {A : Asn1} {P : Pem} {s s' : KeyStore} {ops : List (Op × Bool)} {owner : Bytes} {m : Keys}
    (h : Sound C s owner m) (hh : History C A P s ops s') : ∃ m', Sound C s' owner m' := by
  induction hh generalizing m with
  | nil => exact ⟨m, h⟩
  | cons _ ho hr _ ih =>
    obtain ⟨m', h'⟩ := sound_step C h ho hr
    exact ih h'

theorem sound_new {A : Asn1} {P : Pem} {k : PrivateKey} {t1 t2 : BitVec 64} {s : KeyStore} (hw : k.WT) (ht : t2 ≠ 0)
    (h : newPrivateKeyStore C A P (some k) t1 t2 = .ok (some s)) :
    ∃ owner, Sound C s owner Map.empty ∧ s.locked = false ∧ s.privateKey = some k := by
  unfold newPrivateKeyStore at h
  split at h
  · cases h
  rename_i hv
  have hv : validPriv (some k) = true := by simpa using hv
  simp only [deref, Res.ok_bind, Res.bind_eq_ok] at h
  obtain ⟨o, hm, h⟩ := h
  cases o with
  | none => simp at h
  | some pub =>
    simp only [Res.bind_eq_ok] at h
    obtain ⟨o, -, h⟩ := h
    cases o with
    | none => simp at h
    | some sig =>
      simp at h
      subst h
      refine ⟨pub, ⟨(quick_iff _).mpr ⟨rfl, ht, _, rfl⟩, rfl, (wt_marshal hw hm).1, rfl, ?_, ?_, rfl, ?_, ?_⟩, rfl, rfl⟩
      · intro k h; cases h
      · intro k r h; cases h
      · intro k r h; cases h
      · intro _; exact ⟨k, rfl, hv, hw, hm⟩

/-- Unlocking a store that satisfies the invariant fails without changing it. -/
theorem unlock_failed {A : Asn1} {P : Pem} {s s' : KeyStore} {owner : Bytes} {m : Keys} (h : Sound C s owner m)
    {p : Bytes} {now : BitVec 64} (hs : s.unlock C A P p now = .ok (s', false)) : s' = s := by
  unfold KeyStore.unlock at hs
  rw [h.quick] at hs
  cases hl : s.locked with
  | false => simp [hl] at hs
  | true =>
    simp only [hl, Bool.not_true, Bool.false_eq_true, if_false, Res.bind_eq_ok] at hs
    obtain ⟨o, hu, hs⟩ := hs
    cases o with
    | none => simp at hs; exact hs.symm
    | some k =>
      simp only [Res.bind_eq_ok] at hs
      obtain ⟨o, hm, hs⟩ := hs
      cases o with
      | none =>
        simp only [Res.bind_eq_ok] at hs
        obtain ⟨-, -, hs⟩ := hs
        simp at hs; exact hs.symm
      | some pub =>
        obtain ⟨w1, -⟩ := unlocked_wt C hu
        simp only at hs
        split at hs
        · simp only [Res.bind_eq_ok] at hs
          obtain ⟨o, hsg, hs⟩ := hs
          cases o with
          | none =>
            obtain ⟨d, sk, e, v, hk⟩ := (validPriv_iff _).mp w1
            cases hk
            rw [sign_mk] at hsg; simp at hsg
          | some sig => simp at hs
        · simp at hs

/-- The passphrase opens the locked key to the owner's. -/
def LockedAs (s : KeyStore) (owner : Bytes) (cur : Option Bytes) : Prop :=
  ∀ p, cur = some p → ∀ k pub, unlockKey C (s.lockedKey.getD []) p = .ok (some k) →
    marshalPublic k.pub = .ok (some pub) → pub = owner

theorem lockedKey_addKey {s s' : KeyStore} {label peer : Bytes}
    {md : Option (Map Bytes)} {t1 t2 : BitVec 64} {b : Bool} (hs : s.addKey C label peer md t1 t2 = .ok (s', b)) :
    s'.lockedKey = s.lockedKey := by
  rcases addKey_true C hs with ⟨-, rfl⟩ | ⟨-, m', sig, k, -, -, -, -, -, -, -, -, rfl⟩ <;> rfl

theorem lockedKey_import {A : Asn1} {s s' : KeyStore} {label blob : Bytes} {o1 o2 : List Bytes} {now : BitVec 64} {b : Bool}
    (hs : s.importVerified C A label blob o1 o2 now = .ok (s', b)) : s'.lockedKey = s.lockedKey := by
  rcases import_true C hs with ⟨-, rfl⟩ | ⟨-, m', v, sl, pk, -, -, -, -, -, -, -, -, -, -, rfl⟩ <;> rfl

theorem lockedKey_lock {s s' : KeyStore} {owner : Bytes} {m : Keys} (h : Sound C s owner m) {b : Bool}
    (hs : s.lock = .ok (s', b)) : s'.lockedKey = s.lockedKey := by
  unfold KeyStore.lock at hs
  rw [sound_valid C h] at hs
  cases hl : s.locked with
  | true => simp [hl] at hs; rw [← hs.1]
  | false =>
    obtain ⟨k, h1, h2, -, -⟩ := h.priv hl
    obtain ⟨k', hz, -⟩ := zeroPriv_valid h2
    simp [hl, h1, hz] at hs
    rw [← hs.1]

theorem lockedAs_lockWith {s s' : KeyStore} {owner : Bytes} {m : Keys} (h : Sound C s owner m) {p : Bytes}
    {rng rng' : Rng} {b : Bool} {cur : Option Bytes} (hc : LockedAs C s owner cur)
    (hs : s.lockWith C p rng = .ok (s', b, rng')) :
    LockedAs C s' owner ((Op.lockWith p rng).passphrase s b cur) := by
  unfold KeyStore.lockWith at hs
  rw [sound_valid C h] at hs
  cases hl : s.locked with
  | true =>
    simp [hl] at hs; obtain ⟨rfl, -⟩ := hs
    simp only [Op.passphrase, hl, if_true]
    exact hc
  | false =>
    obtain ⟨k, h1, h2, h3, h4⟩ := h.priv hl
    obtain ⟨k', hz, -⟩ := zeroPriv_valid h2
    simp only [hl, h1, Res.ok_bind, Bool.not_true, Bool.false_eq_true, if_false, Res.bind_eq_ok] at hs
    obtain ⟨⟨o, r⟩, hk, hs⟩ := hs
    cases o with
    | none =>
      simp at hs
      obtain ⟨-, rfl, -⟩ := hs
      intro q hq
      simp [Op.passphrase, hl] at hq
    | some box =>
      simp [hz] at hs
      obtain ⟨rfl, rfl, -⟩ := hs
      intro q hq k2 pub hu hm
      simp [Op.passphrase, hl] at hq
      subst hq
      by_cases hr : rng.length < 56
      · obtain ⟨r', he⟩ := (Props.Public.C24_lock_roundtrip C k h3 h2 p rng).1 hr
        rw [he] at hk; simp at hk
      · obtain ⟨locked, e1, -, e2⟩ := (Props.Public.C24_lock_roundtrip C k h3 h2 p rng).2 (by omega)
        rw [e1] at hk
        simp only [Res.ok.injEq, Prod.mk.injEq, Option.some.injEq] at hk
        rw [hk.1] at e2
        simp only [Option.getD_some] at hu
        rw [e2] at hu
        simp only [Res.ok.injEq, Option.some.injEq] at hu
        subst hu
        rw [h4] at hm
        simpa using hm.symm

theorem lockedKey_unlock {A : Asn1} {P : Pem} {s s' : KeyStore} {owner : Bytes} {m : Keys} (h : Sound C s owner m)
    {p : Bytes} {now : BitVec 64} {b : Bool} (hs : s.unlock C A P p now = .ok (s', b)) : s'.lockedKey = s.lockedKey := by
  cases b with
  | false => rw [unlock_failed C h hs]
  | true =>
    unfold KeyStore.unlock at hs
    rw [h.quick] at hs
    cases hl : s.locked with
    | false => simp [hl] at hs; rw [hs]
    | true =>
      simp only [hl, Bool.not_true, Bool.false_eq_true, if_false, Res.bind_eq_ok] at hs
      obtain ⟨o, hu, hs⟩ := hs
      cases o with
      | none => simp at hs
      | some k =>
        simp only [Res.bind_eq_ok] at hs
        obtain ⟨o, hm, hs⟩ := hs
        cases o with
        | none =>
          simp only [Res.bind_eq_ok] at hs
          obtain ⟨-, -, hs⟩ := hs
          simp at hs
        | some pub =>
          simp only at hs
          split at hs
          · simp only [Res.bind_eq_ok] at hs
            obtain ⟨o, hsg, hs⟩ := hs
            cases o with
            | none =>
              simp only [Res.bind_eq_ok] at hs
              obtain ⟨z, hz, hs⟩ := hs
              simp at hs
            | some sig => simp at hs; rw [← hs]
          · simp at hs; rw [← hs]

/-- Unlocking with the passphrase the store was locked with brings back the owner's key. -/
theorem own_step {A : Asn1} {P : Pem} {s s' : KeyStore} {owner : Bytes} {m : Keys} (h : Sound C s owner m)
    {op : Op} {b : Bool} {cur : Option Bytes} (hc : LockedAs C s owner cur)
    (ho : ∀ p now, op = .unlock p now → s.locked = true → b = true → cur = some p)
    (hs : op.run C A P s = .ok (s', b)) : ∃ m', Sound C s' owner m' ∧ LockedAs C s' owner (op.passphrase s b cur) := by
  have keep : s'.lockedKey = s.lockedKey → LockedAs C s' owner cur := by
    intro e p hp k pub
    rw [e]
    exact hc p hp k pub
  cases op with
  | addKey =>
    obtain ⟨m', h'⟩ := sound_addKey C h hs
    exact ⟨m', h', keep (lockedKey_addKey C hs)⟩
  | importVerified =>
    obtain ⟨m', h'⟩ := sound_import C h hs
    exact ⟨m', h', keep (lockedKey_import C hs)⟩
  | lock => exact ⟨m, (sound_lock C h hs).1, keep (lockedKey_lock C h hs)⟩
  | lockWith p rng =>
    simp only [Op.run, Res.bind_eq_ok] at hs
    obtain ⟨⟨s1, b1, r⟩, h1, h2⟩ := hs
    simp at h2; obtain ⟨rfl, rfl⟩ := h2
    exact ⟨m, sound_lockWith C h h1, lockedAs_lockWith C h hc h1⟩
  | unlock p now =>
    refine ⟨m, ?_, keep (lockedKey_unlock C h hs)⟩
    cases b with
    | false => rw [unlock_failed C h hs]; exact h
    | true =>
      by_cases hl : s.locked = true
      · refine sound_unlock C h ?_ hs
        intro k pub hu hm
        rw [hc p (ho p now rfl hl rfl) k pub hu hm]
        exact h.pub
      · simp only [Op.run, KeyStore.unlock, h.quick, Bool.not_true, Bool.false_eq_true, if_false, hl, Bool.not_false, if_true,
          Res.ok.injEq, Prod.mk.injEq] at hs
        rw [← hs.1]; exact h

theorem own_history {A : Asn1} {P : Pem} {s s' : KeyStore} {ops : List (Op × Bool)} {owner : Bytes} {m : Keys}
    {cur : Option Bytes} (h : Sound C s owner m) (hc : LockedAs C s owner cur) (hh : OwnHistory C A P cur s ops s') :
    ∃ m', Sound C s' owner m' := by
  induction hh generalizing m with
  | nil => exact ⟨m, h⟩
  | cons _ ho hr _ ih =>
    obtain ⟨m', h', hc'⟩ := own_step C h hc ho hr
    exact ih h' hc'

/-- With a clock that reads zero the store is never usable. -/
theorem stuck_step {A : Asn1} {P : Pem} {s s' : KeyStore} (h : s.validQuick = false) {op : Op} {b : Bool}
    (hs : op.run C A P s = .ok (s', b)) : s' = s := by
  have hv : s.valid = .ok false := by unfold KeyStore.valid; simp [h]
  cases op with
  | addKey => simp [Op.run, KeyStore.addKey, h] at hs; exact hs.1.symm
  | importVerified => simp [Op.run, KeyStore.importVerified, h] at hs; exact hs.1.symm
  | lock => simp [Op.run, KeyStore.lock, hv] at hs; exact hs.1.symm
  | lockWith => simp [Op.run, KeyStore.lockWith, hv] at hs; exact hs.1.symm
  | unlock => simp [Op.run, KeyStore.unlock, h] at hs; exact hs.1.symm

theorem stuck_history {A : Asn1} {P : Pem} {s s' : KeyStore} {ops : List (Op × Bool)} (h : s.validQuick = false)
    (hh : History C A P s ops s') : s' = s := by
  induction hh with
  | nil => rfl
  | cons _ _ hr _ ih =>
    have := stuck_step C h hr
    subst this
    exact ih h

theorem stuck_own {A : Asn1} {P : Pem} {s s' : KeyStore} {ops : List (Op × Bool)} {cur : Option Bytes}
    (h : s.validQuick = false) (hh : OwnHistory C A P cur s ops s') : s' = s := by
  induction hh with
  | nil => rfl
  | cons _ _ hr _ ih =>
    have := stuck_step C h hr
    subst this
    exact ih h

/-- Into a store that satisfies the invariant, a signed key is imported exactly when it should be,
as long as no record has the empty label. -/
theorem import_complete {A : Asn1} {s : KeyStore} {owner : Bytes} {m : Keys} (h : Sound C s owner m)
    (he : m [] = none) {label blob : Bytes} {o1 o2 : List Bytes} (h1 : m.Enumerates o1) (h2 : m.Enumerates o2)
    {v : VerifiedKey} (hd : A.dec blob = some v) (hl : label ≠ self) (hf : m label = none)
    (hs : Signed C v.signer v.pub v.signature v.timestamp)
    (hk : v.signer = owner ∨ ∃ l r, m l = some (some r) ∧ r.keyBytes = v.signer) (now : BitVec 64) :
    s.importVerified C A label blob o1 o2 now =
      .ok ({ s with keys := some (m.set label (some {
        label := label, version := 1, timestamp := now, keys := some v.pub, keySignature := v.signature
        keySigner := v.signer, signatureTime := v.timestamp, metadata := none })) }, true) := by
  have hh : s.has label = false := (has_false h.quick h.keys label).mpr ⟨hl, hf⟩
  have hself : self ≠ [] := by decide
  have hp := sound_pub C h
  have hu := unmarshalPublic_of_length hs.1
  have hver : verify C (some ⟨some (v.signer.take 32), some (v.signer.drop 32)⟩) v.signatureData v.signature = .ok true := by
    rw [verify_mk, if_pos hs.2.1, VerifiedKey.signatureData, hs.2.2]
  unfold KeyStore.importVerified
  simp only [h.quick, hh, hd, Bool.not_true, Bool.or_false, Bool.false_eq_true, if_false]
  by_cases hso : v.signer = s.pubBytes
  · have hpk : s.publicKey.getD [] = v.signer := hso.symm
    have hvs : s.verifyKeySignature C self o2 = .ok (some self) := by
      unfold KeyFields.verifyKeySignature; simp [h.quick]
    simp [hso, hvs, h.pub, h.keys]
    rw [hp] at hso
    rw [← hso, hu]
    simp [hver, hp, ← hso]
  · have hfp : s.findPublic v.signer o1 = findLoop m v.signer o1 := by
      unfold KeyFields.findPublic; rw [if_neg hso, h.keys]; rfl
    rw [if_neg hso, hfp]
    cases hfl : findLoop m v.signer o1 with
    | panic => exact absurd hfl (findLoop_no_panic h.noNil _ _)
    | ok o =>
      cases o with
      | none =>
        rcases hk with hk | ⟨l, r, e1, e2⟩
        · exact absurd (hk.trans hp.symm) hso
        · exact absurd e2 (findLoop_none hfl l ((h1.2 l).mpr (by simp [e1])) r e1)
      | some sl =>
        obtain ⟨k, r, -, f1, f2, f3⟩ := findLoop_some hfl
        rw [h.labelled k r f1] at f3
        subst f3
        have hg : s.get k = some r := (get_some h.keys).mpr f1
        have hkne : k ≠ [] := by rintro rfl; rw [he] at f1; cases f1
        have hks : k ≠ self := by rintro rfl; rw [h.noSelf] at f1; cases f1
        have hkn : r.keys ≠ none := by
          intro hn
          have := hs.1
          rw [← f2, PublicKeyRecord.keyBytes, hn] at this
          simp at this
        have hkd : r.keys.getD [] = v.signer := f2
        have hvs : ∃ x, s.verifyKeySignature C k o2 = .ok (some x) := by
          rcases vks_vouched C h.quick h.keys hp h.noNil h.labelled h2 hks f1 (h.trust k r f1) with ⟨-, e⟩ | ⟨-, sl, -, -, -, e⟩
          · exact ⟨_, e⟩
          · exact ⟨_, e⟩
        obtain ⟨x, hvs⟩ := hvs
        simp [hg, deref, hkne, hkn, hvs, hkd, hu, hver, h.keys]

/-- Importing into a store without nil records whose labels are in place does not panic. -/
theorem import_no_panic {A : Asn1} {s : KeyStore} {m : Keys} (hm : s.keys = some m) (hn : NoNil m) (hlab : Labelled m)
    {label blob : Bytes} {o1 o2 : List Bytes} {now : BitVec 64} :
    s.importVerified C A label blob o1 o2 now ≠ .panic := by
  unfold KeyStore.importVerified
  split
  · simp
  cases A.dec blob with
  | none => simp
  | some v =>
    have key : ∀ (sl : Bytes) (pub : Option Bytes), (sl = self ∨ m sl ≠ none) → (do
        if sl = [] ∨ pub = none then (Pure.pure (s, false) : Res (KeyStore × Bool))
        else do
          match ← s.verifyKeySignature C sl o2 with
          | none => Pure.pure (s, false)
          | some _ =>
            match unmarshalPublic (pub.getD []) with
            | none => Pure.pure (s, false)
            | some pubkey => do
              if !(← Model.Public.verify C (some pubkey) v.signatureData v.signature) then Pure.pure (s, false)
              else
                match s.keys with
                | none => .panic
                | some m =>
                  let r : PublicKeyRecord := {
                    label := label, version := keyStoreVersion, timestamp := now, keys := some v.pub
                    keySignature := v.signature, keySigner := pub.getD []
                    signatureTime := v.timestamp, metadata := none }
                  Pure.pure ({ s with keys := some (m.set label (some r)) }, true)) ≠ Res.panic := by
      intro sl pub hsl
      split
      · simp
      cases hv : s.verifyKeySignature C sl o2 with
      | panic => exact absurd hv (vks_no_panic C hm hn hlab hsl o2)
      | ok o =>
        cases o with
        | none => simp
        | some x =>
          cases hu : unmarshalPublic (pub.getD []) with
          | none => simp
          | some p =>
            obtain ⟨-, rfl⟩ := unmarshalPublic_some hu
            simp only [Res.ok_bind, verify_mk, hm]
            split
            · generalize C.verify _ _ _ = c
              cases c <;> simp
            · simp
    simp only
    by_cases hk : v.signer = s.pubBytes
    · simp only [hk, if_true, Res.pure_eq, Res.ok_bind]
      exact key self s.publicKey (.inl rfl)
    · have hfp : s.findPublic v.signer o1 = findLoop m v.signer o1 := by
        unfold KeyFields.findPublic; rw [if_neg hk, hm]; rfl
      rw [if_neg hk, hfp]
      cases hf : findLoop m v.signer o1 with
      | panic => exact absurd hf (findLoop_no_panic hn _ _)
      | ok o =>
        cases o with
        | none => simp
        | some sl =>
          obtain ⟨k, r, -, f1, -, f3⟩ := findLoop_some hf
          rw [hlab k r f1] at f3
          subst f3
          simp only [Res.ok_bind, (get_some hm).mpr f1, deref, Res.pure_eq]
          exact key k r.keys (.inr (by simp [f1]))

/-- What a successful `Unlock` of a locked store does. -/
theorem unlock_opens {A : Asn1} {P : Pem} {s s' : KeyStore} {pass : Bytes} {now : BitVec 64} (hl : s.locked = true)
    (h : s.unlock C A P pass now = .ok (s', true)) :
    ∃ k pub x, unlockKey C (s.lockedKey.getD []) pass = .ok (some k) ∧ marshalPublic k.pub = .ok (some pub) ∧
      (∀ y, s.exportKey = some y → x = y) ∧
      (s.exportKey = none → ∃ sig, Model.Public.sign C (some k) (pub ++ pub ++ be 8 now.toNat) = .ok (some sig) ∧
        x = ({ pub := pub, signer := pub, timestamp := now, signature := sig } : VerifiedKey).serialise A P) ∧
      s' = { s with privateKey := some k, publicKey := some pub, locked := false, exportKey := some x } := by
  unfold KeyStore.unlock at h
  split at h
  · simp at h
  rw [hl] at h
  simp only [Bool.not_true, Bool.false_eq_true, if_false] at h
  obtain ⟨o, ho, h⟩ := Res.bind_eq_ok.mp h
  cases o with
  | none => simp at h
  | some k =>
    simp only at h
    obtain ⟨o2, ho2, h⟩ := Res.bind_eq_ok.mp h
    cases o2 with
    | none =>
      simp only at h
      obtain ⟨z, -, h⟩ := Res.bind_eq_ok.mp h
      simp at h
    | some pub =>
      simp only at h
      cases hx : s.exportKey with
      | some x =>
        rw [hx] at h
        simp only [Option.isNone_some, Bool.false_eq_true, if_false, Res.pure_eq, Res.ok.injEq, Prod.mk.injEq, and_true] at h
        refine ⟨k, pub, x, ho, ho2, fun y hy => by simpa using hy, fun hy => by simp at hy, ?_⟩
        rw [← h]
      | none =>
        rw [hx] at h
        simp only [Option.isNone_none, if_true] at h
        obtain ⟨o3, ho3, h⟩ := Res.bind_eq_ok.mp h
        cases o3 with
        | none =>
          simp only at h
          obtain ⟨z, -, h⟩ := Res.bind_eq_ok.mp h
          simp at h
        | some sig =>
          simp only [Res.pure_eq, Res.ok.injEq, Prod.mk.injEq, and_true] at h
          exact ⟨k, pub, _, ho, ho2, fun y hy => by simp at hy, fun _ => ⟨sig, ho3, rfl⟩, h.symm⟩

end Verif.Proofs.KeyStore
