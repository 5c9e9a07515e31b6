import Verif.Model.Secret
/-! Lemmas about common/secret. -/

namespace Verif.Proofs.Secret
open Verif Verif.Go Verif.Model.Util Verif.Model.Secret

variable (C : Crypto)

/-- The key `DeriveKey` computes; it never fails. -/
def stdKey (pass salt : Bytes) : Bytes := C.scrypt pass salt 1048576 8 2 32

theorem deriveKey_eq (pass salt : Bytes) : deriveKey C pass salt = some (stdKey C pass salt) := by
  unfold deriveKey deriveKeyStrength
  have : scryptKey C pass salt (scryptMode scryptStandard).N (scryptMode scryptStandard).r
      (scryptMode scryptStandard).p keySize = some (stdKey C pass salt) := by
    simp only [scryptMode, if_true]
    unfold scryptKey
    rw [if_neg (by decide), if_neg (by decide)]
    rfl
  simp only [this]
  rw [copyInto_eq]
  exact C.scrypt_length ..

theorem encrypt_some (k msg : Bytes) (rng : Rng) :
    encrypt C (some k) msg rng =
      if 24 ≤ rng.length then .ok (some (rng.take 24 ++ C.sealBox k (rng.take 24) msg), rng.drop 24)
      else .ok (none, []) := by
  unfold encrypt
  split
  · rename_i r' h
    by_cases hl : 24 ≤ rng.length
    · have : newNonce rng = (some (rng.take 24), rng.drop 24) := by
        conv => lhs; rw [← List.take_append_drop 24 rng]
        exact newNonce_append (by simp [hl])
      rw [this] at h; simp at h
    · rw [newNonce_none (by omega)] at h
      simp only [Prod.mk.injEq, true_and] at h
      subst h
      rw [if_neg hl]
  · rename_i nonce r' h
    obtain ⟨rfl, h2⟩ := newNonce_some h
    rw [if_pos (by simp [h2])]
    simp [sealPtr, ← h2, copyInto_eq rfl]

theorem decrypt_some (k ct : Bytes) :
    decrypt C (some k) ct =
      if ct.length < 40 then .ok none else .ok (C.openBox k (ct.take 24) (ct.drop 24)) := by
  unfold decrypt openPtr Model.Secret.nonceSize
  by_cases h : ct.length < 24
  · rw [if_pos h, if_pos (by omega)]
  · rw [if_neg h]
    have hc : copyInto 24 ct = ct.take 24 := by
      simp only [copyInto]; rw [Nat.sub_eq_zero_of_le (by omega)]; simp
    by_cases h2 : ct.length < 40
    · rw [if_pos h2, if_pos (by simp only [List.length_drop]; omega)]
    · rw [if_neg h2, if_neg (by simp only [List.length_drop]; omega), hc]

theorem decrypt_iff (k ct m : Bytes) :
    decrypt C (some k) ct = .ok (some m) ↔
      ∃ n, n.length = 24 ∧ ct = n ++ C.sealBox k n m := by
  rw [decrypt_some]
  constructor
  · intro h
    split at h
    · simp at h
    · rename_i hl
      simp only [Res.ok.injEq] at h
      have h' := (C.open_iff _ _ _ _).mp h
      exact ⟨ct.take 24, by simp only [List.length_take]; omega, by rw [← h', List.take_append_drop]⟩
  · rintro ⟨n, hn, rfl⟩
    have hl := C.seal_length k n m
    rw [if_neg (by simp only [List.length_append]; omega), List.take_left' hn, List.drop_left' hn]
    simp only [Res.ok.injEq]
    exact (C.open_iff _ _ _ _).mpr rfl

theorem decrypt_seal (k n m : Bytes) (hn : n.length = 24) :
    decrypt C (some k) (n ++ C.sealBox k n m) = .ok (some m) :=
  (decrypt_iff C k _ m).mpr ⟨n, hn, rfl⟩

theorem decrypt_no_panic (k ct : Bytes) : decrypt C (some k) ct ≠ .panic := by
  rw [decrypt_some]; split <;> simp

theorem encryptFile_eq (o : WriteOutcome) (fs : Fs) (f : Path) (pass enc : Bytes) (rng : Rng) :
    encryptFile C o fs f pass enc rng =
      if rng.length < 32 then .ok ⟨fs, false, enc, []⟩
      else if rng.length < 56 then .ok ⟨fs, false, zero enc, []⟩
      else
        let salt := rng.take 32
        let nonce := (rng.drop 32).take 24
        let w := writeFile o fs f (salt ++ (nonce ++ C.sealBox (stdKey C pass salt) nonce enc))
        .ok ⟨w.1, w.2, zero enc, rng.drop 56⟩ := by
  unfold encryptFile randBytes saltSize
  by_cases h : rng.length < 32
  · rw [if_pos h, readFull_none h]
  · rw [if_neg h]
    have hr : readFull rng 32 = (some (rng.take 32), rng.drop 32) := by
      unfold readFull; rw [if_pos (by omega)]
    rw [hr]
    simp only [deriveKey_eq, encrypt_some]
    by_cases h2 : rng.length < 56
    · rw [if_pos h2, if_neg (by simp only [List.length_drop]; omega)]
      rfl
    · rw [if_neg h2, if_pos (by simp only [List.length_drop]; omega)]
      simp [List.drop_drop]

end Verif.Proofs.Secret
