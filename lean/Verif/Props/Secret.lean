import Verif.Proofs.Secret
/-! Properties of common/util and common/secret (C08-C15). -/

namespace Verif.Props.Secret
open Verif Verif.Go Verif.Model.Util Verif.Model.Secret Verif.Proofs.Secret

/-- C08: `RandBytes` and `NewNonce` hand out exactly the next bytes of the PRNG or nil; nil
exactly when the PRNG is short. -/
theorem C08_rand_all_or_nothing (rng : Rng) (n : Nat) :
    (n ≤ rng.length → ∃ p r, rng = p ++ r ∧ p.length = n ∧ randBytes rng n = (some p, r)) ∧
    (rng.length < n → (randBytes rng n).1 = none) ∧
    (24 ≤ rng.length → ∃ p r, rng = p ++ r ∧ p.length = 24 ∧ newNonce rng = (some p, r)) ∧
    (rng.length < 24 → (newNonce rng).1 = none) := by
  refine ⟨fun h => ?_, fun h => ?_, fun h => ?_, fun h => ?_⟩
  · refine ⟨rng.take n, rng.drop n, by simp, by simp [h], ?_⟩
    unfold randBytes readFull; rw [if_pos h]
  · unfold randBytes; rw [readFull_none h]
  · refine ⟨rng.take 24, rng.drop 24, by simp, by simp [h], ?_⟩
    conv => lhs; rw [← List.take_append_drop 24 rng]
    exact newNonce_append (by simp [h])
  · rw [newNonce_none h]

example : 24 ≤ (List.replicate 30 (7 : UInt8)).length ∧ (List.replicate 30 (7 : UInt8)).length < 31 := by
  decide

/-- C09: `Zero` keeps the length and clears every byte. -/
theorem C09_zero (b : Bytes) : (zero b).length = b.length ∧ ∀ x ∈ zero b, x = 0 := by
  rw [zero_eq]
  exact ⟨by simp, fun x hx => List.eq_of_mem_replicate hx⟩

example : zero [1, 2, 255] = [0, 0, 0] := by decide

/-- C10: encryption never panics with a key; it fails exactly when the PRNG cannot supply a
nonce, and otherwise its output is nonce and box, 40 bytes longer, and decrypts. -/
theorem C10_roundtrip (C : Crypto) (k msg : Bytes) (rng : Rng) :
    (rng.length < 24 ∧ ∃ r, encrypt C (some k) msg rng = .ok (none, r)) ∨
    ∃ nonce r, rng = nonce ++ r ∧ nonce.length = 24 ∧
      ∃ ct, encrypt C (some k) msg rng = .ok (some ct, r) ∧ ct = nonce ++ C.sealBox k nonce msg ∧
        ct.length = msg.length + 40 ∧ decrypt C (some k) ct = .ok (some msg) := by
  rw [encrypt_some]
  by_cases h : 24 ≤ rng.length
  · right
    rw [if_pos h]
    have hn : (rng.take 24).length = 24 := by simp [h]
    refine ⟨rng.take 24, rng.drop 24, by simp, hn, _, rfl, rfl, ?_, decrypt_seal C k _ msg hn⟩
    rw [List.length_append, hn, C.seal_length]; omega
  · left
    rw [if_neg h]
    exact ⟨by omega, _, rfl⟩

/-- C11: `Decrypt` accepts exactly nonce-and-box under this key. -/
theorem C11_decrypt_exact (C : Crypto) (k ct : Bytes) :
    (∀ m, decrypt C (some k) ct = .ok (some m) ↔
      ∃ n, n.length = 24 ∧ ct = n ++ C.sealBox k n m) ∧
    decrypt C (some k) ct ≠ .panic ∧
    (ct.length < 40 → decrypt C (some k) ct = .ok none) := by
  refine ⟨decrypt_iff C k ct, decrypt_no_panic C k ct, fun h => ?_⟩
  rw [decrypt_some, if_pos h]

/-- C11: one ciphertext, one plaintext. -/
theorem C11_unique_plaintext (C : Crypto) (k n₁ n₂ m₁ m₂ : Bytes) (h₁ : n₁.length = 24)
    (h₂ : n₂.length = 24) (h : n₁ ++ C.sealBox k n₁ m₁ = n₂ ++ C.sealBox k n₂ m₂) :
    n₁ = n₂ ∧ m₁ = m₂ := by
  have e := decrypt_seal C k n₁ m₁ h₁
  rw [h, decrypt_seal C k n₂ m₂ h₂] at e
  simp only [Res.ok.injEq, Option.some.injEq] at e
  exact ⟨(List.append_inj h (by omega)).1, e.symm⟩

example : ∃ ct : Bytes, 40 ≤ ct.length ∧
    decrypt Toy.crypto (some (List.replicate 32 1)) ct = .ok (some [5, 6]) ∧
    decrypt Toy.crypto (some (List.replicate 32 2)) ct = .ok none :=
  ⟨List.replicate 24 9 ++ Toy.crypto.sealBox (List.replicate 32 1) (List.replicate 24 9) [5, 6],
    by decide, by decide, by decide⟩

/-- C12: what `EncryptFile` reports as saved can be read back; nothing else on disk changes;
the plaintext buffer is wiped. -/
theorem C12_file_roundtrip (C : Crypto) (o : WriteOutcome) (fs : Fs) (f : Path)
    (pass data : Bytes) (rng : Rng) (out : FileOut)
    (h : encryptFile C o fs f pass data rng = .ok out) :
    (∀ g, g ≠ f → out.fs g = fs g) ∧
    (out.ok = true → decryptFile C out.fs f pass = .ok (.ok data) ∧
      out.encoded = List.replicate data.length 0) := by
  rw [encryptFile_eq] at h
  split at h
  · simp only [Res.ok.injEq] at h; subst h; simp
  split at h
  · simp only [Res.ok.injEq] at h; subst h; simp
  rename_i h1 h2
  simp only [Res.ok.injEq] at h
  subst h
  constructor
  · intro g hg
    cases o <;> simp [writeFile, Fs.set, hg]
  · intro hok
    have ho : o = .done := by cases o <;> simp [writeFile] at hok; rfl
    subst ho
    refine ⟨?_, zero_eq data⟩
    have hs : (List.take 32 rng).length = 32 := by simp only [List.length_take]; omega
    have hn : (List.take 24 (List.drop 32 rng)).length = 24 := by
      simp only [List.length_take, List.length_drop]; omega
    unfold decryptFile
    simp only [writeFile, Fs.set_same, saltSize]
    rw [if_neg (by simp only [List.length_append]; omega), List.take_left' hs, List.drop_left' hs,
      deriveKey_eq, decrypt_seal C _ _ _ hn]
    rfl

/-- C12: with a working disk and 56 PRNG bytes `EncryptFile` does succeed. -/
theorem C12_succeeds (C : Crypto) (fs : Fs) (f : Path) (pass data : Bytes) (rng : Rng)
    (h : 56 ≤ rng.length) :
    ∃ out, encryptFile C .done fs f pass data rng = .ok out ∧ out.ok = true := by
  rw [encryptFile_eq, if_neg (by omega), if_neg (by omega)]
  exact ⟨_, rfl, rfl⟩

example : ∃ out, encryptFile Toy.crypto .done (fun _ => some [1]) [102] [112] [1, 2, 3]
    (List.replicate 56 0) = .ok out ∧ out.ok = true :=
  C12_succeeds _ _ _ _ _ _ (by decide)

/-- C13 is false: `DecryptFile` panics exactly on files shorter than 32 bytes. -/
theorem C13_panics_violated (C : Crypto) (fs : Fs) (f : Path) (pass : Bytes) :
    decryptFile C fs f pass = .panic ↔ ∃ b, fs f = some b ∧ b.length < 32 := by
  unfold decryptFile
  cases hf : fs f with
  | none => simp
  | some b =>
    simp only [saltSize, Option.some.injEq, exists_eq_left']
    by_cases h : b.length < 32
    · simp [h]
    · rw [if_neg h]
      simp only [h, iff_false, deriveKey_eq, Res.bind_eq_panic, not_or, not_exists, not_and]
      refine ⟨decrypt_no_panic C _ _, ?_⟩
      intro r _ hp
      cases r <;> simp at hp

example : decryptFile Toy.crypto (Fs.set (fun _ => none) [1] [2, 3]) [1] [9] = .panic :=
  (C13_panics_violated _ _ _ _).mpr ⟨_, Fs.set_same _ _ _, by decide⟩

/-- C13, what holds: no panic on missing files and files of at least 32 bytes. Missing:
shorter files. -/
theorem C13_no_panic_partial (C : Crypto) (fs : Fs) (f : Path) (pass : Bytes)
    (h : ∀ b, fs f = some b → 32 ≤ b.length) : decryptFile C fs f pass ≠ .panic := by
  rw [ne_eq, C13_panics_violated]
  rintro ⟨b, hb, hl⟩
  have := h b hb
  omega

/-- C13, what holds: for missing files and files of at least 32 bytes the result is the data if
the file was sealed under the passphrase, and otherwise an error. -/
theorem C13_data_or_error_partial (C : Crypto) (fs : Fs) (f : Path) (pass : Bytes)
    (h : ∀ b, fs f = some b → 32 ≤ b.length) :
    (∃ salt nonce data, salt.length = 32 ∧ nonce.length = 24 ∧
      fs f = some (salt ++ (nonce ++ C.sealBox (C.scrypt pass salt 1048576 8 2 32) nonce data)) ∧
      decryptFile C fs f pass = .ok (.ok data)) ∨
    ((∀ salt nonce data, salt.length = 32 → nonce.length = 24 →
      fs f ≠ some (salt ++ (nonce ++ C.sealBox (C.scrypt pass salt 1048576 8 2 32) nonce data))) ∧
      ∃ e, decryptFile C fs f pass = .ok (.error e)) := by
  cases hf : fs f with
  | none =>
    refine .inr ⟨by simp, ?_⟩
    unfold decryptFile
    rw [hf]
    exact ⟨_, rfl⟩
  | some b =>
    have hl := h b hf
    have hd : decryptFile C fs f pass = (do
        match ← decrypt C (some (stdKey C pass (b.take 32))) (b.drop 32) with
        | none => pure (.error .decrypt)
        | some d => pure (.ok d)) := by
      unfold decryptFile
      rw [hf]
      simp only [saltSize]
      rw [if_neg (by omega), deriveKey_eq]
      rfl
    cases hx : decrypt C (some (stdKey C pass (b.take 32))) (b.drop 32) with
    | panic => exact absurd hx (decrypt_no_panic C _ _)
    | ok r =>
      rw [hx] at hd
      cases r with
      | some data =>
        obtain ⟨n, hn, he⟩ := (decrypt_iff C _ _ _).mp hx
        refine .inl ⟨b.take 32, n, data, by simp only [List.length_take]; omega, hn, ?_, hd⟩
        rw [← List.take_append_drop 32 b, he]
        simp only [Option.some.injEq]
        rw [List.take_left' (by simp only [List.length_take]; omega)]
        rfl
      | none =>
        refine .inr ⟨?_, _, hd⟩
        intro salt nonce data hs hn e
        simp only [Option.some.injEq] at e
        have hdr : b.drop 32 = nonce ++ C.sealBox (C.scrypt pass salt 1048576 8 2 32) nonce data := by
          rw [e, List.drop_left' hs]
        have htk : b.take 32 = salt := by rw [e, List.take_left' hs]
        rw [hdr, htk] at hx
        have := decrypt_seal C (stdKey C pass salt) nonce data hn
        unfold stdKey at this hx
        rw [this] at hx
        simp at hx

/-- A sealed file, and one that is not. -/
example : decryptFile Toy.crypto (fun _ => some (List.replicate 32 7 ++ (List.replicate 24 9 ++
      Toy.crypto.sealBox (Toy.crypto.scrypt [112] (List.replicate 32 7) 1048576 8 2 32) (List.replicate 24 9) [1]))) [] [112] =
      .ok (.ok [1]) ∧
    ∃ e, decryptFile Toy.crypto (fun _ => some (List.replicate 80 1)) [] [112] = .ok (.error e) :=
  ⟨rfl, _, rfl⟩

example : ∃ fs : Fs, ∃ f, (∀ b, fs f = some b → 32 ≤ b.length) ∧ fs f ≠ none :=
  ⟨fun _ => some (List.replicate 40 1), [], by simp, by simp⟩

/-- The states the disk can be in if the machine stops at some point of `EncryptFile`: as
before, or as left by a write cut short after any number of bytes. -/
def DiskDuring (C : Crypto) (fs : Fs) (f : Path) (pass data : Bytes) (rng : Rng) (fs' : Fs) : Prop :=
  fs' = fs ∨ ∃ k out, encryptFile C (.failsAfter k) fs f pass data rng = .ok out ∧ out.fs = fs'

/-- C14 is false: while a store with any passphrase and content is saved over any non-empty
file, there is a point where a crash leaves a file that is neither version and on which
`DecryptFile` panics, whatever the passphrase. -/
theorem C14_not_atomic_violated (C : Crypto) (fs : Fs) (f : Path) (old pass data : Bytes)
    (rng : Rng) (hold : fs f = some old) (hne : old ≠ []) (hr : 56 ≤ rng.length) :
    ∃ fs', DiskDuring C fs f pass data rng fs' ∧ fs' f ≠ fs f ∧
      (∀ out, encryptFile C .done fs f pass data rng = .ok out → fs' f ≠ out.fs f) ∧
      ∀ p, decryptFile C fs' f p = .panic := by
  refine ⟨fs.set f [], .inr ⟨0, ?_⟩, ?_, ?_, ?_⟩
  · rw [encryptFile_eq, if_neg (by omega), if_neg (by omega)]
    exact ⟨_, rfl, by simp [writeFile]⟩
  · rw [Fs.set_same, hold]
    intro h; simp only [Option.some.injEq] at h; exact hne h.symm
  · intro out h
    rw [encryptFile_eq, if_neg (by omega), if_neg (by omega)] at h
    simp only [Res.ok.injEq] at h
    subst h
    simp only [Fs.set_same, writeFile, ne_eq, Option.some.injEq]
    intro h
    have := congrArg List.length h
    simp only [List.length_append, List.length_take, List.length_nil] at this
    omega
  · intro p
    rw [C13_panics_violated]
    exact ⟨[], by simp, by decide⟩

/-- C14, what holds: a crash touches no other file, and the file it touches is as before or a
prefix of the new version; a full-length prefix opens. Missing: atomicity. -/
theorem C14_crash_prefix_partial (C : Crypto) (fs : Fs) (f : Path) (pass data : Bytes)
    (rng : Rng) (fs' : Fs) (h : DiskDuring C fs f pass data rng fs') :
    (∀ g, g ≠ f → fs' g = fs g) ∧
    (fs' f = fs f ∨ ∃ out new b, encryptFile C .done fs f pass data rng = .ok out ∧
      out.fs f = some new ∧ fs' f = some b ∧ b <+: new ∧
      (b.length = new.length → decryptFile C fs' f pass = .ok (.ok data))) := by
  rcases h with rfl | ⟨k, out, h, rfl⟩
  · simp
  have hother := (C12_file_roundtrip C _ _ _ _ _ _ _ h).1
  refine ⟨hother, ?_⟩
  rw [encryptFile_eq] at h
  split at h
  · simp only [Res.ok.injEq] at h; subst h; simp
  split at h
  · simp only [Res.ok.injEq] at h; subst h; simp
  rename_i h1 h2
  right
  simp only [Res.ok.injEq] at h
  obtain ⟨out', ho, hok⟩ := C12_succeeds C fs f pass data rng (by omega)
  have hdec := ((C12_file_roundtrip C _ _ _ _ _ _ _ ho).2 hok).1
  have ho' := ho
  rw [encryptFile_eq, if_neg h1, if_neg h2] at ho'
  simp only [Res.ok.injEq] at ho'
  subst h ho'
  refine ⟨_, _, _, ho, Fs.set_same _ _ _, Fs.set_same _ _ _, List.take_prefix _ _, ?_⟩
  intro hlen
  have heq := (List.take_prefix k _).eq_of_length hlen
  simp only [writeFile, heq] at hdec ⊢
  exact hdec

example : ∃ fs : Fs, ∃ f old, ∃ rng : Rng, fs f = some old ∧ old ≠ [] ∧ 56 ≤ rng.length :=
  ⟨fun _ => some [1], [], [1], List.replicate 56 3, rfl, by decide, by decide⟩

/-- C15: a key is derived exactly for the two modes, with the published work factors. -/
theorem C15_modes (C : Crypto) (pass salt : Bytes) (m : Int) :
    (m = 0 → deriveKeyStrength C pass salt m = some (C.scrypt pass salt (2 ^ 20) 8 2 32)) ∧
    (m = 1 → deriveKeyStrength C pass salt m = some (C.scrypt pass salt (2 ^ 14) 8 1 32)) ∧
    (m ≠ 0 ∧ m ≠ 1 → deriveKeyStrength C pass salt m = none) := by
  refine ⟨?_, ?_, ?_⟩
  · rintro rfl
    exact deriveKey_eq C pass salt
  · rintro rfl
    unfold deriveKeyStrength
    have : scryptKey C pass salt (scryptMode 1).N (scryptMode 1).r (scryptMode 1).p keySize =
        some (C.scrypt pass salt (2 ^ 14) 8 1 32) := by
      unfold scryptKey
      rw [if_neg (by decide), if_neg (by decide)]
      rfl
    simp only [this]
    rw [copyInto_eq]
    exact C.scrypt_length ..
  · rintro ⟨h0, h1⟩
    unfold deriveKeyStrength scryptMode
    rw [if_neg h0, if_neg h1]
    rfl

/-- C15: without a key nothing is sealed or opened: the code panics rather than falling back
to some other key (a PRNG failure or a too short input is reported before that). -/
theorem C15_no_key_no_crypto (C : Crypto) (msg ct : Bytes) (rng : Rng) :
    (∀ out r, encrypt C none msg rng ≠ .ok (some out, r)) ∧
    (∀ m, decrypt C none ct ≠ .ok (some m)) := by
  constructor
  · intro out r h
    unfold encrypt at h
    split at h
    · simp at h
    · simp [sealPtr] at h
  · intro m h
    unfold decrypt openPtr at h
    split at h
    · simp at h
    · split at h <;> simp at h

end Verif.Props.Secret
