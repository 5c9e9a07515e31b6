import Verif.Proofs.Fcrypt
/-! Theorems about fcrypt: messages (C83, C124-C127). -/

namespace Verif.Props.Fcrypt
open Verif Verif.Go Verif.Model.Util Verif.Model.Public Verif.Model.KeyStore Verif.Model.Fcrypt Verif.Spec.Tlv
open Verif.Spec.Public Verif.Spec.KeyStore Verif.Spec.Fcrypt
open Verif.Proofs.Public Verif.Proofs.KeyStore Verif.Props.KeyTrust Verif.Proofs.Fcrypt

variable (C : Crypto) (A : Asn1) (P : Armour) (J : KeyJson)

/-! ### C83: fcrypt -d -/

/-- What `getPublic` finds in a store unlocked with `k`. -/
theorem getPublic_key {ks : KeyStore} {k : PrivateKey} {m : Keys} {label : Bytes} {p : PublicKey} {e v : Bytes}
    (hk : ks.privateKey = some k) (hl : ks.locked = false) (hm : ks.keys = some m)
    (h : ks.getPublic label = .ok (some p)) (hp : p = { E := some e, V := some v }) : VerificationKey k m label v := by
  unfold KeyStore.getPublic at h
  split at h
  · simp at h
  by_cases hs : label = self
  · subst hs
    rw [if_pos rfl, hl] at h
    simp only [Bool.false_eq_true, if_false, hk, deref, Res.ok_bind, Res.pure_eq, Res.ok.injEq] at h
    exact .owner (h.trans (by rw [hp]))
  · rw [if_neg hs] at h
    cases hg : ks.get label with
    | none => rw [hg] at h; simp [deref] at h
    | some r =>
      rw [hg] at h
      simp only [deref, Res.ok_bind, Res.pure_eq, Res.ok.injEq] at h
      obtain ⟨h1, h2⟩ := unmarshalPublic_some h
      have hb : r.keys = some r.keyBytes := by
        unfold PublicKeyRecord.keyBytes at h1 ⊢
        cases hr : r.keys with
        | none => rw [hr] at h1; simp at h1
        | some b => rfl
      rw [hp] at h2
      simp only [PublicKey.mk.injEq, Option.some.injEq] at h2
      rw [h2.2]
      exact .peer hs ((get_some hm).mp hg) hb h1

/-- A released message in a store unlocked with `k`. -/
theorem released {ks : KeyStore} {k : PrivateKey} {m : Keys} {label body out : Bytes}
    (hk : ks.privateKey = some k) (hl : ks.locked = false) (hm : ks.keys = some m)
    (h : ks.decryptAndVerify C label body = .ok (some out)) :
    ∃ d p n v sig, k.D = some d ∧ p.length = 32 ∧ n.length = 24 ∧ sig.length = 64 ∧
      body = p ++ n ++ C.sealBox (C.shared p d) n (encodeAll [.bytes out, .bytes sig]) ∧
      VerificationKey k m label v ∧ C.verify v out sig = true := by
  unfold KeyStore.decryptAndVerify at h
  obtain ⟨b, -, h⟩ := Res.bind_eq_ok.mp h
  split at h
  · simp at h
  split at h
  · simp at h
  obtain ⟨o, ho, h⟩ := Res.bind_eq_ok.mp h
  cases o with
  | none => simp at h
  | some pub =>
    obtain ⟨d, s, e, v, e', v', p, n, sig, h1, h2, h3, h4, h5, -, h6, h7⟩ := Props.Public.C20_only_verified C _ _ _ _ h
    rw [hk] at h1
    simp only [Option.some.injEq] at h1 h2
    exact ⟨d, p, n, v', sig, by rw [h1]; rfl, h3, h4, h5, h6, getPublic_key hk hl hm ho h2, h7⟩

/-- fcrypt -d on an armoured signed message, with whatever key store: nothing is written, or the
passphrase opened the store's private key, the message was sealed for that key together with a
signature that verifies under the key named by the label, and "Valid signature." and the message
are written, the message only to the path given. -/
theorem C83_released (e : Env) (fl : Flags) (hfl : Decrypts fl) (src dst : Bytes) (rest : List Bytes) (w w' : World) (r : Ret)
    (file input body : Bytes) (hfile : w.fs fl.path = some file) (hin : Input w src input) (hb : BeginsArmour input)
    (hp : P.dec input = some (ascii "CRYPTUTIL SIGNED AND ENCRYPTED MESSAGE", body))
    (h : main C A P J e fl (src :: dst :: rest) w = (r, w')) :
    (r ≠ .ok ∧ Silent w w') ∨
    ∃ f pass as k d p n msg v sig, J.dec file = some f ∧ w.term.answers = some pass :: as ∧
      unlockKey C (f.lockedKey.getD []) pass = .ok (some k) ∧ k.D = some d ∧
      p.length = 32 ∧ n.length = 24 ∧ sig.length = 64 ∧
      body = p ++ n ++ C.sealBox (C.shared p d) n (encodeAll [.bytes msg, .bytes sig]) ∧
      VerificationKey k (f.keys.getD Map.empty) fl.label v ∧ C.verify v msg sig = true ∧
      Written (w.print (notice f ++ ascii "Valid signature.\n")) dst msg (r == .ok) w' := by
  rcases main_cases C A P J (args := src :: dst :: rest) (select_decrypt C A P (e := e) hfl) hfile with
    ⟨r0, w0, n, h1, h2, hn, h3⟩ | ⟨-, ks, w1, hr, sw, hsw, hm⟩
  · rw [h1] at h
    cases h
    exact Or.inl ⟨h2, h3.silent hn⟩
  · have hsw' : sw = false := by
      rcases hsw with hsw | hsw
      · exact hsw
      · rw [hfl.1] at hsw; cases hsw
    subst hsw'
    rw [hm] at h
    obtain ⟨data, f, pass, as, k, hsame, g1, g2, g3, g4, g5, g6, g7, g8, -, -, -⟩ := ready_unlocked C A P J hr
    rw [hfile] at g1
    cases g1
    obtain ⟨w2, i1, i2, i3, i4, i5, i6, -⟩ := readFile_some (hsame.input hin)
    have hfs2 : w2.fs fl.path ≠ none := by rw [i2, hsame.fs, hfile]; simp
    have hop : openMessage P input = some (true, body) := by
      unfold openMessage
      rw [(armoured_iff input).mpr hb, hp]
      rfl
    have hcfg : (config fl (src :: dst :: rest)).args = src :: dst :: rest := rfl
    have hlab : (config fl (src :: dst :: rest)).label = fl.label := rfl
    simp only [decryptFile, hcfg, hlab, i1, hop, Bool.not_true, Bool.false_eq_true, if_false] at h
    cases hd : ks.decryptAndVerify C fl.label body with
    | panic =>
      rw [hd] at h
      simp only [after] at h
      rw [conclude_fail J (by simp)] at h
      cases h
      exact Or.inl ⟨by simp, ⟨_, notice_ok f, i3.trans hsame.stdout⟩, i2.trans hsame.fs⟩
    | ok o =>
      rw [hd] at h
      cases o with
      | none =>
        simp only [after] at h
        rw [conclude_fail J (by simp)] at h
        cases h
        exact Or.inl ⟨by simp, ⟨_, notice_ok f, i3.trans hsame.stdout⟩, i2.trans hsame.fs⟩
      | some msg =>
        simp only [after] at h
        obtain ⟨r1, w3, o1, -, o3, -, o5⟩ := output_written ks (w2.print (ascii "Valid signature.\n")) dst msg
        rw [o1, conclude_quiet J (o5 _ hfs2)] at h
        cases h
        obtain ⟨d, p, n, v, sig, q1, q2, q3, q4, q5, q6, q7⟩ := released C g6 g7 g8 hd
        refine Or.inr ⟨f, pass, as, k, d, p, n, msg, v, sig, g2, g3, g5, q1, q2, q3, q4, q5, q6, q7, ?_⟩
        refine Written.same o3 ?_ ?_
        · exact i2.trans hsame.fs
        · show w2.stdout ++ _ = w.stdout ++ (_ ++ _)
          rw [i3, hsame.stdout, ← List.append_assoc]

/-- Decryption that fails. -/
theorem decrypt_fails {e : Env} {fl : Flags} (hfl : Decrypts fl) {src dst : Bytes} {rest : List Bytes} {w : World}
    {d seed pass input body : Bytes} {f : KeyFields} {m : Keys} {as} {b : Bool}
    (hk : Keyring C J w.fs fl.path (ownerOf C d seed) f m) (ho : Opens C f d seed pass) (ha : w.term.answers = some pass :: as)
    (hin : Input w src input) (hop : openMessage P input = some (b, body))
    (h1 : b = false → ∀ msg, decrypt C (some (pairOf C d seed)) body ≠ .ok (some msg))
    (h2 : b = true → ∀ pub msg, decryptAndVerify C (some (pairOf C d seed)) pub body ≠ .ok (some msg)) :
    ∃ r w', main C A P J e fl (src :: dst :: rest) w = (r, w') ∧ r ≠ .ok ∧ Silent w w' := by
  rw [main_unlocked C A P J (select_decrypt C A P (e := e) hfl) hk.keyfile ho rfl (by simp) ha]
  have hsame : Noted w (notice f) ((later (Proofs.Fcrypt.rest w as) 3).print (notice f)) := ⟨rfl, rfl, rfl, rfl, rfl, rfl⟩
  obtain ⟨w2, i1, i2, i3, -⟩ := readFile_some (hsame.input hin)
  have hsil : Silent w w2 := ⟨⟨_, notice_ok f, i3.trans hsame.stdout⟩, i2.trans hsame.fs⟩
  have hcfg : (config fl (src :: dst :: rest)).args = src :: dst :: rest := rfl
  have hlab : (config fl (src :: dst :: rest)).label = fl.label := rfl
  have hpriv : ∀ x, (opened C f m d seed x).privateKey = some (pairOf C d seed) := fun _ => rfl
  simp only [decryptFile, hcfg, hlab, i1, hop]
  cases b with
  | false =>
    simp only [Bool.not_false, if_true]
    generalize hks : opened C f m d seed (exported C A P f d seed (w.term.clock 2)) = ks
    cases hd : ks.decrypt C body with
    | panic => exact ⟨_, _, conclude_fail J (by simp), by simp, hsil⟩
    | ok o =>
      cases o with
      | none => exact ⟨_, _, conclude_fail J (by simp), by simp, hsil⟩
      | some msg =>
        exfalso
        unfold KeyStore.decrypt at hd
        obtain ⟨v, -, hd⟩ := Res.bind_eq_ok.mp hd
        split at hd
        · simp at hd
        · rw [← hks] at hd
          exact h1 rfl msg hd
  | true =>
    simp only [Bool.not_true, Bool.false_eq_true, if_false]
    generalize hks : opened C f m d seed (exported C A P f d seed (w.term.clock 2)) = ks
    cases hd : ks.decryptAndVerify C fl.label body with
    | panic => exact ⟨_, _, conclude_fail J (by simp), by simp, hsil⟩
    | ok o =>
      cases o with
      | none => exact ⟨_, _, conclude_fail J (by simp), by simp, hsil⟩
      | some msg =>
        exfalso
        unfold KeyStore.decryptAndVerify at hd
        obtain ⟨v, -, hd⟩ := Res.bind_eq_ok.mp hd
        split at hd
        · simp at hd
        split at hd
        · simp at hd
        obtain ⟨o, ho, hd⟩ := Res.bind_eq_ok.mp hd
        cases o with
        | none => simp at hd
        | some pub =>
          rw [← hks] at hd
          exact h2 rfl (some pub) msg hd

/-- A signed message whose armour says that it is only encrypted, or that has no armour, is not
decrypted: the run fails and nothing is written. -/
theorem C83_relabelled (e : Env) (fl : Flags) (hfl : Decrypts fl) (src dst : Bytes) (rest : List Bytes) (w : World)
    (d seed pass : Bytes) (f : KeyFields) (m : Keys) (as) (hk : Keyring C J w.fs fl.path (ownerOf C d seed) f m)
    (ho : Opens C f d seed pass) (ha : w.term.answers = some pass :: as)
    (priv : Option PrivateKey) (msg body : Bytes) (rng rng' : Rng)
    (hmsg : encryptAndSign C priv (some (pubOf C d seed)) msg rng = .ok (some body, rng'))
    (input : Bytes) (hin : Input w src input)
    (hb : (BeginsArmour input ∧ P.dec input = some (ascii "CRYPTUTIL ENCRYPTED MESSAGE", body)) ∨ (¬ BeginsArmour input ∧ input = body)) :
    ∃ r w', main C A P J e fl (src :: dst :: rest) w = (r, w') ∧ r ≠ .ok ∧ Silent w w' := by
  refine decrypt_fails C A P J hfl hk ho ha hin (b := false) (body := body) ?_
    (fun _ m => Props.Public.C21_signed_not_unsigned C priv d seed msg body rng rng' hmsg m) (fun h => by cases h)
  unfold openMessage
  rcases hb with ⟨h1, h2⟩ | ⟨h1, rfl⟩
  · rw [(armoured_iff input).mpr h1, h2]
    rfl
  · have : armoured input = false := by
      cases hq : armoured input with
      | false => rfl
      | true => exact absurd ((armoured_iff input).mp hq) h1
    rw [this]
    rfl

/-- A message that is only encrypted and whose armour says that it is signed is not decrypted
either. -/
theorem C83_unsigned_relabelled (e : Env) (fl : Flags) (hfl : Decrypts fl) (src dst : Bytes) (rest : List Bytes) (w : World)
    (d seed pass : Bytes) (f : KeyFields) (m : Keys) (as) (hk : Keyring C J w.fs fl.path (ownerOf C d seed) f m)
    (ho : Opens C f d seed pass) (ha : w.term.answers = some pass :: as) (msg body : Bytes) (rng rng' : Rng)
    (hmsg : encrypt C (some (pubOf C d seed)) msg rng = .ok (some body, rng'))
    (input : Bytes) (hin : Input w src input) (hb : BeginsArmour input)
    (hp : P.dec input = some (ascii "CRYPTUTIL SIGNED AND ENCRYPTED MESSAGE", body)) :
    ∃ r w', main C A P J e fl (src :: dst :: rest) w = (r, w') ∧ r ≠ .ok ∧ Silent w w' := by
  refine decrypt_fails C A P J hfl hk ho ha hin (b := true) (body := body) ?_ (fun h => by cases h)
    (fun _ pub m => Props.Public.C21_unsigned_not_signed C pub d seed msg body rng rng' hmsg m)
  unfold openMessage
  rw [(armoured_iff input).mpr hb, hp]
  rfl

/-- Armour of any other type is refused before anything is decrypted. -/
theorem C83_other_type (e : Env) (fl : Flags) (hfl : Decrypts fl) (src dst : Bytes) (rest : List Bytes) (w w' : World) (r : Ret)
    (file input : Bytes) (hfile : w.fs fl.path = some file) (hin : Input w src input) (hb : BeginsArmour input)
    (hp : ∀ typ body, P.dec input = some (typ, body) →
      typ ≠ ascii "CRYPTUTIL ENCRYPTED MESSAGE" ∧ typ ≠ ascii "CRYPTUTIL SIGNED AND ENCRYPTED MESSAGE")
    (h : main C A P J e fl (src :: dst :: rest) w = (r, w')) : r ≠ .ok ∧ Silent w w' := by
  rcases main_cases C A P J (args := src :: dst :: rest) (select_decrypt C A P (e := e) hfl) hfile with
    ⟨r0, w0, n, h1, h2, hn, h3⟩ | ⟨-, ks, w1, hr, sw, hsw, hm⟩
  · rw [h1] at h
    cases h
    exact ⟨h2, h3.silent hn⟩
  · rw [hm] at h
    obtain ⟨-, f, -, -, -, hsame, -⟩ := ready_unlocked C A P J hr
    obtain ⟨w2, i1, i2, i3, -⟩ := readFile_some (hsame.input hin)
    have hop : openMessage P input = none := by
      unfold openMessage
      rw [(armoured_iff input).mpr hb]
      simp only [if_true]
      cases hd : P.dec input with
      | none => rfl
      | some tb =>
        obtain ⟨typ, body⟩ := tb
        obtain ⟨h1, h2⟩ := hp typ body hd
        exact (if_neg h1).trans (if_neg h2)
    have hcfg : (config fl (src :: dst :: rest)).args = src :: dst :: rest := rfl
    simp only [decryptFile, hcfg, i1, hop] at h
    rw [conclude_fail J (by simp)] at h
    cases h
    exact ⟨by simp, ⟨_, notice_ok f, i3.trans hsame.stdout⟩, i2.trans hsame.fs⟩

/-- A world with a key store at "k" and an input file "i". -/
noncomputable def exWorld (f : KeyFields) (pass input : Bytes) : World :=
  { term := { answers := [some pass], clock := fun _ => 100 }, rng := List.replicate 200 3
    fs := Fs.set (Fs.set (fun _ => none) [105] input) [107] (J.enc f), writes := fun _ => .done, stdin := [], stdout := [] }

theorem exInput (f : KeyFields) (pass input : Bytes) : Input (exWorld J f pass input) [105] input := by
  unfold Input
  rw [if_neg (by decide)]
  show (Fs.set (Fs.set (fun _ => none) [105] input) [107] (J.enc f)) [105] = some input
  rw [Fs.set_other _ _ (by decide), Fs.set_same]

/-- The hypotheses can be met: a signed message, relabelled, and a key store. -/
example : ∃ (fl : Flags) (w : World) (d seed pass : Bytes) (f : KeyFields) (m : Keys) (as : List (Option Bytes)) (priv : Option PrivateKey)
    (msg body : Bytes) (rng rng' : Rng) (input : Bytes), Decrypts fl ∧ Keyring C J w.fs fl.path (ownerOf C d seed) f m ∧ Opens C f d seed pass ∧ w.term.answers = some pass :: as ∧
    encryptAndSign C priv (some (pubOf C d seed)) msg rng = .ok (some body, rng') ∧ Input w [105] input ∧
    BeginsArmour input ∧ P.dec input = some (ascii "CRYPTUTIL ENCRYPTED MESSAGE", body) := by
  obtain ⟨f, -, ho, hk⟩ := exKeyring C J (List.replicate 32 1) (List.replicate 32 2) [97] (List.replicate 64 3) [112] none
    (by decide) (by decide) (by decide) (by decide)
  obtain ⟨ct, h1, h2, -⟩ := Props.Public.C19_roundtrip_partial C (List.replicate 32 4) (List.replicate 32 5) (List.replicate 32 1)
    (List.replicate 32 2) [104, 105] (List.replicate 60 9) (by decide) (by decide) (by decide) (by decide)
  refine ⟨{ path := [107], decrypt := true }, exWorld J f [112] (P.enc encryptedType ct), _, _, _, f, _, [], _, _, ct, _, _, _,
    ⟨rfl, rfl, rfl, rfl, rfl⟩, hk _ _, ho, rfl, h1, exInput J f _ _, enc_armour P _ _, P.dec_enc _ _ (by decide) ?_⟩
  rintro rfl
  simp at h2

/-! ### C124: the first run -/

/-- C124 is false: when there is no key store, every command panics (the private key is generated by
a function that always does), or fails if there is not enough randomness for two keys; no file is
written. -/
theorem C124_first_run_violated (e : Env) (fl : Flags) (args : List Bytes) (w : World) (cmd : Command)
    (hs : select C A P e fl = some cmd) (ha : cmd.argc ≤ args.length) (h : w.fs fl.path = none) :
    ∃ r w', main C A P J e fl args w = (r, w') ∧ (64 ≤ w.rng.length → r = .panic) ∧ (w.rng.length < 64 → r = .err) ∧
      w'.fs = w.fs := by
  unfold main
  rw [hs]
  simp only
  rw [if_neg (by omega)]
  by_cases hr : 64 ≤ w.rng.length
  · rw [(load_missing C A P J h).1 hr]
    exact ⟨_, _, rfl, fun _ => rfl, fun h => by omega, rfl⟩
  · obtain ⟨w', h1, h2, -⟩ := (load_missing C A P J h).2 (by omega)
    rw [h1]
    exact ⟨_, _, rfl, fun h => by omega, fun _ => rfl, h2⟩

/-- Without a key store fcrypt writes nothing, whatever its flags and arguments. Missing from the
property: that it makes a store, which it does not. -/
theorem C124_no_store_partial (e : Env) (fl : Flags) (args : List Bytes) (w w' : World) (r : Ret) (h : w.fs fl.path = none)
    (hm : main C A P J e fl args w = (r, w')) : Silent w w' := by
  unfold main at hm
  cases hs : select C A P e fl with
  | none =>
    rw [hs] at hm
    cases hm
    exact ⟨⟨[], .inl rfl, (List.append_nil _).symm⟩, rfl⟩
  | some cmd =>
    rw [hs] at hm
    simp only at hm
    split at hm
    · cases hm
      exact ⟨⟨[], .inl rfl, (List.append_nil _).symm⟩, rfl⟩
    · by_cases hr : 64 ≤ w.rng.length
      · rw [(load_missing C A P J h).1 hr] at hm
        cases hm
        exact ⟨⟨[], .inl rfl, (List.append_nil _).symm⟩, rfl⟩
      · obtain ⟨w1, h1, h2, h3, -⟩ := (load_missing C A P J h).2 (by omega)
        rw [h1] at hm
        cases hm
        exact ⟨⟨_, .inr (.inr (.inl rfl)), h3⟩, h2⟩

example (e : Env) : ∃ (fl : Flags) (cmd : Command), select C A P e fl = some cmd ∧ cmd.argc ≤ 0 ∧ fl.list = true :=
  ⟨{ path := [107], list := true }, _, rfl, Nat.le_refl 0, rfl⟩

/-! ### C125: encrypting and decrypting files -/

theorem unmarshal_owner (d seed : Bytes) : unmarshalPublic (ownerOf C d seed) = some (pubOf C d seed) := by
  rw [unmarshalPublic_of_length (ownerOf_length C d seed)]
  unfold ownerOf pubOf
  rw [List.take_left' (C.base_length d), List.drop_left' (C.base_length d)]

theorem encryptTo_eq {s : KeyStore} {owner : Bytes} {m : Keys} (h : Sound C s owner m) {label d seed : Bytes}
    (hn : Names owner m label (ownerOf C d seed)) (msg : Bytes) (rng : Rng) :
    s.encryptTo C label msg rng = encrypt C (some (pubOf C d seed)) msg rng := by
  unfold KeyStore.encryptTo
  cases hn with
  | owner =>
    rw [h.quick, (has_iff h.quick h.keys _).mpr (.inl rfl)]
    simp [sound_pub C h, unmarshal_owner]
  | @peer _ r _ h1 h2 =>
    have hne : label ≠ self := by
      rintro rfl
      rw [h.noSelf] at h1
      cases h1
    rw [h.quick, (has_iff h.quick h.keys _).mpr (.inr (by rw [h1]; simp))]
    have hg := (get_some h.keys).mpr h1
    have hb : r.keyBytes = ownerOf C d seed := by unfold PublicKeyRecord.keyBytes; rw [h2]; rfl
    simp [hne, hg, deref, hb, unmarshal_owner]

theorem getPublic_eq {s : KeyStore} {owner : Bytes} {m : Keys} (h : Sound C s owner m) {label d seed : Bytes}
    (hn : Names owner m label (ownerOf C d seed)) :
    s.has label = true ∧ s.getPublic label = .ok (some (pubOf C d seed)) := by
  rcases Props.KeyMessages.names_key C h (label := label) with ⟨k, h1, h2, pub, e, v, h3, h4, h5, h6, h7, h8⟩ | ⟨h1, -⟩
  · refine ⟨h3, ?_⟩
    have := Props.KeyMessages.Names.unique h.noSelf hn h1
    rw [h4, h5]
    unfold ownerOf at this
    rw [h6] at this
    obtain ⟨e1, e2⟩ := List.append_inj this (by rw [C.base_length, h7])
    rw [← e1, ← e2]
    rfl
  · exact absurd (ownerOf_length C d seed) (h1 _ hn)

/-- Decrypting what opens. -/
theorem decrypt_succeeds {e : Env} {fl : Flags} (hfl : Decrypts fl) {src dst : Bytes} {rest : List Bytes} {w : World}
    {d seed pass input body msg : Bytes} {f : KeyFields} {m : Keys} {as}
    (hk : Keyring C J w.fs fl.path (ownerOf C d seed) f m) (ho : Opens C f d seed pass) (ha : w.term.answers = some pass :: as)
    (hin : Input w src input) (hop : openMessage P input = some (false, body))
    (hd : decrypt C (some (pairOf C d seed)) body = .ok (some msg)) (hw : dst ≠ dash → w.writes 0 = .done) :
    ∃ w', main C A P J e fl (src :: dst :: rest) w = (.ok, w') ∧ Output (w.print (notice f)) dst msg w' := by
  rw [main_unlocked C A P J (select_decrypt C A P (e := e) hfl) hk.keyfile ho rfl (by simp) ha]
  have hsame : Noted w (notice f) ((later (Proofs.Fcrypt.rest w as) 3).print (notice f)) := ⟨rfl, rfl, rfl, rfl, rfl, rfl⟩
  obtain ⟨w2, i1, i2, i3, i4, i5, i6, -⟩ := readFile_some (hsame.input hin)
  have hcfg : (config fl (src :: dst :: rest)).args = src :: dst :: rest := rfl
  simp only [decryptFile, hcfg, i1, hop, Bool.not_false, if_true]
  have hdec : ∀ x, (opened C f m d seed x).decrypt C body = .ok (some msg) := by
    intro x
    unfold KeyStore.decrypt
    rw [sound_valid C (opened_sound C J hk ho).1]
    exact hd
  rw [hdec]
  obtain ⟨w3, o1, o2, o3, -⟩ := output_ok (opened C f m d seed (exported C A P f d seed (w.term.clock 2))) w2 dst msg
    (by rw [i6, hsame.writes]; exact hw)
  have hfs : w2.fs fl.path ≠ none := by
    obtain ⟨data, h1, -⟩ := hk.file
    rw [i2, hsame.fs, h1]
    simp
  refine ⟨w3, ?_, Output.same o2 (i2.trans hsame.fs) (i3.trans hsame.stdout)⟩
  simp only [after, o1, hfl.1, Bool.false_and, Bool.or_false]
  exact conclude_quiet J (o3 _ hfs)

/-- Encrypting for the key of `d` and `seed`. -/
theorem encrypt_succeeds {e : Env} {fl : Flags} (hfl : Encrypts fl) {src dst : Bytes} {rest : List Bytes} {w : World}
    {d seed owner msg ct : Bytes} {rng' : Rng} {f : KeyFields} {m : Keys}
    (hk : Keyring C J w.fs fl.path owner f m) (hn : Names owner m fl.label (ownerOf C d seed)) (hin : Input w src msg)
    (hd : encrypt C (some (pubOf C d seed)) msg w.rng = .ok (some ct, rng')) (hw : dst ≠ dash → w.writes 0 = .done) :
    ∃ w', main C A P J e fl (src :: dst :: rest) w = (.ok, w') ∧
      Output w dst (if fl.armour then P.enc encryptedType ct else ct) w' := by
  rw [main_public C A P J (select_encrypt C A P (e := e) hfl) hk.keyfile rfl hfl.1 (by simp)]
  have hsame : SameButTerm w (later w 2) := same_later _ 2
  obtain ⟨w2, i1, i2, i3, i4, i5, i6, -⟩ := readFile_some (Input.same hin hsame)
  have hcfg : (config fl (src :: dst :: rest)).args = src :: dst :: rest := rfl
  have hlab : (config fl (src :: dst :: rest)).label = fl.label := rfl
  have harm : (config fl (src :: dst :: rest)).armour = fl.armour := by
    show (fl.armour || (!fl.check && fl.sign && fl.encrypt)) = fl.armour
    rw [hfl.2.1]
    simp
  obtain ⟨data, h1, h2, h3⟩ := keyring_load C J hk
  simp only [encryptFile, hcfg, hlab, harm, i1]
  rw [encryptTo_eq C h3 hn, i4, hsame.rng, hd]
  simp only [after]
  obtain ⟨w3, o1, o2, o3, -⟩ := output_ok (loaded f m) { w2 with rng := rng' } dst (if fl.armour then P.enc encryptedType ct else ct)
    (by show dst ≠ dash → w2.writes 0 = .done; rw [i6, hsame.writes]; exact hw)
  have hfs : w2.fs fl.path ≠ none := by
    rw [i2, hsame.fs, h1]
    simp
  refine ⟨w3, ?_, Output.same o2 (i2.trans hsame.fs) (i3.trans hsame.stdout)⟩
  rw [o1]
  exact conclude_quiet J (o3 _ hfs)

theorem open_raw {b : Bytes} (h : ¬ BeginsArmour b) : openMessage P b = some (false, b) := by
  unfold openMessage
  have : armoured b = false := by
    cases hq : armoured b with
    | false => rfl
    | true => exact absurd ((armoured_iff b).mp hq) h
  rw [this]
  rfl

theorem open_armoured {typ body : Bytes} (h : plainType typ = true) (hb : body ≠ []) :
    openMessage P (P.enc typ body) = if typ = encryptedType then some (false, body)
      else if typ = signedAndEncryptedType then some (true, body) else none := by
  unfold openMessage
  rw [(armoured_iff _).mpr (enc_armour P typ body), P.dec_enc typ body h hb]
  rfl

/-- A file encrypted with fcrypt -e for a key is what fcrypt -d writes for the holder of that key.
Missing from the property: empty files, output without armour that happens to begin like armour, and
standard output when the key store has no export key, for all of which it is false; files of 2 GB. -/
theorem C125_roundtrip_partial (e e' : Env) (fl fl' : Flags) (hfl : Encrypts fl) (hfl' : Decrypts fl')
    (src dst src' dst' : Bytes) (rest rest' : List Bytes) (w : World) (owner d seed : Bytes) (f : KeyFields) (m : Keys)
    (hk : Keyring C J w.fs fl.path owner f m) (hn : Names owner m fl.label (ownerOf C d seed))
    (msg : Bytes) (hin : Input w src msg) (hm : msg ≠ []) (hl : msg.length < 2 ^ 31) (hr : 56 ≤ w.rng.length)
    (hw : dst ≠ [45] → w.writes 0 = .done) :
    ∃ w1 out, main C A P J e fl (src :: dst :: rest) w = (.ok, w1) ∧ Output w dst out w1 ∧
      ((fl.armour = true ∨ ¬ BeginsArmour out) →
        ∀ (w2 : World) f2 m2 pass as, Keyring C J w2.fs fl'.path (ownerOf C d seed) f2 m2 → Opens C f2 d seed pass →
          w2.term.answers = some pass :: as → Input w2 src' out → (dst' ≠ [45] → w2.writes 0 = .done) →
          ∃ w3, main C A P J e' fl' (src' :: dst' :: rest') w2 = (.ok, w3) ∧ Output (w2.print (notice f2)) dst' msg w3) := by
  obtain ⟨ct, h1, h2, h3⟩ := Props.Public.C18_roundtrip_partial C d seed msg w.rng hm hl hr
  have hct : ct ≠ [] := by
    rintro rfl
    simp at h2
  obtain ⟨w1, g1, g2⟩ := encrypt_succeeds C A P J (e := e) hfl (rest := rest) hk hn hin h1 hw
  refine ⟨w1, _, g1, g2, fun ha w2 f2 m2 pass as k1 k2 k3 k4 k5 => ?_⟩
  refine decrypt_succeeds C A P J hfl' k1 k2 k3 k4 (body := ct) ?_ h3 k5
  cases hq : fl.armour with
  | true =>
    simp only [if_true]
    rw [open_armoured P (by decide) hct]
    rfl
  | false =>
    rw [hq] at ha
    simp only [Bool.false_eq_true, if_false, false_or] at ha ⊢
    exact open_raw P ha

/-- C125 is false of standard output when the key store has no export key: a notice precedes the file. -/
theorem C125_notice_violated (e e' : Env) (fl fl' : Flags) (hfl : Encrypts fl) (ha : fl.armour = true) (hfl' : Decrypts fl')
    (src dst src' : Bytes) (rest rest' : List Bytes) (w : World) (owner d seed : Bytes) (f : KeyFields) (m : Keys)
    (hk : Keyring C J w.fs fl.path owner f m) (hn : Names owner m fl.label (ownerOf C d seed))
    (msg : Bytes) (hin : Input w src msg) (hm : msg ≠ []) (hl : msg.length < 2 ^ 31) (hr : 56 ≤ w.rng.length)
    (hw : dst ≠ [45] → w.writes 0 = .done) :
    ∃ w1 out, main C A P J e fl (src :: dst :: rest) w = (.ok, w1) ∧ Output w dst out w1 ∧
      ∀ (w2 : World) f2 m2 pass as, Keyring C J w2.fs fl'.path (ownerOf C d seed) f2 m2 → Opens C f2 d seed pass →
        w2.term.answers = some pass :: as → Input w2 src' out → w2.stdout = [] → f2.exportKey = none →
        ∃ w3, main C A P J e' fl' (src' :: [45] :: rest') w2 = (.ok, w3) ∧ w3.stdout = ascii "Building export key.\n" ++ msg ∧
          w3.stdout ≠ msg := by
  obtain ⟨w1, out, g1, g2, g3⟩ := C125_roundtrip_partial C A P J e e' fl fl' hfl hfl' src dst src' [45] rest rest' w owner d seed f m hk hn
    msg hin hm hl hr hw
  refine ⟨w1, out, g1, g2, fun w2 f2 m2 pass as k1 k2 k3 k4 k5 k6 => ?_⟩
  obtain ⟨w3, o1, o2⟩ := g3 (.inl ha) w2 f2 m2 pass as k1 k2 k3 k4 (fun h => absurd rfl h)
  unfold Output at o2
  rw [if_pos rfl] at o2
  have he : w3.stdout = ascii "Building export key.\n" ++ msg := by
    rw [o2.1]
    show (w2.stdout ++ notice f2) ++ msg = _
    rw [k5, notice, if_pos k6]
    rfl
  refine ⟨w3, o1, he, ?_⟩
  rw [he]
  intro hq
  have := congrArg List.length hq
  rw [List.length_append] at this
  have hlen : (ascii "Building export key.\n").length = 21 := by decide
  omega

/-- C125 is false of the empty file: it can be encrypted, but what comes out cannot be decrypted. -/
theorem C125_empty_file_violated (e e' : Env) (fl fl' : Flags) (hfl : Encrypts fl) (ha : fl.armour = true) (hfl' : Decrypts fl')
    (src dst src' dst' : Bytes) (rest rest' : List Bytes) (w : World) (owner d seed : Bytes) (f : KeyFields) (m : Keys)
    (hk : Keyring C J w.fs fl.path owner f m) (hn : Names owner m fl.label (ownerOf C d seed))
    (hin : Input w src []) (hr : 56 ≤ w.rng.length) (hw : dst ≠ [45] → w.writes 0 = .done) :
    ∃ w1 out, main C A P J e fl (src :: dst :: rest) w = (.ok, w1) ∧ Output w dst out w1 ∧
      ∀ (w2 : World) f2 m2 pass as, Keyring C J w2.fs fl'.path (ownerOf C d seed) f2 m2 → Opens C f2 d seed pass →
        w2.term.answers = some pass :: as → Input w2 src' out →
        ∃ r w3, main C A P J e' fl' (src' :: dst' :: rest') w2 = (r, w3) ∧ r ≠ .ok ∧ Silent w2 w3 := by
  obtain ⟨ct, h1, h2⟩ := Props.Public.C18_empty_message_violated C d seed w.rng hr
  have hct : ct ≠ [] := by
    rintro rfl
    have h3 := h1
    rw [encrypt_eq_raw, show (pubOf C d seed) = { E := some (C.base d), V := some (C.edPub seed) } from rfl] at h3
    obtain ⟨e, v, -, hl, h4⟩ := encryptRaw_some C h3
    have := congrArg List.length h4.1
    rw [boxFor_length C _ _ _ _ (by rw [List.length_take, List.length_drop]; omega), List.length_nil] at this
    omega
  obtain ⟨w1, g1, g2⟩ := encrypt_succeeds C A P J (e := e) hfl (rest := rest) hk hn hin h1 hw
  refine ⟨w1, _, g1, g2, fun w2 f2 m2 pass as k1 k2 k3 k4 => ?_⟩
  refine decrypt_fails C A P J hfl' k1 k2 k3 k4 (b := false) (body := ct) ?_ (fun _ msg => ?_) (fun h => by cases h)
  · rw [ha, if_pos rfl, open_armoured P (by decide) hct]
    rfl
  · rw [h2]
    simp

/-- C125 is false of files of 2 GiB and more: they can be encrypted, but decrypting what comes out crashes. -/
theorem C125_long_file_violated (e e' : Env) (fl fl' : Flags) (hfl : Encrypts fl) (ha : fl.armour = true) (hfl' : Decrypts fl')
    (src dst src' dst' : Bytes) (rest rest' : List Bytes) (w : World) (owner d seed : Bytes) (f : KeyFields) (m : Keys)
    (hk : Keyring C J w.fs fl.path owner f m) (hn : Names owner m fl.label (ownerOf C d seed))
    (msg : Bytes) (hin : Input w src msg) (hl : 2 ^ 31 ≤ msg.length) (hu : msg.length < 2 ^ 32) (hr : 56 ≤ w.rng.length)
    (hw : dst ≠ [45] → w.writes 0 = .done) :
    ∃ w1 out, main C A P J e fl (src :: dst :: rest) w = (.ok, w1) ∧ Output w dst out w1 ∧
      ∀ (w2 : World) f2 m2 pass as, Keyring C J w2.fs fl'.path (ownerOf C d seed) f2 m2 → Opens C f2 d seed pass →
        w2.term.answers = some pass :: as → Input w2 src' out →
        ∃ r w3, main C A P J e' fl' (src' :: dst' :: rest') w2 = (r, w3) ∧ r ≠ .ok ∧ Silent w2 w3 := by
  obtain ⟨ct, h1, h2⟩ := Props.Public.C18_long_message_violated C d seed msg w.rng hl hu hr
  have hct : ct ≠ [] := by
    rintro rfl
    have h3 := h1
    rw [encrypt_eq_raw, show (pubOf C d seed) = { E := some (C.base d), V := some (C.edPub seed) } from rfl] at h3
    obtain ⟨e, v, -, hl, h4⟩ := encryptRaw_some C h3
    have := congrArg List.length h4.1
    rw [boxFor_length C _ _ _ _ (by rw [List.length_take, List.length_drop]; omega), List.length_nil] at this
    omega
  obtain ⟨w1, g1, g2⟩ := encrypt_succeeds C A P J (e := e) hfl (rest := rest) hk hn hin h1 hw
  refine ⟨w1, _, g1, g2, fun w2 f2 m2 pass as k1 k2 k3 k4 => ?_⟩
  refine decrypt_fails C A P J hfl' k1 k2 k3 k4 (b := false) (body := ct) ?_ (fun _ msg => ?_) (fun h => by cases h)
  · rw [ha, if_pos rfl, open_armoured P (by decide) hct]
    rfl
  · rw [h2]
    simp

/-- C125 is false of output without armour that begins like armour, as it does for some ephemeral
keys: it is then taken for armour. -/
theorem C125_unlucky_violated (e e' : Env) (fl fl' : Flags) (hfl : Encrypts fl) (ha : fl.armour = false) (hfl' : Decrypts fl')
    (src dst src' dst' : Bytes) (rest rest' : List Bytes) (w : World) (owner d seed : Bytes) (f : KeyFields) (m : Keys)
    (hk : Keyring C J w.fs fl.path owner f m) (hn : Names owner m fl.label (ownerOf C d seed))
    (msg : Bytes) (hin : Input w src msg) (hm : msg ≠ []) (hl : msg.length < 2 ^ 31) (hr : 56 ≤ w.rng.length)
    (hw : dst ≠ [45] → w.writes 0 = .done)
    (t : Bytes) (hb : C.base (w.rng.take 32) = ascii "-----BEGIN" ++ t)
    (hd : ∀ out typ body, out.take 32 = ascii "-----BEGIN" ++ t → P.dec out = some (typ, body) →
      typ ≠ ascii "CRYPTUTIL ENCRYPTED MESSAGE" ∧ typ ≠ ascii "CRYPTUTIL SIGNED AND ENCRYPTED MESSAGE") :
    ∃ w1 out, main C A P J e fl (src :: dst :: rest) w = (.ok, w1) ∧ Output w dst out w1 ∧
      ∀ (w2 : World) file, w2.fs fl'.path = some file → Input w2 src' out →
        ∃ r w3, main C A P J e' fl' (src' :: dst' :: rest') w2 = (r, w3) ∧ r ≠ .ok ∧ Silent w2 w3 := by
  obtain ⟨ct, h1, h2, h3⟩ := Props.Public.C18_roundtrip_partial C d seed msg w.rng hm hl hr
  have hct : ct.take 32 = ascii "-----BEGIN" ++ t := by
    have h4 := h1
    rw [encrypt_eq_raw] at h4
    obtain ⟨e, v, -, -, h5, -⟩ := encryptRaw_some C h4
    rw [h5, boxFor, List.append_assoc, List.take_left' (C.base_length _), hb]
  obtain ⟨w1, g1, g2⟩ := encrypt_succeeds C A P J (e := e) hfl (rest := rest) hk hn hin h1 hw
  rw [ha] at g2
  refine ⟨w1, ct, g1, g2, fun w2 file k1 k2 => ?_⟩
  have hbeg : BeginsArmour ct := by
    refine ⟨t ++ ct.drop 32, ?_, ?_⟩
    · intro hq
      have := congrArg List.length hq
      simp at this
      omega
    · rw [← List.append_assoc, ← hct, List.take_append_drop]
  rcases hx : main C A P J e' fl' (src' :: dst' :: rest') w2 with ⟨r, w3⟩
  exact ⟨r, w3, rfl, C83_other_type C A P J e' fl' hfl' src' dst' rest' w2 w3 r file ct k1 k2 hbeg (fun typ body => hd ct typ body hct) hx⟩

/-- There are such keys in the toy instance. -/
example : ∃ rng : Rng, 56 ≤ rng.length ∧ Toy.crypto.base (rng.take 32) = ascii "-----BEGIN" ++ List.replicate 22 0 ∧
    ∀ out typ body, out.take 32 = ascii "-----BEGIN" ++ List.replicate 22 0 → toyArmour.dec out = some (typ, body) →
      typ ≠ ascii "CRYPTUTIL ENCRYPTED MESSAGE" ∧ typ ≠ ascii "CRYPTUTIL SIGNED AND ENCRYPTED MESSAGE" := by
  refine ⟨ascii "-----BEGIN" ++ List.replicate 50 0, by decide, by decide, fun out typ body h1 h2 => ?_⟩
  obtain ⟨r, hr⟩ : ∃ r, out.drop 10 = 0 :: r := by
    have h3 : out = (ascii "-----BEGIN" ++ List.replicate 22 0) ++ out.drop 32 := by rw [← h1, List.take_append_drop]
    rw [h3, List.append_assoc, List.drop_left' (by decide)]
    exact ⟨_, rfl⟩
  have h4 : toyArmour.dec out = if out.take 10 = ascii "-----BEGIN" then Pem.toy.dec (out.drop 10) else none := rfl
  rw [h4, hr] at h2
  split at h2
  · have h5 : Pem.toy.dec (0 :: r) = some ([], r) := rfl
    rw [h5] at h2
    cases h2
    exact ⟨by decide, by decide⟩
  · cases h2

/-- The hypotheses of C125 can be met: a store with the key of a friend, and the friend's. -/
example : ∃ (fl fl' : Flags) (w : World) (owner d seed : Bytes) (f : KeyFields) (m : Keys),
    Encrypts fl ∧ fl.armour = true ∧ Decrypts fl' ∧ Keyring C J w.fs fl.path owner f m ∧
    Names owner m fl.label (ownerOf C d seed) ∧ fl.label ≠ self ∧ Input w [105] [104, 105] ∧ 56 ≤ w.rng.length ∧
    ∃ (w2 : World) (f2 : KeyFields) (m2 : Keys) (pass : Bytes), Keyring C J w2.fs fl'.path (ownerOf C d seed) f2 m2 ∧
      Opens C f2 d seed pass ∧ w2.term.answers = [some pass] := by
  obtain ⟨f, -, ho, hk⟩ := exKeyring C J (List.replicate 32 1) (List.replicate 32 2) [97]
    (ownerOf C (List.replicate 32 3) (List.replicate 32 4)) [112] none (by decide) (by decide) (by decide) (by decide)
  obtain ⟨f2, -, ho2, hk2⟩ := exKeyring C J (List.replicate 32 3) (List.replicate 32 4) [98]
    (ownerOf C (List.replicate 32 1) (List.replicate 32 2)) [113] none (by decide) (by decide) (by decide) (by decide)
  refine ⟨{ path := [107], encrypt := true, armour := true, label := [97] }, { path := [107], decrypt := true },
    exWorld J f [112] [104, 105], _, _, _, f, _, ⟨rfl, rfl, rfl, rfl⟩, rfl, ⟨rfl, rfl, rfl, rfl, rfl⟩, hk _ _,
    .peer (Map.set_same _ _ _) rfl, ?_, exInput J f _ _, (by show 56 ≤ (List.replicate 200 (3 : UInt8)).length; rw [List.length_replicate]; decide), exWorld J f2 [113] [], f2, _, _, hk2 _ _, ho2, rfl⟩
  decide

/-! ### C126: signed messages -/

/-- Signing and encrypting for the key of `d'` and `seed'`. -/
theorem cryptsign_run {e : Env} {fl : Flags} (hfl : SignsEncrypted fl) {src dst : Bytes} {rest : List Bytes} {w : World}
    {d seed d' seed' pass msg ct : Bytes} {rng' : Rng} {f : KeyFields} {m : Keys} {as}
    (hk : Keyring C J w.fs fl.path (ownerOf C d seed) f m) (ho : Opens C f d seed pass) (ha : w.term.answers = some pass :: as)
    (hn : Names (ownerOf C d seed) m fl.label (ownerOf C d' seed')) (hin : Input w src msg)
    (hd : encryptAndSign C (some (pairOf C d seed)) (some (pubOf C d' seed')) msg w.rng = .ok (some ct, rng')) :
    ∃ w1 w' : World, w1.fs = w.fs ∧ w1.stdout = w.stdout ++ notice f ∧ w1.writes = w.writes ∧ w1.failed = w.failed ∧
      w' = (w1.writeFile dst (P.enc signedAndEncryptedType ct)).2 ∧ main C A P J e fl (src :: dst :: rest) w = (.ok, w') := by
  rw [main_unlocked C A P J (select_cryptsign C A P (e := e) hfl) hk.keyfile ho rfl (by simp) ha]
  have hsame : Noted w (notice f) ((later (Proofs.Fcrypt.rest w as) 3).print (notice f)) := ⟨rfl, rfl, rfl, rfl, rfl, rfl⟩
  obtain ⟨w2, i1, i2, i3, i4, i5, i6, -, i8⟩ := readFile_some (hsame.input hin)
  have hcfg : (config fl (src :: dst :: rest)).args = src :: dst :: rest := rfl
  have hlab : (config fl (src :: dst :: rest)).label = fl.label := rfl
  have harm : (config fl (src :: dst :: rest)).armour = true := by
    show (fl.armour || (!fl.check && fl.sign && fl.encrypt)) = true
    rw [hfl.1, hfl.2.1, hfl.2.2]
    simp
  have henc : ∀ x, (opened C f m d seed x).encryptAndSignTo C fl.label msg w.rng = .ok (some ct, rng') := by
    intro x
    have hs := (opened_sound C J (x := x) hk ho).1
    obtain ⟨h1, h2⟩ := getPublic_eq C hs hn
    have hl : (opened C f m d seed x).locked = false := rfl
    have hp : (opened C f m d seed x).privateKey = some (pairOf C d seed) := rfl
    unfold KeyStore.encryptAndSignTo
    rw [sound_valid C hs, h1, h2, hl, hp]
    exact hd
  refine ⟨{ w2 with rng := rng' }, _, i2.trans hsame.fs, i3.trans hsame.stdout, i6.trans hsame.writes, i8.trans hsame.failed, rfl, ?_⟩
  simp only [cryptSignFile, hcfg, hlab, harm, i1, i4, hsame.rng, henc, after, if_true, hfl.1, Bool.false_and, Bool.or_false]
  have hfs : w2.fs fl.path ≠ none := by
    obtain ⟨data, h1, -⟩ := hk.file
    rw [i2, hsame.fs, h1]
    simp
  have hex := writeFile_exists { w2 with rng := rng' } dst (P.enc signedAndEncryptedType ct) fl.path hfs
  rcases hx : ({ w2 with rng := rng' } : World).writeFile dst (P.enc signedAndEncryptedType ct) with ⟨b, w3⟩
  rw [hx] at hex
  cases b with
  | true => exact conclude_quiet J hex
  | false => exact conclude_quiet J hex

/-- Decrypting what opens and verifies. -/
theorem decrypt_signed_succeeds {e : Env} {fl : Flags} (hfl : Decrypts fl) {src dst : Bytes} {rest : List Bytes} {w : World}
    {d seed d' seed' pass input body msg : Bytes} {f : KeyFields} {m : Keys} {as}
    (hk : Keyring C J w.fs fl.path (ownerOf C d seed) f m) (ho : Opens C f d seed pass) (ha : w.term.answers = some pass :: as)
    (hn : Names (ownerOf C d seed) m fl.label (ownerOf C d' seed'))
    (hin : Input w src input) (hop : openMessage P input = some (true, body))
    (hd : decryptAndVerify C (some (pairOf C d seed)) (some (pubOf C d' seed')) body = .ok (some msg))
    (hw : dst ≠ dash → w.writes 0 = .done) :
    ∃ w', main C A P J e fl (src :: dst :: rest) w = (.ok, w') ∧ Output (w.print (notice f ++ ascii "Valid signature.\n")) dst msg w' := by
  rw [main_unlocked C A P J (select_decrypt C A P (e := e) hfl) hk.keyfile ho rfl (by simp) ha]
  have hsame : Noted w (notice f) ((later (Proofs.Fcrypt.rest w as) 3).print (notice f)) := ⟨rfl, rfl, rfl, rfl, rfl, rfl⟩
  obtain ⟨w2, i1, i2, i3, i4, i5, i6, -⟩ := readFile_some (hsame.input hin)
  have hcfg : (config fl (src :: dst :: rest)).args = src :: dst :: rest := rfl
  have hlab : (config fl (src :: dst :: rest)).label = fl.label := rfl
  simp only [decryptFile, hcfg, hlab, i1, hop, Bool.not_true, Bool.false_eq_true, if_false]
  have hdec : ∀ x, (opened C f m d seed x).decryptAndVerify C fl.label body = .ok (some msg) := by
    intro x
    have hs := (opened_sound C J (x := x) hk ho).1
    obtain ⟨h1, h2⟩ := getPublic_eq C hs hn
    have hl : (opened C f m d seed x).locked = false := rfl
    have hp : (opened C f m d seed x).privateKey = some (pairOf C d seed) := rfl
    unfold KeyStore.decryptAndVerify
    rw [sound_valid C hs, h1, h2, hl, hp]
    exact hd
  rw [hdec]
  obtain ⟨w3, o1, o2, o3, -⟩ := output_ok (opened C f m d seed (exported C A P f d seed (w.term.clock 2)))
    (w2.print (ascii "Valid signature.\n")) dst msg
    (by show dst ≠ dash → w2.writes 0 = .done; rw [i6, hsame.writes]; exact hw)
  have hfs : w2.fs fl.path ≠ none := by
    obtain ⟨data, h1, -⟩ := hk.file
    rw [i2, hsame.fs, h1]
    simp
  refine ⟨w3, ?_, Output.same o2 (i2.trans hsame.fs) (by
    show w2.stdout ++ _ = w.stdout ++ _
    rw [i3, hsame.stdout, List.append_assoc])⟩
  simp only [after, o1, hfl.1, Bool.false_and, Bool.or_false]
  exact conclude_quiet J (o3 _ hfs)

theorem writeFile_output {w : World} {path data : Bytes} (h : path ≠ dash → w.writes 0 = .done) :
    Output w path data (w.writeFile path data).2 := by
  rcases writeFile_cases w path data with ⟨-, h1, -⟩ | ⟨-, h1, h2, -⟩
  · exact h1
  · exact absurd (h h1) h2

/-- A file signed and encrypted with fcrypt -s -e is what fcrypt -d writes, after "Valid
signature.", for the holder of the key it was encrypted for, with the label of the sender's key.
Missing from the property: empty files, and standard output, for which it is false; files of
2 GB. -/
theorem C126_roundtrip_partial (e e' : Env) (fl fl' : Flags) (hfl : SignsEncrypted fl) (hfl' : Decrypts fl')
    (src dst src' dst' : Bytes) (rest rest' : List Bytes) (w : World) (d seed d' seed' pass : Bytes) (f : KeyFields) (m : Keys) (as)
    (hk : Keyring C J w.fs fl.path (ownerOf C d seed) f m) (ho : Opens C f d seed pass) (ha : w.term.answers = some pass :: as)
    (hn : Names (ownerOf C d seed) m fl.label (ownerOf C d' seed'))
    (msg : Bytes) (hin : Input w src msg) (hm : msg ≠ []) (hl : msg.length < 2 ^ 31 - 69) (hr : 56 ≤ w.rng.length)
    (hw : dst ≠ [45] → w.writes 0 = .done) :
    ∃ w1 out, main C A P J e fl (src :: dst :: rest) w = (.ok, w1) ∧ Output (w.print (notice f)) dst out w1 ∧
      ∀ (w2 : World) f2 m2 pass2 as2, Keyring C J w2.fs fl'.path (ownerOf C d' seed') f2 m2 → Opens C f2 d' seed' pass2 →
        w2.term.answers = some pass2 :: as2 → Names (ownerOf C d' seed') m2 fl'.label (ownerOf C d seed) →
        Input w2 src' out → (dst' ≠ [45] → w2.writes 0 = .done) →
        ∃ w3, main C A P J e' fl' (src' :: dst' :: rest') w2 = (.ok, w3) ∧
          (dst' ≠ [45] → w3.stdout = w2.stdout ++ (notice f2 ++ ascii "Valid signature.\n") ∧ w3.fs = w2.fs.set dst' msg) := by
  obtain ⟨ct, h1, h2, h3⟩ := Props.Public.C19_roundtrip_partial C d seed d' seed' msg w.rng ho.slen hm hl hr
  have hct : ct ≠ [] := by
    rintro rfl
    simp at h2
  obtain ⟨w0, w1, g1, g2, g3, -, g4, g5⟩ := cryptsign_run C A P J (e := e) hfl (dst := dst) (rest := rest) hk ho ha hn hin h1
  refine ⟨w1, P.enc signedAndEncryptedType ct, g5, ?_, fun w2 f2 m2 pass2 as2 k1 k2 k3 k4 k5 k6 => ?_⟩
  · rw [g4]
    exact Output.same (writeFile_output (by rw [g3]; exact hw)) g1 g2
  · obtain ⟨w3, o1, o2⟩ := decrypt_signed_succeeds C A P J (e := e') hfl' (dst := dst') (rest := rest') k1 k2 k3 k4 k5
      (body := ct) (msg := msg) (by rw [open_armoured P (by decide) hct]; rfl) h3 k6
    refine ⟨w3, o1, fun hq => ?_⟩
    unfold Output at o2
    rw [if_neg hq] at o2
    exact o2

/-- C126 is false of standard output: the message is preceded by "Valid signature.". -/
theorem C126_stdout_violated (e e' : Env) (fl fl' : Flags) (hfl : SignsEncrypted fl) (hfl' : Decrypts fl')
    (src dst src' : Bytes) (rest rest' : List Bytes) (w : World) (d seed d' seed' pass : Bytes) (f : KeyFields) (m : Keys) (as)
    (hk : Keyring C J w.fs fl.path (ownerOf C d seed) f m) (ho : Opens C f d seed pass) (ha : w.term.answers = some pass :: as)
    (hn : Names (ownerOf C d seed) m fl.label (ownerOf C d' seed'))
    (msg : Bytes) (hin : Input w src msg) (hm : msg ≠ []) (hl : msg.length < 2 ^ 31 - 69) (hr : 56 ≤ w.rng.length)
    (hw : dst ≠ [45] → w.writes 0 = .done) :
    ∃ w1 out, main C A P J e fl (src :: dst :: rest) w = (.ok, w1) ∧ Output (w.print (notice f)) dst out w1 ∧
      ∀ (w2 : World) f2 m2 pass2 as2, Keyring C J w2.fs fl'.path (ownerOf C d' seed') f2 m2 → Opens C f2 d' seed' pass2 →
        w2.term.answers = some pass2 :: as2 → Names (ownerOf C d' seed') m2 fl'.label (ownerOf C d seed) →
        Input w2 src' out → w2.stdout = [] →
        ∃ w3, main C A P J e' fl' (src' :: [45] :: rest') w2 = (.ok, w3) ∧ w3.stdout = notice f2 ++ ascii "Valid signature.\n" ++ msg ∧
          w3.stdout ≠ msg := by
  obtain ⟨ct, h1, h2, h3⟩ := Props.Public.C19_roundtrip_partial C d seed d' seed' msg w.rng ho.slen hm hl hr
  have hct : ct ≠ [] := by
    rintro rfl
    simp at h2
  obtain ⟨w0, w1, g1, g2, g3, -, g4, g5⟩ := cryptsign_run C A P J (e := e) hfl (dst := dst) (rest := rest) hk ho ha hn hin h1
  refine ⟨w1, P.enc signedAndEncryptedType ct, g5, ?_, fun w2 f2 m2 pass2 as2 k1 k2 k3 k4 k5 k6 => ?_⟩
  · rw [g4]
    exact Output.same (writeFile_output (by rw [g3]; exact hw)) g1 g2
  · obtain ⟨w3, o1, o2⟩ := decrypt_signed_succeeds C A P J (e := e') hfl' (dst := [45]) (rest := rest') k1 k2 k3 k4 k5
      (body := ct) (msg := msg) (by rw [open_armoured P (by decide) hct]; rfl) h3 (fun h => absurd rfl h)
    unfold Output at o2
    rw [if_pos rfl] at o2
    have he : w3.stdout = notice f2 ++ ascii "Valid signature.\n" ++ msg := by
      rw [o2.1]
      show (w2.stdout ++ _) ++ msg = _
      rw [k6]
      rfl
    refine ⟨w3, o1, he, ?_⟩
    rw [he]
    intro hq
    have := congrArg List.length hq
    rw [List.length_append, List.length_append] at this
    have hlen : (ascii "Valid signature.\n").length = 17 := by decide
    omega

/-- C126 is false of the empty file. -/
theorem C126_empty_file_violated (e e' : Env) (fl fl' : Flags) (hfl : SignsEncrypted fl) (hfl' : Decrypts fl')
    (src dst src' dst' : Bytes) (rest rest' : List Bytes) (w : World) (d seed d' seed' pass : Bytes) (f : KeyFields) (m : Keys) (as)
    (hk : Keyring C J w.fs fl.path (ownerOf C d seed) f m) (ho : Opens C f d seed pass) (ha : w.term.answers = some pass :: as)
    (hn : Names (ownerOf C d seed) m fl.label (ownerOf C d' seed')) (hin : Input w src []) (hr : 56 ≤ w.rng.length)
    (hw : dst ≠ [45] → w.writes 0 = .done) :
    ∃ w1 out, main C A P J e fl (src :: dst :: rest) w = (.ok, w1) ∧ Output (w.print (notice f)) dst out w1 ∧
      ∀ (w2 : World) f2 m2 pass2 as2, Keyring C J w2.fs fl'.path (ownerOf C d' seed') f2 m2 → Opens C f2 d' seed' pass2 →
        w2.term.answers = some pass2 :: as2 → Input w2 src' out →
        ∃ r w3, main C A P J e' fl' (src' :: dst' :: rest') w2 = (r, w3) ∧ r ≠ .ok ∧ Silent w2 w3 := by
  obtain ⟨ct, h1, -⟩ := Props.Public.C19_empty_message_violated C d seed d' seed' w.rng hr
  obtain ⟨w0, w1, g1, g2, g3, -, g4, g5⟩ := cryptsign_run C A P J (e := e) hfl (dst := dst) (rest := rest) hk ho ha hn hin h1
  have h4 := h1
  rw [pairOf_eq, encryptAndSign_mk] at h4
  obtain ⟨e2, v2, hpub, hl2, h5, -⟩ := encryptRaw_some C h4
  have hct : ct ≠ [] := by
    rintro rfl
    have := congrArg List.length h5
    rw [boxFor_length C _ _ _ _ (by rw [List.length_take, List.length_drop]; omega), List.length_nil] at this
    omega
  refine ⟨w1, P.enc signedAndEncryptedType ct, g5, ?_, fun w2 f2 m2 pass2 as2 k1 k2 k3 k4 => ?_⟩
  · rw [g4]
    exact Output.same (writeFile_output (by rw [g3]; exact hw)) g1 g2
  · refine decrypt_fails C A P J hfl' k1 k2 k3 k4 (b := true) (body := ct) ?_ (fun h => by cases h) (fun _ pub msg => ?_)
    · rw [open_armoured P (by decide) hct]
      rfl
    · intro hd
      obtain ⟨sig, q1, q2, -, q4⟩ := decryptAndVerify_some C hd
      have he : e2 = C.base d' := by
        simp only [pubOf, Option.some.injEq, PublicKey.mk.injEq] at hpub
        exact hpub.1.symm
      rw [h5, he, pairOf_eq, decryptRaw_boxFor C _ _ _ _ _ _ _ (by rw [List.length_take, List.length_drop]; omega)] at q4
      simp only [Res.ok.injEq, Option.some.injEq] at q4
      have hq := congrArg List.length q4
      simp only [List.length_append, bytesRecord_length, q2, C.sign_length, List.length_nil] at hq
      exact q1 (List.eq_nil_of_length_eq_zero (by omega))

/-- C126 is false of files of 2 GiB and more: they can be signed and encrypted, but not decrypted. -/
theorem C126_long_file_violated (e e' : Env) (fl fl' : Flags) (hfl : SignsEncrypted fl) (hfl' : Decrypts fl')
    (src dst src' dst' : Bytes) (rest rest' : List Bytes) (w : World) (d seed d' seed' pass : Bytes) (f : KeyFields) (m : Keys) (as)
    (hk : Keyring C J w.fs fl.path (ownerOf C d seed) f m) (ho : Opens C f d seed pass) (ha : w.term.answers = some pass :: as)
    (hn : Names (ownerOf C d seed) m fl.label (ownerOf C d' seed')) (msg : Bytes) (hin : Input w src msg)
    (hl : 2 ^ 31 - 69 ≤ msg.length) (hu : msg.length < 2 ^ 32 - 69) (hr : 56 ≤ w.rng.length)
    (hw : dst ≠ [45] → w.writes 0 = .done) :
    ∃ w1 out, main C A P J e fl (src :: dst :: rest) w = (.ok, w1) ∧ Output (w.print (notice f)) dst out w1 ∧
      ∀ (w2 : World) f2 m2 pass2 as2, Keyring C J w2.fs fl'.path (ownerOf C d' seed') f2 m2 → Opens C f2 d' seed' pass2 →
        w2.term.answers = some pass2 :: as2 → Input w2 src' out →
        ∃ r w3, main C A P J e' fl' (src' :: dst' :: rest') w2 = (r, w3) ∧ r ≠ .ok ∧ Silent w2 w3 := by
  obtain ⟨ct, h1, hct, h2⟩ := Props.Public.long_refused C d seed d' seed' msg w.rng hl hu hr
  obtain ⟨w0, w1, g1, g2, g3, -, g4, g5⟩ := cryptsign_run C A P J (e := e) hfl (dst := dst) (rest := rest) hk ho ha hn hin h1
  refine ⟨w1, P.enc signedAndEncryptedType ct, g5, ?_, fun w2 f2 m2 pass2 as2 k1 k2 k3 k4 => ?_⟩
  · rw [g4]
    exact Output.same (writeFile_output (by rw [g3]; exact hw)) g1 g2
  · refine decrypt_fails C A P J hfl' k1 k2 k3 k4 (b := true) (body := ct) ?_ (fun h => by cases h) (fun _ pub msg => h2 pub msg)
    rw [open_armoured P (by decide) hct]
    rfl

/-- A world with such an input, and all else as in the examples of C125 and C126. -/
example (f : KeyFields) (pass : Bytes) : ∃ msg : Bytes, Input (exWorld J f pass msg) [105] msg ∧ 2 ^ 31 - 69 ≤ msg.length ∧
    2 ^ 31 ≤ msg.length ∧ msg.length < 2 ^ 32 - 69 :=
  ⟨List.replicate (2 ^ 31) 7, exInput J f pass _, by rw [List.length_replicate]; decide, by rw [List.length_replicate],
    by rw [List.length_replicate]; decide⟩

/-- The hypotheses of C126 can be met, and with them the second case of C83: each of two has the
other's key. -/
example : ∃ (fl fl' : Flags) (w : World) (d seed d' seed' pass : Bytes) (f : KeyFields) (m : Keys),
    SignsEncrypted fl ∧ Decrypts fl' ∧ Keyring C J w.fs fl.path (ownerOf C d seed) f m ∧ Opens C f d seed pass ∧
    w.term.answers = [some pass] ∧ Names (ownerOf C d seed) m fl.label (ownerOf C d' seed') ∧ fl.label ≠ self ∧
    Input w [105] [104, 105] ∧ 56 ≤ w.rng.length ∧
    ∀ input, ∃ (w2 : World) (f2 : KeyFields) (m2 : Keys) (pass2 : Bytes), Keyring C J w2.fs fl'.path (ownerOf C d' seed') f2 m2 ∧
      Opens C f2 d' seed' pass2 ∧ w2.term.answers = [some pass2] ∧ Names (ownerOf C d' seed') m2 fl'.label (ownerOf C d seed) ∧
      fl'.label ≠ self ∧ Input w2 [105] input := by
  obtain ⟨f, -, ho, hk⟩ := exKeyring C J (List.replicate 32 1) (List.replicate 32 2) [97]
    (ownerOf C (List.replicate 32 3) (List.replicate 32 4)) [112] none (by decide) (by decide) (by decide) (by decide)
  obtain ⟨f2, -, ho2, hk2⟩ := exKeyring C J (List.replicate 32 3) (List.replicate 32 4) [98]
    (ownerOf C (List.replicate 32 1) (List.replicate 32 2)) [113] none (by decide) (by decide) (by decide) (by decide)
  refine ⟨{ path := [107], sign := true, encrypt := true, label := [97] }, { path := [107], decrypt := true, label := [98] },
    exWorld J f [112] [104, 105], _, _, _, _, _, f, _, ⟨rfl, rfl, rfl⟩, ⟨rfl, rfl, rfl, rfl, rfl⟩, hk _ _, ho, rfl,
    .peer (Map.set_same _ _ _) rfl, ?_, exInput J f _ _,
    (by show 56 ≤ (List.replicate 200 (3 : UInt8)).length; rw [List.length_replicate]; decide),
    fun input => ⟨exWorld J f2 [113] input, f2, _, _, hk2 _ _, ho2, rfl, .peer (Map.set_same _ _ _) rfl, ?_, exInput J f2 _ _⟩⟩
  · decide
  · decide

/-! ### C127: signature files -/

theorem openSignature_iff (b : Bytes) : ∀ sig, openSignature P b = some sig ↔ SignatureIn P b sig := by
  intro sig
  unfold openSignature SignatureIn
  cases ha : armoured b with
  | true =>
    have hb := (armoured_iff b).mp ha
    simp only [if_true, hb, true_and, not_true, false_and, or_false]
    cases hd : P.dec b with
    | none => simp
    | some x =>
      obtain ⟨typ, body⟩ := x
      simp only
      have hc : signatureType = ascii "CRYPTUTIL SIGNATURE" := rfl
      rw [hc]
      by_cases ht : typ = ascii "CRYPTUTIL SIGNATURE"
      · rw [if_pos ht, ht]
        simp
      · rw [if_neg ht]
        simp [ht]
  | false =>
    have hb : ¬ BeginsArmour b := fun h => by
      rw [(armoured_iff b).mpr h] at ha
      cases ha
    simp only [Bool.false_eq_true, if_false, hb, false_and, false_or, not_false_eq_true, true_and, Option.some.injEq]
    exact eq_comm

/-- fcrypt -v changes no file. It says "Signature: OK" if the signature file holds a signature of
the file by the key that the label stands for, and "Signature: INVALID" if it holds any other
signature; if it holds none, it says nothing and fails. Missing from the property: that the exit
status tells valid from invalid signatures, which is false; and standard input for both files. -/
theorem C127_verify_partial (e : Env) (fl : Flags) (hfl : Verifies fl) (src sigf : Bytes) (rest : List Bytes) (w : World)
    (owner : Bytes) (f : KeyFields) (m : Keys) (hk : Keyring C J w.fs fl.path owner f m) (msg input : Bytes)
    (hin : Input w src msg) (hsig : Input w sigf input) (hne : src ≠ [45] ∨ sigf ≠ [45]) :
    ∃ r w', main C A P J e fl (src :: sigf :: rest) w = (r, w') ∧ w'.fs = w.fs ∧
      ((r = .ok ∧ ∃ sig, SignatureIn P input sig ∧
        ((SignedBy C owner m fl.label msg sig ∧ w'.stdout = w.stdout ++ ascii "Signature: OK\n") ∨
         (¬ SignedBy C owner m fl.label msg sig ∧ w'.stdout = w.stdout ++ ascii "Signature: INVALID\n"))) ∨
       (r = .err ∧ (∀ sig, ¬ SignatureIn P input sig) ∧ w'.stdout = w.stdout)) := by
  rw [main_public C A P J (select_verify C A P (e := e) hfl) hk.keyfile rfl hfl.1 (by simp)]
  have hsame : SameButTerm w (later w 2) := same_later _ 2
  obtain ⟨w2, i1, i2, i3, i4, i5, i6, i7, -⟩ := readFile_some (Input.same hin hsame)
  have hin2 : Input w2 sigf input := by
    have h := Input.same hsig hsame
    by_cases hd : src = dash
    · unfold Input at h ⊢
      rcases hne with h1 | h1
      · exact absurd hd h1
      · rw [if_neg h1] at h ⊢
        rw [i2]
        exact h
    · rw [i7 hd]
      exact h
  obtain ⟨w3, j1, j2, j3, -⟩ := readFile_some hin2
  have hfs : w3.fs = w.fs := (j2.trans i2).trans hsame.fs
  have hso : w3.stdout = w.stdout := (j3.trans i3).trans hsame.stdout
  have hcfg : (config fl (src :: sigf :: rest)).args = src :: sigf :: rest := rfl
  have hlab : (config fl (src :: sigf :: rest)).label = fl.label := rfl
  have hex : w3.fs fl.path ≠ none := by
    obtain ⟨data, h1, -⟩ := hk.file
    rw [hfs, h1]
    simp
  simp only [verifyFile, hcfg, hlab, i1, j1]
  cases ho : openSignature P input with
  | none =>
    refine ⟨_, _, conclude_quiet J hex, hfs, Or.inr ⟨rfl, fun sig hs => ?_, hso⟩⟩
    rw [(openSignature_iff P input sig).mpr hs] at ho
    cases ho
  | some sig =>
    obtain ⟨data, -, -, h3⟩ := keyring_load C J hk
    obtain ⟨b, hb, hiff⟩ := Props.KeyMessages.C105_verify C _ owner m h3 fl.label msg sig
    simp only [hb, after]
    refine ⟨_, _, conclude_quiet J hex, hfs, Or.inl ⟨rfl, sig, (openSignature_iff P input sig).mp ho, ?_⟩⟩
    cases b with
    | true => exact Or.inl ⟨hiff.mp rfl, by show w3.stdout ++ _ = _; rw [hso, if_pos rfl]⟩
    | false =>
      refine Or.inr ⟨fun h => ?_, by show w3.stdout ++ _ = _; rw [hso, if_neg (by simp)]⟩
      cases hiff.mpr h

/-- C127 is false of the exit status: it is 0 for invalid signatures as well. -/
theorem C127_status_violated (e : Env) (fl : Flags) (hfl : Verifies fl) (src sigf : Bytes) (rest : List Bytes) (w : World)
    (owner : Bytes) (f : KeyFields) (m : Keys) (hk : Keyring C J w.fs fl.path owner f m) (msg input sig : Bytes)
    (hin : Input w src msg) (hsig : Input w sigf input) (hne : src ≠ [45] ∨ sigf ≠ [45]) (hi : SignatureIn P input sig)
    (_ : ¬ SignedBy C owner m fl.label msg sig) :
    (main C A P J e fl (src :: sigf :: rest) w).1 = .ok := by
  obtain ⟨r, w', h1, -, h2 | ⟨-, h2, -⟩⟩ := C127_verify_partial C A P J e fl hfl src sigf rest w owner f m hk msg input hin hsig hne
  · rw [h1]
    exact h2.1
  · exact absurd hi (h2 sig)

/-- What fcrypt -s writes for a file, fcrypt -v accepts for that file with any store and label
standing for the signer's key. Missing from the property: signatures written without armour that
begin like armour, and standard output when the key store has no export key. -/
theorem C127_roundtrip_partial (e e' : Env) (fl fl' : Flags) (hfl : Signs fl) (hfl' : Verifies fl')
    (src dst src' sig' : Bytes) (rest rest' : List Bytes) (w : World) (d seed pass : Bytes) (f : KeyFields) (m : Keys) (as)
    (hk : Keyring C J w.fs fl.path (ownerOf C d seed) f m) (ho : Opens C f d seed pass) (ha : w.term.answers = some pass :: as)
    (msg : Bytes) (hin : Input w src msg) (hw : dst ≠ [45] → w.writes 0 = .done) :
    ∃ w1 out, main C A P J e fl (src :: dst :: rest) w = (.ok, w1) ∧ Output (w.print (notice f)) dst out w1 ∧
      (fl.armour = true ∨ ¬ BeginsArmour out → ∀ (w2 : World) owner f2 m2, Keyring C J w2.fs fl'.path owner f2 m2 →
        Names owner m2 fl'.label (ownerOf C d seed) → Input w2 src' msg → Input w2 sig' out → (src' ≠ [45] ∨ sig' ≠ [45]) →
        ∃ w3, main C A P J e' fl' (src' :: sig' :: rest') w2 = (.ok, w3) ∧ w3.fs = w2.fs ∧
          w3.stdout = w2.stdout ++ ascii "Signature: OK\n") := by
  rw [main_unlocked C A P J (select_sign C A P (e := e) hfl) hk.keyfile ho rfl (by simp) ha]
  have hsame : Noted w (notice f) ((later (Proofs.Fcrypt.rest w as) 3).print (notice f)) := ⟨rfl, rfl, rfl, rfl, rfl, rfl⟩
  obtain ⟨w2, i1, i2, i3, i4, i5, i6, -⟩ := readFile_some (hsame.input hin)
  have hcfg : (config fl (src :: dst :: rest)).args = src :: dst :: rest := rfl
  have harm : (config fl (src :: dst :: rest)).armour = fl.armour := by
    show (fl.armour || (!fl.check && fl.sign && fl.encrypt)) = fl.armour
    rw [hfl.1, hfl.2.1, hfl.2.2]
    simp
  simp only [signFile, hcfg, harm, i1]
  have hsg : ∀ x, (opened C f m d seed x).sign C msg = .ok (some (C.sign (seed ++ C.edPub seed) msg)) := by
    intro x
    have hs := (opened_sound C J (x := x) hk ho).1
    have hl : (opened C f m d seed x).locked = false := rfl
    have hp : (opened C f m d seed x).privateKey = some (pairOf C d seed) := rfl
    unfold KeyStore.sign
    rw [sound_valid C hs, hl, hp, pairOf_eq]
    exact sign_mk C d (seed ++ C.edPub seed) (C.base d) (C.edPub seed) msg
  rw [hsg]
  generalize hsig : C.sign (seed ++ C.edPub seed) msg = sg
  have hsl : sg.length = 64 := by rw [← hsig]; exact C.sign_length _ _
  obtain ⟨w3, o1, o2, o3, -⟩ := output_ok (opened C f m d seed (exported C A P f d seed (w.term.clock 2))) w2 dst
    (if fl.armour = true then P.enc signatureType sg else sg)
    (by rw [i6, hsame.writes]; exact hw)
  have hfs : w2.fs fl.path ≠ none := by
    obtain ⟨data, h1, -⟩ := hk.file
    rw [i2, hsame.fs, h1]
    simp
  refine ⟨w3, _, ?_, Output.same o2 (i2.trans hsame.fs) (i3.trans hsame.stdout), ?_⟩
  · simp only [after, o1, hfl.1, Bool.false_and, Bool.or_false]
    exact conclude_quiet J (o3 _ hfs)
  · intro hor w4 owner f2 m2 k1 k2 k3 k4 k5
    obtain ⟨r, w5, h1, h2, h3⟩ := C127_verify_partial C A P J e' fl' hfl' src' sig' rest' w4 owner f2 m2 k1 msg _ k3 k4 k5
    have hin' : SignatureIn P (if fl.armour = true then P.enc signatureType sg else sg) sg := by
      cases hf : fl.armour with
      | true =>
        rw [if_pos rfl]
        refine Or.inl ⟨enc_armour P _ _, P.dec_enc _ _ (by decide) ?_⟩
        rintro rfl
        simp at hsl
      | false =>
        rw [hf] at hor
        simp only [Bool.false_eq_true, if_false, false_or] at hor ⊢
        exact Or.inr ⟨hor, rfl⟩
    have hby : SignedBy C owner m2 fl'.label msg sg := by
      refine ⟨_, k2, ownerOf_length C d seed, hsl, ?_⟩
      rw [ownerOf_drop, ← hsig]
      exact C.verify_sign _ _ ho.slen
    rcases h3 with ⟨rfl, sg', h4, h5⟩ | ⟨-, h4, -⟩
    · have : sg' = sg := by
        have e1 := (openSignature_iff P _ sg').mpr h4
        rw [(openSignature_iff P _ sg).mpr hin'] at e1
        cases e1
        rfl
      subst this
      rcases h5 with ⟨-, h5⟩ | ⟨h5, -⟩
      · exact ⟨w5, h1, h2, h5⟩
      · exact absurd hby h5
    · exact absurd hin' (h4 sg)

/-- The hypotheses of C127 can be met, by valid and by invalid signatures. -/
example : ∃ (fl : Flags) (w : World) (owner : Bytes) (f : KeyFields) (m : Keys), Verifies fl ∧
    Keyring C J w.fs fl.path owner f m ∧ Names owner m fl.label (ownerOf C (List.replicate 32 3) (List.replicate 32 4)) ∧
    (∀ msg, Input { w with stdin := msg } [45] msg) ∧ Input w [105] [1, 2, 3] ∧ SignatureIn P [1, 2, 3] [1, 2, 3] ∧
    ∀ msg, ¬ SignedBy C owner m fl.label msg [1, 2, 3] := by
  obtain ⟨f, -, ho, hk⟩ := exKeyring C J (List.replicate 32 1) (List.replicate 32 2) [97]
    (ownerOf C (List.replicate 32 3) (List.replicate 32 4)) [112] none (by decide) (by decide) (by decide) (by decide)
  refine ⟨{ path := [107], verify := true, label := [97] }, exWorld J f [112] [1, 2, 3], _, f, _, ⟨rfl, rfl, rfl⟩, hk _ _,
    .peer (Map.set_same _ _ _) rfl, fun _ => rfl, exInput J f _ _, Or.inr ⟨?_, rfl⟩, ?_⟩
  · intro h
    have := (armoured_iff _).mpr h
    revert this
    decide
  · rintro msg ⟨k, -, -, h, -⟩
    revert h
    decide

end Verif.Props.Fcrypt
