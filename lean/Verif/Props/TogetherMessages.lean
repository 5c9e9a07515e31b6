import Verif.Props.FcryptExport
import Verif.Spec.TogetherMessages
/-! Properties of fcrypt in the hands of two people: messages and signatures under a key that one of
them exported and the other imported; and labels that stand for no key. -/

namespace Verif.Props.TogetherMessages
open Verif Verif.Go Verif.Model.Util Verif.Model.Public Verif.Model.KeyStore Verif.Model.Fcrypt
open Verif.Spec.Public Verif.Spec.KeyStore Verif.Spec.Fcrypt Verif.Spec.TogetherMessages
open Verif.Proofs.Public Verif.Proofs.KeyStore Verif.Proofs.Fcrypt Verif.Props.KeyTrust Verif.Props.KeyImport
open Verif.Props.Fcrypt Verif.Props.FcryptFiles Verif.Props.FcryptKeys Verif.Props.FcryptExport

variable (C : Crypto) (A : Asn1) (P : Armour) (J : KeyJson)

/-! ### C234: after keys have been exchanged -/

theorem keyring_at {fs fs' : Fs} {path path' owner : Bytes} {f : KeyFields} {m : Keys} (h : Keyring C J fs path owner f m)
    (hf : fs' path' = fs path) : Keyring C J fs' path' owner f m :=
  ⟨by rw [hf]; exact h.file, h.version, h.time, h.pub, h.len, h.keys, h.noNil, h.labelled, h.noSelf, h.trust, h.locked⟩

theorem labels_utf8 {fs : Fs} {path owner : Bytes} {f : KeyFields} {m : Keys} (h : Keyring C J fs path owner f m) :
    ∀ l, m l ≠ none → ValidUtf8 l := by
  intro l hl
  obtain ⟨data, -, h2⟩ := h.file
  cases hk : f.keys with
  | none =>
    have := h.keys
    rw [hk] at this
    rw [← this] at hl
    exact absurd rfl hl
  | some mm =>
    have hm : mm = m := by
      have := h.keys
      rw [hk] at this
      exact this
    subst hm
    cases hv : mm l with
    | none => exact absurd hv hl
    | some v => exact ((J.dec_clean data f h2) mm hk l v hv).1

theorem output_unique {w w' : World} {dst a b : Bytes} (h1 : Output w dst a w') (h2 : Output w dst b w') : a = b := by
  unfold Output at h1 h2
  split at h1
  · rename_i hd
    rw [if_pos hd] at h2
    exact List.append_cancel_left (h1.1.symm.trans h2.1)
  · rename_i hd
    rw [if_neg hd] at h2
    have := congrFun (h1.2.symm.trans h2.2) dst
    rw [Fs.set_same, Fs.set_same] at this
    exact Option.some.inj this

/-- What the importing user's key store then is: as before, with the key under the label. -/
theorem acquired_ring {d seed label d2 seed2 pass2 path : Bytes} {m2 : Keys} {fs : Fs}
    (h : Acquired C A P J d seed label d2 seed2 pass2 m2 path fs) :
    ∃ f3 m3, Keyring C J fs path (ownerOf C d2 seed2) f3 m3 ∧ Opens C f3 d2 seed2 pass2 ∧
      Names (ownerOf C d2 seed2) m3 label (ownerOf C d seed) ∧ label ≠ self ∧ m2 label = none ∧ ∀ l, l ≠ label → m3 l = m2 l := by
  obtain ⟨e, e2, fl, fl2, dst, src, out, rest, rest2, w, w', w2, w3, f, f2, m, as2, as3, hfl, hself, hk, ⟨t, hx⟩, hw, hm, hout, hfl2, hu, rfl, hk2, ho2, ha2,
    hc, hl2, h3, hclk, hw2, hin, hm2, rfl⟩ := h
  obtain ⟨w'', g1, g2⟩ := exportSelf_run C A P J (e := e) (dst := dst) (rest := rest) hfl hself hk hx hw
  rw [hm] at g1
  cases g1
  cases output_unique hout g2
  have hh := enc_holds A P (statement C d seed (ownerOf C d seed) t)
  rcases C130_untrusted_partial C A P J e2 fl2 hfl2 hu src rest2 w2 w3 .ok d2 seed2 pass2 f2 m2 as2 _ hk2 ho2 ha2 hin hw2 hclk hm2 with
    ⟨q, -⟩ | ⟨-, q, -⟩ | ⟨-, as4, l, v, rec, q0, q1, q2, q3, q4, q5, q6, q7, -, q8⟩
  · exact absurd rfl q
  · exact absurd hc (q _)
  cases FcryptExport.Confirmed.unique q0 hc
  cases Asked.unique q1 hl2
  cases Holds.unique A P q4 hh
  obtain ⟨f3, r1, r2, r3, r4, r5⟩ := q8
  have hlab := labels_utf8 C J hk2
  have hring := r5 (by
    intro l' hl
    by_cases hq : l' = label
    · rw [hq]; exact h3
    · rw [Map.set_other _ _ hq] at hl
      exact hlab l' hl)
  refine ⟨f3, _, hring, ⟨ho2.dlen, ho2.slen, ?_⟩, .peer (Map.set_same _ _ _) q6, q2, q3, fun l' hl => Map.set_other _ _ hl⟩
  rw [r3]
  exact ho2.key

/-- Keys can be exchanged in this way: a user whose key store holds a key to export, and another who
says "yes" and has the label free. -/
theorem C234_exchanged (e e2 : Env) (fl fl2 : Flags) (hfl : Exports fl) (hself : fl.label = self) (hfl2 : Imports fl2) (hu : fl2.untrusted = true)
    (dst src : Bytes) (rest rest2 : List Bytes) (w w2 : World) (d seed d2 seed2 pass2 : Bytes) (f f2 : KeyFields) (m m2 : Keys)
    (as2 as3 : List (Option Bytes)) (hk : Keyring C J w.fs fl.path (ownerOf C d seed) f m) (t : BitVec 64)
    (hx : f.exportKey = some (P.enc (ascii "CRYPTUTIL VERIFIED KEY") (A.enc (statement C d seed (ownerOf C d seed) t))))
    (hw : dst ≠ [45] → w.writes 0 = .done)
    (hk2 : Keyring C J w2.fs fl2.path (ownerOf C d2 seed2) f2 m2) (ho2 : Opens C f2 d2 seed2 pass2)
    (ha2 : w2.term.answers = some pass2 :: as2) (hw2 : w2.writes 0 = .done) (hclk2 : ∀ n, w2.term.clock n ≠ 0)
    (label : Bytes) (hc : Confirmed as2 as3) (hl2 : Asked fl2 as3 label) (h1 : label ≠ self) (h2 : m2 label = none) (h3 : ValidUtf8 label) :
    ∃ w' out, main C A P J e fl (dst :: rest) w = (.ok, w') ∧ Output w dst out w' ∧
      (Input w2 src out → ∃ w3, main C A P J e2 fl2 (src :: rest2) w2 = (.ok, w3) ∧
        Acquired C A P J d seed label d2 seed2 pass2 m2 fl2.path w3.fs) := by
  obtain ⟨w', out, g1, g2, g3⟩ := C132_own_partial C A P J e e2 fl fl2 hfl hself hfl2 hu dst src rest rest2 w w2 d seed d2 seed2 pass2 f f2 m m2
    as2 as3 hk t hx hw hk2 ho2 ha2 hw2 hclk2 label hc hl2 h1 h2
  refine ⟨w', out, g1, g2, fun hin => ?_⟩
  obtain ⟨w3, rec, k1, -⟩ := g3 hin
  exact ⟨w3, k1, .intro e e2 fl fl2 dst src out rest rest2 w w' w2 w3 f f2 m as2 as3 hfl hself hk ⟨t, hx⟩ hw g1 g2 hfl2 hu rfl hk2 ho2 ha2
    hc hl2 h3 hclk2 (by rw [hw2]; simp) hin k1 rfl⟩

/-- A file that someone encrypts with -a for a key they have imported is restored by its owner. -/
theorem C234_encrypted {d seed label d2 seed2 pass2 path : Bytes} {m2 : Keys} {fs : Fs} (h : Acquired C A P J d seed label d2 seed2 pass2 m2 path fs)
    (e e' : Env) (fl fl' : Flags) (hfl : Encrypts fl) (hfl' : Decrypts fl') (harm : fl.armour = true) (hlab : fl.label = label)
    (src dst src' dst' : Bytes) (rest rest' : List Bytes) (w : World) (hfs : w.fs fl.path = fs path)
    (msg : Bytes) (hin : Input w src msg) (hm : msg ≠ []) (hl : msg.length < 2 ^ 31) (hr : 56 ≤ w.rng.length) (hw : dst ≠ [45] → w.writes 0 = .done) :
    ∃ w1 out, main C A P J e fl (src :: dst :: rest) w = (.ok, w1) ∧ Output w dst out w1 ∧
      ∀ (w2 : World) f m pass as, Keyring C J w2.fs fl'.path (ownerOf C d seed) f m → f.exportKey ≠ none → Opens C f d seed pass →
        w2.term.answers = some pass :: as → Input w2 src' out → (dst' ≠ [45] → w2.writes 0 = .done) →
        ∃ w3, main C A P J e' fl' (src' :: dst' :: rest') w2 = (.ok, w3) ∧ Output w2 dst' msg w3 := by
  obtain ⟨f3, m3, r1, -, r3, -⟩ := acquired_ring C A P J h
  subst hlab
  obtain ⟨w1, out, g1, g2, g3⟩ := C125_roundtrip_partial C A P J e e' fl fl' hfl hfl' src dst src' dst' rest rest' w _ d seed f3 m3
    (keyring_at C J r1 hfs) r3 msg hin hm hl hr hw
  refine ⟨w1, out, g1, g2, fun w2 f m pass as k1 k0 k2 k3 k4 k5 => ?_⟩
  obtain ⟨w3, q1, q2⟩ := g3 (.inl harm) w2 f m pass as k1 k2 k3 k4 k5
  refine ⟨w3, q1, ?_⟩
  have hn : notice f = [] := by
    unfold notice
    rw [if_neg k0]
  rwa [hn, print_nil] at q2

/-- A signature that the owner of a key makes with -a is accepted by those who have imported it. -/
theorem C234_signed {d seed label d2 seed2 pass2 path : Bytes} {m2 : Keys} {fs : Fs} (h : Acquired C A P J d seed label d2 seed2 pass2 m2 path fs)
    (e e' : Env) (fl fl' : Flags) (hfl : Signs fl) (hfl' : Verifies fl') (harm : fl.armour = true) (hlab : fl'.label = label)
    (src dst src' sig' : Bytes) (rest rest' : List Bytes) (w : World) (pass : Bytes) (f : KeyFields) (m : Keys) (as)
    (hk : Keyring C J w.fs fl.path (ownerOf C d seed) f m) (hx : f.exportKey ≠ none) (ho : Opens C f d seed pass)
    (ha : w.term.answers = some pass :: as) (msg : Bytes) (hin : Input w src msg) (hw : dst ≠ [45] → w.writes 0 = .done) :
    ∃ w1 out, main C A P J e fl (src :: dst :: rest) w = (.ok, w1) ∧ Output w dst out w1 ∧
      ∀ (w2 : World), w2.fs fl'.path = fs path → Input w2 src' msg → Input w2 sig' out → (src' ≠ [45] ∨ sig' ≠ [45]) →
        ∃ w3, main C A P J e' fl' (src' :: sig' :: rest') w2 = (.ok, w3) ∧ w3.fs = w2.fs ∧ w3.stdout = w2.stdout ++ ascii "Signature: OK\n" := by
  obtain ⟨f3, m3, r1, -, r3, -⟩ := acquired_ring C A P J h
  subst hlab
  obtain ⟨w1, out, g1, g2, g3⟩ := C127_roundtrip_partial C A P J e e' fl fl' hfl hfl' src dst src' sig' rest rest' w d seed pass f m as hk ho ha msg hin hw
  have hn : notice f = [] := by
    unfold notice
    rw [if_neg hx]
  rw [hn, print_nil] at g2
  exact ⟨w1, out, g1, g2, fun w2 k1 k2 k3 k4 => g3 (.inl harm) w2 _ f3 m3 (keyring_at C J r1 k1) r3 k2 k3 k4⟩

/-- Two people who have imported each other's keys can send each other files that are signed and
encrypted: what one makes with -s -e the other restores, and is told that the signature is valid. -/
theorem C234_signed_and_encrypted {d seed label pass path d2 seed2 label2 pass2 path2 : Bytes} {m m2 : Keys} {fs fs2 : Fs}
    (h : Acquired C A P J d seed label d2 seed2 pass2 m2 path2 fs2) (h' : Acquired C A P J d2 seed2 label2 d seed pass m path fs)
    (e e' : Env) (fl fl' : Flags) (hfl : SignsEncrypted fl) (hfl' : Decrypts fl') (hlab : fl.label = label) (hlab' : fl'.label = label2)
    (src dst src' dst' : Bytes) (rest rest' : List Bytes) (w : World) (as) (hfs : w.fs fl.path = fs2 path2) (ha : w.term.answers = some pass2 :: as)
    (msg : Bytes) (hin : Input w src msg) (hm : msg ≠ []) (hl : msg.length < 2 ^ 31 - 69) (hr : 56 ≤ w.rng.length)
    (hd : dst ≠ [45]) (hd' : dst' ≠ [45]) (hw : w.writes 0 = .done) :
    ∃ w1 out, main C A P J e fl (src :: dst :: rest) w = (.ok, w1) ∧ w1.fs = w.fs.set dst out ∧
      ∀ (w2 : World) as2, w2.fs fl'.path = fs path → w2.term.answers = some pass :: as2 → Input w2 src' out → w2.writes 0 = .done →
        ∃ w3 pre, main C A P J e' fl' (src' :: dst' :: rest') w2 = (.ok, w3) ∧ w3.fs = w2.fs.set dst' msg ∧
          w3.stdout = w2.stdout ++ (pre ++ ascii "Valid signature.\n") ∧ Notice pre := by
  obtain ⟨f2, m2', r1, r2, r3, -⟩ := acquired_ring C A P J h
  obtain ⟨f1, m1', s1, s2, s3, -⟩ := acquired_ring C A P J h'
  subst hlab
  subst hlab'
  obtain ⟨w1, out, g1, g2, g3⟩ := C126_roundtrip_partial C A P J e e' fl fl' hfl hfl' src dst src' dst' rest rest' w d2 seed2 d seed pass2 f2 m2' as
    (keyring_at C J r1 hfs) r2 ha r3 msg hin hm hl hr (fun _ => hw)
  unfold Output at g2
  rw [if_neg hd] at g2
  refine ⟨w1, out, g1, g2.2, fun w2 as2 k1 k2 k3 k4 => ?_⟩
  obtain ⟨w3, q1, q2⟩ := g3 w2 f1 m1' pass as2 (keyring_at C J s1 k1) s2 k2 s3 k3 (fun _ => k4)
  obtain ⟨q3, q4⟩ := q2 hd'
  refine ⟨w3, notice f1, q1, q4, q3, ?_⟩
  unfold notice
  split
  · exact .inr (.inl rfl)
  · exact .inl rfl

/-- Two people who exchange keys, in whatever instance. -/
theorem exAcquired (e : Env) (d seed d2 seed2 : Bytes) (h1 : d.length = 32) (h2 : seed.length = 32) (h3 : d2.length = 32) (h4 : seed2.length = 32) :
    ∃ m fs, Acquired C A P J d seed [99] d2 seed2 [113] m [107] fs := by
  obtain ⟨f, hx, ho, hk⟩ := exKeyring C J d seed [97] [8] [112]
    (some (P.enc (ascii "CRYPTUTIL VERIFIED KEY") (A.enc (statement C d seed (ownerOf C d seed) 7)))) h1 h2 (by decide) (by decide)
  obtain ⟨f2, -, ho2, hk2⟩ := exKeyring C J d2 seed2 [98] [8] [113] none h3 h4 (by decide) (by decide)
  let x := P.enc (ascii "CRYPTUTIL VERIFIED KEY") (A.enc (statement C d seed (ownerOf C d seed) 7))
  obtain ⟨w', out, g1, g2, g3⟩ := C234_exchanged C A P J e e { path := [107], export_ := true }
    { path := [107], import_ := true, untrusted := true, label := [99] } ⟨⟨rfl, rfl, rfl, rfl, rfl⟩, rfl, rfl, rfl⟩ rfl
    ⟨⟨rfl, rfl, rfl, rfl, rfl⟩, rfl, rfl, rfl, rfl⟩ rfl [45] [105] [] [] (exWorld J f [112] [])
    { exWorld J f2 [113] x with term := { answers := [some [113], some [110, 111, 112, 101], some (ascii "yes")], clock := fun _ => 100 } }
    d seed d2 seed2 [113] f f2 _ _ [some [110, 111, 112, 101], some (ascii "yes")] [] (hk _ _) 7 hx (fun h => absurd rfl h) (hk2 _ _) ho2 rfl rfl
    (fun _ => (by decide : (100 : BitVec 64) ≠ 0)) [99] ⟨[[110, 111, 112, 101]], rfl, by decide⟩ (.inl ⟨by decide, rfl⟩) (by decide)
    (by unfold peerKeys; rw [Map.set_other _ _ (by decide)]; rfl) (by decide)
  have ho : out = x := by
    obtain ⟨w'', k1, k2⟩ := exportSelf_run C A P J (e := e) (fl := { path := [107], export_ := true }) (dst := [45]) (rest := [])
      (w := exWorld J f [112] []) ⟨⟨rfl, rfl, rfl, rfl, rfl⟩, rfl, rfl, rfl⟩ rfl (hk _ _) hx (fun h => absurd rfl h)
    rw [g1] at k1
    cases k1
    exact output_unique g2 k2
  subst ho
  obtain ⟨w3, k1, k2⟩ := g3 (exInput J f2 [113] _)
  exact ⟨_, _, k2⟩

/-- The hypotheses of C234 can be met, in both directions. -/
example (e : Env) : ∃ m m2 fs fs2, Acquired C A P J (List.replicate 32 1) (List.replicate 32 2) [99] (List.replicate 32 3) (List.replicate 32 4) [113] m [107] fs ∧
    Acquired C A P J (List.replicate 32 3) (List.replicate 32 4) [99] (List.replicate 32 1) (List.replicate 32 2) [113] m2 [107] fs2 := by
  obtain ⟨m, fs, h⟩ := exAcquired C A P J e (List.replicate 32 1) (List.replicate 32 2) (List.replicate 32 3) (List.replicate 32 4) (by decide) (by decide) (by decide) (by decide)
  obtain ⟨m2, fs2, h2⟩ := exAcquired C A P J e (List.replicate 32 3) (List.replicate 32 4) (List.replicate 32 1) (List.replicate 32 2) (by decide) (by decide) (by decide) (by decide)
  exact ⟨m, m2, fs, fs2, h, h2⟩

/-! ### C235: labels that stand for no key -/

theorem has_unknown {s : KeyStore} {owner : Bytes} {m : Keys} (h : Sound C s owner m) {label : Bytes} (h1 : label ≠ self) (h2 : m label = none) :
    s.has label = false := (has_false h.quick h.keys label).mpr ⟨h1, h2⟩

theorem readFile_same (w : World) (path : Bytes) : (w.readFile path).2.fs = w.fs ∧ (w.readFile path).2.stdout = w.stdout := by
  unfold World.readFile
  split <;> exact ⟨rfl, rfl⟩

/-- fcrypt -e fails for a label under which no key is on record: it writes nothing. -/
theorem C235_encrypt (e : Env) (fl : Flags) (hfl : Encrypts fl) (src dst : Bytes) (rest : List Bytes) (w : World) (owner : Bytes) (f : KeyFields) (m : Keys)
    (hk : Keyring C J w.fs fl.path owner f m) (h1 : fl.label ≠ self) (h2 : m fl.label = none) :
    ∃ w', main C A P J e fl (src :: dst :: rest) w = (.err, w') ∧ w'.stdout = w.stdout ∧ w'.fs = w.fs := by
  rw [main_public C A P J (select_encrypt C A P (e := e) hfl) hk.keyfile rfl hfl.1 (by simp)]
  obtain ⟨data, -, -, hs⟩ := keyring_load C J hk
  have hcfg : (config fl (src :: dst :: rest)).args = src :: dst :: rest := rfl
  have hlab : (config fl (src :: dst :: rest)).label = fl.label := rfl
  have hrd := readFile_same (later w 2) src
  simp only [encryptFile, hcfg, hlab]
  rcases hx : (later w 2).readFile src with ⟨o, w1⟩
  rw [hx] at hrd
  cases o with
  | none => exact ⟨w1, rfl, hrd.2, hrd.1⟩
  | some msg =>
    have he : (loaded f m).encryptTo C fl.label msg w1.rng = .ok (none, w1.rng) := by
      unfold KeyStore.encryptTo
      rw [has_unknown C hs h1 h2]
      simp
    simp only [he]
    exact ⟨_, rfl, hrd.2, hrd.1⟩

/-- So does fcrypt -s -e. -/
theorem C235_signcrypt (e : Env) (fl : Flags) (hfl : SignsEncrypted fl) (src dst : Bytes) (rest : List Bytes) (w : World) (d seed pass : Bytes)
    (f : KeyFields) (m : Keys) (as) (hk : Keyring C J w.fs fl.path (ownerOf C d seed) f m) (ho : Opens C f d seed pass)
    (ha : w.term.answers = some pass :: as) (h1 : fl.label ≠ self) (h2 : m fl.label = none) :
    ∃ w', main C A P J e fl (src :: dst :: rest) w = (.err, w') ∧ w'.stdout = w.stdout ++ notice f ∧ w'.fs = w.fs := by
  rw [main_unlocked C A P J (select_cryptsign C A P (e := e) hfl) hk.keyfile ho rfl (by simp) ha]
  have hs := (opened_sound C J (x := exported C A P f d seed (w.term.clock 2)) hk ho).1
  have hcfg : (config fl (src :: dst :: rest)).args = src :: dst :: rest := rfl
  have hlab : (config fl (src :: dst :: rest)).label = fl.label := rfl
  have hrd := readFile_same ((later (Proofs.Fcrypt.rest w as) 3).print (notice f)) src
  simp only [cryptSignFile, hcfg, hlab]
  rcases hx : ((later (Proofs.Fcrypt.rest w as) 3).print (notice f)).readFile src with ⟨o, w1⟩
  rw [hx] at hrd
  cases o with
  | none => exact ⟨w1, rfl, hrd.2, hrd.1⟩
  | some msg =>
    have he : (opened C f m d seed (exported C A P f d seed (w.term.clock 2))).encryptAndSignTo C fl.label msg w1.rng = .ok (none, w1.rng) := by
      unfold KeyStore.encryptAndSignTo
      rw [sound_valid C hs, has_unknown C hs h1 h2]
      simp
    simp only [he]
    exact ⟨_, rfl, hrd.2, hrd.1⟩

/-- So does fcrypt -d of a file that is signed: it is not decrypted. -/
theorem C235_decrypt (e : Env) (fl : Flags) (hfl : Decrypts fl) (src dst : Bytes) (rest : List Bytes) (w : World) (d seed pass : Bytes)
    (f : KeyFields) (m : Keys) (as) (hk : Keyring C J w.fs fl.path (ownerOf C d seed) f m) (ho : Opens C f d seed pass)
    (ha : w.term.answers = some pass :: as) (h1 : fl.label ≠ self) (h2 : m fl.label = none) (input body : Bytes)
    (hin : Input w src input) (hb : BeginsArmour input) (hd : P.dec input = some (ascii "CRYPTUTIL SIGNED AND ENCRYPTED MESSAGE", body)) :
    ∃ w', main C A P J e fl (src :: dst :: rest) w = (.err, w') ∧ w'.stdout = w.stdout ++ notice f ∧ w'.fs = w.fs := by
  rw [main_unlocked C A P J (select_decrypt C A P (e := e) hfl) hk.keyfile ho rfl (by simp) ha]
  have hs := (opened_sound C J (x := exported C A P f d seed (w.term.clock 2)) hk ho).1
  have hsame : Noted w (notice f) ((later (Proofs.Fcrypt.rest w as) 3).print (notice f)) := ⟨rfl, rfl, rfl, rfl, rfl, rfl⟩
  obtain ⟨w2, i1, i2, i3, -⟩ := readFile_some (hsame.input hin)
  have hcfg : (config fl (src :: dst :: rest)).args = src :: dst :: rest := rfl
  have hlab : (config fl (src :: dst :: rest)).label = fl.label := rfl
  have hop : openMessage P input = some (true, body) := by
    unfold openMessage
    rw [(armoured_iff _).mpr hb, hd]
    rfl
  have he : (opened C f m d seed (exported C A P f d seed (w.term.clock 2))).decryptAndVerify C fl.label body = .ok none := by
    unfold KeyStore.decryptAndVerify
    rw [sound_valid C hs, has_unknown C hs h1 h2]
    simp
  simp only [decryptFile, hcfg, hlab, i1, hop, Bool.not_true, Bool.false_eq_true, if_false, he]
  exact ⟨w2, rfl, i3.trans hsame.stdout, i2.trans hsame.fs⟩

/-- So does fcrypt -export. -/
theorem C235_export (e : Env) (fl : Flags) (hfl : Exports fl) (dst : Bytes) (rest : List Bytes) (w : World) (d seed pass : Bytes)
    (f : KeyFields) (m : Keys) (as) (hk : Keyring C J w.fs fl.path (ownerOf C d seed) f m) (ho : Opens C f d seed pass)
    (ha : w.term.answers = some pass :: as) (h1 : fl.label ≠ self) (h2 : m fl.label = none) :
    ∃ w', main C A P J e fl (dst :: rest) w = (.err, w') ∧ w'.stdout = w.stdout ++ notice f ∧ w'.fs = w.fs := by
  rw [main_unlocked C A P J (select_export C A P (e := e) hfl h1) hk.keyfile ho rfl (by simp) ha]
  have hs := (opened_sound C J (x := exported C A P f d seed (w.term.clock 2)) hk ho).1
  have he : ∀ o n t, (opened C f m d seed (exported C A P f d seed (w.term.clock 2))).exportVerified C A P.toPem fl.label o n t = some (.ok none) := by
    intro o n t
    unfold KeyStore.exportVerified
    rw [has_unknown C hs h1 h2]
    simp
  simp only [exportVerified, now_eq, config, he]
  exact ⟨_, rfl, rfl, rfl⟩

/-- So does fcrypt -r, which takes the label as its argument. -/
theorem C235_remove (e : Env) (fl : Flags) (hfl : Removes fl) (label : Bytes) (rest : List Bytes) (w : World) (owner : Bytes) (f : KeyFields) (m : Keys)
    (hk : Keyring C J w.fs fl.path owner f m) (h2 : m label = none) :
    ∃ w', main C A P J e fl (label :: rest) w = (.err, w') ∧ w'.stdout = w.stdout ∧ w'.fs = w.fs := by
  rw [main_public C A P J (select_remove C A P hfl) hk.keyfile rfl hfl.1.1 (by simp)]
  obtain ⟨data, -, -, hs⟩ := keyring_load C J hk
  simp only [removeKey, config]
  by_cases h1 : label = self
  · rw [if_pos h1]
    exact ⟨_, rfl, rfl, rfl⟩
  · rw [if_neg h1, has_unknown C hs h1 h2]
    exact ⟨_, rfl, rfl, rfl⟩

/-- C235 is false of fcrypt -v: for a label under which no key is on record it says that the
signature is invalid, and exits with status 0. -/
theorem C235_verify_violated (e : Env) (fl : Flags) (hfl : Verifies fl) (src sigf : Bytes) (rest : List Bytes) (w : World)
    (owner : Bytes) (f : KeyFields) (m : Keys) (hk : Keyring C J w.fs fl.path owner f m) (h1 : fl.label ≠ self) (h2 : m fl.label = none)
    (msg input sig : Bytes) (hin : Input w src msg) (hsig : Input w sigf input) (hne : src ≠ [45] ∨ sigf ≠ [45]) (hi : SignatureIn P input sig) :
    ∃ w', main C A P J e fl (src :: sigf :: rest) w = (.ok, w') ∧ w'.stdout = w.stdout ++ ascii "Signature: INVALID\n" ∧ w'.fs = w.fs := by
  obtain ⟨r, w', g1, g2, g3⟩ := C127_verify_partial C A P J e fl hfl src sigf rest w owner f m hk msg input hin hsig hne
  rcases g3 with ⟨rfl, s, -, ⟨⟨k, hn, -⟩, -⟩ | ⟨-, q⟩⟩ | ⟨-, q, -⟩
  · generalize hq : fl.label = l at hn h1 h2
    cases hn with
    | owner => exact absurd rfl h1
    | peer hq _ =>
      rw [h2] at hq
      cases hq
  · exact ⟨w', g1, q, g2⟩
  · exact absurd hi (q sig)

/-- The hypotheses can be met: a store with another label. -/
example : ∃ (w : World) (d seed pass : Bytes) (f : KeyFields) (m : Keys), Keyring C J w.fs [107] (ownerOf C d seed) f m ∧ Opens C f d seed pass ∧
    w.term.answers = [some pass] ∧ m [97] ≠ none ∧ m [98] = none ∧ Input w [105] [104, 105] ∧ SignatureIn P [104, 105] [104, 105] := by
  obtain ⟨f, -, ho, hk⟩ := exKeyring C J (List.replicate 32 1) (List.replicate 32 2) [97] [8] [112] none (by decide) (by decide) (by decide) (by decide)
  refine ⟨exWorld J f [112] [104, 105], _, _, _, f, _, hk _ _, ho, rfl, ?_, ?_, exInput J f _ _, .inr ⟨?_, rfl⟩⟩
  · unfold peerKeys
    rw [Map.set_same]
    simp
  · unfold peerKeys
    rw [Map.set_other _ _ (by decide)]
    rfl
  · rintro ⟨r, -, h⟩
    have h' := List.cons.inj (h : (104 : UInt8) :: [105] = 45 :: (ascii "----BEGIN" ++ r))
    exact absurd h'.1 (by decide)

end Verif.Props.TogetherMessages
