import Verif.Props.Keysrv
import Verif.Props.KeyTrust

/-! # Key servers whose file keeps a record under another's label

A key store file may keep a record under a label that is not its own (common/store/keystore.go:104-128
does not look). Here such a file makes keysrv publish a statement that nobody signed. -/

namespace Verif.Props.KeysrvLabels

open Verif Verif.Go Verif.Model.Util Verif.Model.Public Verif.Model.KeyStore Verif.Model.Keysrv
open Verif.Spec.Public Verif.Spec.KeyStore Verif.Spec.Keysrv Verif.Proofs.KeyStore Verif.Proofs.Keysrv
open Verif.Spec.Fcrypt (Keyring Keyfile Opens)
open Verif.Proofs.Fcrypt (loaded opened opened_sound peerKeys exKeyring loadData_some)
open Verif.Props.KeyTrust Verif.Props.KeyImport Verif.Props.Keysrv
open Verif.Proofs.Public (verify_mk)

variable (C : Crypto) (A : Asn1) (P : Pem) (J : KeyJson) (sha256 : Bytes → Bytes)

/-- The record of "b", under its own label, and a record of another key, also called "b", under "a".
The owner has signed both. -/
def confused (C : Crypto) (d seed a b : Bytes) : Keys :=
  (Map.empty.set [98] (some (recordFor [98] (statement C d seed b 3)))).set [97] (some (recordFor [98] (statement C d seed a 3)))

/-- A key store file with these records. -/
def confusedFile (C : Crypto) (d seed a b box : Bytes) : KeyFields :=
  { version := 1, timestamp := 5, keys := some (confused C d seed a b), lockedKey := some box
    publicKey := some (ownerOf C d seed), exportKey := none }

theorem confused_a (d seed a b : Bytes) : confused C d seed a b [97] = some (some (recordFor [98] (statement C d seed a 3))) :=
  Map.set_same _ _ _

theorem confused_b (d seed a b : Bytes) : confused C d seed a b [98] = some (some (recordFor [98] (statement C d seed b 3))) := by
  unfold confused
  rw [Map.set_other _ _ (by decide)]
  exact Map.set_same _ _ _

theorem confused_all {d seed a b l : Bytes} {y : Option PublicKeyRecord} (h : confused C d seed a b l = some y) :
    (l = [97] ∧ y = some (recordFor [98] (statement C d seed a 3))) ∨ (l = [98] ∧ y = some (recordFor [98] (statement C d seed b 3))) := by
  by_cases h1 : l = [97]
  · subst h1
    rw [confused_a] at h
    exact .inl ⟨rfl, (Option.some.inj h).symm⟩
  · unfold confused at h
    rw [Map.set_other _ _ h1] at h
    exact .inr (SecretStore.exMap_get h)

theorem confused_noNil (d seed a b : Bytes) : NoNil (confused C d seed a b) := by
  intro l hl
  rcases confused_all C hl with ⟨-, h⟩ | ⟨-, h⟩ <;> cases h

theorem confused_finite (d seed a b box : Bytes) : (confusedFile C d seed a b box).Finite := by
  intro m hm
  cases hm
  refine ⟨(Map.finite_empty.set _ _).set _ _, ?_⟩
  intro k r md hk hmd
  rcases confused_all C hk with ⟨-, h⟩ | ⟨-, h⟩ <;> cases h <;> cases hmd

theorem confused_clean (d seed a b box : Bytes) : (confusedFile C d seed a b box).Clean := by
  intro m hm k x hk
  cases hm
  rcases confused_all C hk with ⟨rfl, rfl⟩ | ⟨rfl, rfl⟩
  · exact ⟨by decide, fun r hr => by cases hr; exact ⟨show ValidUtf8 [98] by decide, fun md j x h => by cases h⟩⟩
  · exact ⟨by decide, fun r hr => by cases hr; exact ⟨show ValidUtf8 [98] by decide, fun md j x h => by cases h⟩⟩

theorem confused_vks {d seed a b : Bytes} (hs : seed.length = 32) {s : KeyFields} (hq : s.validQuick = true)
    (hk : s.keys = some (confused C d seed a b)) (hp : s.publicKey = some (ownerOf C d seed)) {l : Bytes}
    (hl : confused C d seed a b l ≠ none) (o : List Bytes) : s.verifyKeySignature C l o = .ok (some self) := by
  have hpb : s.pubBytes = ownerOf C d seed := by unfold KeyFields.pubBytes; rw [hp]; rfl
  cases hml : confused C d seed a b l with
  | none => exact absurd hml hl
  | some y =>
    rcases confused_all C hml with ⟨rfl, rfl⟩ | ⟨rfl, rfl⟩
    · exact vks_owner C hq (by decide) ((get_some hk).mpr hml) (by rw [hpb]; rfl) (by rw [hpb]; exact statement_signed C d seed a 3 hs)
    · exact vks_owner C hq (by decide) ((get_some hk).mpr hml) (by rw [hpb]; rfl) (by rw [hpb]; exact statement_signed C d seed b 3 hs)

theorem confused_audit {d seed a b : Bytes} (hs : seed.length = 32) {s : KeyFields} (hq : s.validQuick = true)
    (hk : s.keys = some (confused C d seed a b)) (hp : s.publicKey = some (ownerOf C d seed)) {order : List Bytes}
    (hen : (confused C d seed a b).Enumerates order) (orders : Bytes → Nat → List Bytes) (fuel : Nat) :
    s.keyAudit C order orders (fuel + 1) = some (.ok true) := by
  unfold KeyFields.keyAudit
  rw [hq]
  simp only [Bool.not_true, Bool.false_eq_true, if_false]
  have hall : ∀ l ∈ order, confused C d seed a b l ≠ none := fun l hl => (hen.2 l).mp hl
  clear hen
  induction order with
  | nil => rfl
  | cons l ls ih =>
    rw [KeyFields.auditLoop]
    have hl := hall l List.mem_cons_self
    have hc : s.verifyChain C (orders l) (fuel + 1) l = some (.ok true) := by
      have hls : l ≠ self := by
        rintro rfl
        cases hml : confused C d seed a b self with
        | none => exact hl hml
        | some y => rcases confused_all C hml with ⟨h, -⟩ | ⟨h, -⟩ <;> exact absurd h (by decide)
      have hh : s.has l = true := (has_iff hq hk l).mpr (.inr hl)
      unfold KeyFields.verifyChain
      rw [hq, hh]
      simp only [Bool.not_true, Bool.or_self, Bool.false_eq_true, if_false, if_neg hls]
      rw [KeyFields.chainLoop, confused_vks C hs hq hk hp hl]
      simp
    rw [hc]
    exact ih (fun l' h' => hall l' (List.mem_cons_of_mem _ h'))

/-- The store of a server started with this file accepts a statement that names the signer "a" but is
signed by "b", and notes "b" as the signer. -/
theorem confused_import {d seed dB seedB a x : Bytes} {t : BitVec 64} (hs : seed.length = 32) (hB : seedB.length = 32)
    (n1 : a ≠ ownerOf C d seed) (n2 : ownerOf C dB seedB ≠ a) {s : KeyStore} (hq : s.validQuick = true)
    (hk : s.keys = some (confused C d seed a (ownerOf C dB seedB))) (hp : s.publicKey = some (ownerOf C d seed))
    {blob : Bytes} (hb : A.dec blob = some ⟨x, a, t, C.sign (seedB ++ C.edPub seedB) (x ++ a ++ be 8 t.toNat)⟩)
    {o1 : List Bytes} (e1 : (confused C d seed a (ownerOf C dB seedB)).Enumerates o1) (o2 : List Bytes) (clock : BitVec 64) :
    s.importVerified C A [120] blob o1 o2 clock =
      .ok ({ s with keys := some ((confused C d seed a (ownerOf C dB seedB)).set [120] (some {
        label := [120], version := 1, timestamp := clock, keys := some x
        keySignature := C.sign (seedB ++ C.edPub seedB) (x ++ a ++ be 8 t.toNat)
        keySigner := ownerOf C dB seedB, signatureTime := t, metadata := none })) }, true) := by
  have hpb : s.pubBytes = ownerOf C d seed := by unfold KeyFields.pubBytes; rw [hp]; rfl
  have hh : s.has [120] = false := (has_false hq hk _).mpr ⟨by decide, rfl⟩
  have hfind : s.findPublic a o1 = .ok (some [98]) := by
    unfold KeyFields.findPublic
    rw [if_neg (by rw [hpb]; exact n1), hk]
    simp only [Option.getD_some]
    cases hf : findLoop (confused C d seed a (ownerOf C dB seedB)) a o1 with
    | panic => exact absurd hf (findLoop_no_panic (confused_noNil C _ _ _ _) _ _)
    | ok o =>
      cases o with
      | none => exact absurd rfl (findLoop_none hf [97] ((e1.2 _).mpr (by simp [confused_a])) _ (confused_a C _ _ _ _))
      | some l =>
        obtain ⟨k, r, -, f1, f2, f3⟩ := findLoop_some hf
        rcases confused_all C f1 with ⟨-, h⟩ | ⟨-, h⟩
        · cases h; rw [← f3]; rfl
        · cases h; exact absurd f2 n2
  have hg : s.get [98] = some (recordFor [98] (statement C d seed (ownerOf C dB seedB) 3)) := (get_some hk).mpr (confused_b C _ _ _ _)
  have hvs := confused_vks C hs hq hk hp (l := [98]) (by rw [confused_b]; simp) o2
  unfold KeyStore.importVerified
  rw [if_neg (show ¬ (!s.validQuick || s.has [120]) = true by simp [hq, hh]), hb]
  simp only
  rw [if_neg (by rw [hpb]; exact n1), hfind]
  simp only [Res.ok_bind, hg, deref, Res.pure_eq]
  rw [if_neg (by rintro (h | h) <;> cases h), hvs]
  simp only [Res.ok_bind]
  rw [show unmarshalPublic ((recordFor [98] (statement C d seed (ownerOf C dB seedB) 3)).keys.getD []) = _ from
    unmarshalPublic_of_length (ownerOf_length C dB seedB)]
  simp only
  have hver : verify C (some ⟨some ((ownerOf C dB seedB).take 32), some ((ownerOf C dB seedB).drop 32)⟩)
      (x ++ a ++ be 8 t.toNat) (C.sign (seedB ++ C.edPub seedB) (x ++ a ++ be 8 t.toNat)) = .ok true := by
    rw [verify_mk, if_pos (C.sign_length _ _), ownerOf_drop]
    exact congrArg Res.ok (C.verify_sign _ _ hB)
  have hver' : verify C (some ⟨some (((recordFor [98] (statement C d seed (ownerOf C dB seedB) 3)).keys.getD []).take 32),
      some (((recordFor [98] (statement C d seed (ownerOf C dB seedB) 3)).keys.getD []).drop 32)⟩)
      (VerifiedKey.signatureData ⟨x, a, t, C.sign (seedB ++ C.edPub seedB) (x ++ a ++ be 8 t.toNat)⟩)
      (C.sign (seedB ++ C.edPub seedB) (x ++ a ++ be 8 t.toNat)) = .ok true := hver
  rw [hver']
  simp only [Res.ok_bind, Bool.not_true, Bool.false_eq_true, if_false]
  rw [hk]
  rfl

/-- What is then on record under "x". -/
def taken (C : Crypto) (dB seedB a x : Bytes) (t clock : BitVec 64) : PublicKeyRecord :=
  { label := [120], version := 1, timestamp := clock, keys := some x
    keySignature := C.sign (seedB ++ C.edPub seedB) (x ++ a ++ be 8 t.toNat)
    keySigner := ownerOf C dB seedB, signatureTime := t, metadata := none }

/-- The server comes up with such a file; a key is uploaded and accepted; and whoever asks for it gets
a statement with another signer. -/
theorem confused_serves (fs : Fs) (path : Path) (d seed dB seedB a x box pass body : Bytes) (t : BitVec 64) (hB : seedB.length = 32)
    (n1 : a ≠ ownerOf C d seed) (n2 : ownerOf C dB seedB ≠ a)
    (hfile : fs path = some (J.enc (confusedFile C d seed a (ownerOf C dB seedB) box)))
    (hop : Opens C (confusedFile C d seed a (ownerOf C dB seedB) box) d seed pass)
    (hbody : Armoured A P body ⟨x, a, t, C.sign (seedB ++ C.edPub seedB) (x ++ a ++ be 8 t.toNat)⟩)
    (writes : Nat → WriteOutcome) :
    ∃ ks s1 s2 es1 es2, Starts C A P J fs path ks fs ∧ ks.publicKey = some (ownerOf C d seed) ∧
      Prompt C A P J sha256 path (initial ks fs writes) es1 s1 ∧
      s1.replies = [(0, .upload [120] body, ⟨200, ascii "public key added successfully"⟩)] ∧
      s1.ks.keys = some ((confused C d seed a (ownerOf C dB seedB)).set [120] (some (taken C dB seedB a x t 0))) ∧
      Prompt C A P J sha256 path s1 es2 s2 ∧
      s2.replies = s1.replies ++ [(1, .pubkey [120], ⟨200, P.enc (ascii "CRYPTUTIL VERIFIED KEY")
        (A.enc ⟨x, ownerOf C dB seedB, t, C.sign (seedB ++ C.edPub seedB) (x ++ a ++ be 8 t.toNat)⟩)⟩)] := by
  obtain ⟨blob, hb1, hb2⟩ := hbody
  have hdec := J.dec_enc _ (confused_finite C d seed a (ownerOf C dB seedB) box) (confused_clean C d seed a (ownerOf C dB seedB) box)
  have hk : Keyfile J fs path (ownerOf C d seed) (confusedFile C d seed a (ownerOf C dB seedB) box)
      (confused C d seed a (ownerOf C dB seedB)) :=
    ⟨⟨_, hfile, hdec⟩, rfl, show (5 : BitVec 64) ≠ 0 by decide, rfl, ownerOf_length C d seed, rfl, by simp [confusedFile]⟩
  have hfin : (confused C d seed a (ownerOf C dB seedB)).Finite := (Map.finite_empty.set _ _).set _ _
  obtain ⟨order, hen⟩ := hfin.enumerates
  obtain ⟨order2, hen2⟩ := (hfin.set [120] (some (taken C dB seedB a x t 0))).enumerates
  let ks := opened C (confusedFile C d seed a (ownerOf C dB seedB) box) (confused C d seed a (ownerOf C dB seedB)) d seed
    ((statement C d seed (ownerOf C d seed) 3).serialise A P)
  let ks' : KeyStore := { ks with keys := some ((confused C d seed a (ownerOf C dB seedB)).set [120] (some (taken C dB seedB a x t 0))) }
  have hq : ks.validQuick = true := (quick_iff _).mpr ⟨rfl, show (5 : BitVec 64) ≠ 0 by decide, _, rfl⟩
  have hst : Starts C A P J fs path ks fs := by
    refine ⟨.done, some pass, [], 1, 2, 3, steady order 1, steady_enumerate rfl hen 1, ?_⟩
    unfold boot
    rw [load_complete C hk hop]
    simp only
    have e : opened C (confusedFile C d seed a (ownerOf C dB seedB) box) (confused C d seed a (ownerOf C dB seedB)) d seed
        ((confusedFile C d seed a (ownerOf C dB seedB) box).exportKey.getD ((statement C d seed (ownerOf C d seed) 3).serialise A P)) = ks := rfl
    rw [e]
    have e2 : ks.keyAudit C (steady order 1).audit (steady order 1).walk (steady order 1).fuel = some (.ok true) :=
      confused_audit C hop.slen hq rfl rfl hen _ 0
    rw [e2]
  have hup : process C A P sha256 ks (Request.upload [120] body).command (steady order 1) 0 =
      some (.ok (ks', { out := ascii "public key added successfully" })) := by
    have hn : ¬ (([120] : Bytes) = self ∨ ([120] : Bytes) = []) := by decide
    have hi := confused_import C A hop.slen hB n1 n2 hq rfl rfl hb2
      (show (confused C d seed a (ownerOf C dB seedB)).Enumerates (steady order 1).first from hen) (steady order 1).second 0
    simp only [process, Request.command, checkUpload, hn, if_false, KeyStore.importVerifiedKey, hb1, type_eq, ne_eq,
      not_true_eq_false, hi, Res.ok_bind, Bool.not_true, Bool.false_eq_true, Res.pure_eq]
    rfl
  have hlook : process C A P sha256 ks' (Request.pubkey [120]).command (steady order2 1) 0 =
      some (.ok (ks', ⟨P.enc (ascii "CRYPTUTIL VERIFIED KEY")
        (A.enc ⟨x, ownerOf C dB seedB, t, C.sign (seedB ++ C.edPub seedB) (x ++ a ++ be 8 t.toNat)⟩), none⟩)) := by
    have hg : ks'.get [120] = some (taken C dB seedB a x t 0) := (get_some rfl).mpr (Map.set_same _ _ _)
    simp only [process, Request.command, lookup_known A P (show ([120] : Bytes) ≠ self by decide) hg]
    rfl
  have hrun1 := serve C (J := J) (path := path) (s := initial ks fs writes) rfl rfl rfl 0 (.upload [120] body)
    (steady_enumerate (ks := ks) rfl hen 1) hup
  exact ⟨ks, _, _, _, _, hst, rfl, hrun1, rfl, rfl, serve C (J := J) (path := path) rfl rfl rfl 1 (.pubkey [120])
    (steady_enumerate (ks := ks') rfl hen2 1) (clock := 0) hlook, rfl⟩

/-- C135 is false of files that keep a record under another's label: the server comes up with such a
file; a key is uploaded and accepted; and whoever asks for it gets a statement that differs from the
one uploaded: it names another signer. This is for every two keys confused in this way. -/
theorem C135_labels_violated (fs : Fs) (path : Path) (d seed dB seedB a x box pass body : Bytes) (t : BitVec 64) (hB : seedB.length = 32)
    (n1 : a ≠ ownerOf C d seed) (n2 : ownerOf C dB seedB ≠ a)
    (hfile : fs path = some (J.enc (confusedFile C d seed a (ownerOf C dB seedB) box)))
    (hop : Opens C (confusedFile C d seed a (ownerOf C dB seedB) box) d seed pass) (v : VerifiedKey)
    (hv : v = ⟨x, a, t, C.sign (seedB ++ C.edPub seedB) (x ++ a ++ be 8 t.toNat)⟩) (hbody : Armoured A P body v)
    (writes : Nat → WriteOutcome) :
    ∃ ks s1 s2 es1 es2 text v', Starts C A P J fs path ks fs ∧ ks.publicKey = some (ownerOf C d seed) ∧
      Prompt C A P J sha256 path (initial ks fs writes) es1 s1 ∧ s1.replies = [(0, .upload [120] body, ⟨200, text⟩)] ∧
      Prompt C A P J sha256 path s1 es2 s2 ∧
      s2.replies = s1.replies ++ [(1, .pubkey [120], ⟨200, P.enc (ascii "CRYPTUTIL VERIFIED KEY") (A.enc v')⟩)] ∧ v' ≠ v := by
  subst hv
  obtain ⟨ks, s1, s2, es1, es2, h1, h2, h3, h4, -, h5, h6⟩ := confused_serves C A P J sha256 fs path d seed dB seedB a x box pass body t
    hB n1 n2 hfile hop hbody writes
  exact ⟨ks, s1, s2, es1, es2, _, _, h1, h2, h3, h4, h5, h6, fun h => n2 (congrArg VerifiedKey.signer h)⟩

/-- C136 is false of files that keep a record under another's label: after such an upload the server
publishes a statement on which the signature does not verify (unless the signature happens to be one
on two statements). -/
theorem C136_labels_violated (fs : Fs) (path : Path) (d seed dB seedB a x box pass body : Bytes) (t : BitVec 64) (hB : seedB.length = 32)
    (n1 : a ≠ ownerOf C d seed) (n2 : ownerOf C dB seedB ≠ a)
    (nf : ¬ Signed C (ownerOf C dB seedB) x (C.sign (seedB ++ C.edPub seedB) (x ++ a ++ be 8 t.toNat)) t)
    (hfile : fs path = some (J.enc (confusedFile C d seed a (ownerOf C dB seedB) box)))
    (hop : Opens C (confusedFile C d seed a (ownerOf C dB seedB) box) d seed pass)
    (hbody : Armoured A P body ⟨x, a, t, C.sign (seedB ++ C.edPub seedB) (x ++ a ++ be 8 t.toNat)⟩)
    (writes : Nat → WriteOutcome) :
    ∃ ks s es v, Starts C A P J fs path ks fs ∧ ks.publicKey = some (ownerOf C d seed) ∧
      Prompt C A P J sha256 path (initial ks fs writes) es s ∧
      (1, .pubkey [120], ⟨200, P.enc (ascii "CRYPTUTIL VERIFIED KEY") (A.enc v)⟩) ∈ s.replies ∧
      ¬ Signed C v.signer v.pub v.signature v.timestamp := by
  obtain ⟨ks, s1, s2, es1, es2, h1, h2, h3, h4, -, h5, h6⟩ := confused_serves C A P J sha256 fs path d seed dB seedB a x box pass body t
    hB n1 n2 hfile hop hbody writes
  refine ⟨ks, s2, es1 ++ es2, ⟨x, ownerOf C dB seedB, t, C.sign (seedB ++ C.edPub seedB) (x ++ a ++ be 8 t.toNat)⟩, h1, h2,
    prompt_append C h3 h5, ?_, nf⟩
  rw [h6]
  exact List.mem_append_right _ List.mem_cons_self

/-- The hypotheses can be met. -/
example (path : Path) : ∃ (fs : Fs) (d seed dB seedB a box pass body : Bytes), seedB.length = 32 ∧ a ≠ ownerOf Toy.crypto d seed ∧
    ownerOf Toy.crypto dB seedB ≠ a ∧
    ¬ Signed Toy.crypto (ownerOf Toy.crypto dB seedB) [9]
      (Toy.crypto.sign (seedB ++ Toy.crypto.edPub seedB) ([9] ++ a ++ be 8 (5 : BitVec 64).toNat)) 5 ∧
    fs path = some (J.enc (confusedFile Toy.crypto d seed a (ownerOf Toy.crypto dB seedB) box)) ∧
    Opens Toy.crypto (confusedFile Toy.crypto d seed a (ownerOf Toy.crypto dB seedB) box) d seed pass ∧
    Armoured A P body ⟨[9], a, 5, Toy.crypto.sign (seedB ++ Toy.crypto.edPub seedB) ([9] ++ a ++ be 8 (5 : BitVec 64).toNat)⟩ := by
  obtain ⟨box, -, -, hb⟩ := (Props.Public.C24_lock_roundtrip Toy.crypto (pairOf Toy.crypto (List.replicate 32 1) (List.replicate 32 2))
    (pairOf_wt Toy.crypto _ _ (by decide) (by decide)) (pairOf_valid Toy.crypto _ _) [112] (List.replicate 56 7)).2 (by simp)
  refine ⟨fun _ => some (J.enc _), List.replicate 32 1, List.replicate 32 2, List.replicate 32 3, List.replicate 32 4, [7], box, [112],
    P.enc (ascii "CRYPTUTIL VERIFIED KEY") (A.enc _), by decide, by decide,
    by decide, ?_, rfl, ⟨by decide, by decide, box, rfl, hb⟩,
    ⟨_, by rw [← type_eq]; exact P.dec_enc _ _ (by decide) (A.enc_ne _), A.dec_enc _⟩⟩
  rintro ⟨-, -, h⟩
  revert h
  decide

end Verif.Props.KeysrvLabels
