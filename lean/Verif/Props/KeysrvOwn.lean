import Verif.Props.KeysrvDisk
/-! C245: the key server's own key. -/

namespace Verif.Props.KeysrvOwn
open Verif Verif.Go Verif.Model.Util Verif.Model.Public Verif.Model.KeyStore Verif.Model.Keysrv
open Verif.Spec.Public Verif.Spec.KeyStore Verif.Spec.Keysrv Verif.Proofs.KeyStore Verif.Proofs.Keysrv
open Verif.Spec.Fcrypt (Opens)
open Verif.Proofs.Fcrypt (peerKeys)
open Verif.Props.KeyTrust Verif.Props.KeyImport Verif.Props.Keysrv Verif.Props.KeysrvLive Verif.Props.KeysrvDisk

variable (C : Crypto) (A : Asn1) (P : Pem) (J : KeyJson) (sha256 : Bytes → Bytes)

/-- `s` is `s0` with other keys on record. -/
def SameButKeys (s0 s : KeyStore) : Prop := ∃ ks, s = { s0 with keys := ks }

theorem process_same {ks ks' : KeyStore} {cmd : Command} {o : Orders} {clock : BitVec 64} {resp : Response}
    (h : process C A P sha256 ks cmd o clock = some (.ok (ks', resp))) : SameButKeys ks ks' := by
  rcases process_ok C h with rfl | ⟨-, -, -, -, body, -, h⟩
  · exact ⟨_, rfl⟩
  · rcases import_true C h with ⟨h, -⟩ | ⟨-, m, v, sl, pk, -, -, -, -, -, -, -, -, -, -, rfl⟩
    · cases h
    · exact ⟨_, rfl⟩

theorem SameButKeys.trans {a b c : KeyStore} (h1 : SameButKeys a b) (h2 : SameButKeys b c) : SameButKeys a c := by
  obtain ⟨k1, rfl⟩ := h1
  obtain ⟨k2, rfl⟩ := h2
  exact ⟨k2, rfl⟩

/-- What a file is, once the server has run: `old`, or what was written of a store that differs from
`ks0` in the keys on record only. -/
def Left (ks0 : KeyStore) (old now : Option Bytes) : Prop :=
  now = old ∨ ∃ s k, SameButKeys ks0 s ∧ now = some ((J.enc s.toKeyFields).take k)

theorem run_same {path : Path} {ks0 : KeyStore} {old : Option Bytes} {s s' : State} {es : List Event} (h : Run C A P J sha256 path s es s')
    (h1 : SameButKeys ks0 s.ks) (h2 : Left J ks0 old (s.fs path)) : SameButKeys ks0 s'.ks ∧ Left J ks0 old (s'.fs path) := by
  induction h with
  | nil => exact ⟨h1, h2⟩
  | @cons s0 s1 s2 e es st _ ih =>
    suffices hk : SameButKeys ks0 s1.ks ∧ Left J ks0 old (s1.fs path) from ih hk.1 hk.2
    cases st with
    | handle x rest o clock ks resp _ _ _ hp =>
      have := h1.trans (process_same C A P sha256 hp)
      cases x <;> exact ⟨this, h2⟩
    | dump =>
      refine ⟨h1, ?_⟩
      show Left J ks0 old ((Go.writeFile (s0.writes 0) s0.fs path (s0.ks.dump J)).1 path)
      cases hw : s0.writes 0 with
      | done => exact .inr ⟨s0.ks, (J.enc s0.ks.toKeyFields).length, h1, by simp [Go.writeFile, KeyStore.dump]⟩
      | openFails => simpa [Go.writeFile] using h2
      | failsAfter k => exact .inr ⟨s0.ks, k, h1, by simp [Go.writeFile, KeyStore.dump]⟩
    | _ => exact ⟨h1, h2⟩

/-- C245: whatever is asked of a server, in whatever order, and however its writes end: the private
key it signs with, the public key and the statement about it stay those it was started with, which
are those that the passphrase opened; and the file is as it was, or is a key store, or as much of one
as was written, with the same locked key, and with that public key and that statement. -/
theorem C245_own_key {fs fs' : Fs} {path : Path} {write : WriteOutcome} {pass : Option Bytes} {rng : Rng} {t1 t2 t3 : BitVec 64} {o : Orders} {ks : KeyStore}
    (hb : boot C A P J fs path write pass rng t1 t2 t3 o = some (.ok (some ks, fs'))) {writes : Nat → WriteOutcome} {es : List Event} {s : State}
    (h : Run C A P J sha256 path (initial ks fs' writes) es s) :
    ∃ data f0 box p k pub, fs path = some data ∧ J.dec data = some f0 ∧ f0.lockedKey = some box ∧ pass = some p ∧ unlockKey C box p = .ok (some k) ∧
      marshalPublic k.pub = .ok (some pub) ∧
      s.ks.privateKey = some k ∧ s.ks.locked = false ∧ s.ks.lockedKey = some box ∧ s.ks.publicKey = some pub ∧ s.ks.exportKey = ks.exportKey ∧
      (s.fs path = some data ∨ ∃ f n, f.lockedKey = some box ∧ f.publicKey = some pub ∧ f.exportKey = ks.exportKey ∧ s.fs path = some ((J.enc f).take n)) := by
  obtain ⟨hl, -⟩ := boot_ok C hb
  obtain ⟨data, f, p, k, pub, x, f1, f2, f3, rfl, f4, u1, u2, -, -, -, e⟩ := load_ok C hl
  obtain ⟨⟨ks', e1⟩, h2⟩ := run_same C A P J sha256 (ks0 := ks) (old := fs' path) h ⟨_, rfl⟩ (.inl rfl)
  cases hbx : f.lockedKey with
  | none => exact absurd hbx f4
  | some box =>
    rw [hbx] at u1
    refine ⟨data, f, box, p, k, pub, f1, f2, hbx, f3, u1, u2, ?_, ?_, ?_, ?_, ?_, ?_⟩
    · rw [e1, e]
    · rw [e1, e]
    · rw [e1, e]; exact hbx
    · rw [e1, e]
    · rw [e1]
    · rcases h2 with h2 | ⟨s1, n, ⟨k1, rfl⟩, h2⟩
      · exact .inl (h2.trans f1)
      · refine .inr ⟨{ ks with keys := k1 }.toKeyFields, n, ?_, ?_, rfl, h2⟩
        · show ks.lockedKey = some box
          rw [e]; exact hbx
        · show ks.publicKey = some pub
          rw [e]

/-- A server with one key on record that is idle for ten minutes and writes its file: the locked key
in it is the one it was started with. -/
example (path : Path) (writes : Nat → WriteOutcome) (hw : writes 0 = .done) : ∃ fs ks s data f0 f box, Starts C A P J fs path ks fs ∧ (∃ es, Run C A P J sha256 path (initial ks fs writes) es s) ∧
    fs path = some data ∧ J.dec data = some f0 ∧ f0.lockedKey = some box ∧ f.lockedKey = some box ∧ ∃ n, s.fs path = some ((J.enc f).take n) := by
  obtain ⟨fs, ks, h1, h2, h3, -⟩ := exServer C A P J (List.replicate 32 1) (List.replicate 32 2) (List.replicate 32 3) (List.replicate 32 4) [] [112] (by decide) (by decide) path
  have hen : (peerKeys C (List.replicate 32 1) (List.replicate 32 2) [97] (ownerOf C (List.replicate 32 3) (List.replicate 32 4))).Enumerates [[97]] := enum_set enum_empty rfl _
  have hdist := peerKeys_distinct C (List.replicate 32 1) (List.replicate 32 2) (ownerOf C (List.replicate 32 3) (List.replicate 32 4))
  have p0 := audit_round C (A := A) (P := P) (J := J) (sha256 := sha256) (path := path) (s := initial ks fs writes) ⟨rfl, rfl, rfl, rfl⟩ h3 hdist hen.finite rfl (by simp [initial])
  have p := prompt_append C p0 (write_round C A P J sha256 (t := (initial ks fs writes).now + 14400) ⟨rfl, rfl, rfl, rfl⟩ rfl rfl (by simp [initial]))
  have hr := prompt_run C p
  obtain ⟨write, pass, rng, t1, t2, t3, o, he, hb⟩ := h1
  obtain ⟨data, f0, box, p', k, pub, g1, g2, g3, -, -, -, -, -, g4, -, -, -⟩ := C245_own_key C A P J sha256 hb hr
  refine ⟨fs, ks, _, data, f0, ks.toKeyFields, box, ⟨write, pass, rng, t1, t2, t3, o, he, hb⟩, ⟨_, hr⟩, g1, g2, g3, g4, (J.enc ks.toKeyFields).length, ?_⟩
  simp [initial, hw, Go.writeFile, KeyStore.dump]

end Verif.Props.KeysrvOwn
