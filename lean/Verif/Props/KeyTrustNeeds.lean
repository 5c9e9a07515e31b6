import Verif.Props.KeyTrust
/-! What C56 needs to know of secretbox. -/

namespace Verif.Props.KeyTrustNeeds
open Verif Verif.Go Verif.Model.Util Verif.Model.Public Verif.Model.KeyStore Verif.Spec.Public Verif.Spec.KeyStore
open Verif.Proofs.Public Verif.Proofs.KeyStore Verif.Props.KeyTrust

/-- The last byte of a message, changed by the first byte of the key. -/
def twist (k : UInt8) (m : Bytes) : Bytes := (m.reverse.modifyHead (· ^^^ k)).reverse

theorem twist_twist (k : UInt8) (m : Bytes) : twist k (twist k m) = m := by
  unfold twist
  rw [List.reverse_reverse]
  cases h : m.reverse with
  | nil => simp [List.reverse_eq_nil_iff.mp h]
  | cons x xs =>
    simp only [List.modifyHead_cons, UInt8.xor_assoc, UInt8.xor_self, UInt8.xor_zero]
    rw [← h, List.reverse_reverse]

theorem twist_length (k : UInt8) (m : Bytes) : (twist k m).length = m.length := by simp [twist]

/-- Boxes that every key opens, to different messages: all laws of `Crypto` hold. -/
def loose : Crypto :=
  { Toy.crypto with
    sealBox := fun k _ m => List.replicate 16 0 ++ twist (k.headD 0) m
    openBox := fun k _ c => if c.take 16 = List.replicate 16 0 then some (twist (k.headD 0) (c.drop 16)) else none
    open_iff := by
      intro k n c m
      have hl : (List.replicate 16 (0 : UInt8)).length = 16 := List.length_replicate
      generalize List.replicate 16 (0 : UInt8) = z at hl
      constructor
      · intro h
        split at h
        · rename_i h'
          simp only [Option.some.injEq] at h
          rw [← h, twist_twist, ← h', List.take_append_drop]
        · cases h
      · rintro rfl
        rw [if_pos (List.take_left' hl), List.drop_left' hl, twist_twist]
    seal_length := by intro k n m; simp [twist_length] }

/-- A key pair, and the key of somebody else. -/
def d0 : Bytes := List.replicate 32 3
def seed0 : Bytes := List.replicate 32 4
def peer0 : Bytes := List.replicate 64 9
def rng0 : Rng := List.replicate 56 5

/-- The owner of the pair that comes out of the box under the other passphrase. -/
def other : Bytes := List.replicate 32 3 ++ List.replicate 31 4 ++ [5]

/-- The pair under the other passphrase. -/
def otherPair : PrivateKey :=
  { D := some d0, S := some (seed0 ++ seed0), pub := some { E := some d0, V := some (List.replicate 31 4 ++ [5]) } }

/-- The box. -/
def box0 : Bytes := match lockKey loose (some (pairOf loose d0 seed0)) [0] rng0 with
  | .ok (some b, _) => b
  | _ => []

set_option maxRecDepth 20000 in
theorem locks0 : lockKey loose (some (pairOf loose d0 seed0)) [0] rng0 = .ok (some box0, []) := by decide +kernel

set_option maxRecDepth 20000 in
theorem opens0 : unlockKey loose box0 [1] = .ok (some otherPair) := by decide +kernel

set_option maxRecDepth 20000 in
theorem not_other : loose.verify (other.drop 32) (peer0 ++ other ++ be 8 (3 : BitVec 64).toNat) (statement loose d0 seed0 peer0 3).signature = false := by
  decide +kernel

set_option maxRecDepth 20000 in
theorem not_peer : loose.verify (peer0.drop 32) (peer0 ++ peer0 ++ be 8 (3 : BitVec 64).toNat) (statement loose d0 seed0 peer0 3).signature = false := by
  decide +kernel

/-- The record of the key of somebody else. -/
def rec0 : PublicKeyRecord := {
  label := [97], version := 0, timestamp := 4, keys := some peer0
  keySignature := (statement loose d0 seed0 peer0 3).signature
  keySigner := ownerOf loose d0 seed0, signatureTime := 3, metadata := some Map.empty }

/-- C56 does not follow from the laws of secretbox that the other properties rest on. If a box could be opened with two
passphrases, a store that is locked with one and unlocked with the other would have another owner, to whom its keys have no
chain. No such box is known of the real secretbox; `C56_trust_partial` has the assumption that there is none. -/
theorem C56_assumption_needed (A : Asn1) (P : Pem) :
    ∃ C k s s1 s2 s3 m owner, IsPair C k ∧ newPrivateKeyStore C A P (some k) 1 2 = .ok (some s) ∧
      (Op.addKey [97] peer0 none 3 4).run C A P s = .ok (s1, true) ∧ (Op.lockWith [0] rng0).run C A P s1 = .ok (s2, true) ∧
      (Op.unlock [1] 6).run C A P s2 = .ok (s3, true) ∧
      s3.keys = some m ∧ m [97] ≠ none ∧ s3.publicKey = some owner ∧ s1.publicKey ≠ some owner ∧ ¬ Chain C owner m [97] := by
  have l1 : d0.length = 32 := by decide
  have l2 : seed0.length = 32 := by decide
  have l3 : peer0.length = 64 := by decide
  have hs := fresh_sound loose A P d0 seed0 1 2 l1 l2 (by decide)
  have hown : Owned loose d0 seed0 (fresh loose A P d0 seed0 1 2) := ⟨rfl, rfl, rfl, hs.quick⟩
  have ha := addKey_owned loose hown (m := Map.empty) rfl l2 (label := [97]) (by decide) rfl l3 none 3 4
  obtain ⟨m1, hm1⟩ := sound_addKey loose hs ha
  let s1 : KeyStore := { fresh loose A P d0 seed0 1 2 with keys := some (Map.empty.set [97] (some rec0)) }
  obtain ⟨k', hz, -⟩ := zeroPriv_valid (pairOf_valid loose d0 seed0)
  let s2 : KeyStore := { s1 with lockedKey := some box0, privateKey := none, locked := true }
  have hlock : (Op.lockWith [0] rng0).run loose A P s1 = .ok (s2, true) := by
    have hp : s1.privateKey = some (pairOf loose d0 seed0) := rfl
    have hl : s1.locked = false := rfl
    have hv : s1.valid = .ok true := sound_valid loose hm1
    simp only [Op.run, KeyStore.lockWith, hv, hp, hl, locks0, hz, Res.ok_bind, Bool.not_true, Bool.false_eq_true, if_false, Res.pure_eq]
    rfl
  let s3 : KeyStore := { s2 with privateKey := some otherPair, publicKey := some other, locked := false }
  have hunl : (Op.unlock [1] 6).run loose A P s2 = .ok (s3, true) := by
    have hq : s2.validQuick = true := hm1.quick
    have hl : s2.locked = true := rfl
    have hb : s2.lockedKey.getD [] = box0 := rfl
    have hm : marshalPublic otherPair.pub = .ok (some other) := by decide +kernel
    simp only [Op.run, KeyStore.unlock, hq, hl, hb, opens0, hm, Bool.not_true, Bool.false_eq_true, if_false, Res.ok_bind]
    rfl
  refine ⟨loose, pairOf loose d0 seed0, _, s1, s2, s3, Map.empty.set [97] (some rec0), other, ⟨d0, seed0, l1, l2, rfl⟩, fresh_eq loose A P d0 seed0 1 2,
    ha, hlock, hunl, rfl, by simp, rfl, ?_, ?_⟩
  · show some (ownerOf loose d0 seed0) ≠ some other
    decide +kernel
  · have hr : ∀ l r, (Map.empty.set [97] (some rec0) : Keys) l = some (some r) → r = rec0 := by
      intro l r h
      by_cases hl : l = [97]
      · subst hl; simpa using h.symm
      · rw [Map.set_other _ _ hl] at h; cases h
    intro h
    cases h with
    | owner h1 h2 =>
      obtain rfl := hr _ _ h1
      exact absurd (not_other.symm.trans h2.2.2) (by decide)
    | link h1 h2 h3 _ =>
      obtain rfl := hr _ _ h1
      obtain rfl := hr _ _ h2
      exact absurd (not_peer.symm.trans h3.2.2) (by decide)

end Verif.Props.KeyTrustNeeds
