import Verif.Props.FcryptKeys
/-! Properties of fcrypt: keys that are exported, and the list of keys. -/

namespace Verif.Props.FcryptExport
open Verif Verif.Go Verif.Model.Util Verif.Model.Public Verif.Model.KeyStore Verif.Model.Fcrypt
open Verif.Spec.Public Verif.Spec.KeyStore Verif.Spec.Fcrypt
open Verif.Proofs.Public Verif.Proofs.KeyStore Verif.Proofs.Fcrypt Verif.Props.KeyTrust Verif.Props.KeyImport
open Verif.Props.Fcrypt Verif.Props.FcryptFiles Verif.Props.FcryptKeys

variable (C : Crypto) (A : Asn1) (P : Armour) (J : KeyJson)

theorem Holds.unique {input : Bytes} {v v' : VerifiedKey} (h : Holds A P input v) (h' : Holds A P input v') : v = v' := by
  obtain ⟨b, h1, h2⟩ := h
  obtain ⟨b', h1', h2'⟩ := h'
  rw [h1] at h1'
  cases h1'
  rw [h2] at h2'
  cases h2'
  rfl

theorem Confirmed.unique {as r r' : List (Option Bytes)} (h : Confirmed as r) (h' : Confirmed as r') : r = r' := by
  have h1 := confirm_yes h
  rw [confirm_yes h'] at h1
  cases h1
  rfl

/-- A key that one user exports with -export -l can be imported by another who has the first user's
key on record: the second user's store then holds the same key under the label they chose. Missing
from the property: stores in which a key is on record twice, for which the export may not end. -/
theorem C132_exchange_partial (fl fl2 : Flags) (hfl : Exports fl) (hfl2 : Imports fl2) (hu : fl2.untrusted = false)
    (dst src : Bytes) (rest rest2 : List Bytes) (w w2 : World) (d seed pass d2 seed2 pass2 : Bytes) (f f2 : KeyFields) (m m2 : Keys)
    (as as2 : List (Option Bytes)) (hk : Keyring C J w.fs fl.path (ownerOf C d seed) f m) (ho : Opens C f d seed pass)
    (ha : w.term.answers = some pass :: as) (hd : Distinct m) (r : PublicKeyRecord) (hl : m fl.label = some (some r))
    (hw : dst ≠ [45] → w.writes 0 = .done)
    (hk2 : Keyring C J w2.fs fl2.path (ownerOf C d2 seed2) f2 m2) (ho2 : Opens C f2 d2 seed2 pass2)
    (ha2 : w2.term.answers = some pass2 :: as2) (hw2 : w2.writes 0 = .done) (hclk2 : ∀ n, w2.term.clock n ≠ 0)
    (label peer : Bytes) (r2 : PublicKeyRecord) (hp : m2 peer = some (some r2)) (hpk : r2.keyBytes = ownerOf C d seed)
    (hl2 : Asked fl2 as2 label) (h1 : label ≠ self) (h2 : m2 label = none) (hz : m2 [] = none) :
    ∃ n, ∀ e e2 : Env, n ≤ e.fuel → (∀ i, m.Enumerates (e.walk fl.label i m)) →
      (∀ n (m' : Keys), m'.Finite → m'.Enumerates (e2.order n m')) →
      ∃ w' out, main C A P J e fl (dst :: rest) w = (.ok, w') ∧ Output (w.print (notice f)) dst out w' ∧
        (Input w2 src out → ∃ w3 rec, main C A P J e2 fl2 (src :: rest2) w2 = (.ok, w3) ∧ rec.keyBytes = r.keyBytes ∧
          rec.keySigner = ownerOf C d seed ∧
          Replaced C J w2 fl2.path (ownerOf C d2 seed2) f2 (m2.set label (some rec)) w3) := by
  obtain ⟨n, hn⟩ := C132_export_partial C A P J fl hfl dst rest w d seed pass f m as hk ho ha hd r hl hw
  refine ⟨n, fun e e2 hf h3 h4 => ?_⟩
  obtain ⟨w', t, out, g1, g2, g3⟩ := hn e hf h3
  refine ⟨w', out, g1, g2, fun hin => ?_⟩
  have hh : Holds A P out (statement C d seed r.keyBytes t) := by
    rw [g3]
    exact enc_holds A P _
  obtain ⟨w3, k1⟩ := C130_accepted_partial C A P J e2 fl2 hfl2 hu src rest2 w2 d2 seed2 pass2 f2 m2 as2 out hk2 ho2 ha2 hin hw2 h4
    label _ hl2 h1 h2 hz hh ⟨Or.inr ⟨peer, r2, hp, hpk⟩, statement_signed C d seed _ t ho.slen⟩
  rcases C130_import_partial C A P J e2 fl2 hfl2 hu src rest2 w2 w3 .ok d2 seed2 pass2 f2 m2 as2 out hk2 ho2 ha2 hin (by rw [hw2]; simp) hclk2 k1 with
    ⟨q, -⟩ | ⟨-, l, v, rec, q1, q2, q3, q4, -, q5, q6, q7, -, -, q8⟩
  · exact absurd rfl q
  · cases Asked.unique q1 hl2
    cases Holds.unique A P q4 hh
    refine ⟨w3, rec, k1, ?_, q7, q8⟩
    unfold PublicKeyRecord.keyBytes
    rw [q6]
    rfl

/-- The hypotheses can be met: two users, the second of whom has the first one's key on record. -/
example (pk : Bytes) : ∃ (fl fl2 : Flags) (w w2 : World) (d seed pass d2 seed2 pass2 : Bytes) (f f2 : KeyFields) (m m2 : Keys) (r r2 : PublicKeyRecord),
    Exports fl ∧ Imports fl2 ∧ fl2.untrusted = false ∧ Keyring C J w.fs fl.path (ownerOf C d seed) f m ∧ Opens C f d seed pass ∧
    w.term.answers = some pass :: [] ∧ Distinct m ∧ m fl.label = some (some r) ∧ r.keyBytes = pk ∧
    Keyring C J w2.fs fl2.path (ownerOf C d2 seed2) f2 m2 ∧ Opens C f2 d2 seed2 pass2 ∧ w2.term.answers = some pass2 :: [] ∧
    m2 [98] = some (some r2) ∧ r2.keyBytes = ownerOf C d seed ∧ Asked fl2 [] [99] ∧ m2 [99] = none ∧ m2 [] = none ∧ ∀ n, w2.term.clock n ≠ 0 := by
  obtain ⟨f, -, ho, hk⟩ := exKeyring C J (List.replicate 32 1) (List.replicate 32 2) [97] pk [112] none (by decide) (by decide) (by decide) (by decide)
  obtain ⟨f2, -, ho2, hk2⟩ := exKeyring C J (List.replicate 32 3) (List.replicate 32 4) [98] (ownerOf C (List.replicate 32 1) (List.replicate 32 2)) [113] none
    (by decide) (by decide) (by decide) (by decide)
  refine ⟨{ path := [107], export_ := true, label := [97] }, { path := [107], import_ := true, label := [99] }, exWorld J f [112] [], exWorld J f2 [113] [],
    _, _, _, _, _, _, f, f2, _, _, _, _, ⟨⟨rfl, rfl, rfl, rfl, rfl⟩, rfl, rfl, rfl⟩, ⟨⟨rfl, rfl, rfl, rfl, rfl⟩, rfl, rfl, rfl, rfl⟩, rfl, hk _ _, ho, rfl, ?_,
    Map.set_same _ _ _, rfl, hk2 _ _, ho2, rfl, Map.set_same _ _ _, rfl, Or.inl ⟨by decide, rfl⟩, ?_, ?_, fun _ => by show (100 : BitVec 64) ≠ 0; decide⟩
  · intro l l' r r' h1 h2 _
    unfold peerKeys at h1 h2
    by_cases hl : l = [97]
    · by_cases hl' : l' = [97]
      · rw [hl, hl']
      · rw [Map.set_other _ _ hl'] at h2
        cases h2
    · rw [Map.set_other _ _ hl] at h1
      cases h1
  · unfold peerKeys
    rw [Map.set_other _ _ (by decide)]
    rfl
  · unfold peerKeys
    rw [Map.set_other _ _ (by decide)]
    rfl

/-- What fcrypt -check leaves in the file when that has no key to export: the same keys, and the
owner's key in a statement about itself. -/
theorem C132_checked_partial (e : Env) (fl : Flags) (hfl : Checks fl) (args : List Bytes) (w w' : World) (d seed pass : Bytes) (f : KeyFields)
    (m : Keys) (as : List (Option Bytes)) (hk : Keyring C J w.fs fl.path (ownerOf C d seed) f m) (ho : Opens C f d seed pass)
    (ha : w.term.answers = some pass :: as) (hx : f.exportKey = none) (hclk : ∀ n, w.term.clock n ≠ 0)
    (hm : main C A P J e fl args w = (.ok, w')) :
    ∃ f' x t, Keyring C J w'.fs fl.path (ownerOf C d seed) f' m ∧ f'.lockedKey = f.lockedKey ∧ f'.exportKey = some x ∧
      x = P.enc (ascii "CRYPTUTIL VERIFIED KEY") (A.enc (statement C d seed (ownerOf C d seed) t)) := by
  rw [main_unlocked C A P J (select_check C A P (e := e) hfl) hk.keyfile ho rfl (Nat.zero_le _) ha] at hm
  obtain ⟨hs, -⟩ := opened_sound C J (x := exported C A P f d seed (w.term.clock 2)) hk ho
  have hb : (false || (fl.check && f.exportKey.isNone)) = true := by
    rw [hx, hfl]
    rfl
  dsimp only at hm
  rw [hb] at hm
  rcases checkStore_cases C e (opened C f m d seed (exported C A P f d seed (w.term.clock 2))) (config fl args) ((later (Proofs.Fcrypt.rest w as) 3).print (notice f)) with
    ⟨h1, -⟩ | ⟨r, h1, h2⟩
  · rw [h1] at hm
    obtain ⟨w2, q1, q2, -⟩ := finish_writes J fl true (opened C f m d seed (exported C A P f d seed (w.term.clock 2)))
      (((later (Proofs.Fcrypt.rest w as) 3).print (notice f)).print (ascii "Keystore is valid.\n"))
    have hm' : finish J fl true true (opened C f m d seed (exported C A P f d seed (w.term.clock 2)))
      (((later (Proofs.Fcrypt.rest w as) 3).print (notice f)).print (ascii "Keystore is valid.\n")) = (.ok, w') := hm
    rw [q1] at hm'
    have hdone : (((later (Proofs.Fcrypt.rest w as) 3).print (notice f)).print (ascii "Keystore is valid.\n")).writes 0 = .done := by
      apply Classical.byContradiction
      intro hn
      rw [if_neg hn] at hm'
      cases hm'
    rw [if_pos hdone] at hm'
    cases hm'
    rw [hdone] at q2
    have hkr := keyring_written C J hs (by obtain ⟨box, hb, -⟩ := ho.key; show f.lockedKey ≠ none; rw [hb]; simp)
      (keyring_tidy C J hk).1 (t := w.term.clock 3) (hclk 3) (keyring_tidy C J hk).2 w.fs fl.path
    refine ⟨stamped (opened C f m d seed (exported C A P f d seed (w.term.clock 2))).toKeyFields (w.term.clock 3), _, w.term.clock 2, ?_, rfl, rfl, ?_⟩
    · rw [q2]
      exact hkr
    · unfold exported
      rw [hx]
      rfl
  · rw [h1] at hm
    rw [conclude_fail J h2] at hm
    cases hm
    exact absurd rfl h2

/-- The owner's key, once it is in the file, is exported with -export without a passphrase, and
imported by others with -import -u. -/
theorem C132_own_partial (e e2 : Env) (fl fl2 : Flags) (hfl : Exports fl) (hself : fl.label = self) (hfl2 : Imports fl2) (hu : fl2.untrusted = true)
    (dst src : Bytes) (rest rest2 : List Bytes) (w w2 : World) (d seed d2 seed2 pass2 : Bytes) (f f2 : KeyFields) (m m2 : Keys)
    (as2 as3 : List (Option Bytes)) (hk : Keyring C J w.fs fl.path (ownerOf C d seed) f m) (t : BitVec 64)
    (hx : f.exportKey = some (P.enc (ascii "CRYPTUTIL VERIFIED KEY") (A.enc (statement C d seed (ownerOf C d seed) t))))
    (hw : dst ≠ [45] → w.writes 0 = .done)
    (hk2 : Keyring C J w2.fs fl2.path (ownerOf C d2 seed2) f2 m2) (ho2 : Opens C f2 d2 seed2 pass2)
    (ha2 : w2.term.answers = some pass2 :: as2) (hw2 : w2.writes 0 = .done) (hclk2 : ∀ n, w2.term.clock n ≠ 0)
    (label : Bytes) (hc : Confirmed as2 as3) (hl2 : Asked fl2 as3 label) (h1 : label ≠ self) (h2 : m2 label = none) :
    ∃ w' out, main C A P J e fl (dst :: rest) w = (.ok, w') ∧ Output w dst out w' ∧
      (Input w2 src out → ∃ w3 rec, main C A P J e2 fl2 (src :: rest2) w2 = (.ok, w3) ∧ rec.keyBytes = ownerOf C d seed ∧
        Replaced C J w2 fl2.path (ownerOf C d2 seed2) f2 (m2.set label (some rec)) w3) := by
  obtain ⟨w', g1, g2⟩ := exportSelf_run C A P J (e := e) (dst := dst) (rest := rest) hfl hself hk hx hw
  refine ⟨w', _, g1, g2, fun hin => ?_⟩
  have hh := enc_holds A P (statement C d seed (ownerOf C d seed) t)
  obtain ⟨w3, k1⟩ := C130_untrusted_accepted C A P J e2 fl2 hfl2 hu src rest2 w2 d2 seed2 pass2 f2 m2 as2 as3 _ hk2 ho2 ha2 hin hw2
    label _ hc hl2 h1 h2 hh (ownerOf_length C d seed)
  rcases C130_untrusted_partial C A P J e2 fl2 hfl2 hu src rest2 w2 w3 .ok d2 seed2 pass2 f2 m2 as2 _ hk2 ho2 ha2 hin (by rw [hw2]; simp) hclk2 k1 with
    ⟨q, -⟩ | ⟨-, q, -⟩ | ⟨-, as4, l, v, rec, q0, q1, q2, q3, q4, q5, q6, q7, -, q8⟩
  · exact absurd rfl q
  · exact absurd hc (q _)
  · cases FcryptExport.Confirmed.unique q0 hc
    cases Asked.unique q1 hl2
    cases Holds.unique A P q4 hh
    refine ⟨w3, rec, k1, ?_, q8⟩
    unfold PublicKeyRecord.keyBytes
    rw [q6]
    rfl

/-- The hypotheses can be met. -/
example (t : BitVec 64) : ∃ (fl fl2 : Flags) (w w2 : World) (d seed d2 seed2 pass2 : Bytes) (f f2 : KeyFields) (m m2 : Keys) (as2 : List (Option Bytes)),
    Exports fl ∧ fl.label = self ∧ Imports fl2 ∧ fl2.untrusted = true ∧ Keyring C J w.fs fl.path (ownerOf C d seed) f m ∧
    f.exportKey = some (P.enc (ascii "CRYPTUTIL VERIFIED KEY") (A.enc (statement C d seed (ownerOf C d seed) t))) ∧
    Keyring C J w2.fs fl2.path (ownerOf C d2 seed2) f2 m2 ∧ Opens C f2 d2 seed2 pass2 ∧ w2.term.answers = some pass2 :: as2 ∧
    Confirmed as2 [] ∧ Asked fl2 [] [99] ∧ m2 [99] = none ∧ ∀ n, w2.term.clock n ≠ 0 := by
  obtain ⟨f, hx, ho, hk⟩ := exKeyring C J (List.replicate 32 1) (List.replicate 32 2) [97] [8] [112]
    (some (P.enc (ascii "CRYPTUTIL VERIFIED KEY") (A.enc (statement C (List.replicate 32 1) (List.replicate 32 2) (ownerOf C (List.replicate 32 1) (List.replicate 32 2)) t))))
    (by decide) (by decide) (by decide) (by decide)
  obtain ⟨f2, -, ho2, hk2⟩ := exKeyring C J (List.replicate 32 3) (List.replicate 32 4) [98] [8] [113] none
    (by decide) (by decide) (by decide) (by decide)
  refine ⟨{ path := [107], export_ := true }, { path := [107], import_ := true, untrusted := true, label := [99] }, exWorld J f [112] [],
    { exWorld J f2 [113] [] with term := { answers := [some [113], some [110, 111, 112, 101], some (ascii "yes")], clock := fun _ => 100 } },
    _, _, _, _, _, f, f2, _, _, _, ⟨⟨rfl, rfl, rfl, rfl, rfl⟩, rfl, rfl, rfl⟩, rfl, ⟨⟨rfl, rfl, rfl, rfl, rfl⟩, rfl, rfl, rfl, rfl⟩, rfl, hk _ _, hx,
    hk2 _ _, ho2, rfl, ⟨[[110, 111, 112, 101]], rfl, by decide⟩, Or.inl ⟨by decide, rfl⟩, ?_, fun _ => by show (100 : BitVec 64) ≠ 0; decide⟩
  unfold peerKeys
  rw [Map.set_other _ _ (by decide)]
  rfl

/-- C132 is false of key stores that hold no key to export: -export reports an error until -check has
been run, which makes one. -/
theorem C132_unexported_violated (e : Env) (fl : Flags) (hfl : Exports fl) (hself : fl.label = self) (dst : Bytes) (rest : List Bytes) (w : World)
    (owner : Bytes) (f : KeyFields) (m : Keys) (hk : Keyring C J w.fs fl.path owner f m) (hx : f.exportKey = none) :
    ∃ w', main C A P J e fl (dst :: rest) w = (.err, w') ∧ w'.stdout = w.stdout ∧ w'.fs = w.fs := by
  rw [main_public C A P J (select_export_self C A P (e := e) hfl hself) hk.keyfile rfl hfl.1.1 (by simp)]
  have hx' : (loaded f m).exportKey = none := hx
  simp only [exportSelf, hx']
  exact ⟨_, conclude_fail J (by simp), rfl, rfl⟩

/-! ### C134: the list of keys -/

/-- What -k prints about one key. -/
def entry (e : Env) (x : Bytes × PublicKeyRecord × Bytes) : Bytes :=
  ascii "\t" ++ x.1 ++ ascii "\n\t\tLast update: " ++ e.date x.2.1.timestamp ++ ascii "\n\t\t  Signed at: " ++ e.date x.2.1.signatureTime ++
  ascii "\n\t\t  Signed by: " ++ x.2.2 ++ ascii "\n\t\tFingerprint: " ++ hexEncode (e.sha256 x.2.1.keyBytes) ++ ascii "\n"

theorem entry_eq (e : Env) (k : Bytes) (r : PublicKeyRecord) (s : Bytes) : [9] ++ k ++ [10] ++ keyText e r (some s) = entry e (k, r, s) := by
  have a1 : ascii "\t" = [9] := by decide
  have a2 : ascii "\n\t\tLast update: " = [10] ++ ascii "\t\tLast update: " := by decide
  have a3 : ascii "\n\t\t  Signed at: " = [10] ++ ascii "\t\t  Signed at: " := by decide
  have a4 : ascii "\n\t\t  Signed by: " = [10] ++ ascii "\t\t  Signed by: " := by decide
  have a5 : ascii "\n\t\tFingerprint: " = [10] ++ ascii "\t\tFingerprint: " := by decide
  have a6 : ascii "\n" = [10] := by decide
  unfold keyText entry
  rw [a1, a2, a3, a4, a5, a6]
  simp only [Option.getD_some, List.append_assoc]

/-- Whoever signed a trusted key has a name. -/
theorem signer_found {s : KeyStore} {owner : Bytes} {m : Keys} (h : Sound C s owner m) {k : Bytes} {r : PublicKeyRecord} (hr : m k = some (some r))
    {order : List Bytes} (he : m.Enumerates order) : ∃ l, s.findPublic r.keySigner order = .ok (some l) ∧ Names owner m l r.keySigner := by
  have hpub : s.pubBytes = owner := sound_pub C h
  rcases C92_find_exact_partial s.toKeyFields m h.keys h.noNil h.labelled r.keySigner order he with ⟨l, h1, h2⟩ | ⟨-, h2, h3⟩
  · refine ⟨l, h1, ?_⟩
    rcases h2 with ⟨h2, rfl⟩ | ⟨-, r', h3, h4⟩
    · rw [h2, hpub]
      exact .owner
    · have hlen : r.keySigner.length = 64 := by
        cases h.trust k r hr with
        | owner g1 g2 g3 => rw [hr] at g1; cases g1; exact g3.1
        | link g1 g2 g3 g4 g5 => rw [hr] at g1; cases g1; exact g4.1
      refine .peer h3 ?_
      rw [← h4] at hlen ⊢
      unfold PublicKeyRecord.keyBytes at hlen ⊢
      cases hkk : r'.keys with
      | none => rw [hkk] at hlen; cases hlen
      | some b => rfl
  · exfalso
    rw [hpub] at h2
    cases h.trust k r hr with
    | owner g1 g2 g3 => rw [hr] at g1; cases g1; exact h2 g2
    | link g1 g2 g3 g4 g5 => rw [hr] at g1; cases g1; exact h3 _ _ g2 g3.symm

theorem listLoop_ok (e : Env) {s : KeyStore} {owner : Bytes} {m : Keys} (h : Sound C s owner m) (he : ∀ n, m.Enumerates (e.order n m)) :
    ∀ (ks : List Bytes) (n : Nat) (w : World), (∀ k ∈ ks, m k ≠ none) →
      ∃ entries : List (Bytes × PublicKeyRecord × Bytes), entries.map (·.1) = ks ∧
        (∀ x ∈ entries, m x.1 = some (some x.2.1) ∧ Names owner m x.2.2 x.2.1.keySigner) ∧
        listLoop e s n ks w = (.ok, s, { w with stdout := w.stdout ++ entries.flatMap (entry e) }) := by
  intro ks
  induction ks with
  | nil =>
    intro n w _
    refine ⟨[], rfl, by simp, ?_⟩
    simp [listLoop]
  | cons k ks ih =>
    intro n w hm
    cases hk : m k with
    | none => exact absurd hk (hm k (by simp))
    | some r =>
      cases r with
      | none => exact absurd hk (h.noNil k)
      | some r =>
        obtain ⟨l, h1, h2⟩ := signer_found C h hk (he n)
        have hkk : s.keys.getD Map.empty = m := by rw [h.keys]; rfl
        obtain ⟨es, g1, g2, g3⟩ := ih (n + 1) ((w.print ([9] ++ k ++ [10])).print (keyText e r (some l))) (fun k' hk' => hm k' (by simp [hk']))
        refine ⟨(k, r, l) :: es, by simp [g1], ?_, ?_⟩
        · intro x hx
          rcases List.mem_cons.mp hx with rfl | hx
          · exact ⟨hk, h2⟩
          · exact g2 x hx
        · rw [listLoop, (get_some h.keys).mpr hk]
          dsimp only
          rw [hkk, h1]
          dsimp only
          rw [g3, List.flatMap_cons, ← entry_eq]
          simp only [World.print, List.append_assoc]

/-- fcrypt -k asks for no passphrase, changes no file, and lists every key on record just once, with
its times, its fingerprint and the label of the key that signed it, which is never unknown. -/
theorem C134_list (e : Env) (fl : Flags) (hfl : Lists fl) (args : List Bytes) (w : World) (owner : Bytes) (f : KeyFields) (m : Keys)
    (hk : Keyring C J w.fs fl.path owner f m) (he : ∀ n, m.Enumerates (e.order n m)) :
    ∃ (w' : World) (entries : List (Bytes × PublicKeyRecord × Bytes)), main C A P J e fl args w = (.ok, w') ∧ w'.fs = w.fs ∧
      w'.term.answers = w.term.answers ∧ m.Enumerates (entries.map (·.1)) ∧
      (∀ x ∈ entries, m x.1 = some (some x.2.1) ∧ Names owner m x.2.2 x.2.1.keySigner) ∧
      w'.stdout = w.stdout ++ ascii "Key store was last updated " ++ e.date f.timestamp ++ ascii "\n" ++ decimal entries.length ++
        ascii " keys stored\nOwner public key:\n\tFingerprint: " ++ hexEncode (e.sha256 owner) ++ ascii "\n" ++
        (if entries = [] then [] else ascii "Key store:\n" ++ entries.flatMap (entry e)) := by
  rw [main_public C A P J (select_list C A P (e := e) hfl) hk.keyfile rfl hfl.1.1 (Nat.zero_le _)]
  obtain ⟨-, -, -, hs⟩ := keyring_load C J hk
  have hpub : (loaded f m).pubBytes = owner := sound_pub C hs
  have hkk : (loaded f m).keys.getD Map.empty = m := rfl
  have hts : (loaded f m).timestamp = f.timestamp := rfl
  have a1 : ascii "\n" = [10] := by decide
  have a2 : ascii " keys stored\nOwner public key:\n\tFingerprint: " = ascii " keys stored\n" ++ ascii "Owner public key:\n\tFingerprint: " := by decide
  have hfile : w.fs fl.path ≠ none := by
    obtain ⟨data, h1, -⟩ := hk.file
    rw [h1]
    simp
  by_cases hlen : (e.order 0 m).length > 0
  · obtain ⟨es, g1, g2, g3⟩ := listLoop_ok C e hs he (e.order 0 m) 1
      (((later w 2).print (ascii "Key store was last updated " ++ e.date f.timestamp ++ [10] ++ decimal (e.order 0 m).length ++ ascii " keys stored\n" ++
      ascii "Owner public key:\n\tFingerprint: " ++ hexEncode (e.sha256 owner) ++ [10])).print (ascii "Key store:\n"))
      (fun k hk' => ((he 0).2 k).mp hk')
    have hes : es ≠ [] := by
      rintro rfl
      rw [← g1] at hlen
      simp at hlen
    have hl2 : (e.order 0 m).length = es.length := by rw [← g1, List.length_map]
    have hrun : keyList e (loaded f m) (config fl args) (later w 2) = listLoop e (loaded f m) 1 (e.order 0 m)
        (((later w 2).print (ascii "Key store was last updated " ++ e.date f.timestamp ++ [10] ++ decimal (e.order 0 m).length ++ ascii " keys stored\n" ++
      ascii "Owner public key:\n\tFingerprint: " ++ hexEncode (e.sha256 owner) ++ [10])).print (ascii "Key store:\n")) := by
      simp only [keyList, hkk, hpub, hts]
      rw [if_pos hlen]
    rw [g3] at hrun
    dsimp only
    rw [hrun]
    refine ⟨_, es, conclude_quiet J hfile, rfl, rfl, by rw [g1]; exact he 0, g2, ?_⟩
    rw [if_neg hes, a1, a2, ← hl2]
    simp only [World.print, later, List.append_assoc]
  · have h0 : e.order 0 m = [] := List.eq_nil_of_length_eq_zero (by omega)
    have hrun : keyList e (loaded f m) (config fl args) (later w 2) = (.ok, loaded f m, ((later w 2).print (ascii "Key store was last updated " ++ e.date f.timestamp ++ [10] ++ decimal (e.order 0 m).length ++ ascii " keys stored\n" ++
      ascii "Owner public key:\n\tFingerprint: " ++ hexEncode (e.sha256 owner) ++ [10]))) := by
      simp only [keyList, hkk, hpub, hts]
      rw [if_neg hlen]
    dsimp only
    rw [hrun]
    refine ⟨_, [], conclude_quiet J hfile, rfl, rfl, by have := he 0; rw [h0] at this; exact this, by simp, ?_⟩
    rw [if_pos rfl, a1, a2, h0]
    simp only [World.print, later, List.append_assoc, List.append_nil, List.length_nil]

/-- The hypotheses can be met: a key "a" that the owner signed and a key "b" that "a" signed. -/
example : ∃ (e : Env) (fl : Flags) (w : World) (owner : Bytes) (f : KeyFields) (m : Keys), Lists fl ∧ Keyring C J w.fs fl.path owner f m ∧
    m [97] ≠ none ∧ m [98] ≠ none ∧ ∀ n, m.Enumerates (e.order n m) := by
  obtain ⟨f, m, r0, r1, h1, h2, h3, h4, h5, -, -, hk⟩ := exTwo C J (List.replicate 32 1) (List.replicate 32 2) (List.replicate 32 3) (List.replicate 32 4)
    [8] [112] (by decide) (by decide) (by decide)
  obtain ⟨o, ho⟩ := (keyring_tidy C J (hk (fun _ => none) [107])).1.1.enumerates
  exact ⟨⟨fun _ _ => o, fun _ _ _ => o, 5, fun _ => [], fun b => b⟩, { path := [107], list := true }, exWorld J f [112] [], _, f, m,
    ⟨⟨rfl, rfl, rfl, rfl, rfl⟩, rfl, rfl⟩, hk _ _, by simp [h2], by simp [h3], fun _ => ho⟩

/-- The name shown for the key `signer`: "self" for the owner's, a label under which it is on record,
or none if it is neither. -/
def Shown (owner : Bytes) (m : Keys) (signer : Bytes) : Option Bytes → Prop
  | some l => (signer = owner ∧ l = self) ∨ (signer ≠ owner ∧ ∃ r, m l = some (some r) ∧ r.keyBytes = signer)
  | none => signer ≠ owner ∧ ∀ l r, m l = some (some r) → r.keyBytes ≠ signer

/-- What -k prints about one key, of which the signer may be unknown. -/
def entryAny (e : Env) (x : Bytes × PublicKeyRecord × Option Bytes) : Bytes :=
  entry e (x.1, x.2.1, match x.2.2 with | some l => l | none => ascii "<unknown>")

theorem entryAny_eq (e : Env) (k : Bytes) (r : PublicKeyRecord) (s : Option Bytes) :
    [9] ++ k ++ [10] ++ keyText e r s = entryAny e (k, r, s) := by
  cases s with
  | some l => exact entry_eq e k r l
  | none => exact entry_eq e k r (ascii "<unknown>")

theorem listLoop_any (e : Env) {s : KeyStore} {owner : Bytes} {m : Keys} (hm : s.keys = some m) (hp : s.pubBytes = owner) (hn : NoNil m)
    (hlab : Labelled m) (he : ∀ n, m.Enumerates (e.order n m)) :
    ∀ (ks : List Bytes) (n : Nat) (w : World), (∀ k ∈ ks, m k ≠ none) →
      ∃ entries : List (Bytes × PublicKeyRecord × Option Bytes), entries.map (·.1) = ks ∧
        (∀ x ∈ entries, m x.1 = some (some x.2.1) ∧ Shown owner m x.2.1.keySigner x.2.2) ∧
        listLoop e s n ks w = (.ok, s, { w with stdout := w.stdout ++ entries.flatMap (entryAny e) }) := by
  intro ks
  induction ks with
  | nil =>
    intro n w _
    refine ⟨[], rfl, by simp, ?_⟩
    simp [listLoop]
  | cons k ks ih =>
    intro n w hmk
    cases hk : m k with
    | none => exact absurd hk (hmk k (by simp))
    | some r =>
      cases r with
      | none => exact absurd hk (hn k)
      | some r =>
        obtain ⟨o, h1, h2⟩ : ∃ o, s.findPublic r.keySigner (e.order n m) = .ok o ∧ Shown owner m r.keySigner o := by
          rcases C92_find_exact_partial s.toKeyFields m hm hn hlab r.keySigner _ (he n) with ⟨l, h1, h2⟩ | ⟨h1, h2, h3⟩
          · exact ⟨some l, h1, by rw [hp] at h2; exact h2⟩
          · exact ⟨none, h1, by rw [hp] at h2; exact ⟨h2, h3⟩⟩
        have hkk : s.keys.getD Map.empty = m := by rw [hm]; rfl
        obtain ⟨es, g1, g2, g3⟩ := ih (n + 1) ((w.print ([9] ++ k ++ [10])).print (keyText e r o)) (fun k' hk' => hmk k' (by simp [hk']))
        refine ⟨(k, r, o) :: es, by simp [g1], ?_, ?_⟩
        · intro x hx
          rcases List.mem_cons.mp hx with rfl | hx
          · exact ⟨hk, h2⟩
          · exact g2 x hx
        · rw [listLoop, (get_some hm).mpr hk]
          dsimp only
          rw [hkk, h1]
          dsimp only
          rw [g3, List.flatMap_cons, ← entryAny_eq]
          simp only [World.print, List.append_assoc]

/-- The same for a file with whatever keys, trusted or not: a signer that is neither the owner nor on
record, and only such a one, is shown as unknown. -/
theorem C134_unknown (e : Env) (fl : Flags) (hfl : Lists fl) (args : List Bytes) (w : World) (owner : Bytes) (f : KeyFields) (m : Keys)
    (hk : Keyfile J w.fs fl.path owner f m) (hn : NoNil m) (hlab : Labelled m) (he : ∀ n, m.Enumerates (e.order n m)) :
    ∃ (w' : World) (entries : List (Bytes × PublicKeyRecord × Option Bytes)), main C A P J e fl args w = (.ok, w') ∧ w'.fs = w.fs ∧
      w'.term.answers = w.term.answers ∧ m.Enumerates (entries.map (·.1)) ∧
      (∀ x ∈ entries, m x.1 = some (some x.2.1) ∧ Shown owner m x.2.1.keySigner x.2.2) ∧
      w'.stdout = w.stdout ++ ascii "Key store was last updated " ++ e.date f.timestamp ++ ascii "\n" ++ decimal entries.length ++
        ascii " keys stored\nOwner public key:\n\tFingerprint: " ++ hexEncode (e.sha256 owner) ++ ascii "\n" ++
        (if entries = [] then [] else ascii "Key store:\n" ++ entries.flatMap (entryAny e)) := by
  rw [main_public C A P J (select_list C A P (e := e) hfl) hk rfl hfl.1.1 (Nat.zero_le _)]
  have hpub : (loaded f m).pubBytes = owner := by
    show f.publicKey.getD [] = owner
    rw [hk.pub]; rfl
  have hkk : (loaded f m).keys.getD Map.empty = m := rfl
  have hts : (loaded f m).timestamp = f.timestamp := rfl
  have a1 : ascii "\n" = [10] := by decide
  have a2 : ascii " keys stored\nOwner public key:\n\tFingerprint: " = ascii " keys stored\n" ++ ascii "Owner public key:\n\tFingerprint: " := by decide
  have hfile : w.fs fl.path ≠ none := by
    obtain ⟨data, h1, -⟩ := hk.file
    rw [h1]
    simp
  by_cases hlen : (e.order 0 m).length > 0
  · obtain ⟨es, g1, g2, g3⟩ := listLoop_any e rfl hpub hn hlab he (e.order 0 m) 1
      (((later w 2).print (ascii "Key store was last updated " ++ e.date f.timestamp ++ [10] ++ decimal (e.order 0 m).length ++ ascii " keys stored\n" ++
      ascii "Owner public key:\n\tFingerprint: " ++ hexEncode (e.sha256 owner) ++ [10])).print (ascii "Key store:\n"))
      (fun k hk' => ((he 0).2 k).mp hk')
    have hes : es ≠ [] := by
      rintro rfl
      rw [← g1] at hlen
      simp at hlen
    have hl2 : (e.order 0 m).length = es.length := by rw [← g1, List.length_map]
    have hrun : keyList e (loaded f m) (config fl args) (later w 2) = listLoop e (loaded f m) 1 (e.order 0 m)
        (((later w 2).print (ascii "Key store was last updated " ++ e.date f.timestamp ++ [10] ++ decimal (e.order 0 m).length ++ ascii " keys stored\n" ++
      ascii "Owner public key:\n\tFingerprint: " ++ hexEncode (e.sha256 owner) ++ [10])).print (ascii "Key store:\n")) := by
      simp only [keyList, hkk, hpub, hts]
      rw [if_pos hlen]
    rw [g3] at hrun
    dsimp only
    rw [hrun]
    refine ⟨_, es, conclude_quiet J hfile, rfl, rfl, by rw [g1]; exact he 0, g2, ?_⟩
    rw [if_neg hes, a1, a2, ← hl2]
    simp only [World.print, later, List.append_assoc]
  · have h0 : e.order 0 m = [] := List.eq_nil_of_length_eq_zero (by omega)
    have hrun : keyList e (loaded f m) (config fl args) (later w 2) = (.ok, loaded f m, ((later w 2).print (ascii "Key store was last updated " ++ e.date f.timestamp ++ [10] ++ decimal (e.order 0 m).length ++ ascii " keys stored\n" ++
      ascii "Owner public key:\n\tFingerprint: " ++ hexEncode (e.sha256 owner) ++ [10]))) := by
      simp only [keyList, hkk, hpub, hts]
      rw [if_neg hlen]
    dsimp only
    rw [hrun]
    refine ⟨_, [], conclude_quiet J hfile, rfl, rfl, by have := he 0; rw [h0] at this; exact this, by simp, ?_⟩
    rw [if_pos rfl, a1, a2, h0]
    simp only [World.print, later, List.append_assoc, List.append_nil, List.length_nil]

/-- The hypotheses can be met by a file with a key whose signer is not known. -/
example : ∃ (e : Env) (fl : Flags) (w : World) (owner : Bytes) (f : KeyFields) (m : Keys) (r : PublicKeyRecord), Lists fl ∧
    Keyfile J w.fs fl.path owner f m ∧ NoNil m ∧ Labelled m ∧ (∀ n, m.Enumerates (e.order n m)) ∧ m [97] = some (some r) ∧
    Shown owner m r.keySigner none := by
  let o : Bytes := ownerOf C [1] [2]
  have hlen : o.length = 64 := ownerOf_length C [1] [2]
  let f : KeyFields := { exFields C [1] [2] [97] [5] [6] none with publicKey := some (o.map (· + 1)) }
  have hdom : ∀ l r, peerKeys C [1] [2] [97] [5] l = some r → l = [97] ∧ r = some (recordFor [97] (statement C [1] [2] [5] 5)) := by
    intro l r h
    unfold peerKeys at h
    by_cases hq : l = [97]
    · subst hq
      rw [Map.set_same] at h
      cases h
      exact ⟨rfl, rfl⟩
    · rw [Map.set_other _ _ hq] at h
      cases h
  refine ⟨⟨fun _ _ => [[97]], fun _ _ _ => [], 5, fun _ => [], fun b => b⟩, { path := [107], list := true }, exWorld J f [112] [], o.map (· + 1), f,
    peerKeys C [1] [2] [97] [5], recordFor [97] (statement C [1] [2] [5] 5), ⟨⟨rfl, rfl, rfl, rfl, rfl⟩, rfl, rfl⟩,
    ⟨⟨J.enc f, Fs.set_same (Fs.set (fun _ => none) [105] []) [107] _, J.dec_enc f (exFields_finite C [1] [2] [97] [5] [6] none) (exFields_clean C [1] [2] [97] [5] [6] none (by decide))⟩, rfl, by simp [f, exFields], rfl,
      by rw [List.length_map, hlen], rfl, by simp [f, exFields]⟩, ?_, ?_, fun _ => enum_set enum_empty rfl _, Map.set_same _ _ _, ?_, ?_⟩
  · intro k hk
    cases (hdom k _ hk).2
  · intro k r hk
    obtain ⟨rfl, h⟩ := hdom k _ hk
    cases h
    rfl
  · show o ≠ o.map (· + 1)
    cases ho : o with
    | nil => rw [ho] at hlen; cases hlen
    | cons x t =>
      rw [List.map_cons]
      intro h
      have h1 := (List.cons.inj h).1
      have h2 := congrArg UInt8.toNat h1
      rw [UInt8.toNat_add] at h2
      have := x.toNat_lt
      simp only [UInt8.toNat_one] at h2
      omega
  · intro l r h hk
    obtain ⟨rfl, h⟩ := hdom l _ h
    cases h
    have h2 : ([5] : Bytes) = o := hk
    rw [← h2] at hlen
    cases hlen

end Verif.Props.FcryptExport
