import Verif.Props.FcryptExport
/-! Concrete runs of fcrypt that meet the hypotheses of the theorems about keys (C129 to C132). -/

namespace Verif.Props.FcryptCases
open Verif Verif.Go Verif.Model.Util Verif.Model.Public Verif.Model.KeyStore Verif.Model.Fcrypt
open Verif.Spec.Public Verif.Spec.KeyStore Verif.Spec.Fcrypt
open Verif.Proofs.Public Verif.Proofs.KeyStore Verif.Proofs.Fcrypt
open Verif.Props.KeyTrust Verif.Props.FcryptFiles Verif.Props.FcryptKeys

variable (C : Crypto) (A : Asn1) (P : Armour) (J : KeyJson)

/-- A run with a store in the file "k", an input in the file "i", and the passphrase "p" typed before
the other answers. -/
noncomputable def start (f : KeyFields) (as : List (Option Bytes)) (input : Bytes) (o : WriteOutcome) : World :=
  { term := { answers := some [112] :: as, clock := fun _ => 100 }, rng := []
    fs := Fs.set (Fs.set (fun _ => none) [105] input) [107] (J.enc f), writes := fun _ => o, stdin := [], stdout := [] }

theorem start_input (f : KeyFields) (as : List (Option Bytes)) (input : Bytes) (o : WriteOutcome) : Input (start J f as input o) [105] input := by
  unfold Input
  rw [if_neg (by decide)]
  show (Fs.set (Fs.set (fun _ => none) [105] input) [107] (J.enc f)) [105] = some input
  rw [Fs.set_other _ _ (by decide), Fs.set_same]

theorem start_clock (f : KeyFields) (as : List (Option Bytes)) (input : Bytes) (o : WriteOutcome) (n : Nat) : (start J f as input o).term.clock n ≠ 0 := by
  show (100 : BitVec 64) ≠ 0
  decide

/-- Who owns the store. -/
def owner : Bytes := ownerOf C (List.replicate 32 1) (List.replicate 32 2)

/-- Who is on record in it, as "a". -/
def peer : Bytes := ownerOf C (List.replicate 32 3) (List.replicate 32 4)

def keys : Keys := peerKeys C (List.replicate 32 1) (List.replicate 32 2) [97] (peer C)

/-- What the peer says about the key `pk`. -/
def letter (pk : Bytes) : Bytes := P.enc (ascii "CRYPTUTIL VERIFIED KEY") (A.enc (statement C (List.replicate 32 3) (List.replicate 32 4) pk 7))

theorem store : ∃ f, f.exportKey = none ∧ Opens C f (List.replicate 32 1) (List.replicate 32 2) [112] ∧
    ∀ as input o, Keyring C J (start J f as input o).fs [107] (owner C) f (keys C) := by
  obtain ⟨f, hx, ho, hk⟩ := exKeyring C J (List.replicate 32 1) (List.replicate 32 2) [97] (peer C) [112] none (by decide) (by decide) (by decide) (by decide)
  exact ⟨f, hx, ho, fun _ _ _ => hk _ _⟩

theorem keys_other {l : Bytes} (h : l ≠ [97]) : keys C l = none := by
  unfold keys peerKeys
  rw [Map.set_other _ _ h]
  rfl

theorem keys_peer : keys C [97] = some (some (recordFor [97] (statement C (List.replicate 32 1) (List.replicate 32 2) (peer C) 5))) := by
  unfold keys peerKeys
  exact Map.set_same _ _ _

theorem keys_distinct : Distinct (keys C) := by
  intro l l' r r' h1 h2 _
  by_cases hl : l = [97]
  · by_cases hl' : l' = [97]
    · rw [hl, hl']
    · rw [keys_other C hl'] at h2; cases h2
  · rw [keys_other C hl] at h1; cases h1

/-- A key imported under the label FF, which is not UTF-8, is not there when the store is next read. -/
example (pk : Bytes) : ∃ (e : Env) (f : KeyFields) (w' : World) (f' : KeyFields),
    main C A P J e { path := [107], import_ := true, label := [255] } [[105]] (start J f [] (letter C A P pk) .done) = (.ok, w') ∧
      w'.fs [107] = some (J.enc f') ∧ (∃ m' rec, f'.keys = some m' ∧ m' [255] = some (some rec) ∧ rec.keys = some pk) ∧
      ∀ g mg, Keyring C J w'.fs [107] (owner C) g mg → mg [255] = none := by
  obtain ⟨e, -, he⟩ := exEnv 5
  obtain ⟨f, -, ho, hk⟩ := store C J
  obtain ⟨w', f', h1, h2, h3, h4⟩ := C130_not_utf8_violated C A P J e { path := [107], import_ := true, label := [255] } ⟨⟨rfl, rfl, rfl, rfl, rfl⟩, rfl, rfl, rfl, rfl⟩ rfl
    [105] [] (start J f [] (letter C A P pk) .done) _ _ [112] f (keys C) [] _ (hk _ _ _) ho rfl (start_input J _ _ _ _) rfl (start_clock J _ _ _ _)
    (fun n m' hm => (he m' hm).1 n) [255] (statement C (List.replicate 32 3) (List.replicate 32 4) pk 7) (Or.inl ⟨by decide, rfl⟩) (by decide) (keys_other C (by decide))
    (enc_holds A P _) ⟨Or.inr ⟨[97], _, keys_peer C, rfl⟩, statement_signed C _ _ _ _ (by decide)⟩
  exact ⟨e, f, w', f', h1, by rw [h2]; exact Fs.set_same _ _ _, h3, h4⟩

/-- `-u`: a key is taken over after "maybe" and "yes", under the label "b" typed afterwards. -/
example (e : Env) : ∃ (f : KeyFields) (w' : World) (rec : PublicKeyRecord),
    main C A P J e { path := [107], import_ := true, untrusted := true } [[105]] (start J f [some (ascii "maybe"), some (ascii "yes"), some [98]] (letter C A P (peer C)) .done) = (.ok, w') ∧
      rec.keys = some (peer C) ∧ SignedRec C (owner C) rec ∧
      Replaced C J (start J f [some (ascii "maybe"), some (ascii "yes"), some [98]] (letter C A P (peer C)) .done) [107] (owner C) f ((keys C).set [98] (some rec)) w' := by
  obtain ⟨f, -, ho, hk⟩ := store C J
  have hfl : Imports { path := [107], import_ := true, untrusted := true } := ⟨⟨rfl, rfl, rfl, rfl, rfl⟩, rfl, rfl, rfl, rfl⟩
  have hc : Confirmed [some (ascii "maybe"), some (ascii "yes"), some [98]] [some [98]] := ⟨[ascii "maybe"], rfl, by decide⟩
  have hv : Holds A P (letter C A P (peer C)) (statement C (List.replicate 32 3) (List.replicate 32 4) (peer C) 7) := enc_holds A P _
  have hp : (peer C).length = 64 := ownerOf_length C _ _
  obtain ⟨w', h⟩ := C130_untrusted_accepted C A P J e _ hfl rfl [105] [] (start J f [some (ascii "maybe"), some (ascii "yes"), some [98]] (letter C A P (peer C)) .done)
    _ _ [112] f (keys C) _ _ _ (hk _ _ _) ho rfl (start_input J _ _ _ _) rfl [98] _ hc (Or.inr ⟨rfl, [], rfl⟩) (by decide) (keys_other C (by decide)) hv hp
  rcases C130_untrusted_partial C A P J e _ hfl rfl [105] [] _ w' _ _ _ [112] f (keys C) _ _ (hk _ _ _) ho rfl (start_input J _ _ _ _) (fun k h => by cases (show WriteOutcome.done = .failsAfter k from h)) (start_clock J _ _ _ _) h with
    h1 | ⟨-, h1, -⟩ | ⟨-, as2, l, v, rec, h1, h2, h3, h4, h5, h6, h7, h8, h9, h10⟩
  · exact absurd rfl h1.1
  · exact absurd hc (h1 _)
  · obtain ⟨pre, g1, g2⟩ := h1
    have g3 : l = [98] := by
      rcases h2 with ⟨h2, -⟩ | ⟨-, r, h2⟩
      · exact absurd rfl h2
      · subst h2
        match pre with
        | [] => simp [ascii] at g1
        | [_] => simp at g1; exact g1.2.1.symm
        | [_, x] => simp at g1
        | _ :: _ :: _ :: _ => simp at g1
    subst g3
    have g4 : v = statement C (List.replicate 32 3) (List.replicate 32 4) (peer C) 7 := by
      obtain ⟨b, e1, e2⟩ := hv
      obtain ⟨b', e3, e4⟩ := h5
      rw [e1] at e3
      cases e3
      rw [e2] at e4
      cases e4
      rfl
    subst g4
    exact ⟨f, w', rec, h, h7, h9, h10⟩

/-- `-u`: the input ends before an answer; the run succeeds and imports nothing. -/
example (e : Env) (pk : Bytes) : ∃ (f : KeyFields) (w' : World),
    main C A P J e { path := [107], import_ := true, untrusted := true } [[105]] (start J f [some (ascii "maybe")] (letter C A P pk) .done) = (.ok, w') ∧
      Replaced C J (start J f [some (ascii "maybe")] (letter C A P pk) .done) [107] (owner C) f (keys C) w' := by
  obtain ⟨f, -, ho, hk⟩ := store C J
  obtain ⟨w', h⟩ := C130_unread_violated C A P J e { path := [107], import_ := true, untrusted := true } ⟨⟨rfl, rfl, rfl, rfl, rfl⟩, rfl, rfl, rfl, rfl⟩ rfl [105] []
    (start J f [some (ascii "maybe")] (letter C A P pk) .done) _ _ [112] f (keys C) _ _ (hk _ _ _) ho rfl ⟨[ascii "maybe"], by decide, Or.inl rfl⟩ (start_input J _ _ _ _) rfl
    (start_clock J _ _ _ _) _ (enc_holds A P _)
  exact ⟨f, w', h⟩

/-- The only peer is removed. -/
example (e : Env) : ∃ (f : KeyFields) (w' : World) (f' : KeyFields), main C A P J e { path := [107], remove := true } [[97]] (start J f [] [] .done) = (.ok, w') ∧
    Keyring C J w'.fs [107] (owner C) f' ((keys C).erase [97]) := by
  obtain ⟨f, -, ho, hk⟩ := store C J
  have hfl : Removes { path := [107], remove := true } := ⟨⟨rfl, rfl, rfl, rfl, rfl⟩, rfl⟩
  obtain ⟨w', h⟩ := C131_removed C A P J e _ hfl [97] [] (start J f [] [] .done) (owner C) f (keys C) (hk _ _ _) rfl (by decide) (by rw [keys_peer]; simp)
  rcases C131_remove_partial C A P J e _ hfl [97] [] _ w' _ (owner C) f (keys C) (hk _ _ _) (fun k h => by cases (show WriteOutcome.done = .failsAfter k from h)) h with h1 | ⟨-, -, -, t, f', -, -, -, ⟨n, rfl⟩, h2⟩
  · exact absurd rfl h1.1
  · refine ⟨f, w', f', h, h2 (start_clock J _ _ _ _ _) ?_⟩
    intro l' r r' h3 h4 h5
    rw [keys_other C h5] at h3
    cases h3

/-- The disk is full after five bytes: the run fails, and these are all that is left of the store. -/
example (e : Env) : ∃ (f : KeyFields) (w' : World) (b : Bytes), main C A P J e { path := [107], remove := true } [[97]] (start J f [] [] (.failsAfter 5)) = (.err, w') ∧
    w'.fs [107] = some b ∧ b.length ≤ 5 := by
  obtain ⟨f, -, ho, hk⟩ := store C J
  obtain ⟨w', b, h⟩ := C129_torn_violated C A P J e { path := [107], remove := true } ⟨⟨rfl, rfl, rfl, rfl, rfl⟩, rfl⟩ [97] [] (start J f [] [] (.failsAfter 5)) (owner C) f (keys C)
    (hk _ _ _) 5 rfl (by decide) (by rw [keys_peer]; simp)
  exact ⟨f, w', b, h⟩

/-- The peer's key is exported to the file "o". -/
example : ∃ (e : Env) (f : KeyFields) (w' : World) (t : BitVec 64), main C A P J e { path := [107], export_ := true, label := [97] } [[111]] (start J f [] [] .done) = (.ok, w') ∧
    w'.fs [111] = some (P.enc (ascii "CRYPTUTIL VERIFIED KEY") (A.enc (statement C (List.replicate 32 1) (List.replicate 32 2) (peer C) t))) := by
  obtain ⟨f, -, ho, hk⟩ := store C J
  obtain ⟨n, hn⟩ := C132_export_partial C A P J { path := [107], export_ := true, label := [97] } ⟨⟨rfl, rfl, rfl, rfl, rfl⟩, rfl, rfl, rfl⟩ [111] [] (start J f [] [] .done) _ _ [112] f (keys C)
    [] (hk _ _ _) ho rfl (keys_distinct C) _ (keys_peer C) (fun _ => rfl)
  obtain ⟨e, he, hw⟩ := exEnv n
  have hfin : (keys C).Finite := Map.finite_empty.set _ _
  obtain ⟨w', t, out, h1, h2, rfl⟩ := hn e (by omega) (fun i => (hw _ hfin).2 _ i)
  refine ⟨e, f, w', t, h1, ?_⟩
  unfold Output at h2
  rw [if_neg (by decide)] at h2
  rw [h2.2]
  exact Fs.set_same _ _ _

/-- The store was made before export keys were: the own key cannot be exported. -/
example (e : Env) : ∃ (f : KeyFields) (w' : World), main C A P J e { path := [107], export_ := true } [[111]] (start J f [] [] .done) = (.err, w') ∧
    w'.fs = (start J f [] [] .done).fs := by
  obtain ⟨f, hx, ho, hk⟩ := store C J
  obtain ⟨w', h1, -, h2⟩ := FcryptExport.C132_unexported_violated C A P J e { path := [107], export_ := true } ⟨⟨rfl, rfl, rfl, rfl, rfl⟩, rfl, rfl, rfl⟩ rfl [111] [] (start J f [] [] .done)
    (owner C) f (keys C) (hk _ _ _) hx
  exact ⟨f, w', h1, h2⟩

/-- It can after the store has been checked. -/
example : ∃ (e : Env) (f f' : KeyFields) (w' : World) (t : BitVec 64), main C A P J e { path := [107], check := true } [] (start J f [] [] .done) = (.ok, w') ∧
    Keyring C J w'.fs [107] (owner C) f' (keys C) ∧
    f'.exportKey = some (P.enc (ascii "CRYPTUTIL VERIFIED KEY") (A.enc (statement C (List.replicate 32 1) (List.replicate 32 2) (owner C) t))) := by
  obtain ⟨f, hx, ho, hk⟩ := store C J
  obtain ⟨e, -, hw⟩ := exEnv 0
  have hfin : (keys C).Finite := Map.finite_empty.set _ _
  obtain ⟨n, hn⟩ := C133_accepts_partial C A P J { path := [107], check := true } rfl [] (start J f [] [] .done) _ _ [112] f (keys C) [] (hk _ _ _) ho rfl (keys_distinct C) rfl
    (e.order 0 (keys C)) ((hw _ hfin).1 0)
  obtain ⟨w', h1, -⟩ := hn { e with fuel := n } (Nat.le_refl _) rfl (fun l i => (hw _ hfin).2 l i)
  obtain ⟨f', x, t, h2, -, h3, rfl⟩ := FcryptExport.C132_checked_partial C A P J { e with fuel := n } { path := [107], check := true } rfl [] (start J f [] [] .done) w' _ _ [112] f (keys C) [] (hk _ _ _) ho rfl hx
    (start_clock J _ _ _ _) h1
  exact ⟨{ e with fuel := n }, f, f', w', t, h1, h2, h3⟩

end Verif.Props.FcryptCases
