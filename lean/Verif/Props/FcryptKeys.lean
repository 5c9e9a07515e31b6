import Verif.Props.FcryptFiles
import Verif.Props.KeyImport
/-! Properties of fcrypt: importing, removing, exporting, checking and listing keys. -/

namespace Verif.Props.FcryptKeys
open Verif Verif.Go Verif.Model.Util Verif.Model.Public Verif.Model.KeyStore Verif.Model.Fcrypt
open Verif.Spec.Public Verif.Spec.KeyStore Verif.Spec.Fcrypt
open Verif.Proofs.Public Verif.Proofs.KeyStore Verif.Proofs.Fcrypt Verif.Props.KeyTrust Verif.Props.KeyImport
open Verif.Props.Fcrypt Verif.Props.FcryptFiles

variable (C : Crypto) (A : Asn1) (P : Armour) (J : KeyJson)

theorem lock_fields {s s' : KeyStore} {b : Bool} (h : s.lock = .ok (s', b)) : s'.toKeyFields = s.toKeyFields := by
  unfold KeyStore.lock at h
  obtain ⟨v, hv, h⟩ := Res.bind_eq_ok.mp h
  cases v with
  | false => simp at h; rw [← h.1]
  | true =>
    simp only [Bool.not_true, Bool.false_eq_true, if_false] at h
    split at h
    · simp at h; rw [← h.1]
    · obtain ⟨z, hz, h⟩ := Res.bind_eq_ok.mp h
      simp at h
      rw [← h.1]

theorem dump_eq (s : KeyStore) : ∃ s', dumpKeyStore J s = .ok (J.enc s.toKeyFields, s') := by
  unfold dumpKeyStore
  cases hl : s.lock with
  | panic => exact absurd hl (lock_no_panic s)
  | ok x =>
    obtain ⟨s', b⟩ := x
    exact ⟨s', by simp [lock_fields hl]⟩

/-- What is written at the end. -/
def stamped (f : KeyFields) (t : BitVec 64) : KeyFields := { f with timestamp := t }

/-- The end of `main` when the store is written. -/
theorem finish_writes (fl : Flags) (u : Bool) (ks : KeyStore) (w : World) :
    ∃ w', finish J fl true u ks w = (if w.writes 0 = .done then .ok else .err, w') ∧
      w'.fs = (Go.writeFile (w.writes 0) w.fs fl.path (J.enc (stamped ks.toKeyFields (w.term.clock 0)))).1 ∧
      w'.stdout = w.stdout ++ ascii "Writing keystore.\n" := by
  unfold finish
  simp only [Bool.true_or, if_true, now_eq]
  unfold writeStore
  obtain ⟨s', hs⟩ := dump_eq J { ks with timestamp := w.term.clock 0 }
  rw [hs]
  simp only [Res.ok_bind, Res.pure_eq]
  have hw : ((later w 1).print (ascii "Writing keystore.\n")).writes 0 = w.writes 0 := rfl
  have hf : ((later w 1).print (ascii "Writing keystore.\n")).fs = w.fs := rfl
  unfold World.save
  rw [hw, hf]
  cases ho : w.writes 0 with
  | done =>
    cases u with
    | false => exact ⟨_, rfl, rfl, rfl⟩
    | true =>
      simp only [Go.writeFile, if_true]
      cases hl : s'.lock with
      | panic => exact absurd hl (lock_no_panic s')
      | ok => exact ⟨_, rfl, rfl, rfl⟩
  | openFails => exact ⟨_, rfl, rfl, rfl⟩
  | failsAfter k => exact ⟨_, rfl, rfl, rfl⟩

/-- Maps are finite, and the strings in the metadata are UTF-8. -/
def Tidy (m : Keys) : Prop :=
  m.Finite ∧ ∀ k r md, m k = some (some r) → r.metadata = some md → md.Finite ∧ ∀ j x, md j = some x → ValidUtf8 j ∧ ValidUtf8 x

theorem keyring_tidy {fs : Fs} {path owner : Bytes} {f : KeyFields} {m : Keys} (h : Keyring C J fs path owner f m) :
    Tidy m ∧ ∀ l, m l ≠ none → ValidUtf8 l := by
  obtain ⟨data, -, hd⟩ := h.file
  have hf := J.dec_finite _ _ hd
  have hc := J.dec_clean _ _ hd
  have hk := h.keys
  cases hq : f.keys with
  | none =>
    rw [hq] at hk
    simp only [Option.getD_none] at hk
    subst hk
    exact ⟨⟨Map.finite_empty, fun k r md h => by cases h⟩, fun l h => absurd rfl h⟩
  | some m' =>
    rw [hq] at hk
    simp only [Option.getD_some] at hk
    subst hk
    refine ⟨⟨(hf _ hq).1, fun k r md h1 h2 => ⟨(hf _ hq).2 k r md h1 h2, fun j x h3 => ?_⟩⟩, fun l hl => ?_⟩
    · exact ((hc _ hq k _ h1).2 r rfl).2 md j x h2 h3
    · cases hv : m' l with
      | none => exact absurd hv hl
      | some v => exact (hc _ hq l v hv).1

theorem Tidy.set {m : Keys} (h : Tidy m) (label : Bytes) {r : PublicKeyRecord}
    (hr : ∀ md, r.metadata = some md → md = Map.empty) : Tidy (m.set label (some r)) := by
  refine ⟨h.1.set _ _, fun k r' md h1 h2 => ?_⟩
  by_cases hk : k = label
  · subst hk
    rw [Map.set_same] at h1
    cases h1
    have := hr md h2
    subst this
    exact ⟨Map.finite_empty, fun j x h => by cases h⟩
  · rw [Map.set_other _ _ hk] at h1
    exact h.2 k r' md h1 h2

theorem Tidy.erase {m : Keys} (h : Tidy m) (label : Bytes) : Tidy (m.erase label) := by
  refine ⟨h.1.erase _, fun k r' md h1 h2 => ?_⟩
  by_cases hk : k = label
  · subst hk
    rw [Map.erase_same] at h1
    cases h1
  · rw [Map.erase_other _ hk] at h1
    exact h.2 k r' md h1 h2

/-- A sound store that is written can be read again. -/
theorem keyring_written {ks : KeyStore} {owner : Bytes} {m : Keys} (h : Sound C ks owner m) (hl : ks.lockedKey ≠ none) (ht : Tidy m)
    {t : BitVec 64} (hz : t ≠ 0) (hu : ∀ l, m l ≠ none → ValidUtf8 l) (fs : Fs) (path : Bytes) :
    Keyring C J (fs.set path (J.enc (stamped ks.toKeyFields t))) path owner (stamped ks.toKeyFields t) m := by
  have hk : (stamped ks.toKeyFields t).keys = some m := h.keys
  refine ⟨⟨_, Fs.set_same _ _ _, J.dec_enc _ ?_ ?_⟩, ((quick_iff _).mp h.quick).1, hz, h.pub, h.len, ?_, h.noNil, h.labelled, h.noSelf, h.trust, hl⟩
  · intro m' hm'
    rw [hk] at hm'
    cases hm'
    exact ⟨ht.1, fun k r md h1 h2 => (ht.2 k r md h1 h2).1⟩
  · intro m' hm' k v hv
    rw [hk] at hm'
    cases hm'
    have hkv : ValidUtf8 k := hu k (by rw [hv]; simp)
    refine ⟨hkv, fun r hr => ?_⟩
    subst hr
    rw [h.labelled k r hv]
    exact ⟨hkv, fun md j x h1 h2 => (ht.2 k r md hv h1).2 j x h2⟩
  · rw [hk]; rfl

/-- The end of `main`, when a sound store is written to a disk that fails only on opening. -/
theorem finish_replaced {fl : Flags} {ks : KeyStore} {owner : Bytes} {m : Keys} {f : KeyFields} {w : World} (u : Bool) (h : Sound C ks owner m)
    (hl : ks.lockedKey = f.lockedKey) (hn : f.lockedKey ≠ none) (ht : Tidy m) (hz : w.term.clock 0 ≠ 0)
    (hw : ∀ k, w.writes 0 ≠ .failsAfter k) :
    ∃ w', (finish J fl true u ks w = (.ok, w') ∧ w.writes 0 = .done ∧ Replaced C J w fl.path owner f m w') ∨
      (finish J fl true u ks w = (.err, w') ∧ w.writes 0 ≠ .done ∧ w'.fs = w.fs) := by
  obtain ⟨w', h1, h2, -⟩ := finish_writes J fl u ks w
  refine ⟨w', ?_⟩
  cases ho : w.writes 0 with
  | done =>
    rw [ho] at h1 h2
    refine Or.inl ⟨h1, rfl, stamped ks.toKeyFields (w.term.clock 0), h2, h.keys, hl, h.pub, fun hu => ?_⟩
    rw [h2]
    exact keyring_written C J h (by rw [hl]; exact hn) ht hz hu w.fs fl.path
  | openFails =>
    rw [ho] at h1 h2
    exact Or.inr ⟨h1, by simp, h2⟩
  | failsAfter k => exact absurd ho (hw k)

/-! ### C130: importing keys -/

theorem Asked.unique {fl : Flags} {as : List (Option Bytes)} {l l' : Bytes} (h : Asked fl as l) (h' : Asked fl as l') : l = l' := by
  rcases h with ⟨h1, h2⟩ | ⟨h1, r, h2⟩ <;> rcases h' with ⟨h1', h2'⟩ | ⟨h1', r', h2'⟩
  · rw [h2, h2']
  · exact absurd h1' h1
  · exact absurd h1 h1'
  · rw [h2] at h2'
    cases h2'
    rfl

theorem askLabel_cases (fl : Flags) (w : World) :
    (∃ l w1, askLabel fl.label w = (some l, w1) ∧ Asked fl w.term.answers l ∧ SameButTerm w w1 ∧ w1.term.clock = w.term.clock) ∨
    (∃ w1, askLabel fl.label w = (none, w1) ∧ (∀ l, ¬ Asked fl w.term.answers l) ∧ SameButTerm w w1 ∧ w1.term.clock = w.term.clock) := by
  unfold askLabel
  by_cases h : fl.label = self
  · rw [if_pos h]
    cases ha : w.term.answers with
    | nil =>
      rw [read_nil ha]
      refine Or.inr ⟨w, rfl, ?_, SameButTerm.refl w, rfl⟩
      rintro l (⟨h1, -⟩ | ⟨-, r, h2⟩)
      · exact h1 h
      · cases h2
    | cons a as =>
      rw [read_cons ha]
      cases a with
      | none =>
        refine Or.inr ⟨_, rfl, ?_, same_rest w as, rfl⟩
        rintro l (⟨h1, -⟩ | ⟨-, r, h2⟩)
        · exact h1 h
        · cases h2
      | some l => exact Or.inl ⟨l, _, rfl, Or.inr ⟨h, as, rfl⟩, same_rest w as, rfl⟩
  · rw [if_neg h]
    exact Or.inl ⟨_, w, rfl, Or.inl ⟨h, rfl⟩, SameButTerm.refl w, rfl⟩

theorem parse_iff (input : Bytes) (v : VerifiedKey) : parseVerifiedKey A P.toPem input = some v ↔ Holds A P input v := by
  unfold parseVerifiedKey Holds
  cases hd : P.dec input with
  | none => simp
  | some x =>
    obtain ⟨typ, body⟩ := x
    simp only [Option.some.injEq, Prod.mk.injEq, ite_not]
    constructor
    · intro h
      split at h
      · rename_i ht
        exact ⟨body, ⟨ht, rfl⟩, h⟩
      · cases h
    · rintro ⟨b, ⟨rfl, rfl⟩, h⟩
      exact (if_pos rfl).trans h

/-- The record under which an imported key is filed. -/
def imported (label : Bytes) (v : VerifiedKey) (now : BitVec 64) : PublicKeyRecord :=
  { label := label, version := 1, timestamp := now, keys := some v.pub, keySignature := v.signature
    keySigner := v.signer, signatureTime := v.timestamp, metadata := none }

theorem importKey_cases {s : KeyStore} {owner : Bytes} {m : Keys} (h : Sound C s owner m) (label input : Bytes) (o1 o2 : List Bytes)
    (now : BitVec 64) :
    s.importVerifiedKey C A P.toPem label input o1 o2 now = .ok (s, false) ∨
    ∃ v s', s.importVerifiedKey C A P.toPem label input o1 o2 now = .ok (s', true) ∧ label ≠ self ∧ m label = none ∧
      Holds A P input v ∧ Vouched C owner m v ∧ s' = { s with keys := some (m.set label (some (imported label v now))) } ∧
      Sound C s' owner (m.set label (some (imported label v now))) := by
  unfold KeyStore.importVerifiedKey
  cases hd : P.dec input with
  | none => exact Or.inl rfl
  | some x =>
    obtain ⟨typ, body⟩ := x
    simp only
    by_cases ht : typ = verifiedKeyType
    · subst ht
      rw [if_neg (by simp)]
      cases hi : s.importVerified C A label body o1 o2 now with
      | panic => exact absurd hi (import_no_panic C h.keys h.noNil h.labelled)
      | ok x =>
        obtain ⟨s', b⟩ := x
        rcases C59_import_checked_partial C A s s' m h.keys h.labelled label body o1 o2 now b hi with ⟨rfl, rfl⟩ | ⟨rfl, h1, h2, v, h3, h4, h5, h6⟩
        · exact Or.inl rfl
        · rw [sound_pub C h] at h4
          refine Or.inr ⟨v, s', rfl, h1, h2, ⟨body, hd, h3⟩, ⟨h4, h5⟩, h6, ?_⟩
          rw [h6]
          exact sound_set C h h1 h2 rfl h5 h4
    · rw [if_pos ht]
      exact Or.inl rfl

/-- The import command without -u. -/
theorem importVerified_cases {e : Env} {fl : Flags} {src : Bytes} {rest : List Bytes} {ks : KeyStore} {owner : Bytes} {m : Keys} {w : World}
    {input : Bytes} (h : Sound C ks owner m) (hin : Input w src input) :
    ∃ r ks' w', importVerified C A P e ks (config fl (src :: rest)) w = (r, ks', w') ∧ w'.fs = w.fs ∧ w'.writes = w.writes ∧
      (∃ n, w'.term.clock = fun i => w.term.clock (i + n)) ∧
      (r = .ok → ∃ label v t, Asked fl w.term.answers label ∧ label ≠ self ∧ m label = none ∧ Holds A P input v ∧ Vouched C owner m v ∧
        ks' = { ks with keys := some (m.set label (some (imported label v t))) } ∧
        Sound C ks' owner (m.set label (some (imported label v t)))) := by
  unfold importVerified
  dsimp only [config]
  obtain ⟨w1, h1, h2, -, -, h3, h4, -, -⟩ := readFile_some hin
  rw [h1]
  dsimp only
  rcases askLabel_cases fl w1 with ⟨l, w2, ha, hl, hsame, hclk⟩ | ⟨w2, ha, -, hsame, hclk⟩
  · rw [ha]
    dsimp only
    rw [now_eq]
    dsimp only
    have hck : (later w2 1).term.clock = fun i => w.term.clock (i + 1) := by
      show (fun i => w2.term.clock (i + 1)) = _
      rw [hclk, h3]
    rcases importKey_cases C A P h l input (e.order 0 (ks.keys.getD Map.empty)) (e.order 1 (ks.keys.getD Map.empty)) (w2.term.clock 0) with
      hi | ⟨v, s', hi, g1, g2, g3, g4, g5, g6⟩
    · rw [hi]
      exact ⟨_, _, _, rfl, hsame.fs.trans h2, hsame.writes.trans h4, ⟨1, hck⟩, by simp⟩
    · rw [hi]
      simp only [after, Bool.not_true, Bool.false_eq_true, if_false]
      rw [(parse_iff A P input v).mpr g3]
      simp only
      rw [h3] at hl
      cases hf : s'.findPublic v.signer (e.order 2 (s'.keys.getD Map.empty)) with
      | panic => exact ⟨_, _, _, rfl, hsame.fs.trans h2, hsame.writes.trans h4, ⟨1, hck⟩, by simp⟩
      | ok x =>
        cases x with
        | none => exact ⟨_, _, _, rfl, hsame.fs.trans h2, hsame.writes.trans h4, ⟨1, hck⟩, by simp⟩
        | some sl =>
          exact ⟨_, _, _, rfl, hsame.fs.trans h2, hsame.writes.trans h4, ⟨1, hck⟩, fun _ => ⟨l, v, _, hl, g1, g2, g3, g4, g5, g6⟩⟩
  · rw [ha]
    exact ⟨_, _, _, rfl, hsame.fs.trans h2, hsame.writes.trans h4, ⟨0, by rw [hclk, h3]; rfl⟩, by simp⟩

/-- fcrypt -import without -u: either it fails and no file changes, or it succeeds, and the key store
file gains one record, under the label asked for, which was not in use, with the key from a
statement that the owner or someone on record signed. Missing from the property: writes that fail
half way, a clock at 0. -/
theorem C130_import_partial (e : Env) (fl : Flags) (hfl : Imports fl) (hu : fl.untrusted = false) (src : Bytes) (rest : List Bytes)
    (w w' : World) (r : Ret) (d seed pass : Bytes) (f : KeyFields) (m : Keys) (as : List (Option Bytes)) (input : Bytes)
    (hk : Keyring C J w.fs fl.path (ownerOf C d seed) f m) (ho : Opens C f d seed pass) (ha : w.term.answers = some pass :: as)
    (hin : Input w src input) (hw : ∀ k, w.writes 0 ≠ .failsAfter k) (hclk : ∀ n, w.term.clock n ≠ 0)
    (hm : main C A P J e fl (src :: rest) w = (r, w')) :
    (r ≠ .ok ∧ w'.fs = w.fs) ∨
    (r = .ok ∧ ∃ label v rec, Asked fl as label ∧ label ≠ self ∧ m label = none ∧ Holds A P input v ∧ Vouched C (ownerOf C d seed) m v ∧
      rec.label = label ∧ rec.keys = some v.pub ∧ rec.keySigner = v.signer ∧ rec.keySignature = v.signature ∧
      rec.signatureTime = v.timestamp ∧ Replaced C J w fl.path (ownerOf C d seed) f (m.set label (some rec)) w') := by
  rw [main_unlocked C A P J (select_import C A P hfl hu) hk.keyfile ho rfl (by simp) ha] at hm
  obtain ⟨hs, -⟩ := opened_sound C J (x := exported C A P f d seed (w.term.clock 2)) hk ho
  obtain ⟨r1, ks1, w1, h1, h2, h3, ⟨n, h4⟩, h5⟩ := importVerified_cases C A P (e := e) (fl := fl) (rest := rest) hs
    ((⟨rfl, rfl, rfl, rfl, rfl, rfl⟩ : Noted w (notice f) ((later (Proofs.Fcrypt.rest w as) 3).print (notice f))).input hin)
  simp only [Bool.true_or] at hm
  rw [h1] at hm
  by_cases hr : r1 = .ok
  · subst hr
    obtain ⟨label, v, t, g1, g2, g3, g4, g5, g6, g7⟩ := h5 rfl
    obtain ⟨w2, hq⟩ := finish_replaced C J (fl := fl) (f := f) (w := w1) true g7 (by rw [g6]; rfl) hk.locked
      ((keyring_tidy C J hk).1.set label (by intro md hmd; cases hmd)) (by rw [h4]; exact hclk _) (by rw [h3]; exact hw)
    have hm' : finish J fl true true ks1 w1 = (r, w') := hm
    rcases hq with ⟨q1, q2, f', q3, q4⟩ | ⟨q1, -, q3⟩
    · rw [q1] at hm'
      cases hm'
      rw [h2] at q3
      exact Or.inr ⟨rfl, label, v, _, g1, g2, g3, g4, g5, rfl, rfl, rfl, rfl, rfl, f', q3, q4⟩
    · rw [q1] at hm'
      cases hm'
      exact Or.inl ⟨by simp, q3.trans h2⟩
  · rw [conclude_fail J hr] at hm
    cases hm
    exact Or.inl ⟨hr, h2⟩

theorem enc_holds (v : VerifiedKey) : Holds A P (P.enc (ascii "CRYPTUTIL VERIFIED KEY") (A.enc v)) v :=
  ⟨_, P.dec_enc _ _ (by decide) (A.enc_ne _), A.dec_enc v⟩

/-- There is a runtime that iterates over maps. -/
theorem exEnv (fuel : Nat) : ∃ e : Env, e.fuel = fuel ∧ ∀ m' : Keys, m'.Finite → (∀ n, m'.Enumerates (e.order n m')) ∧ ∀ l i, m'.Enumerates (e.walk l i m') := by
  have key : ∀ m' : Keys, ∃ o, m'.Finite → m'.Enumerates o := by
    intro m'
    by_cases h : m'.Finite
    · obtain ⟨o, ho⟩ := h.enumerates
      exact ⟨o, fun _ => ho⟩
    · exact ⟨[], fun h' => absurd h' h⟩
  obtain ⟨g, hg⟩ := Classical.axiomOfChoice key
  exact ⟨⟨fun _ => g, fun _ _ => g, fuel, fun _ => [], fun b => b⟩, rfl, fun m' hm => ⟨fun _ => hg m' hm, fun _ _ => hg m' hm⟩⟩

/-- A vouched key is imported, if its label is free and the file can be written. Missing from the
property: stores with a record under the empty label. -/
theorem C130_accepted_partial (e : Env) (fl : Flags) (hfl : Imports fl) (hu : fl.untrusted = false) (src : Bytes) (rest : List Bytes)
    (w : World) (d seed pass : Bytes) (f : KeyFields) (m : Keys) (as : List (Option Bytes)) (input : Bytes)
    (hk : Keyring C J w.fs fl.path (ownerOf C d seed) f m) (ho : Opens C f d seed pass) (ha : w.term.answers = some pass :: as)
    (hin : Input w src input) (hw : w.writes 0 = .done) (he : ∀ n (m' : Keys), m'.Finite → m'.Enumerates (e.order n m'))
    (label : Bytes) (v : VerifiedKey) (hl : Asked fl as label) (h1 : label ≠ self) (h2 : m label = none) (hz : m [] = none)
    (h3 : Holds A P input v) (h4 : Vouched C (ownerOf C d seed) m v) :
    ∃ w', main C A P J e fl (src :: rest) w = (.ok, w') := by
  rw [main_unlocked C A P J (select_import C A P hfl hu) hk.keyfile ho rfl (by simp) ha]
  obtain ⟨hs, -⟩ := opened_sound C J (x := exported C A P f d seed (w.term.clock 2)) hk ho
  have htidy := (keyring_tidy C J hk).1
  obtain ⟨w1, r1, r2, -, -, r3, r4, -, -⟩ := readFile_some ((⟨rfl, rfl, rfl, rfl, rfl, rfl⟩ : Noted w (notice f) ((later (Proofs.Fcrypt.rest w as) 3).print (notice f))).input hin)
  simp only [Bool.true_or]
  unfold importVerified
  dsimp only [config]
  rw [r1]
  dsimp only
  rcases askLabel_cases fl w1 with ⟨l, w2, hask, hl', hsame, hclk⟩ | ⟨w2, -, hno, -⟩
  · rw [hask]
    dsimp only
    rw [now_eq]
    dsimp only
    have hll : l = label := by
      rw [r3] at hl'
      exact Asked.unique hl' hl
    subst hll
    obtain ⟨body, b1, b2⟩ := h3
    have hkeys : (opened C f m d seed (exported C A P f d seed (w.term.clock 2))).keys.getD Map.empty = m := rfl
    have himp := import_complete C hs hz (he 0 m htidy.1) (he 1 m htidy.1) b2 h1 h2 h4.2 h4.1 (w2.term.clock 0)
    unfold KeyStore.importVerifiedKey
    rw [b1]
    simp only
    rw [if_neg (by intro h; exact h rfl), hkeys, himp]
    simp only [after, Bool.not_true, Bool.false_eq_true, if_false]
    rw [(parse_iff A P input v).mpr ⟨body, b1, b2⟩]
    simp only
    have hs' := sound_set C hs h1 h2 (r := imported l v (w2.term.clock 0)) rfl h4.2 h4.1
    rcases C92_find_exact_partial _ _ hs'.keys hs'.noNil hs'.labelled v.signer (e.order 2 (m.set l (some (imported l v (w2.term.clock 0)))))
      (he 2 _ (htidy.1.set _ _)) with ⟨sl, hf, -⟩ | ⟨-, c2, c3⟩
    · have hf' : ({ (opened C f m d seed (exported C A P f d seed (w.term.clock 2))) with keys := some (m.set l (some (imported l v (w2.term.clock 0)))) } : KeyStore).findPublic
        v.signer (e.order 2 (m.set l (some (imported l v (w2.term.clock 0))))) = .ok (some sl) := hf
      unfold imported at hf'
      simp only [Option.getD_some]
      rw [hf']
      obtain ⟨w', q1, -⟩ := finish_writes J fl true
        ({ (opened C f m d seed (exported C A P f d seed (w.term.clock 2))) with keys := some (m.set l (some (imported l v (w2.term.clock 0)))) })
        ((later w2 1).print (ascii "Imported public key signed by '" ++ sl ++ ascii "'.\n"))
      have hw2 : ((later w2 1).print (ascii "Imported public key signed by '" ++ sl ++ ascii "'.\n")).writes 0 = .done := by
        show w2.writes 0 = .done
        rw [hsame.writes, r4]
        exact hw
      rw [hw2] at q1
      exact ⟨w', q1⟩
    · exfalso
      rw [sound_pub C hs'] at c2
      rcases h4.1 with c | ⟨l', r', c4, c5⟩
      · exact c2 c
      · refine c3 l' r' ?_ c5
        rw [Map.set_other _ _ ?_]
        · exact c4
        · rintro rfl
          rw [h2] at c4
          cases c4
  · rw [r3] at hno
    exact absurd hl (hno label)

theorem not_utf8 {w' : World} {path owner label : Bytes} (hl : ¬ ValidUtf8 label) :
    ∀ g mg, Keyring C J w'.fs path owner g mg → mg label = none := by
  intro g mg hk
  cases hv : mg label with
  | none => rfl
  | some v => exact absurd ((keyring_tidy C J hk).2 label (by rw [hv]; simp)) hl

/-- The hypotheses can be met: a key signed by someone on record is imported, under any label that is
not in use, UTF-8 or not. -/
example (pk label : Bytes) (h1 : label ≠ [97]) (h2 : label ≠ self) : ∃ (e : Env) (fl : Flags) (w : World) (d seed pass : Bytes) (f : KeyFields) (m : Keys) (input : Bytes) (v : VerifiedKey),
    Imports fl ∧ fl.untrusted = false ∧ Keyring C J w.fs fl.path (ownerOf C d seed) f m ∧ Opens C f d seed pass ∧ w.term.answers = some pass :: [] ∧
    Input w [105] input ∧ w.writes 0 = .done ∧ (∀ n (m' : Keys), m'.Finite → m'.Enumerates (e.order n m')) ∧ Asked fl [] label ∧ m label = none ∧
    m [] = none ∧ Holds A P input v ∧ Vouched C (ownerOf C d seed) m v ∧ v.pub = pk := by
  obtain ⟨e, -, he⟩ := exEnv 5
  obtain ⟨f, -, ho, hk⟩ := exKeyring C J (List.replicate 32 1) (List.replicate 32 2) [97] (ownerOf C (List.replicate 32 3) (List.replicate 32 4))
    [112] none (by decide) (by decide) (by decide) (by decide)
  refine ⟨e, { path := [107], import_ := true, label := label }, exWorld J f [112] (P.enc (ascii "CRYPTUTIL VERIFIED KEY")
    (A.enc (statement C (List.replicate 32 3) (List.replicate 32 4) pk 7))), _, _, _, f, _, _, _, ⟨⟨rfl, rfl, rfl, rfl, rfl⟩, rfl, rfl, rfl, rfl⟩, rfl, hk _ _, ho, rfl,
    exInput J f [112] _, rfl, fun n m' hm => (he m' hm).1 n, Or.inl ⟨h2, rfl⟩, ?_, ?_, enc_holds A P _,
    ⟨Or.inr ⟨[97], _, Map.set_same _ _ _, rfl⟩, statement_signed C _ _ _ _ (by decide)⟩, rfl⟩
  · unfold peerKeys
    rw [Map.set_other _ _ h1]
    rfl
  · unfold peerKeys
    rw [Map.set_other _ _ (by decide)]
    rfl

/-- C130 is false of labels that are not UTF-8: the import succeeds and the file is replaced, but
whatever key store is read from it has nothing under that label. -/
theorem C130_not_utf8_violated (e : Env) (fl : Flags) (hfl : Imports fl) (hu : fl.untrusted = false) (src : Bytes) (rest : List Bytes)
    (w : World) (d seed pass : Bytes) (f : KeyFields) (m : Keys) (as : List (Option Bytes)) (input : Bytes)
    (hk : Keyring C J w.fs fl.path (ownerOf C d seed) f m) (ho : Opens C f d seed pass) (ha : w.term.answers = some pass :: as)
    (hin : Input w src input) (hw : w.writes 0 = .done) (hclk : ∀ n, w.term.clock n ≠ 0)
    (he : ∀ n (m' : Keys), m'.Finite → m'.Enumerates (e.order n m'))
    (label : Bytes) (v : VerifiedKey) (hl : Asked fl as label) (h1 : ¬ ValidUtf8 label) (hz : m [] = none)
    (h3 : Holds A P input v) (h4 : Vouched C (ownerOf C d seed) m v) :
    ∃ w' f', main C A P J e fl (src :: rest) w = (.ok, w') ∧ w'.fs = w.fs.set fl.path (J.enc f') ∧
      (∃ m' rec, f'.keys = some m' ∧ m' label = some (some rec) ∧ rec.keys = some v.pub) ∧
      ∀ g mg, Keyring C J w'.fs fl.path (ownerOf C d seed) g mg → mg label = none := by
  have hself : label ≠ self := by
    rintro rfl
    exact h1 (by decide)
  have hfree : m label = none := by
    cases hv : m label with
    | none => rfl
    | some v => exact absurd ((keyring_tidy C J hk).2 label (by rw [hv]; simp)) h1
  obtain ⟨w', hm⟩ := C130_accepted_partial C A P J e fl hfl hu src rest w d seed pass f m as input hk ho ha hin hw he label v hl hself hfree hz h3 h4
  rcases C130_import_partial C A P J e fl hfl hu src rest w w' .ok d seed pass f m as input hk ho ha hin (by rw [hw]; simp) hclk hm with
    ⟨h, -⟩ | ⟨-, label', v', rec, g1, -, -, g2, -, -, g3, -, -, -, f', g4, g5, -⟩
  · exact absurd rfl h
  · have := Asked.unique g1 hl
    subst this
    have hv : v' = v := by
      have a1 := (parse_iff A P input v').mpr g2
      rw [(parse_iff A P input v).mpr h3] at a1
      cases a1
      rfl
    subst hv
    exact ⟨w', f', hm, g4, ⟨_, rec, g5, Map.set_same _ _ _, g3⟩, not_utf8 C J h1⟩

theorem confirm_none {as as2 : List (Option Bytes)} (h : confirm as = (none, as2)) : Confirmed as as2 := by
  induction as with
  | nil => cases h
  | cons a as ih =>
    cases a with
    | none => cases h
    | some line =>
      rw [confirm] at h
      by_cases h1 : line = ascii "yes"
      · rw [if_pos h1] at h
        cases h
        exact ⟨[], by rw [h1]; rfl, by simp⟩
      · rw [if_neg h1] at h
        by_cases h2 : line = ascii "no"
        · rw [if_pos h2] at h
          cases h
        · rw [if_neg h2] at h
          obtain ⟨pre, g1, g2⟩ := ih h
          refine ⟨line :: pre, by rw [g1]; rfl, ?_⟩
          intro x hx
          cases hx with
          | head => exact ⟨h1, h2⟩
          | tail _ hx => exact g2 x hx

theorem confirm_yes {as as2 : List (Option Bytes)} (h : Confirmed as as2) : confirm as = (none, as2) := by
  obtain ⟨pre, rfl, h⟩ := h
  induction pre with
  | nil => rfl
  | cons x pre ih =>
    show confirm (some x :: (pre.map some ++ some (ascii "yes") :: as2)) = _
    rw [confirm, if_neg (h x (by simp)).1, if_neg (h x (by simp)).2]
    exact ih fun y hy => h y (by simp [hy])

/-- The input ends, or cannot be read, before there is an answer. -/
theorem confirm_cases {as as2 : List (Option Bytes)} {r : Ret} (h : confirm as = (some r, as2)) : r = .ok ∨ r = .err := by
  induction as with
  | nil => cases h; exact Or.inl rfl
  | cons a as ih =>
    cases a with
    | none => cases h; exact Or.inl rfl
    | some line =>
      rw [confirm] at h
      by_cases h1 : line = ascii "yes"
      · rw [if_pos h1] at h
        cases h
      · rw [if_neg h1] at h
        by_cases h2 : line = ascii "no"
        · rw [if_pos h2] at h
          cases h
          exact Or.inr rfl
        · rw [if_neg h2] at h
          exact ih h

theorem confirm_unanswered {as : List (Option Bytes)} (h : Unanswered as) : ∃ as2, confirm as = (some .ok, as2) := by
  obtain ⟨pre, h1, h2⟩ := h
  induction pre generalizing as with
  | nil =>
    rcases h2 with rfl | ⟨t, rfl⟩
    · exact ⟨_, rfl⟩
    · exact ⟨_, rfl⟩
  | cons x pre ih =>
    rcases h2 with rfl | ⟨t, rfl⟩
    · show ∃ as2, confirm (some x :: pre.map some) = _
      rw [confirm, if_neg (h1 x (by simp)).1, if_neg (h1 x (by simp)).2]
      exact ih (fun y hy => h1 y (by simp [hy])) (Or.inl rfl)
    · show ∃ as2, confirm (some x :: (pre.map some ++ none :: t)) = _
      rw [confirm, if_neg (h1 x (by simp)).1, if_neg (h1 x (by simp)).2]
      exact ih (fun y hy => h1 y (by simp [hy])) (Or.inr ⟨t, rfl⟩)

theorem selfSigned_no_panic (v : VerifiedKey) : v.isSelfSigned C ≠ .panic := by
  unfold VerifiedKey.isSelfSigned
  split
  · simp
  · cases hu : unmarshalPublic v.signer with
    | none => simp
    | some p =>
      obtain ⟨-, rfl⟩ := unmarshalPublic_some hu
      simp only
      rw [verify_mk]
      simp

/-- The record of a key that the owner vouches for. -/
def added (C : Crypto) (d seed label pk : Bytes) (t1 t2 : BitVec 64) : PublicKeyRecord :=
  { label := label, version := 0, timestamp := t2, keys := some pk, keySignature := (statement C d seed pk t1).signature
    keySigner := ownerOf C d seed, signatureTime := t1, metadata := some Map.empty }

/-- The import command with -u. -/
theorem importUntrusted_cases {e : Env} {fl : Flags} {src : Bytes} {rest : List Bytes} {ks : KeyStore} {d seed : Bytes} {m : Keys} {w : World}
    {input : Bytes} (h : Sound C ks (ownerOf C d seed) m) (ho : Owned C d seed ks) (hs : seed.length = 32) (hin : Input w src input) :
    ∃ r ks' w', importUntrusted C A P e ks (config fl (src :: rest)) w = (r, ks', w') ∧ w'.fs = w.fs ∧ w'.writes = w.writes ∧
      (∃ n, w'.term.clock = fun i => w.term.clock (i + n)) ∧
      (r = .ok → (ks' = ks ∧ (∀ as2, ¬ Confirmed w.term.answers as2)) ∨
        ∃ as2 label v t1 t2, Confirmed w.term.answers as2 ∧ Asked fl as2 label ∧ label ≠ self ∧ m label = none ∧ Holds A P input v ∧
        v.pub.length = 64 ∧ ks' = { ks with keys := some (m.set label (some (added C d seed label v.pub t1 t2))) } ∧
        Sound C ks' (ownerOf C d seed) (m.set label (some (added C d seed label v.pub t1 t2)))) ∧
      (∀ v, Holds A P input v → (Unanswered w.term.answers ∨ ∃ as2 label, Confirmed w.term.answers as2 ∧ Asked fl as2 label ∧ label ≠ self ∧
        m label = none ∧ v.pub.length = 64) → r = .ok) := by
  unfold importUntrusted
  dsimp only [config]
  obtain ⟨w1, h1, h2, -, -, h3, h4, -, -⟩ := readFile_some hin
  rw [h1]
  dsimp only
  have hc0 : w1.term.clock = fun i => w.term.clock (i + 0) := by rw [h3]; rfl
  cases hp : parseVerifiedKey A P.toPem input with
  | none =>
    refine ⟨_, _, _, rfl, h2, h4, ⟨0, hc0⟩, by simp, fun v hv => ?_⟩
    rw [(parse_iff A P input v).mpr hv] at hp
    cases hp
  | some v =>
    dsimp only
    have hv := (parse_iff A P input v).mp hp
    have huniq : ∀ v', Holds A P input v' → v' = v := by
      intro v' hv'
      rw [(parse_iff A P input v').mpr hv'] at hp
      cases hp
      rfl
    cases hss : v.isSelfSigned C with
    | panic => exact absurd hss (selfSigned_no_panic C v)
    | ok b =>
      dsimp only [after]
      have hans : (w1.print (ascii "Fingerprint: " ++ hexEncode (e.sha256 v.pub) ++ [10])).term.answers = w.term.answers := by
        show w1.term.answers = _
        rw [h3]
      rw [hans]
      rcases hcf : confirm w.term.answers with ⟨o, as2⟩
      cases o with
      | some r =>
        refine ⟨_, _, _, rfl, h2, h4, ⟨0, hc0⟩, fun hr => Or.inl ⟨rfl, fun as3 hc => ?_⟩, fun v' _ hq => ?_⟩
        · rw [confirm_yes hc] at hcf
          cases hcf
        · rcases hq with hq | ⟨as3, -, hc, -⟩
          · obtain ⟨as3, hc⟩ := confirm_unanswered hq
            rw [hc] at hcf
            cases hcf
            rfl
          · rw [confirm_yes hc] at hcf
            cases hcf
      | none =>
        dsimp only
        generalize hw2 : ({ w1.print (ascii "Fingerprint: " ++ hexEncode (e.sha256 v.pub) ++ [10]) with
          term := { (w1.print (ascii "Fingerprint: " ++ hexEncode (e.sha256 v.pub) ++ [10])).term with answers := as2 } } : World) = w2
        have k1 : w2.fs = w.fs := by rw [← hw2]; exact h2
        have k2 : w2.writes = w.writes := by rw [← hw2]; exact h4
        have k3 : w2.term.clock = fun i => w.term.clock (i + 0) := by rw [← hw2]; exact hc0
        have k4 : w2.term.answers = as2 := by rw [← hw2]
        have hcomp : ∀ v', Holds A P input v' → (Unanswered w.term.answers ∨ ∃ as2 label, Confirmed w.term.answers as2 ∧ Asked fl as2 label ∧ label ≠ self ∧
            m label = none ∧ v'.pub.length = 64) → ∃ label, Asked fl as2 label ∧ label ≠ self ∧ m label = none ∧ v.pub.length = 64 := by
          intro v' hv' hq
          have := huniq v' hv'
          subst this
          rcases hq with hq | ⟨as3, label, hc, hq⟩
          · obtain ⟨as3, hc⟩ := confirm_unanswered hq
            rw [hc] at hcf
            cases hcf
          · rw [confirm_yes hc] at hcf
            cases hcf
            exact ⟨label, hq⟩
        rcases askLabel_cases fl w2 with ⟨l, w3, ha, hl, hsame, hclk⟩ | ⟨w3, ha, hno, hsame, hclk⟩
        · rw [ha]
          dsimp only
          rw [now_eq, now_eq]
          dsimp only
          rw [later_later]
          rw [k4] at hl
          have e1 : (later w3 2).fs = w.fs := hsame.fs.trans k1
          have e2 : (later w3 2).writes = w.writes := hsame.writes.trans k2
          have e3 : (later w3 2).term.clock = fun i => w.term.clock (i + 2) := by
            show (fun i => w3.term.clock (i + 2)) = _
            rw [hclk, k3]
          by_cases hfree : l ≠ self ∧ m l = none ∧ v.pub.length = 64
          · have hadd := addKey_owned C ho h.keys hs hfree.1 hfree.2.1 hfree.2.2 none (w3.term.clock 0) ((later w3 1).term.clock 0)
            rw [hadd]
            refine ⟨_, _, _, rfl, e1, e2, ⟨2, e3⟩, fun _ => Or.inr ⟨as2, l, v, w3.term.clock 0, (later w3 1).term.clock 0, confirm_none hcf, hl, hfree.1, hfree.2.1, hv, hfree.2.2, rfl, ?_⟩, fun _ _ _ => rfl⟩
            exact sound_set C h hfree.1 hfree.2.1 rfl (statement_signed C d seed v.pub _ hs) (Or.inl rfl)
          · have hbad : ∀ v', Holds A P input v' → (Unanswered w.term.answers ∨ ∃ as2 label, Confirmed w.term.answers as2 ∧ Asked fl as2 label ∧ label ≠ self ∧
              m label = none ∧ v'.pub.length = 64) → False := by
              intro v' hv' hq
              obtain ⟨label, c1, c2⟩ := hcomp v' hv' hq
              have := Asked.unique c1 hl
              subst this
              exact hfree c2
            cases hadd : ks.addKey C l v.pub none (w3.term.clock 0) ((later w3 1).term.clock 0) with
            | panic => exact ⟨_, _, _, rfl, e1, e2, ⟨2, e3⟩, by simp, fun v' a b => (hbad v' a b).elim⟩
            | ok x =>
              obtain ⟨s', b⟩ := x
              rcases addKey_true C hadd with ⟨rfl, -⟩ | ⟨-, m', sig, k, q1, q2, q3, -, q4, -⟩
              · exact ⟨_, _, _, rfl, e1, e2, ⟨2, e3⟩, by simp, fun v' a b => (hbad v' a b).elim⟩
              · exfalso
                rw [h.keys] at q2
                cases q2
                obtain ⟨z1, z2⟩ := (has_false q1 h.keys l).mp q3
                exact hfree ⟨z1, z2, q4⟩
        · rw [ha]
          rw [k4] at hno
          refine ⟨_, _, _, rfl, hsame.fs.trans k1, hsame.writes.trans k2, ⟨0, by rw [hclk, k3]⟩, by simp, fun v' a b => ?_⟩
          obtain ⟨label, c1, -⟩ := hcomp v' a b
          exact absurd c1 (hno label)

/-- fcrypt -import -u: it fails and no file changes; or it succeeds without having been told "yes",
and the key store file is replaced by one with the same keys; or the user has said "yes", and it
gains one record, under the label asked for, which was not in use, with the key of the statement,
which the owner now vouches for. Missing from the property: writes that fail half way, a clock at 0. -/
theorem C130_untrusted_partial (e : Env) (fl : Flags) (hfl : Imports fl) (hu : fl.untrusted = true) (src : Bytes) (rest : List Bytes)
    (w w' : World) (r : Ret) (d seed pass : Bytes) (f : KeyFields) (m : Keys) (as : List (Option Bytes)) (input : Bytes)
    (hk : Keyring C J w.fs fl.path (ownerOf C d seed) f m) (ho : Opens C f d seed pass) (ha : w.term.answers = some pass :: as)
    (hin : Input w src input) (hw : ∀ k, w.writes 0 ≠ .failsAfter k) (hclk : ∀ n, w.term.clock n ≠ 0)
    (hm : main C A P J e fl (src :: rest) w = (r, w')) :
    (r ≠ .ok ∧ w'.fs = w.fs) ∨
    (r = .ok ∧ (∀ as2, ¬ Confirmed as as2) ∧ Replaced C J w fl.path (ownerOf C d seed) f m w') ∨
    (r = .ok ∧ ∃ as2 label v rec, Confirmed as as2 ∧ Asked fl as2 label ∧ label ≠ self ∧ m label = none ∧ Holds A P input v ∧
      rec.label = label ∧ rec.keys = some v.pub ∧ rec.keySigner = ownerOf C d seed ∧ SignedRec C (ownerOf C d seed) rec ∧
      Replaced C J w fl.path (ownerOf C d seed) f (m.set label (some rec)) w') := by
  rw [main_unlocked C A P J (select_uimport C A P hfl hu) hk.keyfile ho rfl (by simp) ha] at hm
  obtain ⟨hs, how⟩ := opened_sound C J (x := exported C A P f d seed (w.term.clock 2)) hk ho
  obtain ⟨r1, ks1, w1, h1, h2, h3, ⟨n, h4⟩, h5, -⟩ := importUntrusted_cases C A P (e := e) (fl := fl) (rest := rest) hs how ho.slen
    ((⟨rfl, rfl, rfl, rfl, rfl, rfl⟩ : Noted w (notice f) ((later (Proofs.Fcrypt.rest w as) 3).print (notice f))).input hin)
  simp only [Bool.true_or] at hm
  rw [h1] at hm
  by_cases hr : r1 = .ok
  · subst hr
    have hm' : finish J fl true true ks1 w1 = (r, w') := hm
    have hclk1 : w1.term.clock 0 ≠ 0 := by rw [h4]; exact hclk _
    rcases h5 rfl with ⟨rfl, hno⟩ | ⟨as2, label, v, t1, t2, g0, g1, g2, g3, g4, g5, g6, g7⟩
    · obtain ⟨w2, hq⟩ := finish_replaced C J (fl := fl) (f := f) (w := w1) true hs rfl hk.locked
        (keyring_tidy C J hk).1 hclk1 (by rw [h3]; exact hw)
      rcases hq with ⟨q1, q2, f', q3, q4⟩ | ⟨q1, -, q3⟩
      · rw [q1] at hm'
        cases hm'
        rw [h2] at q3
        exact Or.inr (Or.inl ⟨rfl, hno, f', q3, q4⟩)
      · rw [q1] at hm'
        cases hm'
        exact Or.inl ⟨by simp, q3.trans h2⟩
    · obtain ⟨w2, hq⟩ := finish_replaced C J (fl := fl) (f := f) (w := w1) true g7 (by rw [g6]; rfl) hk.locked
        ((keyring_tidy C J hk).1.set label (by intro md hmd; cases hmd; rfl)) hclk1 (by rw [h3]; exact hw)
      rcases hq with ⟨q1, q2, f', q3, q4⟩ | ⟨q1, -, q3⟩
      · rw [q1] at hm'
        cases hm'
        rw [h2] at q3
        exact Or.inr (Or.inr ⟨rfl, as2, label, v, added C d seed label v.pub t1 t2, g0, g1, g2, g3, g4, rfl, rfl, rfl, statement_signed C d seed v.pub _ ho.slen, f', q3, q4⟩)
      · rw [q1] at hm'
        cases hm'
        exact Or.inl ⟨by simp, q3.trans h2⟩
  · rw [conclude_fail J hr] at hm
    cases hm
    exact Or.inl ⟨hr, h2⟩

/-- With -u, a key is imported if the user says "yes", its length is that of a key, its label is free
and the file can be written. -/
theorem C130_untrusted_accepted (e : Env) (fl : Flags) (hfl : Imports fl) (hu : fl.untrusted = true) (src : Bytes) (rest : List Bytes)
    (w : World) (d seed pass : Bytes) (f : KeyFields) (m : Keys) (as as2 : List (Option Bytes)) (input : Bytes)
    (hk : Keyring C J w.fs fl.path (ownerOf C d seed) f m) (ho : Opens C f d seed pass) (ha : w.term.answers = some pass :: as)
    (hin : Input w src input) (hw : w.writes 0 = .done) (label : Bytes) (v : VerifiedKey) (hc : Confirmed as as2) (hl : Asked fl as2 label)
    (h1 : label ≠ self) (h2 : m label = none) (h3 : Holds A P input v) (h4 : v.pub.length = 64) :
    ∃ w', main C A P J e fl (src :: rest) w = (.ok, w') := by
  rw [main_unlocked C A P J (select_uimport C A P hfl hu) hk.keyfile ho rfl (by simp) ha]
  obtain ⟨hs, how⟩ := opened_sound C J (x := exported C A P f d seed (w.term.clock 2)) hk ho
  obtain ⟨r1, ks1, w1, g1, g2, g3, -, -, g5⟩ := importUntrusted_cases C A P (e := e) (fl := fl) (rest := rest) hs how ho.slen
    ((⟨rfl, rfl, rfl, rfl, rfl, rfl⟩ : Noted w (notice f) ((later (Proofs.Fcrypt.rest w as) 3).print (notice f))).input hin)
  have hr := g5 v h3 (Or.inr ⟨as2, label, hc, hl, h1, h2, h4⟩)
  subst hr
  simp only [Bool.true_or]
  rw [g1]
  obtain ⟨w', q1, -⟩ := finish_writes J fl true ks1 w1
  have hw1 : w1.writes 0 = .done := by rw [g3]; exact hw
  rw [hw1] at q1
  exact ⟨w', q1⟩

/-- C130 is false of -u: when the answer cannot be read the key is not imported, but fcrypt exits
with status 0, having replaced the key store by one with the same keys. -/
theorem C130_unread_violated (e : Env) (fl : Flags) (hfl : Imports fl) (hu : fl.untrusted = true) (src : Bytes) (rest : List Bytes)
    (w : World) (d seed pass : Bytes) (f : KeyFields) (m : Keys) (as : List (Option Bytes)) (input : Bytes)
    (hk : Keyring C J w.fs fl.path (ownerOf C d seed) f m) (ho : Opens C f d seed pass) (ha : w.term.answers = some pass :: as)
    (has : Unanswered as) (hin : Input w src input) (hw : w.writes 0 = .done) (hclk : ∀ n, w.term.clock n ≠ 0)
    (v : VerifiedKey) (hv : Holds A P input v) :
    ∃ w', main C A P J e fl (src :: rest) w = (.ok, w') ∧ Replaced C J w fl.path (ownerOf C d seed) f m w' := by
  have hm := main_unlocked C A P J (args := src :: rest) (select_uimport C A P (e := e) hfl hu) hk.keyfile ho rfl (by simp) ha
  obtain ⟨hs, how⟩ := opened_sound C J (x := exported C A P f d seed (w.term.clock 2)) hk ho
  obtain ⟨r1, ks1, w1, g1, g2, g3, -, -, g5⟩ := importUntrusted_cases C A P (e := e) (fl := fl) (rest := rest) hs how ho.slen
    ((⟨rfl, rfl, rfl, rfl, rfl, rfl⟩ : Noted w (notice f) ((later (Proofs.Fcrypt.rest w as) 3).print (notice f))).input hin)
  have hr := g5 v hv (Or.inl has)
  subst hr
  simp only [Bool.true_or] at hm
  rw [g1] at hm
  obtain ⟨w', q1, -⟩ := finish_writes J fl true ks1 w1
  have hw1 : w1.writes 0 = .done := by rw [g3]; exact hw
  rw [hw1] at q1
  have hm' : main C A P J e fl (src :: rest) w = (.ok, w') := hm.trans q1
  refine ⟨w', hm', ?_⟩
  rcases C130_untrusted_partial C A P J e fl hfl hu src rest w w' .ok d seed pass f m as input hk ho ha hin (by rw [hw]; simp) hclk hm' with
    ⟨h, -⟩ | ⟨-, -, h⟩ | ⟨-, as2, label, v', rec, hc, -⟩
  · exact absurd rfl h
  · exact h
  · exfalso
    obtain ⟨as3, h3⟩ := confirm_unanswered has
    rw [confirm_yes hc] at h3
    cases h3

/-! ### C131: removing keys -/

/-- Trust that does not depend on a key survives its removal. -/
theorem trust_erase {owner : Bytes} {m : Keys} {label l : Bytes} (h : Trust C owner m l)
    (hno : ∀ l' r r', m l' = some (some r) → m label = some (some r') → l' ≠ label → r.keySigner ≠ r'.keyBytes) (hl : l ≠ label) :
    Trust C owner (m.erase label) l := by
  induction h with
  | owner h1 h2 h3 => exact .owner (by rw [Map.erase_other _ hl]; exact h1) h2 h3
  | @link l l' r r' h1 h2 h3 h4 _ ih =>
    have hl' : l' ≠ label := by
      rintro rfl
      exact hno l r r' h1 h2 hl h3
    exact .link (by rw [Map.erase_other _ hl]; exact h1) (by rw [Map.erase_other _ hl']; exact h2) h3 h4 (ih hl')

/-- The key store file after a key was removed at time `t`. -/
def without (f : KeyFields) (m : Keys) (label : Bytes) (t : BitVec 64) : KeyFields :=
  { f with keys := some (m.erase label), timestamp := t }

theorem without_read {fs : Fs} {path owner : Bytes} {f : KeyFields} {m : Keys} (h : Keyring C J fs path owner f m) (label : Bytes) (t : BitVec 64) :
    J.dec (J.enc (without f m label t)) = some (without f m label t) := by
  obtain ⟨ht, hu⟩ := keyring_tidy C J h
  have ht' := ht.erase label
  refine J.dec_enc _ ?_ ?_
  · intro m' hm'
    cases hm'
    exact ⟨ht'.1, fun k r md h1 h2 => (ht'.2 k r md h1 h2).1⟩
  · intro m' hm' k v hv
    cases hm'
    have hk : k ≠ label := by
      rintro rfl
      rw [Map.erase_same] at hv
      cases hv
    have hv' := hv
    rw [Map.erase_other _ hk] at hv'
    have hkv : ValidUtf8 k := hu k (by rw [hv']; simp)
    refine ⟨hkv, fun r hr => ?_⟩
    subst hr
    rw [h.labelled k r hv']
    exact ⟨hkv, fun md j x h1 h2 => (ht.2 k r md hv' h1).2 j x h2⟩

/-- fcrypt -r either fails and changes no file, or the label stood for a key, and the key store
file is as it was but for that record and the time; no passphrase is asked for. If the key had
vouched for none of the others the file is a key store as before. Missing from the property: keys
that had, and writes that fail half way. -/
theorem C131_remove_partial (e : Env) (fl : Flags) (hfl : Removes fl) (label : Bytes) (rest : List Bytes) (w w' : World) (r : Ret)
    (owner : Bytes) (f : KeyFields) (m : Keys) (hk : Keyring C J w.fs fl.path owner f m) (hw : ∀ k, w.writes 0 ≠ .failsAfter k)
    (hm : main C A P J e fl (label :: rest) w = (r, w')) :
    (r ≠ .ok ∧ w'.fs = w.fs) ∨
    (r = .ok ∧ label ≠ self ∧ m label ≠ none ∧ ∃ t f', f' = { f with keys := some (m.erase label), timestamp := t } ∧
      w'.fs = w.fs.set fl.path (J.enc f') ∧ J.dec (J.enc f') = some f' ∧
      ((∃ n, t = w.term.clock n) ∧ (t ≠ 0 → (∀ l' r r', m l' = some (some r) → m label = some (some r') → l' ≠ label → r.keySigner ≠ r'.keyBytes) →
        Keyring C J w'.fs fl.path owner f' (m.erase label)))) := by
  rw [main_public C A P J (select_remove C A P hfl) hk.keyfile rfl hfl.1.1 (by simp)] at hm
  obtain ⟨data, -, -, hs⟩ := keyring_load C J hk
  simp only [removeKey, config] at hm
  by_cases h1 : label = self
  · rw [if_pos h1] at hm
    cases hm
    exact Or.inl ⟨by simp, rfl⟩
  rw [if_neg h1] at hm
  cases hh : (loaded f m).has label with
  | false =>
    rw [hh] at hm
    cases hm
    exact Or.inl ⟨by simp, rfl⟩
  | true =>
    rw [hh] at hm
    simp only [Bool.not_true, Bool.false_eq_true, if_false] at hm
    have h2 : m label ≠ none := by
      intro hn
      have := (has_false hs.quick hs.keys label).mpr ⟨h1, hn⟩
      rw [hh] at this
      cases this
    obtain ⟨w2, q1, q2, -⟩ := finish_writes J fl false ({ loaded f m with keys := (loaded f m).keys.map (·.erase label) })
      ((later w 2).print (ascii "Removing key  " ++ label ++ [10]))
    have hm' := q1.symm.trans hm
    have hw2 : ((later w 2).print (ascii "Removing key  " ++ label ++ [10])).writes 0 = w.writes 0 := rfl
    rw [hw2] at hm' q2
    cases ho : w.writes 0 with
    | done =>
      rw [ho] at hm' q2
      cases hm'
      refine Or.inr ⟨rfl, h1, h2, w.term.clock 2, without f m label (w.term.clock 2), rfl, q2, without_read C J hk label _, ⟨2, rfl⟩, fun ht hno => ?_⟩
      rw [q2]
      exact {
        file := ⟨_, Fs.set_same _ _ _, without_read C J hk label _⟩
        version := hk.version
        time := ht
        pub := hk.pub
        len := hk.len
        keys := rfl
        noNil := by
          intro k hn
          by_cases hq : k = label
          · subst hq
            rw [Map.erase_same] at hn
            cases hn
          · rw [Map.erase_other _ hq] at hn
            exact hk.noNil k hn
        labelled := by
          intro k r hn
          by_cases hq : k = label
          · subst hq
            rw [Map.erase_same] at hn
            cases hn
          · rw [Map.erase_other _ hq] at hn
            exact hk.labelled k r hn
        noSelf := by rw [Map.erase_other _ (Ne.symm h1)]; exact hk.noSelf
        trust := by
          intro l r hn
          by_cases hq : l = label
          · subst hq
            rw [Map.erase_same] at hn
            cases hn
          · rw [Map.erase_other _ hq] at hn
            exact trust_erase C (hk.trust l r hn) hno hq
        locked := hk.locked }
    | openFails =>
      rw [ho] at hm' q2
      cases hm'
      exact Or.inl ⟨by simp, q2⟩
    | failsAfter k => exact absurd ho (hw k)

/-- What happens to the disk when a key on record is removed. -/
theorem remove_run (e : Env) (fl : Flags) (hfl : Removes fl) (label : Bytes) (rest : List Bytes) (w : World)
    (owner : Bytes) (f : KeyFields) (m : Keys) (hk : Keyring C J w.fs fl.path owner f m) (h1 : label ≠ self) (h2 : m label ≠ none) :
    ∃ w', main C A P J e fl (label :: rest) w = (if w.writes 0 = .done then .ok else .err, w') ∧
      w'.fs = (Go.writeFile (w.writes 0) w.fs fl.path (J.enc (without f m label (w.term.clock 2)))).1 := by
  rw [main_public C A P J (select_remove C A P hfl) hk.keyfile rfl hfl.1.1 (by simp)]
  obtain ⟨data, -, -, hs⟩ := keyring_load C J hk
  simp only [removeKey, config]
  have hh : (loaded f m).has label = true := by
    cases hh : (loaded f m).has label with
    | true => rfl
    | false => exact absurd ((has_false hs.quick hs.keys label).mp hh).2 h2
  rw [if_neg h1, hh]
  obtain ⟨w2, q1, q2, -⟩ := finish_writes J fl false ({ loaded f m with keys := (loaded f m).keys.map (·.erase label) })
    ((later w 2).print (ascii "Removing key  " ++ label ++ [10]))
  exact ⟨w2, q1, q2⟩

/-- A key on record can be removed. -/
theorem C131_removed (e : Env) (fl : Flags) (hfl : Removes fl) (label : Bytes) (rest : List Bytes) (w : World)
    (owner : Bytes) (f : KeyFields) (m : Keys) (hk : Keyring C J w.fs fl.path owner f m) (hw : w.writes 0 = .done)
    (h1 : label ≠ self) (h2 : m label ≠ none) : ∃ w', main C A P J e fl (label :: rest) w = (.ok, w') := by
  obtain ⟨w', h, -⟩ := remove_run C A P J e fl hfl label rest w owner f m hk h1 h2
  rw [hw] at h
  exact ⟨w', h⟩

/-- C129 is false of writes that fail half way: when a key is removed and the disk is full, fcrypt
reports an error but the key store file is left with a part of its contents, or none. -/
theorem C129_torn_violated (e : Env) (fl : Flags) (hfl : Removes fl) (label : Bytes) (rest : List Bytes) (w : World)
    (owner : Bytes) (f : KeyFields) (m : Keys) (hk : Keyring C J w.fs fl.path owner f m) (k : Nat) (hw : w.writes 0 = .failsAfter k)
    (h1 : label ≠ self) (h2 : m label ≠ none) :
    ∃ w' b, main C A P J e fl (label :: rest) w = (.err, w') ∧ w'.fs fl.path = some b ∧ b.length ≤ k := by
  obtain ⟨w', h, h3⟩ := remove_run C A P J e fl hfl label rest w owner f m hk h1 h2
  rw [hw] at h h3
  refine ⟨w', _, h, by rw [h3]; exact Fs.set_same _ _ _, ?_⟩
  rw [List.length_take]
  omega

/-! ### C133: checking the store -/

theorem audit_all {s : KeyFields} {orders : Bytes → Nat → List Bytes} {fuel : Nat} {order : List Bytes}
    (h : s.auditLoop C orders fuel order = some (.ok true)) : ∀ l ∈ order, s.verifyChain C (orders l) fuel l = some (.ok true) := by
  induction order with
  | nil => simp
  | cons q qs ih =>
    rw [KeyFields.auditLoop] at h
    cases hv : s.verifyChain C (orders q) fuel q with
    | none => simp [hv] at h
    | some x =>
      cases x with
      | panic => simp [hv] at h
      | ok b =>
        cases b with
        | false => simp [hv] at h
        | true =>
          simp only [hv] at h
          intro l hl
          rcases List.mem_cons.mp hl with rfl | hl
          · exact hv
          · exact ih h l hl

theorem checkStore_cases (e : Env) (ks : KeyStore) (cfg : Config) (w : World) :
    (checkStore C e ks cfg w = (.ok, ks, w.print (ascii "Keystore is valid.\n")) ∧
      ks.keyAudit C (e.order 0 (ks.keys.getD Map.empty)) (fun l i => e.walk l i (ks.keys.getD Map.empty)) e.fuel = some (.ok true)) ∨
    ∃ r, checkStore C e ks cfg w = (r, ks, w) ∧ r ≠ .ok := by
  unfold checkStore
  split
  · exact Or.inr ⟨_, rfl, by simp⟩
  cases hv : ks.valid with
  | panic => exact Or.inr ⟨_, rfl, by simp⟩
  | ok b =>
    cases b with
    | false => exact Or.inr ⟨_, rfl, by simp⟩
    | true =>
      simp only [after, Bool.not_true, Bool.false_eq_true, if_false]
      cases ha : ks.keyAudit C (e.order 0 (ks.keys.getD Map.empty)) (fun l i => e.walk l i (ks.keys.getD Map.empty)) e.fuel with
      | none => exact Or.inr ⟨_, rfl, by simp⟩
      | some x =>
        cases x with
        | panic => exact Or.inr ⟨_, rfl, by simp⟩
        | ok b =>
          cases b with
          | false => exact Or.inr ⟨_, rfl, by simp⟩
          | true => exact Or.inl ⟨rfl, rfl⟩

/-- If fcrypt -check succeeds, or prints anything but a notice about the key store, then the passphrase given opens the locked
key of the file; every key on record names the key inside, or one on record, as its signer; and
unless there is a record under "self" each has a chain of verified signatures to that key. This
is for every file. Missing from the property: files with a record under "self", for which it is
false. -/
theorem C133_check_partial (e : Env) (fl : Flags) (hfl : Checks fl) (args : List Bytes) (w w' : World) (r : Ret)
    (he : ∀ m' : Keys, m'.Finite → m'.Enumerates (e.order 0 m')) (hm : main C A P J e fl args w = (r, w'))
    (hr : r = .ok ∨ ¬ ∃ n, Notice n ∧ w'.stdout = w.stdout ++ n) :
    ∃ data f pass as k pub, w.fs fl.path = some data ∧ J.dec data = some f ∧ w.term.answers = some pass :: as ∧
      unlockKey C (f.lockedKey.getD []) pass = .ok (some k) ∧ marshalPublic k.pub = .ok (some pub) ∧
      (∀ l rec, f.keys.getD Map.empty l = some (some rec) → l ≠ self →
        rec.keySigner = pub ∨ ∃ l' rec', f.keys.getD Map.empty l' = some (some rec') ∧ rec'.keyBytes = rec.keySigner) ∧
      (f.keys.getD Map.empty self = none → ∀ l, f.keys.getD Map.empty l ≠ none → Chain C pub (f.keys.getD Map.empty) l) := by
  cases hfile : w.fs fl.path with
  | none =>
    exfalso
    have hsil := C124_no_store_partial C A P J e fl args w w' r hfile hm
    rcases hr with hr | hr
    · obtain ⟨r', w2, h1, h2, h3, -⟩ := C124_first_run_violated C A P J e fl args w _ (select_check C A P hfl) (Nat.zero_le _) hfile
      rw [hm] at h1
      cases h1
      by_cases hlen : 64 ≤ w.rng.length
      · rw [hr] at h2
        cases h2 hlen
      · rw [hr] at h3
        cases h3 (by omega)
    · exact hr hsil.1
  | some data =>
    rcases main_cases C A P J (args := args) (select_check C A P (e := e) hfl) hfile with ⟨r', w2, n, h1, h2, hn, h3⟩ | ⟨-, ks, w1, h1, sw, -, h3⟩
    · rw [hm] at h1
      cases h1
      rcases hr with hr | hr
      · exact absurd hr h2
      · exact absurd ⟨n, hn, h3.stdout⟩ hr
    · obtain ⟨data', f, pass, as, k, hsame, g1, g2, g3, g4, g5, g6, g7, g8, g9, g10, g11⟩ := ready_unlocked C A P J h1
      rw [hfile] at g1
      cases g1
      rw [hm] at h3
      rcases checkStore_cases C e ks (config fl args) w1 with ⟨c1, c2⟩ | ⟨r', c1, c2⟩
      · have hfin := (J.dec_finite _ _ g2)
        have hen : (f.keys.getD Map.empty).Enumerates (e.order 0 (f.keys.getD Map.empty)) := by
          apply he
          cases hq : f.keys with
          | none => exact Map.finite_empty
          | some m => exact (hfin m hq).1
        rw [g8] at c2
        simp only [Option.getD_some] at c2
        have c2' := c2
        unfold KeyFields.keyAudit at c2'
        split at c2'
        · simp at c2'
        have hall := audit_all C c2'
        refine ⟨_, f, pass, as, k, ks.pubBytes, rfl, g2, g3, g5, g9, fun l rec hl hself => ?_, fun hno l hl => ?_⟩
        · have hv := verifyChain_loop C hself (hall l ((hen.2 l).mpr (by rw [hl]; simp)))
          have hlp : ∃ sl o, ks.verifyKeySignature C l o = .ok (some sl) := by
            cases hfu : e.fuel with
            | zero => rw [hfu] at hv; simp [KeyFields.chainLoop] at hv
            | succ n =>
              rw [hfu, KeyFields.chainLoop] at hv
              cases hvk : ks.verifyKeySignature C l (e.walk l 0 (f.keys.getD Map.empty)) with
              | panic => rw [hvk] at hv; simp at hv
              | ok o =>
                cases o with
                | none => rw [hvk] at hv; simp at hv
                | some sl => exact ⟨sl, _, hvk⟩
          obtain ⟨sl, o, hvk⟩ := hlp
          obtain ⟨-, ⟨a1, -⟩ | ⟨-, r1, a1, a2⟩⟩ := vks_some C hvk
          · exact absurd a1 hself
          · have : r1 = rec := by
              have := (get_some g8).mp a1
              rw [hl] at this
              cases this
              rfl
            subst this
            rcases a2 with ⟨a2, -⟩ | ⟨a2, a3, -⟩
            · exact Or.inl a2
            · right
              unfold KeyFields.findPublic at a3
              rw [if_neg a2, g8] at a3
              obtain ⟨k', r', -, b1, b2, -⟩ := findLoop_some a3
              exact ⟨k', r', b1, b2⟩
        · have hself : l ≠ self := by rintro rfl; exact hl hno
          refine (C57_chain_sound_partial C ks.toKeyFields _ g8 ?_).2 _ _ _ hen c2 l hself hl
          rw [get_eq g8, hno]
          rfl
      · exfalso
        have h3' : (r, w') = conclude J fl sw true (checkStore C e ks (config fl args) w1) := h3
        rw [c1, conclude_fail J c2] at h3'
        cases h3'
        rcases hr with hr | hr
        · exact c2 hr
        · exact hr ⟨_, notice_ok f, hsame.stdout⟩

theorem unlock_unique {f : KeyFields} {d seed pass : Bytes} (ho : Opens C f d seed pass) {k : PrivateKey}
    (h : unlockKey C (f.lockedKey.getD []) pass = .ok (some k)) : k = pairOf C d seed := by
  obtain ⟨box, h1, h2⟩ := ho.key
  rw [h1] at h
  simp only [Option.getD_some] at h
  rw [h2] at h
  cases h
  rfl

/-- C131 is false of keys that others depend on: after the key that vouches for another was removed,
fcrypt -check no longer accepts the key store. -/
theorem C131_dangling_violated (e : Env) (fl : Flags) (hfl : Removes fl) (label : Bytes) (rest : List Bytes) (w : World)
    (d seed : Bytes) (f : KeyFields) (m : Keys) (hk : Keyring C J w.fs fl.path (ownerOf C d seed) f m) (hw : w.writes 0 = .done)
    (h1 : label ≠ self) (l : Bytes) (r0 r1 : PublicKeyRecord) (h2 : m label = some (some r0)) (h3 : m l = some (some r1))
    (h4 : l ≠ label) (h5 : r1.keySigner = r0.keyBytes) (h6 : r0.keyBytes ≠ ownerOf C d seed)
    (h7 : ∀ l' r', m l' = some (some r') → l' ≠ label → r'.keyBytes ≠ r0.keyBytes) :
    ∃ w', main C A P J e fl (label :: rest) w = (.ok, w') ∧
      ∀ (e' : Env) (fl' : Flags) (args' : List Bytes) (w2 w3 : World) (r : Ret) (pass : Bytes) (as : List (Option Bytes)),
        Checks fl' → (∀ m' : Keys, m'.Finite → m'.Enumerates (e'.order 0 m')) → w2.fs fl'.path = w'.fs fl.path →
        Opens C f d seed pass → w2.term.answers = some pass :: as → main C A P J e' fl' args' w2 = (r, w3) →
        r ≠ .ok ∧ ∃ n, Notice n ∧ w3.stdout = w2.stdout ++ n := by
  obtain ⟨w', g1, g2⟩ := remove_run C A P J e fl hfl label rest w _ f m hk h1 (by rw [h2]; simp)
  rw [hw] at g1 g2
  refine ⟨w', g1, fun e' fl' args' w2 w3 r pass as q1 q2 q3 q4 q5 q6 => ?_⟩
  have hbad : ¬ (r = .ok ∨ ¬ ∃ n, Notice n ∧ w3.stdout = w2.stdout ++ n) := by
    intro hr
    obtain ⟨data, f2, pass2, as2, k, pub, b1, b2, b3, b4, b5, b6, -⟩ := C133_check_partial C A P J e' fl' q1 args' w2 w3 r q2 q6 hr
    have hfile : w'.fs fl.path = some (J.enc (without f m label (w.term.clock 2))) := by
      rw [g2]
      exact Fs.set_same _ _ _
    rw [q3, hfile] at b1
    cases b1
    rw [without_read C J hk] at b2
    cases b2
    rw [q5] at b3
    cases b3
    have := unlock_unique C q4 b4
    subst this
    rw [pairOf_marshal] at b5
    cases b5
    have hself : l ≠ self := by
      rintro rfl
      rw [hk.noSelf] at h3
      cases h3
    rcases b6 l r1 (by show m.erase label l = _; rw [Map.erase_other _ h4]; exact h3) hself with c | ⟨l', r', c1, c2⟩
    · rw [h5] at c
      exact h6 c
    · have c1' : m.erase label l' = some (some r') := c1
      have hl' : l' ≠ label := by
        rintro rfl
        rw [Map.erase_same] at c1'
        cases c1'
      rw [Map.erase_other _ hl'] at c1'
      exact h7 l' r' c1' hl' (c2.trans h5)
  exact ⟨fun h => hbad (Or.inl h), Classical.byContradiction fun h => hbad (Or.inr h)⟩

/-- A key store with a key "a" that the owner vouches for and a key "b" that "a" vouches for. -/
theorem exTwo (d seed d2 seed2 pk pass : Bytes) (hd : d.length = 32) (hs : seed.length = 32) (hs2 : seed2.length = 32) :
    ∃ f m r0 r1, Opens C f d seed pass ∧ m [97] = some (some r0) ∧ m [98] = some (some r1) ∧ r0.keyBytes = ownerOf C d2 seed2 ∧
      r1.keySigner = ownerOf C d2 seed2 ∧ r1.keyBytes = pk ∧ (∀ l, m l ≠ none → l = [97] ∨ l = [98]) ∧
      ∀ (fs : Fs) path, Keyring C J (fs.set path (J.enc f)) path (ownerOf C d seed) f m := by
  obtain ⟨f, -, ho, hk⟩ := exKeyring C J d seed [97] (ownerOf C d2 seed2) pass none hd hs (by decide) (by decide)
  have hk0 := hk (fun _ => none) [107]
  obtain ⟨hS, -⟩ := opened_sound C J (x := []) hk0 ho
  have hfree : peerKeys C d seed [97] (ownerOf C d2 seed2) [98] = none := by
    unfold peerKeys
    rw [Map.set_other _ _ (by decide)]
    rfl
  have hS2 := sound_set C hS (label := [98]) (r := recordFor [98] (statement C d2 seed2 pk 5)) (by decide) hfree rfl
    (statement_signed C d2 seed2 pk 5 hs2) (Or.inr ⟨[97], _, Map.set_same _ _ _, rfl⟩)
  have hdom : ∀ l, ((peerKeys C d seed [97] (ownerOf C d2 seed2)).set [98] (some (recordFor [98] (statement C d2 seed2 pk 5)))) l ≠ none →
      l = [97] ∨ l = [98] := by
    intro l hl
    by_cases h1 : l = [98]
    · exact Or.inr h1
    · rw [Map.set_other _ _ h1] at hl
      by_cases h2 : l = [97]
      · exact Or.inl h2
      · unfold peerKeys at hl
        rw [Map.set_other _ _ h2] at hl
        exact absurd rfl hl
  have hw := keyring_written C J hS2 (by obtain ⟨box, hb, -⟩ := ho.key; show f.lockedKey ≠ none; rw [hb]; simp)
    ((keyring_tidy C J hk0).1.set [98] (by intro md hmd; cases hmd)) (t := 9) (by decide)
    (by intro l hl; rcases hdom l hl with rfl | rfl <;> decide)
  refine ⟨_, _, recordFor [97] (statement C d seed (ownerOf C d2 seed2) 5), recordFor [98] (statement C d2 seed2 pk 5), ?_, ?_, ?_, rfl, rfl, rfl, ?_, hw⟩
  · exact ⟨ho.dlen, ho.slen, ho.key⟩
  · rw [Map.set_other _ _ (by decide)]; exact Map.set_same _ _ _
  · exact Map.set_same _ _ _
  · exact hdom

/-- The hypotheses can be met. -/
example : ∃ (fl : Flags) (w : World) (d seed pass : Bytes) (f : KeyFields) (m : Keys) (r0 r1 : PublicKeyRecord), Removes fl ∧
    Keyring C J w.fs fl.path (ownerOf C d seed) f m ∧ Opens C f d seed pass ∧ w.writes 0 = .done ∧ m [97] = some (some r0) ∧
    m [98] = some (some r1) ∧ r1.keySigner = r0.keyBytes := by
  obtain ⟨f, m, r0, r1, h1, h2, h3, h4, h5, -, -, hk⟩ := exTwo C J (List.replicate 32 1) (List.replicate 32 2) (List.replicate 32 3) (List.replicate 32 4)
    [8] [112] (by decide) (by decide) (by decide)
  exact ⟨{ path := [107], remove := true }, exWorld J f [112] [], _, _, _, f, m, r0, r1, ⟨⟨rfl, rfl, rfl, rfl, rfl⟩, rfl⟩, hk _ _, h1, rfl, h2, h3, by rw [h5, h4]⟩

theorem audit_mono {s : KeyFields} {orders : Bytes → Nat → List Bytes} {fuel k : Nat} {order : List Bytes} {x : Res Bool}
    (h : s.auditLoop C orders fuel order = some x) : s.auditLoop C orders (fuel + k) order = some x := by
  induction order with
  | nil => exact h
  | cons q qs ih =>
    rw [KeyFields.auditLoop] at h ⊢
    cases hv : s.verifyChain C (orders q) fuel q with
    | none => simp [hv] at h
    | some y =>
      have hv' : s.verifyChain C (orders q) (fuel + k) q = some y := by
        unfold KeyFields.verifyChain at hv ⊢
        split
        · rename_i hc; rw [if_pos hc] at hv; exact hv
        · rename_i hc
          rw [if_neg hc] at hv
          split
          · rename_i hc; rw [if_pos hc] at hv; exact hv
          · rename_i hc
            rw [if_neg hc] at hv
            exact chainLoop_mono C _ _ _ _ _ _ hv
      rw [hv] at h
      rw [hv']
      cases y with
      | panic => exact h
      | ok b =>
        cases b with
        | false => exact h
        | true => exact ih h

theorem vks_congr {s s' : KeyFields} (h1 : s'.version = s.version) (h2 : s'.timestamp = s.timestamp) (h3 : s'.keys = s.keys)
    (h4 : s'.publicKey = s.publicKey) (l : Bytes) (o : List Bytes) : s'.verifyKeySignature C l o = s.verifyKeySignature C l o := by
  obtain ⟨a1, a2, a3, a4, a5, a6⟩ := s
  obtain ⟨b1, b2, b3, b4, b5, b6⟩ := s'
  simp only at h1 h2 h3 h4
  subst h1 h2 h3 h4
  rfl

theorem chainLoop_congr {s s' : KeyFields} (h1 : s'.version = s.version) (h2 : s'.timestamp = s.timestamp) (h3 : s'.keys = s.keys)
    (h4 : s'.publicKey = s.publicKey) (orders : Nat → List Bytes) (fuel i : Nat) (l : Bytes) :
    s'.chainLoop C orders fuel i l = s.chainLoop C orders fuel i l := by
  induction fuel generalizing i l with
  | zero => rfl
  | succ n ih =>
    rw [KeyFields.chainLoop, KeyFields.chainLoop, vks_congr C h1 h2 h3 h4]
    split
    · rfl
    · rfl
    · rw [ih]

theorem chain_congr {s s' : KeyFields} (h1 : s'.version = s.version) (h2 : s'.timestamp = s.timestamp) (h3 : s'.keys = s.keys)
    (h4 : s'.publicKey = s.publicKey) (orders : Nat → List Bytes) (fuel : Nat) (l : Bytes) :
    s'.verifyChain C orders fuel l = s.verifyChain C orders fuel l := by
  have hq : s'.validQuick = s.validQuick := by unfold KeyFields.validQuick; rw [h1, h2, h3]
  have hh : s'.has l = s.has l := by unfold KeyFields.has; rw [hq, h3]
  unfold KeyFields.verifyChain
  rw [hq, hh, chainLoop_congr C h1 h2 h3 h4]

theorem audit_congr {s s' : KeyFields} (h1 : s'.version = s.version) (h2 : s'.timestamp = s.timestamp) (h3 : s'.keys = s.keys)
    (h4 : s'.publicKey = s.publicKey) (order : List Bytes) (orders : Bytes → Nat → List Bytes) (fuel : Nat) :
    s'.keyAudit C order orders fuel = s.keyAudit C order orders fuel := by
  have hq : s'.validQuick = s.validQuick := by unfold KeyFields.validQuick; rw [h1, h2, h3]
  unfold KeyFields.keyAudit
  rw [hq]
  split
  · rfl
  induction order with
  | nil => rfl
  | cons q qs ih =>
    rw [KeyFields.auditLoop, KeyFields.auditLoop, chain_congr C h1 h2 h3 h4, ih]

/-- What fcrypt -check comes to when the file is a key store of the owner, whatever the keys. -/
theorem check_run {e : Env} {fl : Flags} (hfl : Checks fl) {args : List Bytes} {w : World} {d seed pass : Bytes} {f : KeyFields} {m : Keys}
    {as : List (Option Bytes)} (hk : Keyfile J w.fs fl.path (ownerOf C d seed) f m) (ho : Opens C f d seed pass)
    (ha : w.term.answers = some pass :: as) (hw : w.writes 0 = .done) :
    (((loaded f m).keyAudit C (e.order 0 m) (fun l i => e.walk l i m) e.fuel = some (.ok true)) →
      ∃ w', main C A P J e fl args w = (.ok, w') ∧ ∃ t, w'.stdout = w.stdout ++ notice f ++ ascii "Keystore is valid.\n" ++ t) ∧
    (((loaded f m).keyAudit C (e.order 0 m) (fun l i => e.walk l i m) e.fuel = none) →
      ∃ w', main C A P J e fl args w = (.hang, w') ∧ Silent w w') := by
  have hm := main_unlocked C A P J (args := args) (select_check C A P (e := e) hfl) hk ho rfl (Nat.zero_le _) ha
  have hq : (opened C f m d seed (exported C A P f d seed (w.term.clock 2))).validQuick = true := (quick_iff _).mpr ⟨hk.version, hk.time, m, rfl⟩
  have hval : (opened C f m d seed (exported C A P f d seed (w.term.clock 2))).valid = .ok true :=
    valid_of hq rfl rfl (pairOf_valid C d seed) (pairOf_marshal C d seed) hk.pub hk.len
  have haud := audit_congr C (s := (loaded f m).toKeyFields) (s' := (opened C f m d seed (exported C A P f d seed (w.term.clock 2))).toKeyFields) rfl rfl rfl rfl
    (e.order 0 m) (fun l i => e.walk l i m) e.fuel
  have hl : (opened C f m d seed (exported C A P f d seed (w.term.clock 2))).locked = false := rfl
  have hkk : (opened C f m d seed (exported C A P f d seed (w.term.clock 2))).keys.getD Map.empty = m := rfl
  constructor
  · intro hau
    rw [hau] at haud
    have hrun : checkStore C e (opened C f m d seed (exported C A P f d seed (w.term.clock 2))) (config fl args) ((later (Proofs.Fcrypt.rest w as) 3).print (notice f)) =
        (.ok, opened C f m d seed (exported C A P f d seed (w.term.clock 2)), ((later (Proofs.Fcrypt.rest w as) 3).print (notice f)).print (ascii "Keystore is valid.\n")) := by
      unfold checkStore
      rw [hval, hl]
      simp only [Bool.false_eq_true, if_false, after, Bool.not_true, hkk]
      rw [haud]
    rw [hm]
    simp only [hrun]
    by_cases hx : (false || (fl.check && f.exportKey.isNone)) = true
    · rw [hx]
      obtain ⟨w', q1, -, q3⟩ := finish_writes J fl true (opened C f m d seed (exported C A P f d seed (w.term.clock 2)))
        (((later (Proofs.Fcrypt.rest w as) 3).print (notice f)).print (ascii "Keystore is valid.\n"))
      have hw2 : (((later (Proofs.Fcrypt.rest w as) 3).print (notice f)).print (ascii "Keystore is valid.\n")).writes 0 = .done := hw
      rw [hw2] at q1
      exact ⟨w', q1, _, q3⟩
    · simp only [Bool.not_eq_true] at hx
      rw [hx]
      refine ⟨_, conclude_quiet J ?_, [], (List.append_nil _).symm⟩
      obtain ⟨data, h3, -⟩ := hk.file
      show w.fs fl.path ≠ none
      rw [h3]
      simp
  · intro hau
    rw [hau] at haud
    have hrun : checkStore C e (opened C f m d seed (exported C A P f d seed (w.term.clock 2))) (config fl args) ((later (Proofs.Fcrypt.rest w as) 3).print (notice f)) =
        (.hang, opened C f m d seed (exported C A P f d seed (w.term.clock 2)), (later (Proofs.Fcrypt.rest w as) 3).print (notice f)) := by
      unfold checkStore
      rw [hval, hl]
      simp only [Bool.false_eq_true, if_false, after, Bool.not_true, hkk]
      rw [haud]
    rw [hm]
    simp only [hrun]
    exact ⟨_, rfl, ⟨_, notice_ok f, rfl⟩, rfl⟩

/-- fcrypt -check accepts every key store that fcrypt writes, if no key is on record twice. -/
theorem C133_accepts_partial (fl : Flags) (hfl : Checks fl) (args : List Bytes) (w : World) (d seed pass : Bytes) (f : KeyFields) (m : Keys)
    (as : List (Option Bytes)) (hk : Keyring C J w.fs fl.path (ownerOf C d seed) f m) (ho : Opens C f d seed pass)
    (ha : w.term.answers = some pass :: as) (hd : Distinct m) (hw : w.writes 0 = .done) (order : List Bytes) (hen : m.Enumerates order) :
    ∃ n, ∀ e : Env, n ≤ e.fuel → e.order 0 m = order → (∀ l i, m.Enumerates (e.walk l i m)) →
      ∃ w', main C A P J e fl args w = (.ok, w') ∧ ∃ t, w'.stdout = w.stdout ++ notice f ++ ascii "Keystore is valid.\n" ++ t := by
  obtain ⟨-, -, -, hs⟩ := keyring_load C J hk
  obtain ⟨n, hn⟩ := (chain_terminates C hs hd).2 order hen
  refine ⟨n, fun e hf h1 h2 => (check_run C A P J hfl hk.keyfile ho ha hw).1 ?_⟩
  have h3 := hn (fun l i => e.walk l i m) h2
  rw [h1]
  unfold KeyFields.keyAudit at h3 ⊢
  rw [hs.quick] at h3 ⊢
  simp only [Bool.not_true, Bool.false_eq_true, if_false] at h3 ⊢
  obtain ⟨k, hk⟩ := Nat.exists_eq_add_of_le hf
  rw [hk]
  exact audit_mono C h3

theorem keyfile_of_load {fs : Fs} {path owner data : Bytes} {f : KeyFields} {m : Keys} {s : KeyStore} (hf : fs path = some data) (hd : J.dec data = some f)
    (hl : loadData J data = some s) (hp : f.publicKey = some owner) (hlen : owner.length = 64) (hm : s.keys = some m) (hk : f.lockedKey ≠ none) :
    Keyfile J fs path owner f m ∧ s = loaded f m := by
  obtain ⟨f', h1, h2, h3⟩ := loadData_some J hl
  rw [hd] at h1
  cases h1
  obtain ⟨h4, h5, -⟩ := (quick_iff _).mp h3
  subst h2
  have hmm : f.keys.getD Map.empty = m := Option.some.inj hm
  refine ⟨⟨⟨data, hf, hd⟩, h4, h5, hp, hlen, hmm, hk⟩, ?_⟩
  unfold loaded
  subst hmm
  congr 1
  cases hx : f.lockedKey with
  | none => exact absurd hx hk
  | some => rfl

/-- C133 is false of files with a record under "self": whoever wrote the file can have fcrypt -check
accept a key that the owner never vouched for. -/
theorem C133_self_record_violated (e : Env) (fl : Flags) (hfl : Checks fl) (args : List Bytes) (w : World) (d seed dA seedA pk box pass : Bytes)
    (t : BitVec 64) (n : Nat) (hA : seedA.length = 32) (h1 : ownerOf C d seed ≠ ownerOf C dA seedA) (h2 : pk ≠ ownerOf C dA seedA)
    (h3 : ¬ Signed C (ownerOf C d seed) pk (statement C dA seedA pk t).signature t)
    (hf : w.fs fl.path = some (J.enc (hostile (ownerOf C d seed) (ownerOf C dA seedA) (statement C dA seedA pk t) box)))
    (ho : Opens C (hostile (ownerOf C d seed) (ownerOf C dA seedA) (statement C dA seedA pk t) box) d seed pass)
    (ha : w.term.answers = [some pass]) (hw : w.writes 0 = .done) (he : e.fuel = n + 1)
    (ho1 : ∀ m' : Keys, m'.Finite → m'.Enumerates (e.order 0 m') ∧ ∀ l i, m'.Enumerates (e.walk l i m')) :
    ∃ m w', (hostile (ownerOf C d seed) (ownerOf C dA seedA) (statement C dA seedA pk t) box).keys = some m ∧
      main C A P J e fl args w = (.ok, w') ∧ (∃ n t, Notice n ∧ w'.stdout = w.stdout ++ n ++ ascii "Keystore is valid.\n" ++ t) ∧
      ¬ Chain C (ownerOf C d seed) m [120] := by
  obtain ⟨s, m, g1, g2, g3, -, g4, g5⟩ := C57_self_record_violated C J (ownerOf C d seed) dA seedA pk box t hA h1 h2 h3
  obtain ⟨f', k1, k2, -⟩ := loadData_some J g1
  have hdec := J.dec_enc _ (hostile_finite (ownerOf C d seed) (ownerOf C dA seedA) (statement C dA seedA pk t) box)
    (hostile_clean (ownerOf C d seed) (ownerOf C dA seedA) (statement C dA seedA pk t) box)
  obtain ⟨hk, hs⟩ := keyfile_of_load J hf hdec g1 rfl (ownerOf_length C d seed) g2 (by simp [hostile])
  have hkeys : (hostile (ownerOf C d seed) (ownerOf C dA seedA) (statement C dA seedA pk t) box).keys = some m := by
    rw [hdec] at k1
    cases k1
    rw [k2] at g2
    exact g2
  have hfin : m.Finite := (hostile_finite _ _ _ _ m hkeys).1
  obtain ⟨w', r1, r2⟩ := (check_run C A P J (e := e) (args := args) hfl hk ho ha hw).1 (by
    rw [he]
    have := g4 (e.order 0 m) (fun l i => e.walk l i m) n (ho1 m hfin).1 (ho1 m hfin).2
    rw [hs] at this
    exact this)
  obtain ⟨t', r2⟩ := r2
  exact ⟨m, w', hkeys, r1, ⟨_, t', notice_ok _, r2⟩, g5⟩

theorem enum_one {m : Keys} {a : Bytes} (h : ∀ k, m k ≠ none ↔ k = a) {o : List Bytes} (ho : m.Enumerates o) : o = [a] := by
  obtain ⟨h1, h2⟩ := ho
  have hmem : ∀ k, k ∈ o ↔ k = a := fun k => (h2 k).trans (h k)
  cases o with
  | nil => exact absurd ((hmem a).mpr rfl) (by simp)
  | cons x xs =>
    have hx := (hmem x).mp (by simp)
    subst hx
    cases xs with
    | nil => rfl
    | cons y ys =>
      have hy := (hmem y).mp (by simp)
      subst hy
      simp at h1

theorem selfSigned_dec (owner : Bytes) (v : VerifiedKey) (box : Bytes) :
    J.dec (J.enc (selfSigned owner v box)) = some (selfSigned owner v box) := by
  have key : ∀ k r, (Map.empty.set [120] (some (recordFor [120] v)) : Keys) k = some r → k = [120] ∧ r = some (recordFor [120] v) := by
    intro k r h
    by_cases hk : k = [120]
    · subst hk
      rw [Map.set_same] at h
      cases h
      exact ⟨rfl, rfl⟩
    · rw [Map.set_other _ _ hk] at h
      cases h
  refine J.dec_enc _ ?_ ?_
  · intro m hm
    cases hm
    refine ⟨Map.finite_empty.set _ _, fun k r md h1 h2 => ?_⟩
    cases (key k _ h1).2
    cases h2
  · intro m hm k x hk
    cases hm
    obtain ⟨rfl, rfl⟩ := key k _ hk
    refine ⟨by decide, fun r hr => ?_⟩
    cases hr
    exact ⟨(by decide : ValidUtf8 [120]), fun md j x h => by cases h⟩

/-- C133 is false of files with a key signed by itself: fcrypt -check does not end. -/
theorem C133_hang_violated (e : Env) (fl : Flags) (hfl : Checks fl) (args : List Bytes) (w : World) (d seed dA seedA box pass : Bytes)
    (t : BitVec 64) (hA : seedA.length = 32) (h1 : ownerOf C d seed ≠ ownerOf C dA seedA)
    (hf : w.fs fl.path = some (J.enc (selfSigned (ownerOf C d seed) (statement C dA seedA (ownerOf C dA seedA) t) box)))
    (ho : Opens C (selfSigned (ownerOf C d seed) (statement C dA seedA (ownerOf C dA seedA) t) box) d seed pass)
    (ha : w.term.answers = [some pass]) (hw : w.writes 0 = .done)
    (ho1 : ∀ m' : Keys, m'.Finite → m'.Enumerates (e.order 0 m') ∧ ∀ l i, m'.Enumerates (e.walk l i m')) :
    ∃ w', main C A P J e fl args w = (.hang, w') ∧ Silent w w' := by
  obtain ⟨s, g1, -, g2⟩ := C58_self_signed_violated C J (ownerOf C d seed) dA seedA box t hA h1
  have hdec := selfSigned_dec J (ownerOf C d seed) (statement C dA seedA (ownerOf C dA seedA) t) box
  obtain ⟨f', k1, k2, -⟩ := loadData_some J g1
  rw [hdec] at k1
  cases k1
  have hkeys : s.keys = some (Map.empty.set [120] (some (recordFor [120] (statement C dA seedA (ownerOf C dA seedA) t)))) := by
    rw [k2]
    rfl
  obtain ⟨hk, hs⟩ := keyfile_of_load J hf hdec g1 rfl (ownerOf_length C d seed) hkeys (by simp [selfSigned])
  have hfin : (Map.empty.set [120] (some (recordFor [120] (statement C dA seedA (ownerOf C dA seedA) t))) : Keys).Finite := Map.finite_empty.set _ _
  refine (check_run C A P J (e := e) (args := args) hfl hk ho ha hw).2 ?_
  rw [enum_one (a := [120]) (fun k => ?_) (ho1 _ hfin).1]
  · have := g2 (fun l i => e.walk l i (Map.empty.set [120] (some (recordFor [120] (statement C dA seedA (ownerOf C dA seedA) t)))))
      e.fuel (fun l i => ⟨_, hkeys, (ho1 _ hfin).2 l i⟩)
    rw [hs] at this
    exact this
  · by_cases hk : k = [120]
    · subst hk
      simp
    · rw [Map.set_other _ _ hk]
      simp [hk, Map.empty]

/-- The hypotheses of both can be met: files that hold such keys and a private key that opens. -/
example (J : KeyJson) : ∃ (d seed dA seedA box pass : Bytes), seedA.length = 32 ∧ ownerOf Toy.crypto d seed ≠ ownerOf Toy.crypto dA seedA ∧
    Opens Toy.crypto (selfSigned (ownerOf Toy.crypto d seed) (statement Toy.crypto dA seedA (ownerOf Toy.crypto dA seedA) 5) box) d seed pass ∧
    Opens Toy.crypto (hostile (ownerOf Toy.crypto d seed) (ownerOf Toy.crypto dA seedA) (statement Toy.crypto dA seedA [9] 5) box) d seed pass ∧
    ¬ Signed Toy.crypto (ownerOf Toy.crypto d seed) [9] (statement Toy.crypto dA seedA [9] 5).signature 5 ∧
    ∀ (fs : Fs) (f : KeyFields), (fs.set [107] (J.enc f)) [107] = some (J.enc f) := by
  obtain ⟨box, -, -, hb⟩ := (Props.Public.C24_lock_roundtrip Toy.crypto (pairOf Toy.crypto (List.replicate 32 1) (List.replicate 32 2))
    (pairOf_wt Toy.crypto _ _ (by decide) (by decide)) (pairOf_valid Toy.crypto _ _) [112] (List.replicate 56 7)).2 (by simp)
  refine ⟨List.replicate 32 1, List.replicate 32 2, List.replicate 32 3, List.replicate 32 4, box, [112], by decide, by decide,
    ⟨by decide, by decide, box, rfl, hb⟩, ⟨by decide, by decide, box, rfl, hb⟩, ?_, fun fs f => Fs.set_same _ _ _⟩
  rintro ⟨-, -, h⟩
  revert h
  decide

/-- The hypotheses can be met: a key store and its passphrase. -/
example (d2 seed2 : Bytes) : ∃ (fl : Flags) (w : World) (d seed pass : Bytes) (f : KeyFields) (m : Keys), Checks fl ∧
    Keyring C J w.fs fl.path (ownerOf C d seed) f m ∧ Opens C f d seed pass ∧ w.term.answers = some pass :: [] ∧ Distinct m ∧
    m [97] ≠ none ∧ w.writes 0 = .done := by
  obtain ⟨f, -, ho, hk⟩ := exKeyring C J (List.replicate 32 1) (List.replicate 32 2) [97]
    (ownerOf C d2 seed2) [112] none (by decide) (by decide) (by decide) (by decide)
  refine ⟨{ path := [107], check := true }, exWorld J f [112] [], _, _, _, f, _, rfl, hk _ _, ho, rfl, ?_, ?_, rfl⟩
  · intro l l' r r' h1 h2 _
    unfold peerKeys at h1 h2
    by_cases hl : l = [97]
    · by_cases hl' : l' = [97]
      · rw [hl, hl']
      · rw [Map.set_other _ _ hl'] at h2
        cases h2
    · rw [Map.set_other _ _ hl] at h1
      cases h1
  · unfold peerKeys
    simp

/-! ### C132: exporting keys -/

theorem chain_mono {s : KeyFields} {orders : Nat → List Bytes} {fuel k : Nat} {q : Bytes} {y : Res Bool}
    (hv : s.verifyChain C orders fuel q = some y) : s.verifyChain C orders (fuel + k) q = some y := by
  unfold KeyFields.verifyChain at hv ⊢
  split
  · rename_i hc; rw [if_pos hc] at hv; exact hv
  · rename_i hc
    rw [if_neg hc] at hv
    split
    · rename_i hc; rw [if_pos hc] at hv; exact hv
    · rename_i hc
      rw [if_neg hc] at hv
      exact chainLoop_mono C _ _ _ _ _ _ hv

/-- fcrypt -export -l writes a statement about the key on record, signed by the owner. -/
theorem C132_export_partial (fl : Flags) (hfl : Exports fl) (dst : Bytes) (rest : List Bytes) (w : World) (d seed pass : Bytes) (f : KeyFields) (m : Keys)
    (as : List (Option Bytes)) (hk : Keyring C J w.fs fl.path (ownerOf C d seed) f m) (ho : Opens C f d seed pass)
    (ha : w.term.answers = some pass :: as) (hd : Distinct m) (r : PublicKeyRecord) (hl : m fl.label = some (some r))
    (hw : dst ≠ [45] → w.writes 0 = .done) :
    ∃ n, ∀ e : Env, n ≤ e.fuel → (∀ i, m.Enumerates (e.walk fl.label i m)) →
      ∃ w' t out, main C A P J e fl (dst :: rest) w = (.ok, w') ∧ Output (w.print (notice f)) dst out w' ∧
        out = P.enc (ascii "CRYPTUTIL VERIFIED KEY") (A.enc (statement C d seed r.keyBytes t)) := by
  obtain ⟨hs, how⟩ := opened_sound C J (x := exported C A P f d seed (w.term.clock 2)) hk ho
  have hself : fl.label ≠ self := by
    intro h
    rw [h, hk.noSelf] at hl
    cases hl
  obtain ⟨n, hn⟩ := (chain_terminates C hs hd).1 fl.label (by rw [hl]; simp)
  refine ⟨n, fun e hf h1 => ?_⟩
  have hchain := hn (fun i => e.walk fl.label i m) h1
  obtain ⟨k, hfk⟩ := Nat.exists_eq_add_of_le hf
  have hchain' := chain_mono C (k := k) hchain
  rw [← hfk] at hchain'
  rw [main_unlocked C A P J (select_export C A P (e := e) hfl hself) hk.keyfile ho rfl (by simp) ha]
  have hkk : (opened C f m d seed (exported C A P f d seed (w.term.clock 2))).keys.getD Map.empty = m := rfl
  have hbody : ∀ t, (opened C f m d seed (exported C A P f d seed (w.term.clock 2))).exportVerified C A P.toPem fl.label
      (fun i => e.walk fl.label i m) e.fuel t = some (.ok (some ((statement C d seed r.keyBytes t).serialise A P.toPem))) := by
    intro t
    have hhas : (opened C f m d seed (exported C A P f d seed (w.term.clock 2))).has fl.label = true := by
      rw [has_iff hs.quick hs.keys]
      exact Or.inr (by rw [hl]; simp)
    have hget : (opened C f m d seed (exported C A P f d seed (w.term.clock 2))).get fl.label = some r := (get_some hs.keys).mpr hl
    have hlk : (opened C f m d seed (exported C A P f d seed (w.term.clock 2))).locked = false := rfl
    have hpk : (opened C f m d seed (exported C A P f d seed (w.term.clock 2))).privateKey = some (pairOf C d seed) := rfl
    unfold KeyStore.exportVerified
    rw [hs.quick, hhas, hlk, hchain']
    simp only [Bool.not_true, Bool.or_self, Bool.false_eq_true, if_false]
    unfold KeyStore.exportBody
    rw [if_neg (by intro h; exact hself h.1), if_neg hself, hget, hpk, sound_pub C hs]
    simp only [deref, Res.ok_bind, Res.pure_eq]
    rw [pairOf_eq, sign_mk]
    rfl
  simp only [exportVerified, now_eq, config]
  rw [hkk, hbody]
  dsimp only
  obtain ⟨w3, o1, o2, o3, -⟩ := output_ok (opened C f m d seed (exported C A P f d seed (w.term.clock 2))) (later ((later (Proofs.Fcrypt.rest w as) 3).print (notice f)) 1) dst
    ((statement C d seed r.keyBytes (((later (Proofs.Fcrypt.rest w as) 3).print (notice f)).term.clock 0)).serialise A P.toPem) hw
  have hck : fl.check = false := hfl.1.1
  refine ⟨w3, (later (Proofs.Fcrypt.rest w as) 3).term.clock 0, _, ?_, Output.same o2 rfl rfl, rfl⟩
  rw [o1, hck]
  refine conclude_quiet J (o3 _ ?_)
  obtain ⟨data, h1, -⟩ := hk.file
  show w.fs fl.path ≠ none
  rw [h1]
  simp

end Verif.Props.FcryptKeys
