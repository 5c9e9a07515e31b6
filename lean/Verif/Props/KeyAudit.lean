import Verif.Props.FcryptOutput
/-! C194: what the audit of a key store rejects. -/

namespace Verif.Props.KeyAudit
open Verif Verif.Go Verif.Model.Util Verif.Model.Public Verif.Model.KeyStore Verif.Model.Fcrypt Verif.Model.FcryptOutput
open Verif.Spec.Public Verif.Spec.KeyStore Verif.Spec.Fcrypt Verif.Spec.FcryptOutput
open Verif.Proofs.Public Verif.Proofs.KeyStore Verif.Proofs.Fcrypt Verif.Proofs.FcryptOutput
open Verif.Props.KeyTrust Verif.Props.KeyImport Verif.Props.Fcrypt Verif.Props.FcryptFiles Verif.Props.FcryptKeys Verif.Props.FcryptOutput

variable (T : Bytes) (M : Map (Option PublicKeyRecord) → Bytes) (C : Crypto) (A : Asn1) (P : Armour) (J : KeyJson)

/-- VerifyKeySignature does not refuse a trusted record, also in a store with nil records. -/
theorem vks_trusted {s : KeyFields} {m : Keys} (hq : s.validQuick = true) (hm : s.keys = some m) (hlab : Labelled m)
    {order : List Bytes} (he : m.Enumerates order) {l : Bytes} {r : PublicKeyRecord} (hl : l ≠ self)
    (hr : m l = some (some r)) (h1 : SignedRec C r.keySigner r)
    (h2 : r.keySigner = s.pubBytes ∨ ∃ l' r', m l' = some (some r') ∧ r'.keyBytes = r.keySigner) :
    s.verifyKeySignature C l order = .panic ∨ (r.keySigner = s.pubBytes ∧ s.verifyKeySignature C l order = .ok (some self)) ∨
    (r.keySigner ≠ s.pubBytes ∧ ∃ sl r', m sl = some (some r') ∧ r'.keyBytes = r.keySigner ∧
      s.verifyKeySignature C l order = .ok (some sl)) := by
  have hg := (get_some hm).mpr hr
  by_cases hk : r.keySigner = s.pubBytes
  · exact .inr (.inl ⟨hk, vks_owner C hq hl hg hk (hk ▸ h1)⟩)
  · have hfp : s.findPublic r.keySigner order = findLoop m r.keySigner order := by
      unfold KeyFields.findPublic; rw [if_neg hk, hm]; rfl
    rcases h2 with h2 | ⟨l', r', h2, h3⟩
    · exact absurd h2 hk
    cases hf : findLoop m r.keySigner order with
    | panic =>
      left
      unfold KeyFields.verifyKeySignature
      rw [hq]
      simp only [Bool.not_true, Bool.false_eq_true, if_false, hl, hg, deref, Res.ok_bind, hk, hfp, hf]
      rfl
    | ok o =>
      cases o with
      | none => exact absurd h3 (findLoop_none hf l' ((he.2 l').mpr (by simp [h2])) r' h2)
      | some sl =>
        obtain ⟨k, r'', -, e1, e2, e3⟩ := findLoop_some hf
        rw [hlab k r'' e1] at e3
        subst e3
        refine .inr (.inr ⟨hk, k, r'', e1, e2, vks_other C hq hl hg hk (by rw [hfp, hf]) ((get_some hm).mpr e1) ?_⟩)
        rw [e2]; exact h1

/-- The walk from a trusted record does not end in a refusal. -/
theorem chainLoop_refuses {s : KeyFields} {m : Keys} (hq : s.validQuick = true) (hm : s.keys = some m) (hlab : Labelled m)
    (hd : Distinct m) {orders : Nat → List Bytes} (ho : ∀ i, m.Enumerates (orders i)) {l : Bytes} (ht : Trust C s.pubBytes m l) :
    ∀ fuel i, s.chainLoop C orders fuel i l ≠ some (.ok false) := by
  have hself : ∀ fuel i, s.chainLoop C orders fuel i self ≠ some (.ok false) := by
    intro fuel i
    cases fuel with
    | zero => simp [KeyFields.chainLoop]
    | succ n =>
      rw [KeyFields.chainLoop]
      have : s.verifyKeySignature C self (orders i) = .ok (some self) := by
        unfold KeyFields.verifyKeySignature
        simp [hq]
      simp [this]
  induction ht with
  | @owner l r h1 h2 h3 =>
    intro fuel i
    by_cases hl : l = self
    · subst hl; exact hself fuel i
    cases fuel with
    | zero => simp [KeyFields.chainLoop]
    | succ n =>
      rw [KeyFields.chainLoop]
      rcases vks_trusted C hq hm hlab (ho i) hl h1 h3 (.inl h2) with h | ⟨-, h⟩ | ⟨h, -⟩
      · simp [h]
      · simp [h]
      · exact absurd h2 h
  | @link l l' r r' h1 h2 h3 h4 ht ih =>
    intro fuel i
    by_cases hl : l = self
    · subst hl; exact hself fuel i
    cases fuel with
    | zero => simp [KeyFields.chainLoop]
    | succ n =>
      rw [KeyFields.chainLoop]
      rcases vks_trusted C hq hm hlab (ho i) hl h1 h4 (.inr ⟨l', r', h2, h3.symm⟩) with h | ⟨-, h⟩ | ⟨-, sl, r'', e1, e2, e3⟩
      · simp [h]
      · simp [h]
      · have : sl = l' := hd _ _ _ _ e1 h2 (e2.trans h3)
        subst this
        simp only [e3]
        split
        · simp
        · exact ih n (i + 1)

/-- The walk accepts only trusted records, if there is none under "self". -/
theorem chainLoop_trusts {s : KeyFields} {m : Keys} (hm : s.keys = some m) (hlab : Labelled m) (hs : m self = none)
    (orders : Nat → List Bytes) (fuel i : Nat) (l : Bytes) (hl : l ≠ self)
    (h : s.chainLoop C orders fuel i l = some (.ok true)) : Trust C s.pubBytes m l := by
  induction fuel generalizing i l with
  | zero => simp [KeyFields.chainLoop] at h
  | succ fuel ih =>
    rw [KeyFields.chainLoop] at h
    cases hv : s.verifyKeySignature C l (orders i) with
    | panic => simp [hv] at h
    | ok o =>
      cases o with
      | none => simp [hv] at h
      | some sl =>
        simp only [hv] at h
        obtain ⟨-, ⟨h1, -⟩ | ⟨-, r, h2, h3⟩⟩ := vks_some C hv
        · exact absurd h1 hl
        · have hr := (get_some hm).mp h2
          rcases h3 with ⟨h4, -, h6⟩ | ⟨h4, h5, r', h6, h7⟩
          · exact .owner hr h4 (h4 ▸ h6)
          · by_cases hsl : sl = self
            · subst hsl
              have := (get_some hm).mp h6
              rw [hs] at this
              cases this
            · rw [if_neg hsl] at h
              have h5 : findLoop m r.keySigner (orders i) = .ok (some sl) := by
                unfold KeyFields.findPublic at h5
                rw [if_neg h4, hm] at h5
                exact h5
              obtain ⟨k, r'', -, b1, b2, b3⟩ := findLoop_some h5
              rw [hlab k r'' b1] at b3
              subst b3
              have h6 := (get_some hm).mp h6
              rw [b1] at h6
              cases h6
              exact .link hr b1 b2.symm (b2 ▸ h7) (ih (i + 1) k hsl h)

/-- C194, what holds of the key store: in a valid store whose records carry the labels they are stored under, in which no key is stored
twice and none under "self", VerifyChain, if it returns, says whether there is a chain of verified signatures, each by the
key the record names, from the label to the owner; this is for every iteration order. Missing from the property: stores that hold a
key twice, for which it is false. -/
theorem C194_answer_partial (s : KeyFields) (m : Keys) (hq : s.validQuick = true) (hm : s.keys = some m) (hlab : Labelled m) (hd : Distinct m)
    (hs : m self = none) (orders : Nat → List Bytes) (ho : ∀ i, m.Enumerates (orders i)) (fuel : Nat) (l : Bytes) (hl : l ≠ self) (b : Bool)
    (h : s.verifyChain C orders fuel l = some (.ok b)) : b = true ↔ Trust C s.pubBytes m l := by
  constructor
  · rintro rfl
    exact chainLoop_trusts C hm hlab hs orders fuel 0 l hl (verifyChain_loop C hl h)
  · intro ht
    cases b with
    | true => rfl
    | false =>
      unfold KeyFields.verifyChain at h
      have hh : s.has l = true := by
        cases ht with
        | owner h1 => simp [KeyFields.has, hq, hm, h1, Map.has]
        | link h1 => simp [KeyFields.has, hq, hm, h1, Map.has]
      rw [hq, hh] at h
      simp only [Bool.not_true, Bool.or_self, Bool.false_eq_true, if_false, if_neg hl] at h
      exact absurd h (chainLoop_refuses C hq hm hlab hd ho ht fuel 0)

/-- What the audit prints when it fails. -/
theorem audit_text {s : KeyFields} {orders : Bytes → Nat → List Bytes} {fuel : Nat} {order : List Bytes}
    (h : s.auditLoop C orders fuel order = some (.ok false)) :
    ∃ l ∈ order, s.verifyChain C (orders l) fuel l = some (.ok false) ∧
      auditText C s orders fuel order = [.err (ascii "[!] Key " ++ l ++ ascii " is not trusted.\n")] := by
  induction order with
  | nil => simp [KeyFields.auditLoop] at h
  | cons q qs ih =>
    rw [KeyFields.auditLoop] at h
    unfold auditText
    cases hv : s.verifyChain C (orders q) fuel q with
    | none => simp [hv] at h
    | some x =>
      cases x with
      | panic => simp [hv] at h
      | ok b =>
        cases b with
        | true =>
          simp only [hv] at h ⊢
          obtain ⟨l, h1, h2, h3⟩ := ih h
          exact ⟨l, List.mem_cons_of_mem _ h1, h2, h3⟩
        | false =>
          refine ⟨q, List.mem_cons_self, hv, ?_⟩
          have e1 : ascii "[!] Key " = ascii "[!] " ++ ascii "Key " := by decide
          have e2 : ascii " is not trusted.\n" = ascii " is not trusted." ++ [10] := by decide
          rw [e1, e2]
          simp only [errorf, List.append_assoc]

theorem select_text_check {e : Env} {fl : Flags} (h : Checks fl) : selectText T C A P e fl = some ([], checkText C e) := by
  unfold selectText
  rw [h]
  rfl

/-- What fcrypt -check does and prints when the audit fails. -/
theorem check_fails {e : Env} {fl : Flags} (hfl : Checks fl) {args : List Bytes} {w : World} {d seed pass : Bytes} {f : KeyFields} {m : Keys}
    {as : List (Option Bytes)} (hk : Keyfile J w.fs fl.path (ownerOf C d seed) f m) (ho : Opens C f d seed pass)
    (ha : w.term.answers = some pass :: as) :
    ∃ s : KeyStore, s.validQuick = true ∧ s.keys = some m ∧ s.pubBytes = ownerOf C d seed ∧
      (s.keyAudit C (e.order 0 m) (fun l i => e.walk l i m) e.fuel = (loaded f m).keyAudit C (e.order 0 m) (fun l i => e.walk l i m) e.fuel) ∧
      ((main C A P J e fl args w).1 = .err → s.keyAudit C (e.order 0 m) (fun l i => e.walk l i m) e.fuel ≠ some (.ok true) →
        s.keyAudit C (e.order 0 m) (fun l i => e.walk l i m) e.fuel = some (.ok false)) ∧
      (s.keyAudit C (e.order 0 m) (fun l i => e.walk l i m) e.fuel = some (.ok false) →
        (∃ w', main C A P J e fl args w = (.err, w')) ∧
        mainText T M C A P J e fl args w = noticed f ++ (auditText C s.toKeyFields (fun l i => e.walk l i m) e.fuel (e.order 0 m) ++
          [.err (ascii "[!] Failed: audit failed\n")])) := by
  have hm := main_unlocked C A P J (args := args) (select_check C A P (e := e) hfl) hk ho rfl (Nat.zero_le _) ha
  obtain ⟨ks, w1, -, hks, ht⟩ := text_unlocked T M C A P J (args := args) (select_check C A P (e := e) hfl) (select_text_check T C A P hfl) hk ho rfl (Nat.zero_le _) ha
  have hq : (opened C f m d seed (exported C A P f d seed (w.term.clock 2))).validQuick = true := (quick_iff _).mpr ⟨hk.version, hk.time, m, rfl⟩
  have hval : (opened C f m d seed (exported C A P f d seed (w.term.clock 2))).valid = .ok true :=
    valid_of hq rfl rfl (pairOf_valid C d seed) (pairOf_marshal C d seed) hk.pub hk.len
  have hl : (opened C f m d seed (exported C A P f d seed (w.term.clock 2))).locked = false := rfl
  have hkk : (opened C f m d seed (exported C A P f d seed (w.term.clock 2))).keys.getD Map.empty = m := rfl
  have hpub : (opened C f m d seed (exported C A P f d seed (w.term.clock 2))).pubBytes = ownerOf C d seed := by
    show (f.publicKey).getD [] = _
    rw [hk.pub]
    rfl
  have haud := audit_congr C (s := (loaded f m).toKeyFields) (s' := (opened C f m d seed (exported C A P f d seed (w.term.clock 2))).toKeyFields) rfl rfl rfl rfl
    (e.order 0 m) (fun l i => e.walk l i m) e.fuel
  refine ⟨_, hq, rfl, hpub, haud, ?_, ?_⟩
  · intro herr hne
    rw [hm] at herr
    unfold checkStore at herr
    simp only at herr
    rw [hval, hl] at herr
    simp only [Bool.false_eq_true, if_false, after, Bool.not_true, hkk] at herr
    cases hau : (opened C f m d seed (exported C A P f d seed (w.term.clock 2))).keyAudit C (e.order 0 m) (fun l i => e.walk l i m) e.fuel with
    | none => rw [hau] at herr; cases herr
    | some x =>
      cases x with
      | panic => rw [hau] at herr; cases herr
      | ok b =>
        cases b with
        | true => exact absurd hau hne
        | false => rfl
  · intro hau
    have hrun : ∀ w2, checkStore C e (opened C f m d seed (exported C A P f d seed (w.term.clock 2))) (config fl args) w2 =
        (.err, opened C f m d seed (exported C A P f d seed (w.term.clock 2)), w2) := by
      intro w2
      unfold checkStore
      rw [hval, hl]
      simp only [Bool.false_eq_true, if_false, after, Bool.not_true, hkk]
      rw [hau]
    constructor
    · rw [hm]
      simp only [hrun]
      exact ⟨_, rfl⟩
    · rw [ht, hks]
      simp only [hrun, concludeText]
      unfold checkText
      rw [hval, hl]
      simp only [Bool.false_eq_true, if_false, hkk]
      rw [hau]
      rfl

/-- C194, what holds of fcrypt: if no key is on record twice, and -check exits with status 1 though the passphrase is right and the
file can be written, then it has named a key on record that has no chain of verified signatures to the owner. Missing from
the property: files that hold a key twice, for which it is false. -/
theorem C194_named_partial (e : Env) (fl : Flags) (hfl : Checks fl) (args : List Bytes) (w w' : World) (d seed pass : Bytes) (f : KeyFields) (m : Keys)
    (as : List (Option Bytes)) (hk : Keyfile J w.fs fl.path (ownerOf C d seed) f m) (hlab : Labelled m) (hd : Distinct m)
    (ho : Opens C f d seed pass) (ha : w.term.answers = some pass :: as) (hw : w.writes 0 = .done)
    (he : m.Enumerates (e.order 0 m)) (hwalk : ∀ l i, m.Enumerates (e.walk l i m)) (hr : main C A P J e fl args w = (.err, w')) :
    ∃ l, m l ≠ none ∧ ¬ Trust C (ownerOf C d seed) m l ∧
      mainText T M C A P J e fl args w = noticed f ++ [.err (ascii "[!] Key " ++ l ++ ascii " is not trusted.\n"),
        .err (ascii "[!] Failed: audit failed\n")] := by
  obtain ⟨s, hq, hm, hp, h1, h2, h3⟩ := check_fails T M C A P J (e := e) (args := args) hfl hk ho ha
  have hne : s.keyAudit C (e.order 0 m) (fun l i => e.walk l i m) e.fuel ≠ some (.ok true) := by
    intro hx
    rw [h1] at hx
    obtain ⟨w2, h4, -⟩ := (check_run C A P J (e := e) (args := args) hfl hk ho ha hw).1 hx
    rw [hr] at h4
    cases h4
  have hau := h2 (by rw [hr]) hne
  obtain ⟨-, h4⟩ := h3 hau
  unfold KeyFields.keyAudit at hau
  rw [hq] at hau
  simp only [Bool.not_true, Bool.false_eq_true, if_false] at hau
  obtain ⟨l, g1, g2, g3⟩ := audit_text C hau
  refine ⟨l, (he.2 l).mp g1, ?_, by rw [h4, g3]; rfl⟩
  intro ht
  rw [← hp] at ht
  unfold KeyFields.verifyChain at g2
  have hh : s.has l = true := by
    have := (he.2 l).mp g1
    cases hx : m l with
    | none => exact absurd hx this
    | some v => simp [KeyFields.has, hq, hm, hx, Map.has]
  rw [hq, hh] at g2
  simp only [Bool.not_true, Bool.or_self, Bool.false_eq_true, if_false] at g2
  split at g2
  · cases g2
  · exact absurd g2 (chainLoop_refuses C hq hm hlab hd (hwalk l) ht e.fuel 0)

theorem exWorld_fs (f : KeyFields) (pass input : Bytes) : (exWorld J f pass input).fs [107] = some (J.enc f) := by
  show (Fs.set (Fs.set (fun _ => none) [105] input) [107] (J.enc f)) [107] = some (J.enc f)
  rw [Fs.set_same]

/-- A file with one key, which carries no signature. -/
noncomputable def exUnsigned (box : Bytes) : KeyFields :=
  selfSigned (ownerOf C (List.replicate 32 1) (List.replicate 32 2))
    { pub := [9], signer := ownerOf C (List.replicate 32 1) (List.replicate 32 2), timestamp := 5, signature := [] } box

theorem exUnsigned_keys {box : Bytes} {k : Bytes} {x : Option PublicKeyRecord} {m : Keys} (hm : (exUnsigned C box).keys = some m) (h : m k = some x) :
    k = [120] ∧ ∃ r, x = some r ∧ r.label = [120] ∧ r.keySignature = [] := by
  cases hm
  by_cases hk : k = [120]
  · subst hk
    rw [Map.set_same] at h
    cases h
    exact ⟨rfl, _, rfl, rfl, rfl⟩
  · rw [Map.set_other _ _ hk] at h
    cases h

/-- The hypotheses of both theorems can be met: the key of such a file is refused. -/
example : ∃ (e : Env) (fl : Flags) (w w' : World) (d seed pass : Bytes) (f : KeyFields) (m : Keys) (s : KeyStore), Checks fl ∧
    Keyfile J w.fs fl.path (ownerOf C d seed) f m ∧ Labelled m ∧ Distinct m ∧ m self = none ∧ Opens C f d seed pass ∧ w.term.answers = [some pass] ∧
    w.writes 0 = .done ∧ m.Enumerates (e.order 0 m) ∧ (∀ l i, m.Enumerates (e.walk l i m)) ∧ main C A P J e fl [] w = (.err, w') ∧
    s.validQuick = true ∧ s.keys = some m ∧ s.verifyChain C (fun i => e.walk [120] i m) e.fuel [120] = some (.ok false) := by
  obtain ⟨box, -, -, hb⟩ := (Props.Public.C24_lock_roundtrip C (pairOf C (List.replicate 32 1) (List.replicate 32 2))
    (pairOf_wt C _ _ (by decide) (by decide)) (pairOf_valid C _ _) [112] (List.replicate 56 7)).2 (by simp)
  obtain ⟨m, hm0⟩ : ∃ m, (exUnsigned C box).keys = some m := ⟨_, rfl⟩
  let e : Env := { fuel := 1, order := fun _ _ => [[120]], walk := fun _ _ _ => [[120]], date := fun _ => [], sha256 := id }
  let fl : Flags := { path := [107], check := true }
  have hx : m [120] ≠ none := by
    cases hm0
    rw [Map.set_same]
    simp
  have hen : m.Enumerates [[120]] := by
    refine ⟨by simp, fun k => ⟨fun h => ?_, fun h => ?_⟩⟩
    · rw [List.mem_singleton] at h
      subst h
      exact hx
    · cases hk : m k with
      | none => exact absurd hk h
      | some x => rw [(exUnsigned_keys C hm0 hk).1]; simp
  have hlab : Labelled m := by
    intro k r hk
    obtain ⟨rfl, r', g1, g2, -⟩ := exUnsigned_keys C hm0 hk
    cases g1
    exact g2
  have hself : m self = none := by
    cases hk : m self with
    | none => rfl
    | some x => exact absurd (exUnsigned_keys C hm0 hk).1 (by decide)
  have hd : Distinct m := by
    intro l l' r r' h1 h2 _
    rw [(exUnsigned_keys C hm0 h1).1, (exUnsigned_keys C hm0 h2).1]
  have hk : Keyfile J (exWorld J (exUnsigned C box) [112] []).fs fl.path (ownerOf C (List.replicate 32 1) (List.replicate 32 2)) (exUnsigned C box) m :=
    ⟨⟨_, exWorld_fs J _ _ _, selfSigned_dec J _ _ _⟩, rfl, by show (5 : BitVec 64) ≠ 0; decide, rfl, ownerOf_length C _ _, by rw [hm0]; rfl,
      by simp [exUnsigned, selfSigned]⟩
  have ho : Opens C (exUnsigned C box) (List.replicate 32 1) (List.replicate 32 2) [112] := ⟨by decide, by decide, box, rfl, hb⟩
  obtain ⟨s, hq, hm, hp, -, -, h3⟩ := check_fails [] (fun _ => []) C A P J (e := e) (args := []) (fl := fl) (as := []) rfl hk ho rfl
  have hv : s.verifyKeySignature C [120] [[120]] = .ok none := by
    cases hv : s.verifyKeySignature C [120] [[120]] with
    | panic =>
      refine absurd hv (vks_no_panic C hm (fun k hk => ?_) hlab (.inr hx) _)
      obtain ⟨-, r, g, -⟩ := exUnsigned_keys C hm0 hk
      cases g
    | ok o =>
      cases o with
      | none => rfl
      | some sl =>
        exfalso
        obtain ⟨-, ⟨q, -⟩ | ⟨-, r, g2, g3⟩⟩ := vks_some C hv
        · revert q; decide
        · obtain ⟨-, r', e1, -, e2⟩ := exUnsigned_keys C hm0 ((get_some hm).mp g2)
          cases e1
          have : ∀ o, ¬ SignedRec C o r := fun o g => absurd g.2.1 (by rw [e2]; simp)
          rcases g3 with ⟨-, -, g⟩ | ⟨-, -, r', -, g⟩
          · exact this _ g
          · exact this _ g
  have hc : s.verifyChain C (fun i => e.walk [120] i m) e.fuel [120] = some (.ok false) := by
    unfold KeyFields.verifyChain
    have hh : s.has [120] = true := by
      cases hxx : m [120] with
      | none => exact absurd hxx hx
      | some v => simp [KeyFields.has, hq, hm, hxx, Map.has]
    rw [hq, hh]
    simp only [Bool.not_true, Bool.or_self, Bool.false_eq_true, if_false]
    rw [if_neg (by decide)]
    simp [e, KeyFields.chainLoop, hv]
  obtain ⟨⟨w', hmain⟩, -⟩ := h3 (by
    unfold KeyFields.keyAudit
    rw [hq]
    simp only [Bool.not_true, Bool.false_eq_true, if_false]
    show s.auditLoop C _ _ [[120]] = _
    rw [KeyFields.auditLoop, hc])
  exact ⟨e, fl, _, w', _, _, _, _, m, s, rfl, hk, hlab, hd, hself, ho, rfl, rfl, hen, fun _ _ => hen, hmain, hq, hm, hc⟩

/-- The records of a file that holds a key twice: under "a", signed by the owner, and under "b", with no signature; and another key under
"c", signed with the first. -/
def doubledKeys (va vc : VerifiedKey) : Keys :=
  ((Map.empty.set [97] (some (recordFor [97] va))).set [98] (some { recordFor [98] va with keySignature := [] })).set [99] (some (recordFor [99] vc))

/-- The store that the file describes. -/
def doubled (owner : Bytes) (va vc : VerifiedKey) (box : Bytes) : KeyFields :=
  { version := 1, timestamp := 5, keys := some (doubledKeys va vc), lockedKey := some box, publicKey := some owner, exportKey := none }

theorem doubled_a (va vc : VerifiedKey) : doubledKeys va vc [97] = some (some (recordFor [97] va)) := by
  unfold doubledKeys
  rw [Map.set_other _ _ (by decide), Map.set_other _ _ (by decide), Map.set_same]

theorem doubled_b (va vc : VerifiedKey) : doubledKeys va vc [98] = some (some { recordFor [98] va with keySignature := [] }) := by
  unfold doubledKeys
  rw [Map.set_other _ _ (by decide), Map.set_same]

theorem doubled_c (va vc : VerifiedKey) : doubledKeys va vc [99] = some (some (recordFor [99] vc)) := by
  unfold doubledKeys
  rw [Map.set_same]

theorem doubled_none (va vc : VerifiedKey) {k : Bytes} (h1 : k ≠ [97]) (h2 : k ≠ [98]) (h3 : k ≠ [99]) : doubledKeys va vc k = none := by
  unfold doubledKeys
  rw [Map.set_other _ _ h3, Map.set_other _ _ h2, Map.set_other _ _ h1]
  rfl

theorem doubled_cases (va vc : VerifiedKey) {k : Bytes} {x : Option PublicKeyRecord} (h : doubledKeys va vc k = some x) :
    ∃ r, x = some r ∧ r.label = k ∧ r.metadata = none ∧ (k = [97] ∨ k = [98] ∨ k = [99]) := by
  by_cases h1 : k = [97]
  · subst h1; rw [doubled_a] at h; cases h; exact ⟨_, rfl, rfl, rfl, .inl rfl⟩
  by_cases h2 : k = [98]
  · subst h2; rw [doubled_b] at h; cases h; exact ⟨_, rfl, rfl, rfl, .inr (.inl rfl)⟩
  by_cases h3 : k = [99]
  · subst h3; rw [doubled_c] at h; cases h; exact ⟨_, rfl, rfl, rfl, .inr (.inr rfl)⟩
  rw [doubled_none va vc h1 h2 h3] at h
  cases h

theorem doubled_enum (va vc : VerifiedKey) {o : List Bytes} (h : o.Perm [[97], [98], [99]]) : (doubledKeys va vc).Enumerates o := by
  refine ⟨h.nodup_iff.mpr (by decide), fun k => h.mem_iff.trans ?_⟩
  constructor
  · intro hk
    simp only [List.mem_cons, List.not_mem_nil, or_false] at hk
    rcases hk with rfl | rfl | rfl
    · rw [doubled_a]; simp
    · rw [doubled_b]; simp
    · rw [doubled_c]; simp
  · intro hk
    cases hx : doubledKeys va vc k with
    | none => exact absurd hx hk
    | some x =>
      obtain ⟨-, -, -, -, hh⟩ := doubled_cases va vc hx
      simpa using hh

theorem doubled_dec (owner : Bytes) (va vc : VerifiedKey) (box : Bytes) :
    J.dec (J.enc (doubled owner va vc box)) = some (doubled owner va vc box) := by
  refine J.dec_enc _ ?_ ?_
  · intro m hm
    cases hm
    refine ⟨((Map.finite_empty.set _ _).set _ _).set _ _, fun k r md h1 h2 => ?_⟩
    obtain ⟨r', e1, -, e2, -⟩ := doubled_cases va vc h1
    cases e1
    rw [e2] at h2
    cases h2
  · intro m hm k x hk
    cases hm
    obtain ⟨r', e1, e2, e3, e4⟩ := doubled_cases va vc hk
    subst e1
    refine ⟨?_, fun r hr => ?_⟩
    · rcases e4 with rfl | rfl | rfl <;> decide
    · cases hr
      refine ⟨?_, fun md j x h => by rw [e3] at h; cases h⟩
      rw [e2]
      rcases e4 with rfl | rfl | rfl <;> decide

/-- C194 is false of files that hold a key twice: fcrypt -check can name a key that the owner trusts, by way of the first copy of a key the second
copy of which has no signature. -/
theorem C194_twice_violated (e : Env) (fl : Flags) (hfl : Checks fl) (args : List Bytes) (w : World) (d seed dA seedA pk box pass : Bytes)
    (t : BitVec 64) (n : Nat) (hA : seedA.length = 32) (h1 : ownerOf C dA seedA ≠ ownerOf C d seed)
    (as : List (Option Bytes))
    (hf : w.fs fl.path = some (J.enc (doubled (ownerOf C d seed) (statement C d seed (ownerOf C dA seedA) t) (statement C dA seedA pk t) box)))
    (ho : Opens C (doubled (ownerOf C d seed) (statement C d seed (ownerOf C dA seedA) t) (statement C dA seedA pk t) box) d seed pass)
    (ha : w.term.answers = some pass :: as) (hn : e.fuel = n + 2)
    (he : e.order 0 (doubledKeys (statement C d seed (ownerOf C dA seedA) t) (statement C dA seedA pk t)) = [[99], [98], [97]])
    (hwalk : ∀ i, e.walk [99] i (doubledKeys (statement C d seed (ownerOf C dA seedA) t) (statement C dA seedA pk t)) = [[98], [97], [99]]) :
    (∃ w', main C A P J e fl args w = (.err, w')) ∧
    mainText T M C A P J e fl args w = [.out (ascii "Building export key.\n"), .err (ascii "[!] Key c is not trusted.\n"),
        .err (ascii "[!] Failed: audit failed\n")] ∧
    Trust C (ownerOf C d seed) (doubledKeys (statement C d seed (ownerOf C dA seedA) t) (statement C dA seedA pk t)) [99] := by
  have hk : Keyfile J w.fs fl.path (ownerOf C d seed) (doubled (ownerOf C d seed) (statement C d seed (ownerOf C dA seedA) t) (statement C dA seedA pk t) box)
      (doubledKeys (statement C d seed (ownerOf C dA seedA) t) (statement C dA seedA pk t)) :=
    ⟨⟨_, hf, doubled_dec J _ _ _ _⟩, rfl, by show (5 : BitVec 64) ≠ 0; decide, rfl, ownerOf_length C d seed, rfl, by simp [doubled]⟩
  obtain ⟨s, hq, hm, hp, -, -, h3⟩ := check_fails T M C A P J (e := e) (args := args) hfl hk ho ha
  have gc := (get_some hm).mpr (doubled_c (statement C d seed (ownerOf C dA seedA) t) (statement C dA seedA pk t))
  have gb := (get_some hm).mpr (doubled_b (statement C d seed (ownerOf C dA seedA) t) (statement C dA seedA pk t))
  have vc : s.verifyKeySignature C [99] [[98], [97], [99]] = .ok (some [98]) := by
    refine vks_other C hq (by decide) gc (by rw [hp]; exact h1) ?_ gb (statement_signed C dA seedA pk t hA)
    unfold KeyFields.findPublic
    rw [if_neg (by rw [hp]; exact h1), hm]
    simp [findLoop, doubled_b, PublicKeyRecord.keyBytes, recordFor, statement]
  have vb : s.verifyKeySignature C [98] [[98], [97], [99]] = .ok none := by
    cases hv : s.verifyKeySignature C [98] [[98], [97], [99]] with
    | panic =>
      refine absurd hv (vks_no_panic C hm (fun k hk => ?_) (fun k r hk => ?_) (.inr ?_) _)
      · obtain ⟨r, g, -⟩ := doubled_cases _ _ hk
        cases g
      · obtain ⟨r', g, g', -⟩ := doubled_cases _ _ hk
        cases g
        exact g'
      · rw [doubled_b]
        simp
    | ok o =>
      cases o with
      | none => rfl
      | some sl =>
        exfalso
        obtain ⟨-, ⟨q, -⟩ | ⟨-, r, g2, g3⟩⟩ := vks_some C hv
        · revert q; decide
        · rw [gb] at g2
          cases g2
          rcases g3 with ⟨-, -, g⟩ | ⟨g, -⟩
          · exact absurd g.2.1 (by simp)
          · exact g hp.symm
  have hchain : s.verifyChain C (fun i => e.walk [99] i (doubledKeys (statement C d seed (ownerOf C dA seedA) t) (statement C dA seedA pk t))) e.fuel [99] =
      some (.ok false) := by
    unfold KeyFields.verifyChain
    have hh : s.has [99] = true := by simp [KeyFields.has, hq, hm, doubled_c, Map.has]
    rw [hq, hh, hn]
    simp only [Bool.not_true, Bool.or_self, Bool.false_eq_true, if_false]
    rw [if_neg (by decide)]
    simp [KeyFields.chainLoop, hwalk, vc, vb, show ([98] : Bytes) ≠ self by decide]
  have hau : s.keyAudit C (e.order 0 (doubledKeys (statement C d seed (ownerOf C dA seedA) t) (statement C dA seedA pk t)))
      (fun l i => e.walk l i (doubledKeys (statement C d seed (ownerOf C dA seedA) t) (statement C dA seedA pk t))) e.fuel = some (.ok false) := by
    unfold KeyFields.keyAudit
    rw [hq, he]
    simp [KeyFields.auditLoop, hchain]
  obtain ⟨g1, g2⟩ := h3 hau
  refine ⟨g1, ?_, ?_⟩
  · rw [g2, he]
    simp only [auditText, hchain]
    rfl
  · refine .link (doubled_c _ _) (doubled_a _ _) rfl (statement_signed C dA seedA pk t hA) (.owner (doubled_a _ _) rfl ?_)
    exact statement_signed C d seed _ t ho.slen

/-- The hypotheses can be met: such a file, and a private key that opens. -/
example (pk : Bytes) : ∃ (fl : Flags) (w : World) (d seed dA seedA box pass : Bytes), Checks fl ∧ seedA.length = 32 ∧
    ownerOf Toy.crypto dA seedA ≠ ownerOf Toy.crypto d seed ∧
    w.fs fl.path = some (J.enc (doubled (ownerOf Toy.crypto d seed) (statement Toy.crypto d seed (ownerOf Toy.crypto dA seedA) 5)
      (statement Toy.crypto dA seedA pk 5) box)) ∧
    Opens Toy.crypto (doubled (ownerOf Toy.crypto d seed) (statement Toy.crypto d seed (ownerOf Toy.crypto dA seedA) 5)
      (statement Toy.crypto dA seedA pk 5) box) d seed pass ∧ w.term.answers = [some pass] := by
  obtain ⟨box, -, -, hb⟩ := (Props.Public.C24_lock_roundtrip Toy.crypto (pairOf Toy.crypto (List.replicate 32 1) (List.replicate 32 2))
    (pairOf_wt Toy.crypto _ _ (by decide) (by decide)) (pairOf_valid Toy.crypto _ _) [112] (List.replicate 56 7)).2 (by simp)
  exact ⟨{ path := [107], check := true }, exWorld J (doubled _ _ _ box) [112] [], List.replicate 32 1, List.replicate 32 2, List.replicate 32 3,
    List.replicate 32 4, box, [112], rfl, by decide, by decide, exWorld_fs J _ _ _, ⟨by decide, by decide, box, rfl, hb⟩, rfl⟩

/-- The orders are orders of the map. -/
example (va vc : VerifiedKey) : (doubledKeys va vc).Enumerates [[99], [98], [97]] ∧ (doubledKeys va vc).Enumerates [[98], [97], [99]] :=
  ⟨doubled_enum va vc (by decide), doubled_enum va vc (by decide)⟩

end Verif.Props.KeyAudit
