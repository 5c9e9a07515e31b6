import Verif.Proofs.SecretStore
import Verif.Proofs.Strings
import Verif.Spec.Secrets
/-! Facts about the model of cmd/secrets. -/

namespace Verif.Proofs.Secrets
open Verif Verif.Go Verif.Model.Util Verif.Model.SecretStore Verif.Model.Secrets
open Verif.Spec.SecretStore Verif.Spec.Secrets Verif.Proofs.SecretStore

variable (C : Crypto) (J : Json)

/-! ### Files -/

theorem recordSan_clean {r r' : SecretRecord} (h : RecordSan r r') (c1 : ValidUtf8 r.label)
    (c2 : ∀ md j x, r.metadata = some md → md j = some x → ValidUtf8 j) : r' = r := by
  obtain ⟨l1, l2, l3, l4⟩ := h
  obtain ⟨a, b, c, d⟩ := r
  obtain ⟨a', b', c', d'⟩ := r'
  simp only at l1 l2 l3 l4 c1 c2
  rw [ValidUtf8] at c1
  rw [c1] at l1
  subst l1 l2 l3
  congr 1
  cases d with
  | none => cases d' with
    | none => rfl
    | some d' => simp [OptRel] at l4
  | some d => cases d' with
    | none => simp [OptRel] at l4
    | some d' =>
      simp only [OptRel] at l4
      congr 1
      exact mapSan_clean (fun j x hx => c2 d j x rfl hx) (fun _ _ _ _ h => h.symm) l4

/-- A file holding the JSON of a finite store opens, as the store after a trip through JSON. -/
theorem saved_opens {f : Fields} {out p : Bytes} {mode : Int} (hf : f.Finite) (h : IsFile C out p mode (J.enc f)) :
    ∃ s', unmarshalSecretStore C J out p mode = .ok (some s') ∧ FieldsSan f s'.toFields ∧ s'.passphrase = some p := by
  obtain ⟨f', h1, h2⟩ := J.dec_enc f hf
  exact ⟨{ toFields := f', passphrase := some p }, (unmarshal_iff C J out p mode _).mpr ⟨_, h, h1, rfl⟩, h2, rfl⟩

theorem opens_fields {b p : Bytes} {mode : Int} {s : SecretStore} (h : unmarshalSecretStore C J b p mode = .ok (some s)) :
    s.toFields.Finite ∧ s.toFields.Utf8 ∧ s.passphrase = some p := by
  obtain ⟨data, -, h1, h2⟩ := (unmarshal_iff C J b p mode s).mp h
  exact ⟨J.dec_finite _ _ h1, J.dec_utf8 _ _ h1, h2⟩

/-- A record comes back if no other label becomes its label. -/
theorem san_lookup {f : Fields} {s' : SecretStore} (h : FieldsSan f s'.toFields) {m : Map (Option SecretRecord)}
    (hm : f.store = some m) {k : Bytes} {r : SecretRecord} (hk : m k = some (some r)) (hv : ValidUtf8 k)
    (ha : ∀ k2, m k2 ≠ none → sanitise k2 = k → k2 = k) :
    ∃ r', lookup s' k = some r' ∧ RecordSan r r' := by
  obtain ⟨-, -, h3⟩ := h
  rw [hm] at h3
  cases hm' : s'.store with
  | none => rw [hm'] at h3; simp [OptRel] at h3
  | some m' =>
    rw [hm'] at h3
    simp only [OptRel] at h3
    rw [ValidUtf8] at hv
    obtain ⟨v', h1, h2⟩ := h3.1 k (some r) hk (by
      intro k2 e1 e2
      rw [hv] at e2
      rw [ha k2 e1 e2]
      exact List.lt_irrefl k)
    rw [hv] at h1
    cases v' with
    | none => simp [OptRel] at h2
    | some r' =>
      simp only [OptRel] at h2
      exact ⟨r', by rw [lookup_eq hm', h1]; rfl, h2⟩

theorem lookup_get {s : SecretStore} {k : Bytes} {r : SecretRecord} (h : lookup s k = some r) :
    ∃ m, s.store = some m ∧ m k = some (some r) := by
  cases hm : s.store with
  | none => simp [lookup, hm] at h
  | some m =>
    rw [lookup_eq hm] at h
    cases hk : m k with
    | none => simp [hk] at h
    | some v =>
      cases v with
      | none => simp [hk] at h
      | some r' => simp [hk] at h; subst h; exact ⟨m, rfl, hk⟩

theorem has_get {s : SecretStore} {k : Bytes} {m : Map (Option SecretRecord)} (h : s.store = some m) :
    s.has k = true ↔ m k ≠ none := by
  simp [SecretStore.has, h, Map.has, Option.isSome_iff_ne_none]

/-! ### The commands -/

theorem assign_eq {ps ps' : SecretStore} {label : Bytes} {r : SecretRecord} :
    assign ps label r = .ok ps' ↔ ∃ m, ps.store = some m ∧ ps' = { ps with store := some (m.set label (some r)) } := by
  unfold assign
  cases h : ps.store with
  | none => simp
  | some m => simp [eq_comm]

theorem fetch_eq {ps : SecretStore} {label : Bytes} {r : SecretRecord} :
    fetch ps label = .ok r ↔ lookup ps label = some r := by
  unfold fetch lookup
  cases h : ps.store with
  | none => simp
  | some m =>
    simp only
    split <;> simp_all

theorem lookup_set {ps : SecretStore} {m : Map (Option SecretRecord)} (h : ps.store = some m) (label k : Bytes) (r : SecretRecord) :
    lookup { ps with store := some (m.set label (some r)) } k = if k = label then some r else lookup ps k := by
  rw [lookup_eq (m := m.set label (some r)) rfl, lookup_eq h]
  by_cases hk : k = label
  · subst hk; simp
  · simp [Map.set_other _ _ hk, hk]

theorem finite_set {f : Fields} {m : Map (Option SecretRecord)} (h : f.Finite) (hm : f.store = some m) (label : Bytes)
    (r : SecretRecord) (hr : ∀ md, r.metadata = some md → md.Finite) (t : BitVec 64) :
    ({ f with store := some (m.set label (some r)), timestamp := t } : Fields).Finite := by
  intro m' hm'
  simp only [Option.some.injEq] at hm'
  subst hm'
  refine ⟨(h m hm).1.set _ _, ?_⟩
  intro k r' md hk hmd
  by_cases hkl : k = label
  · subst hkl
    simp only [Map.set_same, Option.some.injEq] at hk
    subst hk
    exact hr md hmd
  · rw [Map.set_other _ _ hkl] at hk
    exact (h m hm).2 k r' md hk hmd

theorem finite_time {f : Fields} (h : f.Finite) (t : BitVec 64) : ({ f with timestamp := t } : Fields).Finite := h

/-- What storing one secret did. -/
theorem addPlain_ok {w w' : World} {ps ps' : SecretStore} {label : Bytes} {ow : Bool}
    (h : addPlain w ps label ow = .ok (true, ps', w')) :
    ∃ pw rest m r0, w.term.answers = some pw :: rest ∧ pw ≠ [] ∧ ps.store = some m ∧
      (ps.has label = true → ow = true ∧ lookup ps label = some r0) ∧
      (ps.has label = false → r0 = { label := label, timestamp := 0, secret := [], metadata := none }) ∧
      ps' = { ps with store := some (m.set label (some { r0 with secret := pw, timestamp := w.term.clock 0 })) } ∧
      w' = { w with term := ⟨rest, fun n => w.term.clock (n + 1)⟩ } := by
  unfold addPlain at h
  simp only at h
  split at h
  · simp at h
  · rename_i h0
    unfold Term.read at h
    cases ha : w.term.answers with
    | nil => simp [ha] at h
    | cons a rest =>
      cases a with
      | none => simp [ha] at h
      | some pw =>
        simp only [ha] at h
        split at h
        · simp at h
        · rename_i hpw
          cases hh : ps.has label with
          | true =>
            have how : ow = true := by simpa [hh] using h0
            rw [hh] at h
            simp only [if_true] at h
            obtain ⟨r, h1, h2⟩ := Res.bind_eq_ok.mp h
            obtain ⟨ps1, h3, h4⟩ := Res.bind_eq_ok.mp h2
            obtain ⟨m, hm, rfl⟩ := assign_eq.mp h3
            simp only [Res.pure_eq, Res.ok.injEq, Prod.mk.injEq, true_and] at h4
            obtain ⟨rfl, rfl⟩ := h4
            exact ⟨pw, rest, m, r, rfl, by simpa using hpw, hm, fun _ => ⟨how, fetch_eq.mp h1⟩, by simp, rfl, rfl⟩
          | false =>
            rw [hh] at h
            simp only [Bool.false_eq_true, if_false] at h
            obtain ⟨r, h1, h2⟩ := Res.bind_eq_ok.mp h
            obtain ⟨ps1, h3, h4⟩ := Res.bind_eq_ok.mp h2
            obtain ⟨m, hm, rfl⟩ := assign_eq.mp h3
            simp only [Res.pure_eq, Res.ok.injEq, Prod.mk.injEq, true_and] at h4 h1
            obtain ⟨rfl, rfl⟩ := h4
            exact ⟨pw, rest, m, r, rfl, by simpa using hpw, hm, by simp, fun _ => h1.symm, rfl, rfl⟩

/-- What every command leaves alone: no label appears that was not typed. -/
structure Frame (typed : List Bytes) (ps ps' : SecretStore) : Prop where
  version : ps'.version = ps.version
  passphrase : ps'.passphrase = ps.passphrase
  finite : ps.toFields.Finite → ps'.toFields.Finite
  keys : ∀ k, ps'.has k = true → ps.has k = true ∨ k ∈ typed

theorem Frame.refl (t : List Bytes) (ps : SecretStore) : Frame t ps ps :=
  ⟨rfl, rfl, id, fun _ h => Or.inl h⟩

theorem Frame.trans {t : List Bytes} {a b c : SecretStore} (h1 : Frame t a b) (h2 : Frame t b c) : Frame t a c :=
  ⟨h2.version.trans h1.version, h2.passphrase.trans h1.passphrase, fun h => h2.finite (h1.finite h), fun k h =>
    (h2.keys k h).elim (fun h => h1.keys k h) Or.inr⟩

theorem Frame.mono {t t' : List Bytes} {a b : SecretStore} (h : Frame t a b) (ht : ∀ k ∈ t, k ∈ t') : Frame t' a b :=
  ⟨h.version, h.passphrase, h.finite, fun k hk => (h.keys k hk).imp id (ht k)⟩

theorem frame_set {ps : SecretStore} {m : Map (Option SecretRecord)} (hm : ps.store = some m) (label : Bytes) (r : SecretRecord)
    (hr : ps.toFields.Finite → ∀ md, r.metadata = some md → md.Finite) :
    Frame [label] ps { ps with store := some (m.set label (some r)) } := by
  refine ⟨rfl, rfl, fun h => finite_set h hm label r (hr h) ps.timestamp, fun k hk => ?_⟩
  by_cases hkl : k = label
  · exact Or.inr (by simp [hkl])
  · left
    rw [has_get (m := m.set label (some r)) rfl, Map.set_other _ _ hkl] at hk
    exact (has_get hm).mpr hk

theorem record_finite {ps : SecretStore} {label : Bytes} {r : SecretRecord} (h : ps.toFields.Finite)
    (hl : lookup ps label = some r) (md : Map Bytes) (hmd : r.metadata = some md) : md.Finite := by
  obtain ⟨m, hm, hk⟩ := lookup_get hl
  exact (h m hm).2 label r md hk hmd

theorem addPlain_frame {w w' : World} {ps ps' : SecretStore} {label : Bytes} {ow b : Bool}
    (h : addPlain w ps label ow = .ok (b, ps', w')) :
    Frame [label] ps ps' ∧ (∃ t, w' = { w with term := t }) ∧
      ∀ k r, k ≠ label ∨ ow = false → lookup ps k = some r → lookup ps' k = some r := by
  cases b with
  | true =>
    obtain ⟨pw, rest, m, r0, -, -, hm, h1, h2, rfl, rfl⟩ := addPlain_ok h
    refine ⟨frame_set hm label _ ?_, ⟨_, rfl⟩, ?_⟩
    · intro hf md hmd
      cases hh : ps.has label with
      | true => exact record_finite hf (h1 hh).2 md hmd
      | false => rw [h2 hh] at hmd; simp at hmd
    · intro k r hk hl
      rw [lookup_set hm]
      split
      · rename_i hkl
        subst hkl
        rcases hk with hk | hk
        · exact absurd rfl hk
        · obtain ⟨m', hm', hk'⟩ := lookup_get hl
          have := (h1 ((has_get hm').mpr (by simp [hk']))).1
          rw [hk] at this
          simp at this
      · exact hl
  | false =>
    have hps : ps' = ps ∧ ∃ t, w' = { w with term := t } := by
      unfold addPlain at h
      simp only at h
      split at h
      · simp only [Res.ok.injEq, Prod.mk.injEq, true_and] at h
        exact ⟨h.1.symm, w.term, h.2.symm⟩
      · split at h
        · simp only [Res.ok.injEq, Prod.mk.injEq, true_and] at h
          exact ⟨h.1.symm, _, h.2.symm⟩
        · split at h
          · simp only [Res.ok.injEq, Prod.mk.injEq, true_and] at h
            exact ⟨h.1.symm, _, h.2.symm⟩
          · exfalso
            split at h
            · obtain ⟨r, h1, h2⟩ := Res.bind_eq_ok.mp h
              obtain ⟨ps1, h3, h4⟩ := Res.bind_eq_ok.mp h2
              simp at h4
            · obtain ⟨r, h1, h2⟩ := Res.bind_eq_ok.mp h
              obtain ⟨ps1, h3, h4⟩ := Res.bind_eq_ok.mp h2
              simp at h4
    obtain ⟨rfl, ht⟩ := hps
    exact ⟨Frame.refl _ _, ht, fun _ _ _ hl => hl⟩

theorem metaLoop_finite (as : List (Option Bytes)) : ∀ md : Map Bytes, md.Finite → (metaLoop md as).1.Finite := by
  induction as with
  | nil => intro md h; exact h
  | cons a as ih =>
    intro md h
    cases a with
    | none => exact h
    | some line =>
      unfold metaLoop
      split
      · exact h
      · split
        · exact ih md h
        · exact ih _ (h.set _ _)

theorem editMeta_frame {w w' : World} {ps ps' : SecretStore} {label : Bytes} {b : Bool}
    (h : editMeta w ps label = .ok (b, ps', w')) :
    Frame [label] ps ps' ∧ (∃ t, w' = { w with term := t }) ∧
      (∀ k r, k ≠ label → lookup ps k = some r → lookup ps' k = some r) ∧
      ∃ r r', lookup ps label = some r ∧ lookup ps' label = some r' ∧ r'.secret = r.secret ∧ r'.label = r.label := by
  unfold editMeta at h
  obtain ⟨r, h3, h4⟩ := Res.bind_eq_ok.mp h
  have hl := fetch_eq.mp h3
  have fin : ∀ (t2 : BitVec 64), ps.toFields.Finite → ∀ md,
      ({ r with metadata := some (metaLoop (r.metadata.getD Map.empty) w.term.answers).1, timestamp := t2 } : SecretRecord).metadata = some md → md.Finite := by
    intro t2 hf md hmd
    simp only [Option.some.injEq] at hmd
    subst hmd
    apply metaLoop_finite
    cases hr : r.metadata with
    | none => exact Map.finite_empty
    | some md => exact record_finite hf hl md hr
  simp only at h4
  split at h4
  · obtain ⟨ps2, h5, h6⟩ := Res.bind_eq_ok.mp h4
    obtain ⟨m, hm, rfl⟩ := assign_eq.mp h5
    simp only [Res.pure_eq, Res.ok.injEq, Prod.mk.injEq] at h6
    obtain ⟨-, rfl, rfl⟩ := h6
    refine ⟨frame_set hm label _ (fin r.timestamp), ⟨_, rfl⟩, ?_, r, _, hl, (lookup_set hm label label _).trans (if_pos rfl), rfl, rfl⟩
    intro k r' hk hl'
    rw [lookup_set hm, if_neg hk]
    exact hl'
  · obtain ⟨ps2, h5, h6⟩ := Res.bind_eq_ok.mp h4
    obtain ⟨m, hm, rfl⟩ := assign_eq.mp h5
    simp only [Res.pure_eq, Res.ok.injEq, Prod.mk.injEq] at h6
    obtain ⟨-, rfl, rfl⟩ := h6
    refine ⟨frame_set hm label _ (fin _), ⟨_, rfl⟩, ?_, r, _, hl, (lookup_set hm label label _).trans (if_pos rfl), rfl, rfl⟩
    intro k r' hk hl'
    rw [lookup_set hm, if_neg hk]
    exact hl'

theorem addMeta_frame {w w' : World} {ps ps' : SecretStore} {label : Bytes} {ow b : Bool}
    (h : addMeta w ps label ow = .ok (b, ps', w')) :
    Frame [label] ps ps' ∧ (∃ t, w' = { w with term := t }) ∧
      (∀ k r, k ≠ label → lookup ps k = some r → lookup ps' k = some r) ∧
      ∀ r, lookup ps label = some r → ∃ r', lookup ps' label = some r' ∧ r'.secret = r.secret ∧ r'.label = r.label := by
  unfold addMeta at h
  split at h
  · obtain ⟨h1, h2, h3, r, r', h4, h5, h6⟩ := editMeta_frame h
    refine ⟨h1, h2, h3, fun r0 hr0 => ?_⟩
    rw [h4] at hr0
    cases hr0
    exact ⟨r', h5, h6⟩
  · rename_i hh
    have hno : ∀ r, lookup ps label ≠ some r := by
      intro r hl
      obtain ⟨m, hm, hk⟩ := lookup_get hl
      exact hh ((has_get hm).mpr (by simp [hk]))
    split at h
    · simp at h
    · rename_i ps1 w1 h1
      obtain ⟨a, b, c⟩ := addPlain_frame h1
      simp only [Res.ok.injEq, Prod.mk.injEq] at h
      obtain ⟨-, rfl, rfl⟩ := h
      exact ⟨a, b, fun k r hk hl => c k r (Or.inl hk) hl, fun r hr => absurd hr (hno r)⟩
    · rename_i ps1 w1 h1
      obtain ⟨a, ⟨t, rfl⟩, c⟩ := addPlain_frame h1
      obtain ⟨a', ⟨t', rfl⟩, c', -⟩ := editMeta_frame h
      exact ⟨a.trans a', ⟨t', rfl⟩, fun k r hk hl => c' k r hk (c k r (Or.inl hk) hl), fun r hr => absurd hr (hno r)⟩

theorem multiLoop_frame (ow : Bool) (n : Nat) : ∀ (as : List (Option Bytes)) (ck : Nat → BitVec 64) (ps ps' : SecretStore) (b : Bool) (t : Term),
    as.length ≤ n → multiLoop ow as ck ps = .ok (b, ps', t) →
    Frame (as.filterMap id) ps ps' ∧ (ow = false → ∀ k r, lookup ps k = some r → lookup ps' k = some r) := by
  induction n with
  | zero =>
    intro as ck ps ps' b t hn h
    cases as with
    | nil =>
      simp only [multiLoop, Res.ok.injEq, Prod.mk.injEq] at h
      obtain ⟨-, rfl, -⟩ := h
      exact ⟨Frame.refl _ _, fun _ _ _ h => h⟩
    | cons => simp at hn
  | succ n ih =>
    intro as ck ps ps' b t hn h
    match as with
    | [] =>
      simp only [multiLoop, Res.ok.injEq, Prod.mk.injEq] at h
      obtain ⟨-, rfl, -⟩ := h
      exact ⟨Frame.refl _ _, fun _ _ _ h => h⟩
    | none :: as =>
      simp only [multiLoop, Res.ok.injEq, Prod.mk.injEq] at h
      obtain ⟨-, rfl, -⟩ := h
      exact ⟨Frame.refl _ _, fun _ _ _ h => h⟩
    | some name :: as =>
      rw [multiLoop.eq_def] at h
      simp only at h
      split at h
      · simp only [Res.ok.injEq, Prod.mk.injEq] at h
        obtain ⟨-, rfl, -⟩ := h
        exact ⟨Frame.refl _ _, fun _ _ _ h => h⟩
      · split at h
        · obtain ⟨h1, h2⟩ := ih as ck ps ps' b t (by simp at hn; omega) h
          exact ⟨h1.mono (by simp; grind), h2⟩
        · rename_i hname hov
          match as with
          | [] =>
            simp only [Res.ok.injEq, Prod.mk.injEq] at h
            obtain ⟨-, rfl, -⟩ := h
            exact ⟨Frame.refl _ _, fun _ _ _ h => h⟩
          | none :: as =>
            simp only [Res.ok.injEq, Prod.mk.injEq] at h
            obtain ⟨-, rfl, -⟩ := h
            exact ⟨Frame.refl _ _, fun _ _ _ h => h⟩
          | some pw :: as =>
            simp only at h
            split at h
            · obtain ⟨h1, h2⟩ := ih as ck ps ps' b t (by simp at hn; omega) h
              exact ⟨h1.mono (by simp; grind), h2⟩
            · have : ∃ (r : SecretRecord) (m : Map (Option SecretRecord)), ps.store = some m ∧ (ps.toFields.Finite → ∀ md, r.metadata = some md → md.Finite) ∧
                  multiLoop ow as (fun n => ck (n + 1)) { ps with store := some (m.set name (some { r with secret := pw, timestamp := ck 0 })) } = .ok (b, ps', t) := by
                split at h
                · obtain ⟨r, h1, h2⟩ := Res.bind_eq_ok.mp h
                  obtain ⟨ps1, h3, h4⟩ := Res.bind_eq_ok.mp h2
                  obtain ⟨m, hm, rfl⟩ := assign_eq.mp h3
                  exact ⟨r, m, hm, fun hf md hmd => record_finite hf (fetch_eq.mp h1) md hmd, h4⟩
                · obtain ⟨r, h1, h2⟩ := Res.bind_eq_ok.mp h
                  obtain ⟨ps1, h3, h4⟩ := Res.bind_eq_ok.mp h2
                  obtain ⟨m, hm, rfl⟩ := assign_eq.mp h3
                  simp only [Res.pure_eq, Res.ok.injEq] at h1
                  subst h1
                  exact ⟨_, m, hm, fun hf md hmd => by simp at hmd, h4⟩
              obtain ⟨r, m, hm, hfin, h4⟩ := this
              obtain ⟨h1, h2⟩ := ih as _ _ ps' b t (by simp at hn; omega) h4
              refine ⟨((frame_set hm name { r with secret := pw, timestamp := ck 0 } hfin).mono (by simp)).trans (h1.mono (by simp; grind)), ?_⟩
              intro how k r' hl
              refine h2 how k r' ?_
              rw [lookup_set hm, if_neg]
              · exact hl
              · rintro rfl
                obtain ⟨m', hm', hk'⟩ := lookup_get hl
                have := (has_get hm').mpr (show m' k ≠ none by simp [hk'])
                simp [this, how] at hov

theorem removeMetaLoop_finite (n : Nat) : ∀ (md md' : Option (Map Bytes)) (as as' : List (Option Bytes)),
    removeMetaLoop n md as = some (md', as') → (∀ m, md = some m → m.Finite) → ∀ m, md' = some m → m.Finite := by
  induction n with
  | zero => intro md md' as as' h; simp [removeMetaLoop] at h
  | succ n ih =>
    intro md md' as as' h hf
    match as with
    | [] => exact ih md md' [] as' h hf
    | none :: as => exact ih md md' as as' h hf
    | some key :: as =>
      unfold removeMetaLoop at h
      split at h
      · simp only [Option.some.injEq, Prod.mk.injEq] at h
        obtain ⟨rfl, -⟩ := h
        exact hf
      · refine ih _ md' as as' h ?_
        intro m hm
        cases md with
        | none => simp at hm
        | some m0 => simp only [Option.map_some, Option.some.injEq] at hm; subst hm; exact (hf m0 rfl).erase _

theorem removeMeta_frame {n : Nat} {w w' : World} {ps ps' : SecretStore} {label : Bytes} {b : Bool}
    (h : removeMeta n w ps label = some (.ok (b, ps', w'))) :
    Frame [label] ps ps' ∧ (∃ t, w' = { w with term := t }) ∧
      (∀ k r, k ≠ label → lookup ps k = some r → lookup ps' k = some r) ∧
      ∀ r, lookup ps label = some r → ∃ r', lookup ps' label = some r' ∧ r'.secret = r.secret ∧ r'.label = r.label := by
  unfold removeMeta at h
  split at h
  · simp only [Option.some.injEq, Res.ok.injEq, Prod.mk.injEq] at h
    obtain ⟨-, rfl, rfl⟩ := h
    exact ⟨Frame.refl _ _, ⟨w.term, rfl⟩, fun _ _ _ h => h, fun r hr => ⟨r, hr, rfl, rfl⟩⟩
  · split at h
    · simp at h
    · rename_i r h3
      have hl := fetch_eq.mp h3
      split at h
      · simp at h
      · rename_i md as hloop
        simp only [Option.some.injEq] at h
        obtain ⟨ps2, h5, h6⟩ := Res.bind_eq_ok.mp h
        obtain ⟨m, hm, rfl⟩ := assign_eq.mp h5
        simp only [Res.pure_eq, Res.ok.injEq, Prod.mk.injEq] at h6
        obtain ⟨-, rfl, rfl⟩ := h6
        refine ⟨frame_set hm label _ ?_, ⟨_, rfl⟩, ?_, ?_⟩
        · intro hf m' hm'
          exact removeMetaLoop_finite n _ _ _ _ hloop (fun m0 hm0 => record_finite hf hl m0 hm0) m' hm'
        · intro k r' hk hl'
          rw [lookup_set hm, if_neg hk]
          exact hl'
        · intro r0 hr0
          rw [hl] at hr0
          cases hr0
          exact ⟨_, (lookup_set hm label label _).trans (if_pos rfl), rfl, rfl⟩

theorem lookup_delete (ps : SecretStore) (label k : Bytes) :
    lookup (ps.delete label) k = if k = label then none else lookup ps k := by
  unfold lookup SecretStore.delete
  cases h : ps.store with
  | none => simp
  | some m =>
    simp only [Option.map_some]
    by_cases hk : k = label
    · subst hk; simp
    · simp [Map.erase_other _ hk, hk]

theorem has_delete (ps : SecretStore) (label k : Bytes) (h : (ps.delete label).has k = true) : ps.has k = true ∧ k ≠ label := by
  unfold SecretStore.has SecretStore.delete at h
  cases hs : ps.store with
  | none => simp [hs] at h
  | some m =>
    simp only [hs, Option.map_some, Map.has] at h
    by_cases hk : k = label
    · subst hk; simp at h
    · rw [Map.erase_other _ hk] at h
      exact ⟨by simp [SecretStore.has, hs, Map.has, h], hk⟩

theorem delete_frame (ps : SecretStore) (label : Bytes) : Frame [] ps (ps.delete label) := by
  refine ⟨rfl, rfl, ?_, fun k hk => Or.inl (has_delete ps label k hk).1⟩
  intro hf m hm
  unfold SecretStore.delete at hm
  cases hs : ps.store with
  | none => simp [hs] at hm
  | some m0 =>
    simp only [hs, Option.map_some, Option.some.injEq] at hm
    subst hm
    refine ⟨(hf m0 hs).1.erase _, fun k r md hk hmd => ?_⟩
    by_cases hkl : k = label
    · subst hkl; simp at hk
    · rw [Map.erase_other _ hkl] at hk
      exact (hf m0 hs).2 k r md hk hmd

/-- No command touches a file. -/
theorem run_world {ord : Map (Option SecretRecord) → List Bytes} {fuel : Nat} {c : Cmd} {w w' : World} {ps ps' : SecretStore}
    {cfg : Config} {mode : Int} {b : Bool} (h : Cmd.run C J ord fuel c w ps cfg mode = some (.ok (b, ps', w'))) :
    ∃ t, w' = { w with term := t } := by
  unfold Cmd.run at h
  cases c with
  | «show» =>
    simp only [Option.some.injEq] at h
    obtain ⟨x, h1, h2⟩ := Res.bind_eq_ok.mp h
    simp only [Res.pure_eq, Res.ok.injEq, Prod.mk.injEq] at h2
    exact ⟨w.term, h2.2.2.symm⟩
  | list =>
    simp only [Option.some.injEq, Res.ok.injEq, Prod.mk.injEq] at h
    exact ⟨w.term, h.2.2.symm⟩
  | store =>
    simp only [Option.some.injEq] at h
    unfold addSecret at h
    split at h
    · exact (addMeta_frame h).2.1
    · exact (addPlain_frame h).2.1
  | passwd =>
    simp only [Option.some.injEq, Res.ok.injEq] at h
    unfold chpass at h
    simp only at h
    split at h
    · simp only [Prod.mk.injEq] at h; exact ⟨_, h.2.2.symm⟩
    · split at h <;> (simp only [Prod.mk.injEq] at h; exact ⟨_, h.2.2.symm⟩)
  | remove =>
    simp only at h
    unfold remove at h
    split at h
    · exact (removeMeta_frame h).2.1
    · split at h <;> (simp only [Option.some.injEq, Res.ok.injEq, Prod.mk.injEq] at h; exact ⟨w.term, h.2.2.symm⟩)
  | multi =>
    simp only [Option.some.injEq] at h
    unfold multi at h
    obtain ⟨x, h1, h2⟩ := Res.bind_eq_ok.mp h
    simp only [Res.pure_eq, Res.ok.injEq, Prod.mk.injEq] at h2
    exact ⟨_, h2.2.2.symm⟩
  | merge =>
    simp only [Option.some.injEq] at h
    unfold merge at h
    simp only at h
    split at h
    · simp only [Res.ok.injEq, Prod.mk.injEq] at h; exact ⟨_, h.2.2.symm⟩
    · split at h
      · simp only [Res.ok.injEq, Prod.mk.injEq] at h; exact ⟨_, h.2.2.symm⟩
      · obtain ⟨x, h1, h2⟩ := Res.bind_eq_ok.mp h
        cases x with
        | none =>
          simp only [Res.pure_eq, Res.ok.injEq, Prod.mk.injEq] at h2; exact ⟨_, h2.2.2.symm⟩
        | some o =>
          simp only at h2
          obtain ⟨x, h3, h4⟩ := Res.bind_eq_ok.mp h2
          simp only [Res.pure_eq, Res.ok.injEq, Prod.mk.injEq] at h4; exact ⟨_, h4.2.2.symm⟩

/-- What a successful command needs and does to the files. -/
theorem runCmd_zero {ord : Map (Option SecretRecord) → List Bytes} {fuel : Nat} {c : Cmd} {w w' : World} {cfg : Config} {mode : Int}
    {path : Bytes} (hd : path ≠ dash) (h : runCmd C J ord fuel c cfg mode path w = some (.ok (0, w'))) :
    c.requiredArgc ≤ cfg.args.length ∧ ∃ pass rest s ps t, w.term.answers = some pass :: rest ∧
      Opens C J w.fs path pass mode s ∧
      Cmd.run C J ord fuel c { w with term := { w.term with answers := rest } } s cfg mode = some (.ok (true, ps, { w with term := t })) ∧
      (c.shouldWrite = false → w' = { w with term := t }) ∧
      (c.shouldWrite = true → ∃ p' out, ps.passphrase = some p' ∧ w.write = .done ∧ ps.version = 1 ∧ t.clock 0 ≠ 0 ∧
        IsFile C out p' mode (J.enc { ps.toFields with timestamp := t.clock 0 }) ∧ w'.fs = w.fs.set path out) := by
  unfold runCmd at h
  split at h
  · simp at h
  · rename_i hargs
    refine ⟨by omega, ?_⟩
    unfold loadStore Term.read at h
    cases ha : w.term.answers with
    | nil => simp [ha] at h
    | cons a rest =>
      cases a with
      | none => simp [ha] at h
      | some pass =>
        simp only [ha] at h
        cases he : ({ w with term := { w.term with answers := rest } } : World).exist path with
        | false => simp [he] at h
        | true =>
          simp only [he, if_true] at h
          cases hfs : w.fs path with
          | none => simp [World.exist, hfs] at he
          | some b =>
            have hr : ({ w with term := { w.term with answers := rest } } : World).readFile path = some b := by
              simp [World.readFile, hd, hfs]
            simp only [hr] at h
            cases hu : unmarshalSecretStore C J b pass mode with
            | panic => exact absurd hu (unmarshal_no_panic C J b pass mode)
            | ok o =>
              cases o with
              | none => simp [hu] at h
              | some s =>
                simp only [hu, Res.ok_bind, Res.pure_eq] at h
                cases hrun : Cmd.run C J ord fuel c { w with term := { w.term with answers := rest } } s cfg mode with
                | none => simp [hrun] at h
                | some res =>
                  cases res with
                  | panic => simp [hrun] at h
                  | ok res =>
                    obtain ⟨ok, ps, w2⟩ := res
                    obtain ⟨t, rfl⟩ := run_world C J hrun
                    cases ok with
                    | false => simp [hrun] at h
                    | true =>
                      refine ⟨pass, rest, s, ps, t, rfl, ⟨b, hfs, hu⟩, hrun, ?_, ?_⟩
                      · intro hw
                        simp only [hrun, hw, Bool.false_eq_true, if_false, Option.some.injEq, Res.ok.injEq, Prod.mk.injEq, true_and] at h
                        exact h.symm
                      · intro hw
                        simp only [hrun, hw, if_true, Option.some.injEq, Term.now] at h
                        obtain ⟨⟨w3, ok⟩, h1, h2⟩ := Res.bind_eq_ok.mp h
                        cases ok with
                        | false => simp at h2
                        | true =>
                          simp only [if_true, Res.pure_eq, Res.ok.injEq, Prod.mk.injEq, true_and] at h2
                          subst h2
                          unfold writeStore at h1
                          obtain ⟨⟨out, s2, rng⟩, h3, h4⟩ := Res.bind_eq_ok.mp h1
                          cases out with
                          | none => simp at h4
                          | some out =>
                            obtain ⟨hv, -, p', hp', hfile⟩ := marshal_some C J h3
                            obtain ⟨v1, v2, -, -⟩ := (valid_iff _).mp hv
                            simp only [Res.pure_eq, World.writeFile, hd, if_false, Res.ok.injEq, Prod.mk.injEq] at h4
                            unfold Go.writeFile at h4
                            cases hwr : w.write with
                            | done =>
                              simp only [hwr] at h4
                              exact ⟨p', out, hp', rfl, v1, v2, hfile, by rw [← h4.1]⟩
                            | openFails => simp [hwr] at h4
                            | failsAfter k => simp [hwr] at h4

end Verif.Proofs.Secrets

namespace Verif.Proofs.Secrets
open Verif Verif.Go Verif.Model.Util Verif.Model.SecretStore Verif.Model.Secrets
open Verif.Spec.SecretStore Verif.Spec.Secrets Verif.Proofs.SecretStore

variable (C : Crypto) (J : Json)

theorem fmode (f : Flags) : f.mode = 0 ∨ f.mode = 1 := by
  unfold Flags.mode
  split
  · exact Or.inr rfl
  · exact Or.inl rfl

/-- A record of the old store comes back from the new file. -/
theorem keep {typed : List Bytes} {s ps s' : SecretStore} {t : BitVec 64} (hu : s.toFields.Utf8) (hF : Frame typed s ps)
    (hs : FieldsSan { ps.toFields with timestamp := t } s'.toFields) {k : Bytes} {r0 r : SecretRecord}
    (h0 : lookup s k = some r0) (h : lookup ps k = some r) (ha : NoAlias typed k) :
    ∃ r', lookup s' k = some r' ∧ RecordSan r r' := by
  obtain ⟨m0, hm0, hk0⟩ := lookup_get h0
  obtain ⟨m, hm, hk⟩ := lookup_get h
  refine san_lookup hs (m := m) hm hk (hu m0 hm0 k _ hk0).1 ?_
  intro k2 h2 h3
  rcases hF.keys k2 ((has_get hm).mpr h2) with h4 | h4
  · have h5 := (has_get hm0).mp h4
    cases hv : m0 k2 with
    | none => exact absurd hv h5
    | some v =>
      have := (hu m0 hm0 k2 v hv).1
      rw [ValidUtf8, h3] at this
      exact this.symm
  · exact ha k2 h4 h3

theorem keep_same {typed : List Bytes} {s ps s' : SecretStore} {t : BitVec 64} (hu : s.toFields.Utf8) (hF : Frame typed s ps)
    (hs : FieldsSan { ps.toFields with timestamp := t } s'.toFields) {k : Bytes} {r : SecretRecord}
    (h0 : lookup s k = some r) (h : lookup ps k = some r) (ha : NoAlias typed k) : lookup s' k = some r := by
  obtain ⟨r', h1, h2⟩ := keep hu hF hs h0 h ha
  obtain ⟨m0, hm0, hk0⟩ := lookup_get h0
  obtain ⟨c1, c2⟩ := (hu m0 hm0 k _ hk0).2 r rfl
  rw [h1, recordSan_clean h2 c1 c2]

/-- When everything goes well. -/
theorem runCmd_ok {ord : Map (Option SecretRecord) → List Bytes} {fuel : Nat} {c : Cmd} {w : World} {cfg : Config} {mode : Int}
    {path pass : Bytes} {rest : List (Option Bytes)} {s ps : SecretStore} {t : Term} {m : Map (Option SecretRecord)} {p' : Bytes}
    (hd : path ≠ dash) (hm : mode = 0 ∨ mode = 1) (hargs : c.requiredArgc ≤ cfg.args.length)
    (ha : w.term.answers = some pass :: rest) (ho : Opens C J w.fs path pass mode s)
    (hrun : Cmd.run C J ord fuel c { w with term := { w.term with answers := rest } } s cfg mode = some (.ok (true, ps, { w with term := t })))
    (hw : w.write = .done) (hr : 56 ≤ w.rng.length) (hsw : c.shouldWrite = true) (h1 : ps.version = 1) (h2 : t.clock 0 ≠ 0)
    (h3 : ps.store = some m) (h4 : ps.passphrase = some p') :
    ∃ w' out, runCmd C J ord fuel c cfg mode path w = some (.ok (0, w')) ∧ w'.fs = w.fs.set path out ∧
      IsFile C out p' mode (J.enc { ps.toFields with timestamp := t.clock 0 }) := by
  obtain ⟨b, hb, hu⟩ := ho
  unfold runCmd
  rw [if_neg (by omega)]
  have hex : ({ w with term := { w.term with answers := rest } } : World).exist path = true := by simp [World.exist, hb]
  have hrd : ({ w with term := { w.term with answers := rest } } : World).readFile path = some b := by
    simp [World.readFile, hd, hb]
  have hl : loadStore C J w path mode = .ok (some s, { w with term := { w.term with answers := rest } }) := by
    unfold loadStore Term.read
    simp only [ha, hex, if_true, hrd, hu, Res.ok_bind, Res.pure_eq]
  simp only [hl, hrun, hsw, if_true, Term.now]
  have hv : ({ ps with timestamp := t.clock 0 } : SecretStore).valid = true :=
    (valid_iff _).mpr ⟨h1, h2, ⟨m, h3⟩, p', h4⟩
  obtain ⟨out, hout⟩ := marshal_ok C J hv hm hr
  obtain ⟨-, -, q, hq, hfile⟩ := marshal_some C J hout
  simp only at hq
  rw [h4] at hq
  cases hq
  refine ⟨{ w with term := { t with clock := fun n => t.clock (n + 1) }, rng := w.rng.drop 56, fs := w.fs.set path out }, out, ?_, rfl, hfile⟩
  unfold writeStore
  simp only [hout, Res.ok_bind, Res.pure_eq, World.writeFile, hd, if_false, Go.writeFile, hw, if_true]

/-- Every usable store with UTF-8 strings is in some file. -/
theorem file_exists {s : SecretStore} {p : Bytes} {mode : Int} (hm : mode = 0 ∨ mode = 1) (hv : s.valid = true)
    (hp : s.passphrase = some p) (hf : s.toFields.Finite) (hc : s.toFields.Utf8) :
    ∃ b, unmarshalSecretStore C J b p mode = .ok (some s) := by
  obtain ⟨out, hout⟩ := marshal_ok C J hv hm (rng := List.replicate 56 0) (by simp)
  obtain ⟨-, -, q, hq, hfile⟩ := marshal_some C J hout
  rw [hp] at hq
  cases hq
  obtain ⟨f, h1, h2⟩ := J.dec_enc s.toFields hf
  rw [fieldsSan_clean hc h2] at h1
  exact ⟨out, (unmarshal_iff C J out p mode s).mpr ⟨_, hfile, h1, hp⟩⟩

end Verif.Proofs.Secrets

namespace Verif.Proofs.Secrets
open Verif Verif.Go Verif.Model.Util Verif.Model.SecretStore Verif.Model.Secrets
open Verif.Spec.SecretStore Verif.Spec.Secrets Verif.Proofs.SecretStore

variable (C : Crypto) (J : Json)

theorem utf8_set {f : Fields} {m : Map (Option SecretRecord)} (h : f.Utf8) (hm : f.store = some m) {label : Bytes}
    {r : SecretRecord} (hl : ValidUtf8 label) (hrl : ValidUtf8 r.label)
    (hr : ∀ md j x, r.metadata = some md → md j = some x → ValidUtf8 j) (t : BitVec 64) :
    ({ f with store := some (m.set label (some r)), timestamp := t } : Fields).Utf8 := by
  intro m' hm' k v hk
  simp only [Option.some.injEq] at hm'
  subst hm'
  by_cases hkl : k = label
  · subst hkl
    simp only [Map.set_same, Option.some.injEq] at hk
    subst hk
    refine ⟨hl, fun r' hr' => ?_⟩
    cases hr'
    exact ⟨hrl, hr⟩
  · rw [Map.set_other _ _ hkl] at hk
    exact h m hm k v hk

theorem utf8_time {f : Fields} (h : f.Utf8) (t : BitVec 64) : ({ f with timestamp := t } : Fields).Utf8 := h

theorem record_utf8 {ps : SecretStore} {label : Bytes} {r : SecretRecord} (h : ps.toFields.Utf8)
    (hl : lookup ps label = some r) : ValidUtf8 label ∧ ValidUtf8 r.label ∧
      ∀ md j x, r.metadata = some md → md j = some x → ValidUtf8 j := by
  obtain ⟨m, hm, hk⟩ := lookup_get hl
  exact ⟨(h m hm label _ hk).1, (h m hm label _ hk).2 r rfl⟩

/-- A UTF-8 store comes back as it is. -/
theorem saved_exact {f : Fields} {out p : Bytes} {mode : Int} (hf : f.Finite) (hu : f.Utf8) (h : IsFile C out p mode (J.enc f)) :
    unmarshalSecretStore C J out p mode = .ok (some { toFields := f, passphrase := some p }) := by
  obtain ⟨f', h1, h2⟩ := J.dec_enc f hf
  have := fieldsSan_clean hu h2
  subst this
  exact (unmarshal_iff C J out p mode _).mpr ⟨_, h, h1, rfl⟩

theorem loadStore_world {w w1 : World} {path : Bytes} {mode : Int} {o : Option SecretStore}
    (hl : loadStore C J w path mode = .ok (o, w1)) : ∃ t, w1 = { w with term := t } := by
  unfold loadStore at hl
  simp only at hl
  split at hl
  · simp only [Res.ok.injEq, Prod.mk.injEq] at hl; exact ⟨_, hl.2.symm⟩
  · split at hl
    · split at hl
      · simp only [Res.ok.injEq, Prod.mk.injEq] at hl; exact ⟨_, hl.2.symm⟩
      · obtain ⟨x, e1, e2⟩ := Res.bind_eq_ok.mp hl
        simp only [Res.pure_eq, Res.ok.injEq, Prod.mk.injEq] at e2; exact ⟨_, e2.2.symm⟩
    · simp only [Res.ok.injEq, Prod.mk.injEq] at hl; exact ⟨_, hl.2.symm⟩

/-- A write that fails at once, or not at all, leaves the files when it fails. -/
theorem writeFile_failed {w w' : World} {path data : Bytes} (h : w.writeFile path data = (w', false))
    (hw : ∀ k, w.write ≠ .failsAfter k) : w'.fs = w.fs := by
  unfold World.writeFile at h
  split at h
  · simp at h
  · unfold Go.writeFile at h
    cases hwr : w.write with
    | done => simp [hwr] at h
    | openFails => simp only [hwr, Prod.mk.injEq] at h; rw [← h.1]
    | failsAfter k => exact absurd hwr (hw k)

theorem writeFile_write {w w' : World} {path data : Bytes} {b : Bool} (h : w.writeFile path data = (w', b)) :
    w'.write = w.write := by
  unfold World.writeFile at h
  split at h
  · simp only [Prod.mk.injEq] at h; rw [← h.1]
  · simp only [Prod.mk.injEq] at h; rw [← h.1]

theorem writeStore_failed {w w' : World} {ps : SecretStore} {path : Bytes} {mode : Int}
    (h : writeStore C J w ps path mode = .ok (w', false)) (hw : ∀ k, w.write ≠ .failsAfter k) : w'.fs = w.fs := by
  unfold writeStore at h
  obtain ⟨⟨out, s2, rng⟩, h3, h4⟩ := Res.bind_eq_ok.mp h
  cases out with
  | none =>
    simp only [Res.pure_eq, Res.ok.injEq, Prod.mk.injEq] at h4
    rw [← h4.1]
  | some out =>
    simp only [Res.pure_eq, Res.ok.injEq] at h4
    have := writeFile_failed h4 (show ∀ k, w.write ≠ .failsAfter k from hw)
    exact this

theorem new_finite (p : Bytes) (n : BitVec 64) : (newSecretStore p n).toFields.Finite := by
  intro m hm
  cases hm
  exact ⟨Map.finite_empty, by intro k r md hk; simp [Map.empty] at hk⟩

theorem new_utf8 (p : Bytes) (n : BitVec 64) : (newSecretStore p n).toFields.Utf8 := by
  intro m hm k v hk
  cases hm
  simp [Map.empty] at hk

theorem initStore_failed {w w' : World} {path : Bytes} {mode : Int} (hw : ∀ k, w.write ≠ .failsAfter k)
    (h : initStore C J w path mode = .ok (false, w')) : w'.fs = w.fs := by
  unfold initStore Term.read Term.now at h
  cases ha : w.term.answers with
  | nil => simp only [ha, Res.ok.injEq, Prod.mk.injEq, true_and] at h; rw [← h]
  | cons a rest =>
    cases a with
    | none => simp only [ha, Res.ok.injEq, Prod.mk.injEq, true_and] at h; rw [← h]
    | some pass =>
      simp only [ha] at h
      split at h
      · simp only [Res.ok.injEq, Prod.mk.injEq, true_and] at h; rw [← h]
      · obtain ⟨⟨out, s2, rng⟩, h3, h4⟩ := Res.bind_eq_ok.mp h
        cases out with
        | none =>
          simp only [Res.pure_eq, Res.ok.injEq, Prod.mk.injEq, true_and] at h4; rw [← h4]
        | some out =>
          simp only at h4
          generalize hx : World.writeFile _ path out = x at h4
          obtain ⟨w3, b⟩ := x
          cases b with
          | false =>
            simp only [Bool.not_false, if_true, Res.pure_eq, Res.ok.injEq, Prod.mk.injEq, true_and] at h4
            subst h4
            have := writeFile_failed hx (show ∀ k, w.write ≠ .failsAfter k from hw)
            exact this
          | true =>
            exfalso
            simp only [Bool.not_true, Bool.false_eq_true, if_false] at h4
            obtain ⟨o, h5, h6⟩ := Res.bind_eq_ok.mp h4
            simp only [Res.pure_eq, Res.ok.injEq, Prod.mk.injEq] at h6
            obtain ⟨-, -, q, hq, hfile⟩ := marshal_some C J h3
            have hq : pass = q := by simpa [newSecretStore] using hq
            subst hq
            obtain ⟨s', h7, -, -⟩ := saved_opens C J (new_finite _ _) hfile
            rw [h7] at h5
            cases h5
            simp at h6

theorem exportStore_failed {P : Pem} {w w' : World} {path o : Bytes} (hw : ∀ k, w.write ≠ .failsAfter k)
    (h : exportStore P w path o = (false, w')) : w'.fs = w.fs := by
  unfold exportStore at h
  cases hr : w.readFile path with
  | none => simp only [hr, Prod.mk.injEq, true_and] at h; rw [← h]
  | some data =>
    simp only [hr] at h
    generalize hx : World.writeFile _ _ _ = x at h
    obtain ⟨w3, b⟩ := x
    simp only [Prod.mk.injEq] at h
    obtain ⟨rfl, rfl⟩ := h
    exact writeFile_failed hx hw

theorem importStore_failed {P : Pem} {w w' : World} {path o : Bytes} (hw : ∀ k, w.write ≠ .failsAfter k)
    (h : importStore P w path o = (false, w')) : w'.fs = w.fs := by
  unfold importStore at h
  cases hr : w.readFile o with
  | none => simp only [hr, Prod.mk.injEq, true_and] at h; rw [← h]
  | some data =>
    simp only [hr] at h
    cases hdec : P.dec data with
    | none => simp only [hdec, Prod.mk.injEq, true_and] at h; rw [← h]
    | some tb =>
      simp only [hdec] at h
      split at h
      · simp only [Prod.mk.injEq, true_and] at h; rw [← h]
      · generalize hx : World.writeFile _ _ _ = x at h
        obtain ⟨w3, b⟩ := x
        simp only [Prod.mk.injEq] at h
        obtain ⟨rfl, rfl⟩ := h
        exact writeFile_failed hx hw

/-- Every value of the merged map comes from one of the two. -/
theorem mergeLoop_from (b : Map (Option SecretRecord)) (order : List Bytes) :
    ∀ (st st' : Option (Map (Option SecretRecord)) × List Bytes), mergeLoop b st order = .ok st' →
      (st.1 = none → st'.1 = none) ∧ ∀ m', st'.1 = some m' → ∃ m, st.1 = some m ∧ ∀ k v, m' k = some v → m k = some v ∨ b k = some v := by
  induction order with
  | nil =>
    intro st st' h
    simp only [mergeLoop, Res.ok.injEq] at h
    subst h
    exact ⟨id, fun m' hm' => ⟨m', hm', fun k v hk => Or.inl hk⟩⟩
  | cons q order ih =>
    intro st st' h
    unfold mergeLoop at h
    obtain ⟨st1, h1, h2⟩ := Res.bind_eq_ok.mp h
    obtain ⟨i1, i2⟩ := ih st1 st' h2
    have key : (st.1 = none → st1.1 = none) ∧ ∀ m1, st1.1 = some m1 → ∃ m, st.1 = some m ∧ ∀ k v, m1 k = some v → m k = some v ∨ b k = some v := by
      unfold mergeStep at h1
      cases hb : b q with
      | none =>
        simp only [hb, Res.ok.injEq] at h1
        subst h1
        exact ⟨id, fun m' hm' => ⟨m', hm', fun k v hk => Or.inl hk⟩⟩
      | some v =>
        simp only [hb] at h1
        cases hs : st.1 with
        | none => simp [hs] at h1
        | some m =>
          simp only [hs] at h1
          have hset : ∀ new : Option SecretRecord, (m q = some new ∨ b q = some new) → ∀ k v, (m.set q new) k = some v → m k = some v ∨ b k = some v := by
            intro new hnew k v' hk
            by_cases hkq : k = q
            · subst hkq
              simp only [Map.set_same, Option.some.injEq] at hk
              subst hk
              exact hnew
            · rw [Map.set_other _ _ hkq] at hk
              exact Or.inl hk
          refine ⟨by simp, fun m1 hm1 => ⟨m, rfl, ?_⟩⟩
          cases hmq : m q with
          | none =>
            simp only [hmq, Res.pure_eq, Res.ok_bind, if_true] at h1
            cases v with
            | none => simp at h1
            | some r =>
              simp only [Res.ok.injEq] at h1
              rw [← h1] at hm1
              simp only [Option.some.injEq] at hm1
              subst hm1
              exact hset _ (Or.inr hb)
          | some r =>
            simp only [hmq] at h1
            cases r with
            | none => simp [mergeRecord] at h1
            | some ra =>
              cases v with
              | none => simp [mergeRecord] at h1
              | some rb =>
                simp only [mergeRecord] at h1
                split at h1
                · simp only [Res.ok_bind, Bool.false_eq_true, if_false, Res.pure_eq, Res.ok.injEq] at h1
                  rw [← h1] at hm1
                  simp only [Option.some.injEq] at hm1
                  subst hm1
                  exact hset _ (Or.inl hmq)
                · simp only [Res.ok_bind, if_true, Res.pure_eq, Res.ok.injEq] at h1
                  rw [← h1] at hm1
                  simp only [Option.some.injEq] at hm1
                  subst hm1
                  exact hset _ (Or.inr hb)
    refine ⟨fun h => i1 (key.1 h), fun m' hm' => ?_⟩
    obtain ⟨m1, e1, e2⟩ := i2 m' hm'
    obtain ⟨m, e3, e4⟩ := key.2 m1 e1
    exact ⟨m, e3, fun k v hk => (e2 k v hk).elim (fun h => e4 k v h) Or.inr⟩

theorem merge_fields {s o ps : SecretStore} {order : List Bytes} {now : BitVec 64} {list : List Bytes}
    (h : s.merge o order now = .ok (ps, list)) (f1 : s.toFields.Finite) (f2 : o.toFields.Finite)
    (u1 : s.toFields.Utf8) (u2 : o.toFields.Utf8) :
    ps.passphrase = s.passphrase ∧ ps.toFields.Finite ∧ ps.toFields.Utf8 := by
  unfold SecretStore.merge at h
  obtain ⟨⟨m, l⟩, h1, h2⟩ := Res.bind_eq_ok.mp h
  simp only [Res.pure_eq, Res.ok.injEq, Prod.mk.injEq] at h2
  obtain ⟨rfl, -⟩ := h2
  obtain ⟨-, hfrom⟩ := mergeLoop_from _ _ _ _ h1
  have hb : ∀ k v, (o.store.getD Map.empty) k = some v → ∃ mo, o.store = some mo ∧ mo k = some v := by
    intro k v hk
    cases ho : o.store with
    | none => simp [ho, Map.empty] at hk
    | some mo => exact ⟨mo, rfl, by simpa [ho] using hk⟩
  refine ⟨rfl, ?_, ?_⟩
  · intro m' hm'
    obtain ⟨ms, e1, e2⟩ := hfrom m' hm'
    obtain ⟨keys, hkeys⟩ := (f1 ms e1).1
    refine ⟨?_, ?_⟩
    · cases ho : o.store with
      | none =>
        refine ⟨keys, fun k hk => ?_⟩
        cases hv : m' k with
        | none => exact absurd hv hk
        | some v =>
          rcases e2 k v hv with h | h
          · exact hkeys k (by simp [h])
          · simp [ho, Map.empty] at h
      | some mo =>
        obtain ⟨keys2, hkeys2⟩ := (f2 mo ho).1
        refine ⟨keys ++ keys2, fun k hk => ?_⟩
        cases hv : m' k with
        | none => exact absurd hv hk
        | some v =>
          rcases e2 k v hv with h | h
          · exact List.mem_append_left _ (hkeys k (by simp [h]))
          · exact List.mem_append_right _ (hkeys2 k (by simp [ho] at h; simp [h]))
    · intro k r md hk hmd
      rcases e2 k _ hk with h | h
      · exact (f1 ms e1).2 k r md h hmd
      · obtain ⟨mo, h3, h4⟩ := hb k _ h
        exact (f2 mo h3).2 k r md h4 hmd
  · intro m' hm' k v hk
    obtain ⟨ms, e1, e2⟩ := hfrom m' hm'
    rcases e2 k v hk with h | h
    · exact u1 ms e1 k v h
    · obtain ⟨mo, h3, h4⟩ := hb k _ h
      exact u2 mo h3 k v h4

/-! ### Panics and termination -/

theorem marshal_no_panic (s : SecretStore) (mode : Int) (rng : Rng) : marshalSecretStore C J s mode rng ≠ .panic := by
  cases hv : s.valid with
  | false => rw [marshal_invalid C J s mode rng hv]; simp
  | true =>
    obtain ⟨-, -, -, p, hp⟩ := (valid_iff s).mp hv
    rw [marshal_eq C J s p mode rng hv hp]
    split
    · simp
    · split
      · simp
      · split <;> simp

/-- The map is there and no record is nil. -/
def Healthy (s : SecretStore) : Prop := NoNil s ∧ ∃ m, s.store = some m

theorem healthy_fetch {s : SecretStore} (h : Healthy s) {k : Bytes} (hk : s.has k = true) : ∃ r, fetch s k = .ok r := by
  rw [has_eq h.1] at hk
  cases hl : lookup s k with
  | none => simp [hl] at hk
  | some r => exact ⟨r, fetch_eq.mpr hl⟩

theorem healthy_assign {s : SecretStore} (h : Healthy s) (k : Bytes) (r : SecretRecord) :
    ∃ s', assign s k r = .ok s' ∧ Healthy s' := by
  obtain ⟨hn, m, hm⟩ := h
  refine ⟨_, assign_eq.mpr ⟨m, hm, rfl⟩, ?_, ⟨_, rfl⟩⟩
  intro m' q hm' hq
  cases hm'
  by_cases hqk : q = k
  · subst hqk; simp at hq
  · rw [Map.set_other _ _ hqk] at hq
    exact hn m q hm hq

theorem addPlain_healthy {w : World} {ps : SecretStore} {label : Bytes} {ow : Bool} (h : Healthy ps) :
    ∃ b ps' w', addPlain w ps label ow = .ok (b, ps', w') ∧ Healthy ps' ∧ (b = true → ps'.has label = true) := by
  cases hr : addPlain w ps label ow with
  | ok x =>
    obtain ⟨b, ps', w'⟩ := x
    refine ⟨b, ps', w', rfl, ?_⟩
    cases b with
    | true =>
      obtain ⟨pw, rest, m, r0, -, -, hm, -, -, rfl, -⟩ := addPlain_ok hr
      obtain ⟨s', e1, e2⟩ := healthy_assign h label { r0 with secret := pw, timestamp := w.term.clock 0 }
      obtain ⟨m', e3, rfl⟩ := assign_eq.mp e1
      rw [hm] at e3
      cases e3
      exact ⟨e2, fun _ => by rw [has_get rfl]; simp⟩
    | false =>
      refine ⟨?_, by simp⟩
      unfold addPlain at hr
      simp only at hr
      split at hr
      · simp only [Res.ok.injEq, Prod.mk.injEq, true_and] at hr; rw [← hr.1]; exact h
      · split at hr
        · simp only [Res.ok.injEq, Prod.mk.injEq, true_and] at hr; rw [← hr.1]; exact h
        · split at hr
          · simp only [Res.ok.injEq, Prod.mk.injEq, true_and] at hr; rw [← hr.1]; exact h
          · exfalso
            split at hr
            · obtain ⟨r, h1, h2⟩ := Res.bind_eq_ok.mp hr
              obtain ⟨ps1, h3, h4⟩ := Res.bind_eq_ok.mp h2
              simp at h4
            · obtain ⟨r, h1, h2⟩ := Res.bind_eq_ok.mp hr
              obtain ⟨ps1, h3, h4⟩ := Res.bind_eq_ok.mp h2
              simp at h4
  | panic =>
    exfalso
    unfold addPlain at hr
    simp only at hr
    split at hr
    · simp at hr
    · split at hr
      · simp at hr
      · split at hr
        · simp at hr
        · split at hr
          · rename_i hh
            obtain ⟨r, e⟩ := healthy_fetch h hh
            rw [e] at hr
            simp only [Res.ok_bind] at hr
            simp only [Term.now] at hr
            obtain e3 | ⟨x, e3, e4⟩ := Res.bind_eq_panic.mp hr
            · obtain ⟨s3, e5, -⟩ := healthy_assign h label _
              rw [e5] at e3
              cases e3
            · cases e4
          · simp only [Res.pure_eq, Res.ok_bind] at hr
            generalize hrec : SecretRecord.mk _ _ _ _ = r at hr
            obtain ⟨s', e2, -⟩ := healthy_assign h label r
            rw [e2] at hr
            simp at hr

theorem editMeta_healthy {w : World} {ps : SecretStore} {label : Bytes} (h : Healthy ps) (hh : ps.has label = true) :
    editMeta w ps label ≠ .panic := by
  obtain ⟨r, e⟩ := healthy_fetch h hh
  unfold editMeta
  rw [e]
  simp only [Res.ok_bind]
  split
  · obtain ⟨s', e2, -⟩ := healthy_assign h label { r with metadata := some (metaLoop (r.metadata.getD Map.empty) w.term.answers).1 }
    rw [e2]
    simp
  · obtain ⟨s', e2, -⟩ := healthy_assign h label
      { r with metadata := some (metaLoop (r.metadata.getD Map.empty) w.term.answers).1, timestamp := w.term.clock 0 }
    simp only [Term.now, e2, Res.ok_bind]
    simp

theorem addSecret_healthy {w : World} {ps : SecretStore} {label : Bytes} {cfg : Config} (h : Healthy ps) :
    addSecret w ps cfg label ≠ .panic := by
  unfold addSecret
  obtain ⟨b, ps', w', e, h2, h3⟩ := addPlain_healthy (w := w) (label := label) (ow := cfg.overwrite) h
  split
  · unfold addMeta
    split
    · exact editMeta_healthy h ‹_›
    · rw [e]
      cases b with
      | false => simp
      | true => exact editMeta_healthy h2 (h3 rfl)
  · rw [e]; simp

theorem multiLoop_healthy (ow : Bool) (n : Nat) : ∀ (as : List (Option Bytes)) (ck : Nat → BitVec 64) (ps : SecretStore),
    as.length ≤ n → Healthy ps → multiLoop ow as ck ps ≠ .panic := by
  induction n with
  | zero =>
    intro as ck ps hn h
    cases as with
    | nil => simp [multiLoop]
    | cons => simp at hn
  | succ n ih =>
    intro as ck ps hn h
    match as with
    | [] => simp [multiLoop]
    | none :: as => simp [multiLoop]
    | some name :: as =>
      rw [multiLoop.eq_def]
      simp only
      split
      · simp
      · split
        · exact ih as ck ps (by simp at hn; omega) h
        · match as with
          | [] => simp
          | none :: as => simp
          | some pw :: as =>
            simp only
            split
            · exact ih as ck ps (by simp at hn; omega) h
            · split
              · rename_i hh
                obtain ⟨r, e⟩ := healthy_fetch h hh
                rw [e]
                simp only [Res.ok_bind]
                obtain ⟨s', e2, h2⟩ := healthy_assign h name { r with secret := pw, timestamp := ck 0 }
                rw [e2]
                simp only [Res.ok_bind]
                exact ih as _ s' (by simp at hn; omega) h2
              · simp only [Res.pure_eq, Res.ok_bind]
                generalize hrec : SecretRecord.mk _ _ _ _ = r
                obtain ⟨s', e2, h2⟩ := healthy_assign h name r
                rw [e2]
                simp only [Res.ok_bind]
                exact ih as _ s' (by simp at hn; omega) h2

theorem remove_healthy {n : Nat} {w : World} {ps : SecretStore} {label : Bytes} {cfg : Config} (h : Healthy ps) :
    Model.Secrets.remove n w ps cfg label ≠ some .panic := by
  unfold Model.Secrets.remove
  split
  · unfold removeMeta
    split
    · simp
    · rename_i hh
      obtain ⟨r, e⟩ := healthy_fetch (k := label) h (by simpa using hh)
      rw [e]
      simp only
      split
      · simp
      · rename_i md as _
        obtain ⟨s', e2, -⟩ := healthy_assign h label { r with metadata := md, timestamp := w.term.clock 0 }
        simp only [Term.now, e2, Res.ok_bind]
        simp
  · split <;> simp

/-- With enough fuel the loop ends if an empty line is ever typed. -/
theorem removeMetaLoop_ends (as : List (Option Bytes)) : ∀ (md : Option (Map Bytes)) (n : Nat), some [] ∈ as → as.length ≤ n →
    removeMetaLoop n md as ≠ none := by
  induction as with
  | nil => intro md n h; simp at h
  | cons a as ih =>
    intro md n h hn
    cases n with
    | zero => simp at hn
    | succ n =>
      simp only [List.length_cons, Nat.add_le_add_iff_right] at hn
      cases a with
      | none =>
        unfold removeMetaLoop
        exact ih md n (by simpa using h) hn
      | some key =>
        unfold removeMetaLoop
        split
        · simp
        · rename_i hk
          refine ih _ n ?_ hn
          rcases List.mem_cons.mp h with h | h
          · simp only [Option.some.injEq] at h
            exact absurd h.symm hk
          · exact h

/-- Without one it does not. -/
theorem removeMetaLoop_forever (n : Nat) : ∀ (as : List (Option Bytes)) (md : Option (Map Bytes)), some [] ∉ as →
    removeMetaLoop n md as = none := by
  induction n with
  | zero => intro as md _; rfl
  | succ n ih =>
    intro as md h
    match as with
    | [] => exact ih [] md (by simp)
    | none :: as => exact ih as md (by simpa using h)
    | some key :: as =>
      unfold removeMetaLoop
      rw [if_neg]
      · exact ih as _ (fun hm => h (List.mem_cons_of_mem _ hm))
      · rintro rfl
        exact h List.mem_cons_self

/-! ### Entering several secrets -/

/-- What is typed to enter the given names and passwords. -/
def script (es : List (Bytes × Bytes)) : List (Option Bytes) := es.flatMap (fun e => [some e.1, some e.2])

theorem multi_script (ow : Bool) (rest : List (Option Bytes)) : ∀ (es : List (Bytes × Bytes)) (ck : Nat → BitVec 64) (ps : SecretStore),
    (∃ m, ps.store = some m) → (∀ e ∈ es, e.1 ≠ [] ∧ e.2 ≠ [] ∧ ps.has e.1 = false ∧ ValidUtf8 e.1) → (es.map Prod.fst).Nodup →
    ∃ ps', multiLoop ow (script es ++ some [] :: rest) ck ps = .ok (true, ps', ⟨rest, fun n => ck (n + es.length)⟩) ∧
      (∃ m, ps'.store = some m) ∧ (ps.toFields.Utf8 → ps'.toFields.Utf8) ∧
      (∀ e ∈ es, ∃ r, lookup ps' e.1 = some r ∧ r.secret = e.2 ∧ r.label = e.1) ∧
      ∀ k, k ∉ es.map Prod.fst → lookup ps' k = lookup ps k := by
  intro es
  induction es with
  | nil =>
    intro ck ps hm _ _
    exact ⟨ps, by rw [script]; simp only [List.flatMap_nil, List.nil_append]; rw [multiLoop.eq_def]; simp, hm, id, by simp, fun _ _ => rfl⟩
  | cons e es ih =>
    intro ck ps ⟨m, hm⟩ he hnd
    obtain ⟨e1, e2, e3, e4⟩ := he e List.mem_cons_self
    rw [List.map_cons, List.nodup_cons] at hnd
    let r : SecretRecord := ⟨e.1, ck 0, e.2, none⟩
    let ps1 : SecretStore := { ps with store := some (m.set e.1 (some r)) }
    obtain ⟨ps', h1, h2, h3, h4, h5⟩ := ih (fun n => ck (n + 1)) ps1 ⟨_, rfl⟩ (by
      intro x hx
      obtain ⟨x1, x2, x3, x4⟩ := he x (List.mem_cons_of_mem _ hx)
      refine ⟨x1, x2, ?_, x4⟩
      have hne : x.1 ≠ e.1 := fun h => hnd.1 (h ▸ List.mem_map_of_mem hx)
      cases hh : ps1.has x.1 with
      | false => rfl
      | true =>
        rw [has_get (m := m.set e.1 (some r)) rfl, Map.set_other _ _ hne, ← has_get hm, x3] at hh
        cases hh) hnd.2
    refine ⟨ps', ?_, h2, ?_, ?_, ?_⟩
    · have hs : script (e :: es) = some e.1 :: some e.2 :: script es := rfl
      rw [hs, List.cons_append, List.cons_append, multiLoop]
      simp only [e1, e2, e3, if_false, Bool.false_and, Bool.false_eq_true, Res.pure_eq, Res.ok_bind]
      rw [show assign ps e.1 { label := e.1, timestamp := ck 0, secret := e.2, metadata := none } = .ok ps1 from
        assign_eq.mpr ⟨m, hm, rfl⟩]
      simp only [Res.ok_bind, h1, List.length_cons]
      simp only [Nat.add_assoc]
    · intro hu
      exact h3 (utf8_set (f := ps.toFields) hu hm (r := r) e4 e4 (by intro md j x hmd; cases hmd) ps.timestamp)
    · intro x hx
      rcases List.mem_cons.mp hx with rfl | hx
      · refine ⟨r, ?_, rfl, rfl⟩
        rw [h5 _ hnd.1]
        exact (lookup_set hm x.1 x.1 r).trans (if_pos rfl)
      · exact h4 x hx
    · intro k hk
      simp only [List.map_cons, List.mem_cons, not_or] at hk
      rw [h5 k hk.2]
      exact (lookup_set hm e.1 k r).trans (if_neg hk.1)

/-- Any UTF-8 store can be in a file, valid or not. -/
theorem fields_exist {mode : Int} (hm : mode = 0 ∨ mode = 1) (p : Bytes) {f : Fields} (hf : f.Finite) (hu : f.Utf8) :
    ∃ b, unmarshalSecretStore C J b p mode = .ok (some { toFields := f, passphrase := some p }) := by
  obtain ⟨b, hb⟩ := isFile_exists C hm p (J.enc f)
  exact ⟨b, saved_exact C J hf hu hb⟩

theorem read_mem {t : Term} {pass : Bytes} (h : t.read.1 = some pass) : some pass ∈ t.answers := by
  unfold Term.read at h
  cases ha : t.answers with
  | nil => simp [ha] at h
  | cons a as =>
    simp only [ha] at h
    simp [h]

theorem loadStore_term {w w1 : World} {path : Bytes} {mode : Int} {o : Option SecretStore}
    (hl : loadStore C J w path mode = .ok (o, w1)) : w1.term.answers = w.term.answers.tail := by
  have ht : w.term.read.2.answers = w.term.answers.tail := by
    unfold Term.read
    cases ha : w.term.answers <;> simp [ha]
  unfold loadStore at hl
  simp only at hl
  split at hl
  · simp only [Res.ok.injEq, Prod.mk.injEq] at hl; rw [← hl.2]; exact ht
  · split at hl
    · split at hl
      · simp only [Res.ok.injEq, Prod.mk.injEq] at hl; rw [← hl.2]; exact ht
      · obtain ⟨x, e1, e2⟩ := Res.bind_eq_ok.mp hl
        simp only [Res.pure_eq, Res.ok.injEq, Prod.mk.injEq] at e2; rw [← e2.2]; exact ht
    · simp only [Res.ok.injEq, Prod.mk.injEq] at hl; rw [← hl.2]; exact ht

/-- The commands do not panic on healthy stores. -/
theorem run_healthy {ord : Map (Option SecretRecord) → List Bytes} {fuel : Nat} {c : Cmd} {w : World} {ps : SecretStore} {cfg : Config}
    {mode : Int} (hord : ∀ m : Map (Option SecretRecord), m.Finite → m.Enumerates (ord m)) (h : Healthy ps)
    (hgood : ∀ b pass s, (w.stdin = b ∨ ∃ q, w.fs q = some b) → some pass ∈ w.term.answers →
      unmarshalSecretStore C J b pass mode = .ok (some s) → Healthy s) :
    Cmd.run C J ord fuel c w ps cfg mode ≠ some .panic := by
  cases c with
  | «show» =>
    simp only [Cmd.run, showSecret]
    split
    · simp
    · rename_i hh
      obtain ⟨r, e⟩ := healthy_fetch (k := cfg.args.headD []) h (by simpa using hh)
      rw [e]
      simp
  | store =>
    simp only [Cmd.run, ne_eq, Option.some.injEq]
    exact addSecret_healthy h
  | list => simp [Cmd.run]
  | passwd => simp [Cmd.run]
  | remove => exact remove_healthy h
  | multi =>
    simp only [Cmd.run, multi, ne_eq, Option.some.injEq]
    intro hp
    rcases Res.bind_eq_panic.mp hp with h1 | ⟨x, -, h2⟩
    · exact multiLoop_healthy _ _ _ _ _ (Nat.le_refl _) h h1
    · simp at h2
  | merge =>
    simp only [Cmd.run, ne_eq, Option.some.injEq]
    unfold Model.Secrets.merge
    simp only
    split
    · simp
    · rename_i pass hpass
      split
      · simp
      · rename_i data hdata
        cases hu : unmarshalSecretStore C J data pass mode with
        | panic => exact absurd hu (unmarshal_no_panic C J _ _ _)
        | ok o =>
          simp only [Res.ok_bind]
          cases o with
          | none => simp
          | some o =>
            have ho : Healthy o := by
              refine hgood data pass o ?_ (read_mem hpass) hu
              unfold World.readFile at hdata
              split at hdata
              · exact Or.inl (by simpa using hdata)
              · exact Or.inr ⟨_, hdata⟩
            obtain ⟨hfin, -, -⟩ := opens_fields C J hu
            obtain ⟨hn, a, ha⟩ := h
            obtain ⟨hn2, b, hb⟩ := ho
            simp only [hb, Option.getD_some]
            rw [merge_spec ha hb hn hn2 (hord b (hfin b hb).1)]
            simp

/-- Only `remove -m` can run on. -/
theorem run_none {ord : Map (Option SecretRecord) → List Bytes} {fuel : Nat} {c : Cmd} {w : World} {ps : SecretStore} {cfg : Config}
    {mode : Int} (h : Cmd.run C J ord fuel c w ps cfg mode = none) :
    c = .remove ∧ cfg.withMeta = true ∧ ∃ md, removeMetaLoop fuel md w.term.answers = none := by
  cases c with
  | remove =>
    simp only [Cmd.run, Model.Secrets.remove] at h
    split at h
    · rename_i hm
      refine ⟨rfl, hm, ?_⟩
      unfold removeMeta at h
      split at h
      · simp at h
      · split at h
        · simp at h
        · split at h
          · exact ⟨_, ‹_›⟩
          · simp at h
    · split at h <;> simp at h
  | _ => simp [Cmd.run] at h

end Verif.Proofs.Secrets
