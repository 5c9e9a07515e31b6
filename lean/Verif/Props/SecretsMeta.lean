import Verif.Props.Secrets
/-! Property C106: the metadata that `secrets -m` saves and removes. -/

namespace Verif.Props.SecretsMeta
open Verif Verif.Go Verif.Model.SecretStore Verif.Model.Secrets Verif.Spec.SecretStore Verif.Spec.Secrets
open Verif.Proofs.SecretStore Verif.Proofs.Secrets Verif.Props.SecretStore Verif.Props.Secrets

variable (C : Crypto) (J : Json) (P : Pem) (ord : Map (Option SecretRecord) → List Bytes) (fuel : Nat)

theorem split_iff (line a b : Bytes) : splitEq line = some (a, b) ↔ line = a ++ 61 :: b ∧ (61 : UInt8) ∉ a := by
  constructor
  · intro h
    unfold splitEq at h
    split at h
    · simp only [Option.some.injEq, Prod.mk.injEq] at h
      obtain ⟨rfl, rfl⟩ := h
      rename_i hm
      clear * - hm
      induction line with
      | nil => cases hm
      | cons c cs ih =>
        by_cases hc : c = 61
        · subst hc; simp
        · have := ih ((List.mem_cons.mp hm).resolve_left (Ne.symm hc))
          simp only [List.takeWhile_cons, List.dropWhile_cons, hc, ne_eq, not_false_eq_true, decide_true, if_true,
            List.cons_append, List.mem_cons, not_or]
          exact ⟨by rw [← this.1], Ne.symm hc, this.2⟩
    · cases h
  · rintro ⟨rfl, ha⟩
    unfold splitEq
    rw [if_pos (by simp)]
    have : ∀ x ∈ a, decide (x ≠ 61) = true := fun x hx => by
      simp only [ne_eq, decide_not, Bool.not_eq_true', decide_eq_false_iff_not]
      intro h
      exact ha (h ▸ hx)
    simp only [Option.some.injEq, Prod.mk.injEq]
    constructor
    · rw [List.takeWhile_append_of_pos this]; simp
    · rw [List.dropWhile_append_of_pos this]; simp

theorem split_none {line : Bytes} (h : splitEq line = none) (k v : Bytes) : ¬ Pair line k v := by
  rintro ⟨a, b, h1, h2, -, -⟩
  rw [(split_iff line a b).mpr ⟨h1, h2⟩] at h
  cases h

theorem pair_iff {line a b : Bytes} (h : splitEq line = some (a, b)) (k v : Bytes) :
    Pair line k v ↔ k = trimSpace a ∧ v = trimSpace b := by
  constructor
  · rintro ⟨a', b', h1, h2, h3, h4⟩
    rw [(split_iff line a' b').mpr ⟨h1, h2⟩] at h
    cases h
    exact ⟨h3, h4⟩
  · rintro ⟨h3, h4⟩
    obtain ⟨h1, h2⟩ := (split_iff line a b).mp h
    exact ⟨a, b, h1, h2, h3, h4⟩

/-- The loop reads lines up to an empty one. -/
theorem metaLoop_true (as : List (Option Bytes)) : ∀ (md md' : Map Bytes) (rest : List (Option Bytes)),
    metaLoop md as = (md', true, rest) → ∃ lines, as = lines.map some ++ some [] :: rest ∧ (∀ l ∈ lines, l ≠ []) ∧
      ∀ k v, md' k = some v ↔ Entered (md k) lines k v := by
  induction as with
  | nil => intro md md' rest h; simp [metaLoop] at h
  | cons a as ih =>
    intro md md' rest h
    cases a with
    | none => simp [metaLoop] at h
    | some line =>
      rw [metaLoop] at h
      by_cases hl : line = []
      · rw [if_pos hl] at h
        simp only [Prod.mk.injEq, true_and] at h
        obtain ⟨rfl, rfl⟩ := h
        refine ⟨[], by simp [hl], by simp, fun k v => ?_⟩
        simp [Entered]
      · rw [if_neg hl] at h
        cases hs : splitEq line with
        | none =>
          rw [hs] at h
          obtain ⟨lines, h1, h2, h3⟩ := ih _ _ _ h
          refine ⟨line :: lines, by simp [h1], by simpa [hl] using h2, fun k v => ?_⟩
          rw [h3]
          have hp := split_none hs
          constructor
          · rintro (⟨pre, l, post, e1, e2, e3⟩ | ⟨e1, e2⟩)
            · exact .inl ⟨line :: pre, l, post, by simp [e1], e2, e3⟩
            · refine .inr ⟨e1, fun l hl' => ?_⟩
              rcases List.mem_cons.mp hl' with rfl | hl'
              · exact hp k
              · exact e2 l hl'
          · rintro (⟨pre, l, post, e1, e2, e3⟩ | ⟨e1, e2⟩)
            · cases pre with
              | nil =>
                simp only [List.nil_append, List.cons.injEq] at e1
                exact absurd (e1.1 ▸ e2) (hp k v)
              | cons p pre =>
                simp only [List.cons_append, List.cons.injEq] at e1
                exact .inl ⟨pre, l, post, e1.2, e2, e3⟩
            · exact .inr ⟨e1, fun l hl' => e2 l (List.mem_cons_of_mem _ hl')⟩
        | some ab =>
          obtain ⟨a, b⟩ := ab
          rw [hs] at h
          obtain ⟨lines, h1, h2, h3⟩ := ih _ _ _ h
          refine ⟨line :: lines, by simp [h1], by simpa [hl] using h2, fun k v => ?_⟩
          rw [h3]
          have hp := pair_iff hs
          constructor
          · rintro (⟨pre, l, post, e1, e2, e3⟩ | ⟨e1, e2⟩)
            · exact .inl ⟨line :: pre, l, post, by simp [e1], e2, e3⟩
            · by_cases hk : k = trimSpace a
              · subst hk
                rw [Map.set_same] at e1
                exact .inl ⟨[], line, lines, rfl, (hp _ _).mpr ⟨rfl, (Option.some.inj e1).symm⟩, e2⟩
              · rw [Map.set_other _ _ hk] at e1
                refine .inr ⟨e1, fun l hl' => ?_⟩
                rcases List.mem_cons.mp hl' with rfl | hl'
                · intro v' hv'; exact hk ((hp _ _).mp hv').1
                · exact e2 l hl'
          · rintro (⟨pre, l, post, e1, e2, e3⟩ | ⟨e1, e2⟩)
            · cases pre with
              | nil =>
                simp only [List.nil_append, List.cons.injEq] at e1
                obtain ⟨rfl, rfl⟩ := e1
                obtain ⟨rfl, rfl⟩ := (hp k v).mp e2
                exact .inr ⟨Map.set_same _ _ _, e3⟩
              | cons p pre =>
                simp only [List.cons_append, List.cons.injEq] at e1
                exact .inl ⟨pre, l, post, e1.2, e2, e3⟩
            · refine .inr ⟨?_, fun l hl' => e2 l (List.mem_cons_of_mem _ hl')⟩
              rw [Map.set_other]
              · exact e1
              · rintro rfl
                exact e2 line List.mem_cons_self _ ((hp _ _).mpr ⟨rfl, rfl⟩)

theorem editMeta_ok {w w' : World} {ps ps' : SecretStore} {label : Bytes} (h : editMeta w ps label = .ok (true, ps', w')) :
    ∃ m r lines rest md', ps.store = some m ∧ lookup ps label = some r ∧
      w.term.answers = lines.map some ++ some [] :: rest ∧ (∀ l ∈ lines, l ≠ []) ∧
      (∀ k v, md' k = some v ↔ Entered ((r.metadata.getD Map.empty) k) lines k v) ∧
      ps' = { ps with store := some (m.set label (some { r with metadata := some md', timestamp := w.term.clock 0 })) } := by
  unfold editMeta at h
  obtain ⟨r, h3, h4⟩ := Res.bind_eq_ok.mp h
  have hl := fetch_eq.mp h3
  cases hml : metaLoop (r.metadata.getD Map.empty) w.term.answers with
  | mk md' x =>
    obtain ⟨ok, rest⟩ := x
    rw [hml] at h4
    cases ok with
    | false =>
      simp only [Bool.not_false, if_true] at h4
      obtain ⟨ps2, h5, h6⟩ := Res.bind_eq_ok.mp h4
      simp at h6
    | true =>
      simp only [Bool.not_true, Bool.false_eq_true, if_false, Term.now] at h4
      obtain ⟨ps2, h5, h6⟩ := Res.bind_eq_ok.mp h4
      obtain ⟨m, hm, rfl⟩ := assign_eq.mp h5
      simp only [Res.pure_eq, Res.ok.injEq, Prod.mk.injEq, true_and] at h6
      obtain ⟨rfl, rfl⟩ := h6
      obtain ⟨lines, e1, e2, e3⟩ := metaLoop_true _ _ _ _ hml
      exact ⟨m, r, lines, rest, md', hm, hl, e1, e2, e3, rfl⟩

theorem has_lookup_false {s : SecretStore} {k : Bytes} (h : s.has k = false) : lookup s k = none := by
  cases hlo : lookup s k with
  | none => rfl
  | some r =>
    obtain ⟨m, hm, hk⟩ := lookup_get hlo
    have := (has_get hm).mpr (show m k ≠ none by rw [hk]; simp)
    rw [h] at this
    cases this

/-- C106: `secrets -s -m label` saves the metadata typed, and keeps the other metadata of the entry, its
password and all other entries. For a label that is not there a password is asked for first. -/
theorem C106_store (f : Flags) (args : List Bytes) (path : Bytes) (w w' : World) (hd : path ≠ dash)
    (hf : f.action = .cmd .store) (hm : f.withMeta = true) (hl : ValidUtf8 (args.headD []))
    (hty : ∀ line ∈ typed w, ∀ k v, Pair line k v → ValidUtf8 k)
    (h : main C J P ord fuel f args path w = some (.ok (0, w'))) :
    ∃ pass pw lines rest s s' r', Opens C J w.fs path pass f.mode s ∧ Opens C J w'.fs path pass f.mode s' ∧
      w.term.answers = some pass :: ((if s.has (args.headD []) then [] else [some pw]) ++ (lines.map some ++ some [] :: rest)) ∧
      (∀ l ∈ lines, l ≠ []) ∧ (∀ k, k ≠ args.headD [] → lookup s' k = lookup s k) ∧
      lookup s' (args.headD []) = some r' ∧ r'.secret = ((lookup s (args.headD [])).map (·.secret)).getD pw ∧
      ∃ md', r'.metadata = some md' ∧
        ∀ k v, md' k = some v ↔ Entered (((lookup s (args.headD [])).bind (·.metadata)).bind (· k)) lines k v := by
  unfold main at h
  rw [hf] at h
  obtain ⟨-, pass, rest, s, ps, t, ha, hop, hrun, -, hwr⟩ := runCmd_zero C J hd h
  obtain ⟨p', out, hp', -, -, -, hfile, hfs⟩ := hwr rfl
  obtain ⟨b, hb, hu⟩ := hop
  obtain ⟨hfin, hutf, hpass⟩ := opens_fields C J hu
  simp only [Cmd.run, addSecret, hm, if_true, Option.some.injEq] at hrun
  obtain ⟨hF, -, -⟩ := addMeta_frame hrun
  rw [hF.passphrase, hpass] at hp'
  cases hp'
  have hent : ∀ {before : Map Bytes} {lines : List Bytes} {k v : Bytes}, (∀ l ∈ lines, some l ∈ w.term.answers) →
      (∀ j x, before j = some x → ValidUtf8 j) → Entered (before k) lines k v → ValidUtf8 k := by
    intro before lines k v h1 h2 h3
    rcases h3 with ⟨pre, line, post, e1, e2, -⟩ | ⟨e1, -⟩
    · exact hty line (by
        unfold typed
        exact List.mem_filterMap.mpr ⟨_, h1 line (by rw [e1]; simp), rfl⟩) _ _ e2
    · exact h2 _ _ e1
  unfold addMeta at hrun
  cases hh : s.has (args.headD []) with
  | true =>
    rw [hh, if_pos rfl] at hrun
    obtain ⟨m, r, lines, rest', md', e1, e2, e3, e4, e5, e6⟩ := editMeta_ok hrun
    simp only at e3
    subst e3
    have hu2 : ({ ps.toFields with timestamp := t.clock 0 } : Fields).Utf8 := by
      rw [e6]
      obtain ⟨u1, u2, u3⟩ := record_utf8 hutf e2
      refine utf8_set (r := { r with metadata := some md', timestamp := w.term.clock 0 }) hutf e1 hl u2 ?_ _
      intro md j x hmd hj
      simp only [Option.some.injEq] at hmd
      subst hmd
      refine hent ?_ ?_ ((e5 j x).mp hj)
      · intro l hl'; rw [ha]; simp [hl']
      · intro j x hj
        cases hmd : r.metadata with
        | none => rw [hmd] at hj; cases hj
        | some md => rw [hmd] at hj; exact u3 md j x hmd hj
    have h1 := saved_exact C J (finite_time (hF.finite hfin) _) hu2 hfile
    refine ⟨pass, [], lines, rest', s, _, { r with metadata := some md', timestamp := w.term.clock 0 }, ⟨b, hb, hu⟩, ⟨out, by rw [hfs]; simp, h1⟩, ?_, e4, ?_, ?_, ?_, md', rfl, ?_⟩
    · rw [ha, hh]; simp
    · intro k hk
      show lookup ps k = _
      rw [e6, lookup_set e1, if_neg hk]
    · show lookup ps _ = _
      rw [e6, lookup_set e1, if_pos rfl]
    · rw [e2]; rfl
    · intro k v
      rw [e5, e2, Option.bind_some]
      cases r.metadata <;> exact Iff.rfl
  | false =>
    rw [hh] at hrun
    simp only [Bool.false_eq_true, if_false] at hrun
    split at hrun
    · cases hrun
    · simp at hrun
    rename_i ps1 w1 hp
    obtain ⟨pw, rest2, m0, r0, hans, hne, hst, c1, c2, hps, rfl⟩ := addPlain_ok hp
    obtain ⟨m, r, lines, rest', md', e1, e2, e3, e4, e5, e6⟩ := editMeta_ok hrun
    simp only at e3 hans
    subst e3
    subst hans
    have hr0 := c2 hh
    subst hr0
    rw [hps, lookup_set hst, if_pos rfl] at e2
    cases e2
    have hm1 : m = m0.set (args.headD []) (some { label := args.headD [], timestamp := w.term.clock 0, secret := pw, metadata := none }) := by
      rw [hps] at e1
      exact (Option.some.inj e1).symm
    have hlk : ∀ k, k ≠ args.headD [] → lookup ps1 k = lookup s k := by
      intro k hk
      rw [hps, lookup_set hst, if_neg hk]
    have hutf1 : ps1.toFields.Utf8 := by
      rw [hps]
      exact utf8_set (f := s.toFields) hutf hst (r := ⟨args.headD [], w.term.clock 0, pw, none⟩) hl hl (by intro md j x hmd; cases hmd) s.timestamp
    have hu2 : ({ ps.toFields with timestamp := t.clock 0 } : Fields).Utf8 := by
      rw [e6]
      refine utf8_set hutf1 e1 hl hl ?_ _
      intro md j x hmd hj
      simp only [Option.some.injEq] at hmd
      subst hmd
      refine hent ?_ ?_ ((e5 j x).mp hj)
      · intro l hl'; rw [ha]; simp [hl']
      · intro j x hj; cases hj
    have h1 := saved_exact C J (finite_time (hF.finite hfin) _) hu2 hfile
    refine ⟨pass, pw, lines, rest', s, _,
      { label := args.headD [], secret := pw, metadata := some md', timestamp := w.term.clock 1 }, ⟨b, hb, hu⟩, ⟨out, by rw [hfs]; simp, h1⟩, ?_, e4, ?_, ?_, ?_, md', rfl, ?_⟩
    · rw [ha, hh]; simp
    · intro k hk
      show lookup ps k = _
      rw [e6, lookup_set e1, if_neg hk, hlk k hk]
    · show lookup ps _ = _
      rw [e6, lookup_set e1, if_pos rfl]
    · rw [has_lookup_false hh]; rfl
    · intro k v
      rw [e5, has_lookup_false hh]
      exact Iff.rfl

theorem removeMetaLoop_true (n : Nat) : ∀ (md md' : Option (Map Bytes)) (as as' : List (Option Bytes)),
    removeMetaLoop n md as = some (md', as') → ∃ lines, as = lines ++ some [] :: as' ∧ some [] ∉ lines ∧
      (md'.isSome = md.isSome) ∧ ∀ k, md'.bind (· k) = if some k ∈ lines then none else md.bind (· k) := by
  induction n with
  | zero => intro md md' as as' h; simp [removeMetaLoop] at h
  | succ n ih =>
    intro md md' as as' h
    match as with
    | [] =>
      obtain ⟨lines, e1, -⟩ := ih md md' [] as' h
      have := congrArg List.length e1
      simp at this
    | none :: as =>
      obtain ⟨lines, e1, e2, e3, e4⟩ := ih md md' as as' h
      refine ⟨none :: lines, by simp [e1], by simp [e2], e3, fun k => ?_⟩
      rw [e4 k]; simp
    | some key :: as =>
      rw [removeMetaLoop] at h
      by_cases hk : key = []
      · rw [if_pos hk] at h
        simp only [Option.some.injEq, Prod.mk.injEq] at h
        obtain ⟨rfl, rfl⟩ := h
        exact ⟨[], by simp [hk], by simp, rfl, by simp⟩
      · rw [if_neg hk] at h
        obtain ⟨lines, e1, e2, e3, e4⟩ := ih _ md' as as' h
        refine ⟨some key :: lines, by simp [e1], by simp [e2]; exact fun h => hk h, by rw [e3]; simp, fun k => ?_⟩
        rw [e4 k]
        by_cases hkk : k = key
        · subst hkk
          cases md <;> simp
        · cases md with
          | none => simp
          | some m => simp [Map.erase_other _ hkk, hkk]

/-- C106: `secrets -r -m label` removes the metadata keys typed, and nothing else. -/
theorem C106_remove (f : Flags) (args : List Bytes) (path : Bytes) (w w' : World) (hd : path ≠ dash)
    (hf : f.action = .cmd .remove) (hm : f.withMeta = true)
    (h : main C J P ord fuel f args path w = some (.ok (0, w'))) :
    ∃ pass lines rest s s' r r', Opens C J w.fs path pass f.mode s ∧ Opens C J w'.fs path pass f.mode s' ∧
      w.term.answers = some pass :: (lines ++ some [] :: rest) ∧ some [] ∉ lines ∧
      (∀ k, k ≠ args.headD [] → lookup s' k = lookup s k) ∧
      lookup s (args.headD []) = some r ∧ lookup s' (args.headD []) = some r' ∧ r'.secret = r.secret ∧ r'.label = r.label ∧
      ∀ k, r'.metadata.bind (· k) = if some k ∈ lines then none else r.metadata.bind (· k) := by
  unfold main at h
  rw [hf] at h
  obtain ⟨-, pass, rest, s, ps, t, ha, hop, hrun, -, hwr⟩ := runCmd_zero C J hd h
  obtain ⟨p', out, hp', -, -, -, hfile, hfs⟩ := hwr rfl
  obtain ⟨b, hb, hu⟩ := hop
  obtain ⟨hfin, hutf, hpass⟩ := opens_fields C J hu
  simp only [Cmd.run, Model.Secrets.remove, hm, if_true] at hrun
  obtain ⟨hF, -, -⟩ := removeMeta_frame hrun
  rw [hF.passphrase, hpass] at hp'
  cases hp'
  unfold removeMeta at hrun
  split at hrun
  · simp at hrun
  split at hrun
  · simp at hrun
  rename_i r h3
  have hlk := fetch_eq.mp h3
  split at hrun
  · cases hrun
  rename_i md as hloop
  simp only [Option.some.injEq, Term.now] at hrun
  obtain ⟨ps2, h5, h6⟩ := Res.bind_eq_ok.mp hrun
  obtain ⟨m, hm', rfl⟩ := assign_eq.mp h5
  simp only [Res.pure_eq, Res.ok.injEq, Prod.mk.injEq, true_and] at h6
  obtain ⟨rfl, -⟩ := h6
  obtain ⟨lines, e1, e2, e3, e4⟩ := removeMetaLoop_true _ _ _ _ _ hloop
  simp only at e1
  subst e1
  obtain ⟨u1, u2, u3⟩ := record_utf8 hutf hlk
  have hu2 : ({ s.toFields with
      store := some (m.set (args.headD []) (some { r with metadata := md, timestamp := w.term.clock 0 })),
      timestamp := t.clock 0 } : Fields).Utf8 := by
    refine utf8_set (r := { r with metadata := md, timestamp := w.term.clock 0 }) hutf hm' u1 u2 ?_ _
    intro md' j x hmd hj
    simp only at hmd
    have := e4 j
    rw [hmd] at this
    simp only [Option.bind_some, hj] at this
    split at this
    · cases this
    · cases hr : r.metadata with
      | none => rw [hr] at this; cases this
      | some m0 => exact u3 m0 j x hr (by rw [hr] at this; exact this.symm)
  have h1 := saved_exact C J (finite_time (hF.finite hfin) _) hu2 hfile
  refine ⟨pass, lines, as, s, _, r, { r with metadata := md, timestamp := w.term.clock 0 }, ⟨b, hb, hu⟩, ⟨out, by rw [hfs]; simp, h1⟩, ha, e2, ?_, hlk, ?_, ?_, ?_, e4⟩
  · intro k hk
    exact (lookup_set hm' _ _ _).trans (if_neg hk)
  · exact (lookup_set hm' _ _ _).trans (if_pos rfl)
  · rfl
  · rfl

/-- Metadata are added to an entry: of two values for the same key the last is kept. -/
example : ∃ b w' s' r' md, main C J P ord fuel { store := true, withMeta := true } [[97]] [102]
    (exWorld b [some [112, 119], some [120, 61, 121], some [120, 32, 61, 32, 122], some []]) = some (.ok (0, w')) ∧
    Opens C J w'.fs [102] [112, 119] 0 s' ∧ lookup s' [97] = some r' ∧ r'.secret = [1, 2, 3] ∧ r'.metadata = some md ∧
    md [120] = some [122] := by
  obtain ⟨b, hb⟩ := exFile C J 0 (Or.inl rfl)
  have hh : (exStore [1, 2, 3] 7).has [97] = true := rfl
  obtain ⟨w', out, h, -⟩ := exRun C J P ord fuel (f := { store := true, withMeta := true }) (c := .store) (args := [[97]])
    (rest := [some [120, 61, 121], some [120, 32, 61, 32, 122], some []])
    (b := b) (t := ⟨[], fun n => 1000 + BitVec.ofNat 64 (n + 1)⟩) rfl hb rfl (by decide)
    (by simp [Cmd.run, addSecret, addMeta, hh, editMeta, fetch, exStore, exWorld, metaLoop, splitEq, assign, Term.now]; rfl)
    rfl (exClock 1 (by decide)) rfl rfl
  have sp1 : splitEq [120, 61, 121] = some ([120], [121]) := by decide
  have sp2 : splitEq [120, 32, 61, 32, 122] = some ([120, 32], [32, 122]) := by decide
  have sp3 : splitEq [112, 119] = none := by decide
  obtain ⟨pass, pw, lines, rest, s, s', r', h1, h2, h3, h4, -, h6, h7, md', h8, h9⟩ := C106_store C J P ord fuel _ _ _ _ _
    (by decide) rfl rfl (by decide) (by
      intro line hline k v hp
      simp only [typed, exWorld, List.filterMap_cons, id, List.filterMap_nil, List.mem_cons, List.not_mem_nil, or_false] at hline
      rcases hline with rfl | rfl | rfl | rfl
      · exact absurd hp (split_none sp3 _ _)
      · rw [((pair_iff sp1 k v).mp hp).1]; decide
      · rw [((pair_iff sp2 k v).mp hp).1]; decide
      · exact absurd hp (split_none (by decide) _ _)) h
  have hp : pass = [112, 119] := by
    have := congrArg List.head? h3
    simpa [exWorld] using this.symm
  subst hp
  have hs : s = exStore [1, 2, 3] 7 := by
    obtain ⟨b', e1, e2⟩ := h1
    simp only [exWorld, Fs.set_same, Option.some.injEq] at e1
    subst e1
    rw [show ({ store := true, withMeta := true } : Flags).mode = 0 from rfl, hb] at e2
    simpa using e2.symm
  subst hs
  rw [show (([[97]] : List Bytes).headD []) = [97] from rfl, hh] at h3
  simp only [exWorld, if_true, List.nil_append, List.cons.injEq, true_and] at h3
  have hlines : lines = [[120, 61, 121], [120, 32, 61, 32, 122]] := by
    match lines, h4, h3 with
    | [], _, h3 => simp at h3
    | [l], h4, h3 => simp at h3
    | [l1, l2], _, h3 => simp at h3; rw [← h3.1, ← h3.2.1]
    | l1 :: l2 :: l3 :: ls, h4, h3 =>
      simp only [List.map_cons, List.cons_append, List.cons.injEq, Option.some.injEq] at h3
      exact absurd h3.2.2.1.symm (h4 l3 (by simp))
  refine ⟨b, w', s', r', md', h, h2, h6, ?_, h8, ?_⟩
  · rw [h7]; exact congrArg (fun o => (Option.map (fun x : SecretRecord => x.secret) o).getD pw) (exStore_lookup _ _)
  · rw [h9, hlines]
    exact .inl ⟨[[120, 61, 121]], _, [], rfl, (pair_iff sp2 _ _).mpr (by decide), by simp⟩

/-- Two keys are named and then an empty line. -/
example : ∃ b w', main C J P ord 5 { remove := true, withMeta := true } [[97]] [102]
    (exWorld b [some [112, 119], some [120], some [121], some []]) = some (.ok (0, w')) := by
  obtain ⟨b, hb⟩ := exFile C J 0 (Or.inl rfl)
  have hh : (exStore [1, 2, 3] 7).has [97] = true := rfl
  obtain ⟨w', out, h, -⟩ := exRun C J P ord 5 (f := { remove := true, withMeta := true }) (c := .remove) (args := [[97]])
    (rest := [some [120], some [121], some []])
    (b := b) (t := ⟨[], fun n => 1000 + BitVec.ofNat 64 (n + 1)⟩) rfl hb rfl (by decide)
    (by simp [Cmd.run, Model.Secrets.remove, removeMeta, hh, fetch, exStore, exWorld, removeMetaLoop, assign, Term.now]; rfl)
    rfl (exClock 1 (by decide)) rfl rfl
  exact ⟨b, w', h⟩

end Verif.Props.SecretsMeta
