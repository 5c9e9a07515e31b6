import Verif.Proofs.SecretsOutput
import Verif.Props.Secrets
import Verif.Props.SecretscliMore
/-! C169-C174: what cmd/secrets prints on standard output. -/

namespace Verif.Props.SecretsOutput
open Verif Verif.Go Verif.Model.Util Verif.Model.SecretStore Verif.Model.Secrets Verif.Model.SecretsOutput
open Verif.Spec.SecretStore Verif.Spec.Secrets Verif.Spec.SecretsOutput Verif.Proofs.SecretStore Verif.Proofs.Secrets Verif.Proofs.SecretsOutput
open Verif.Props.SecretStore Verif.Props.Secrets Verif.Props.SecretscliMore

variable (C : Crypto) (J : Json) (P : Pem) (ord : Map (Option SecretRecord) → List Bytes) (e : Env) (fuel : Nat)

/-! ### What is printed for a store that opens -/

theorem text_of {f : Flags} {c : Cmd} {args : List Bytes} {path pass : Bytes} {w : World} {s : SecretStore} {rest : List (Option Bytes)}
    (hf : f.action = .cmd c) (hargs : c.requiredArgc ≤ args.length) (hd : path ≠ dash)
    (ha : w.term.answers = some pass :: rest) (ho : Opens C J w.fs path pass f.mode s) :
    mainText C J ord e fuel f args path w = cmdText C J ord e fuel c { w with term := { w.term with answers := rest } } s
      { args := args, clip := f.clip, overwrite := f.overwrite, withMeta := f.withMeta } f.mode := by
  unfold mainText
  rw [hf]
  dsimp only
  unfold runText
  rw [if_neg (show ¬ args.length < c.requiredArgc by omega), load_ok C J hd ha ho]

/-! ### C169: showing a secret -/

/-- `secrets label` with the right passphrase prints the secret under the label and exits with status 0. With
-x nothing else is printed. With -m the time and the metadata follow, one item to a line. -/
theorem C169_shown {clip m i ow : Bool} {l path pass : Bytes} {more : List Bytes} {w : World} {s : SecretStore} {r : SecretRecord} {rest : List (Option Bytes)}
    (hd : path ≠ dash) (ha : w.term.answers = some pass :: rest) (ho : Opens C J w.fs path pass (if i then 1 else 0) s)
    (hl : lookup s l = some r) (he : ∀ md : Map Bytes, md.Finite → md.Enumerates (e.metaOrder md)) :
    main C J P ord fuel { clip := clip, withMeta := m, interactive := i, overwrite := ow } (l :: more) path w =
      some (.ok (0, { w with term := { w.term with answers := rest } })) ∧
    (clip = true → mainText C J ord e fuel { clip := clip, withMeta := m, interactive := i, overwrite := ow } (l :: more) path w = r.secret) ∧
    (clip = false → m = false →
      mainText C J ord e fuel { clip := clip, withMeta := m, interactive := i, overwrite := ow } (l :: more) path w = line (ascii "Secret: " ++ r.secret)) ∧
    (clip = false → m = true → ∃ items : List (Bytes × Bytes),
      (items.map (·.1)).Nodup ∧ (∀ k v, (k, v) ∈ items ↔ ∃ md, r.metadata = some md ∧ md k = some v) ∧
      mainText C J ord e fuel { clip := clip, withMeta := m, interactive := i, overwrite := ow } (l :: more) path w =
        line (ascii "Secret: " ++ r.secret) ++
        line (ascii "Timestamp: " ++ Model.Secretscli.signed r.timestamp ++ ascii " (" ++ e.date r.timestamp ++ ascii ")") ++
        indented (items.map (fun x => x.1 ++ ascii ": " ++ x.2))) := by
  have hh := has_of_lookup hl
  have hfe := fetch_eq.mpr hl
  have hfin : (r.metadata.getD Map.empty).Finite := by
    obtain ⟨b, -, hu⟩ := ho
    obtain ⟨h1, -, -⟩ := opens_fields C J hu
    obtain ⟨mm, hm1, hm2⟩ := lookup_get hl
    cases hmd : r.metadata with
    | none => exact Map.finite_empty
    | some md => exact (h1 mm hm1).2 l r md hm2 hmd
  have htext := text_of C J ord e fuel (f := { clip := clip, withMeta := m, interactive := i, overwrite := ow }) (c := .show) (args := l :: more) rfl
    (by simp [Cmd.requiredArgc]) hd ha ho
  refine ⟨?_, ?_, ?_, ?_⟩
  · unfold main
    show runCmd C J ord fuel .show _ _ path w = _
    unfold runCmd
    rw [if_neg (by simp [Cmd.requiredArgc])]
    have hload : loadStore C J w path ({ clip := clip, withMeta := m, interactive := i, overwrite := ow } : Flags).mode = _ := load_ok C J hd ha ho
    rw [hload]
    simp [Cmd.run, showSecret, hh, hfe, Cmd.shouldWrite]
  · intro hc
    rw [htext]
    simp [cmdText, showText, hh, hfe, hc]
  · intro hc hm
    rw [htext]
    simp [cmdText, showText, hh, hfe, hc, hm, line, ascii]
  · intro hc hm
    obtain ⟨hn, hk⟩ := he _ hfin
    refine ⟨(e.metaOrder (r.metadata.getD Map.empty)).map (fun k => (k, ((r.metadata.getD Map.empty) k).getD [])), ?_, ?_, ?_⟩
    · rw [List.map_map]
      have : ((fun x : Bytes × Bytes => x.1) ∘ fun k => (k, ((r.metadata.getD Map.empty) k).getD [])) = id := rfl
      rw [this, List.map_id]
      exact hn
    · intro k v
      simp only [List.mem_map, Prod.mk.injEq]
      constructor
      · rintro ⟨k', h1, rfl, h2⟩
        have h3 := (hk k').mp h1
        cases hmd : r.metadata with
        | none => rw [hmd] at h3; simp [Map.empty] at h3
        | some md =>
          rw [hmd] at h3 h2
          refine ⟨md, rfl, ?_⟩
          simp only [Option.getD_some] at h2 h3
          cases h4 : md k' with
          | none => exact absurd h4 h3
          | some x => rw [h4] at h2; simpa using h2
      · rintro ⟨md, h1, h2⟩
        refine ⟨k, (hk k).mpr (by rw [h1]; simp [h2]), rfl, by rw [h1]; simp [h2]⟩
    · rw [htext]
      simp only [cmdText, showText, hh, hfe, hc, hm, Bool.not_true, Bool.false_eq_true, if_false, if_true, List.headD_cons, line, indented,
        List.map_map, List.flatMap_def]
      simp [ascii, Function.comp_def]

/-- Nothing is printed when nothing is shown: whenever it exits with another status, or crashes. -/
theorem C169_silent {clip m i ow : Bool} {args : List Bytes} {path : Bytes} {w : World}
    (h : ∀ w', main C J P ord fuel { clip := clip, withMeta := m, interactive := i, overwrite := ow } args path w ≠ some (.ok (0, w'))) :
    mainText C J ord e fuel { clip := clip, withMeta := m, interactive := i, overwrite := ow } args path w = [] := by
  unfold main at h
  unfold mainText
  change ∀ w', runCmd C J ord fuel .show _ _ path w ≠ _ at h
  change runText C J ord e fuel .show _ _ path w = _
  unfold runCmd at h
  unfold runText
  split
  · rfl
  · rename_i hargs
    rw [if_neg hargs] at h
    split
    · rename_i ps v hload
      rw [hload] at h
      simp only [cmdText, showText]
      simp only [Cmd.run, showSecret, Cmd.shouldWrite] at h
      split
      · rfl
      · rename_i hh
        rw [if_neg hh] at h
        split
        · rfl
        · rename_i r hr
          rw [hr] at h
          exact absurd rfl (h v)
    · rfl

/-- The secret of the example. -/
example (he : ∀ md : Map Bytes, md.Finite → md.Enumerates (e.metaOrder md)) : ∃ b,
    mainText C J ord e fuel {} [[97]] [102] (exWorld b [some [112, 119]]) = ascii "Secret: " ++ [1, 2, 3] ++ ascii "\n" ∧
    mainText C J ord e fuel { clip := true } [[97]] [102] (exWorld b [some [112, 119]]) = [1, 2, 3] ∧
    mainText C J ord e fuel {} [[98]] [102] (exWorld b [some [112, 119]]) = [] := by
  obtain ⟨b, hb⟩ := exFile C J 0 (Or.inl rfl)
  have ho : Opens C J (exWorld b [some [112, 119]]).fs [102] [112, 119] 0 (exStore [1, 2, 3] 7) := ⟨b, by simp [exWorld], hb⟩
  have h1 := C169_shown C J Pem.toy ord e fuel (clip := false) (m := false) (i := false) (ow := false) (l := [97]) (more := []) (path := [102]) (by decide)
    (rest := []) rfl ho (exStore_lookup _ _) he
  have h2 := C169_shown C J Pem.toy ord e fuel (clip := true) (m := false) (i := false) (ow := false) (l := [97]) (more := []) (path := [102]) (by decide)
    (rest := []) rfl ho (exStore_lookup _ _) he
  refine ⟨b, h1.2.2.1 rfl rfl, h2.2.1 rfl, ?_⟩
  rw [text_of C J ord e fuel (f := {}) (c := .show) (args := [[98]]) rfl (by decide) (by decide) rfl ho]
  simp [cmdText, showText, exMap_other (k := [98]) (by decide)]

/-! ### C170: what is not printed -/

theorem cmdText_alike {mode : Int} (ho : ByKeys ord) (he : ByKeys e.metaOrder) {v v' : World} (hw : Alike C J mode v v') {s s' : SecretStore}
    (h : face s = face s') (ht : s.timestamp = s'.timestamp) {c : Cmd} (hc : c ≠ .show) (cfg : Config) :
    cmdText C J ord e fuel c v s cfg mode = cmdText C J ord e fuel c v' s' cfg mode := by
  unfold cmdText
  cases c with
  | «show» => exact absurd rfl hc
  | store => exact addText_face hw.1 h _ _
  | list =>
    dsimp only
    unfold listText
    rw [ht, ho _ _ (face_keys h)]
  | passwd => rfl
  | remove => exact removeText_face e he hw.1 h _ _ _
  | multi =>
    dsimp only
    unfold multiText
    rw [hw.1, multiLoopText_face _ _ _ _ s s' (Nat.le_refl _) h]
  | merge => exact mergeText_alike C J ord ho hw h _

theorem action_show {f : Flags} (hf : (f.init || f.passwd || f.store || f.remove || f.list || f.multi || f.merge || f.export || f.import) = true) :
    f.action ≠ .cmd .show := by
  unfold Flags.action
  repeat' split
  all_goals simp_all

theorem quiet_of {f : Flags} {args : List Bytes} {path : Bytes} {w w' : World}
    (hf : (f.init || f.passwd || f.store || f.remove || f.list || f.multi || f.merge || f.export || f.import) = true)
    (ho : ByKeys ord) (he : ByKeys e.metaOrder) (hi : initText w = initText w')
    (hl : (∃ s s' v v', loadStore C J w path f.mode = .ok (some s, v) ∧ loadStore C J w' path f.mode = .ok (some s', v') ∧ face s = face s' ∧
      s.timestamp = s'.timestamp ∧ Alike C J f.mode v v') ∨
    ((∀ s v, loadStore C J w path f.mode ≠ .ok (some s, v)) ∧ ∀ s v, loadStore C J w' path f.mode ≠ .ok (some s, v))) :
    mainText C J ord e fuel f args path w = mainText C J ord e fuel f args path w' := by
  unfold mainText
  cases hact : f.action with
  | init => exact hi
  | doExport => rfl
  | doImport => rfl
  | cmd c =>
    dsimp only
    unfold runText
    split
    · rfl
    · rcases hl with ⟨s, s', v, v', h1, h2, h3, h4, h5⟩ | ⟨h1, h2⟩
      · rw [h1, h2]
        exact cmdText_alike C J ord e fuel ho he h5 h3 h4 (fun hc => action_show hf (by rw [hact, hc])) _
      · split
        · rename_i x; exact absurd x (h1 _ _)
        · first
            | rfl
            | (split
               · rename_i x; exact absurd x (h2 _ _)
               · rfl)

/-- No command but showing an entry prints anything that depends on a secret or on the value of metadata in a
store: two runs with the same input print the same, if the files differ only in these. -/
theorem C170_quiet {f : Flags} {args : List Bytes} {path : Bytes} {w w' : World}
    (hf : (f.init || f.passwd || f.store || f.remove || f.list || f.multi || f.merge || f.export || f.import) = true)
    (ho : ByKeys ord) (he : ByKeys e.metaOrder) (hw : Alike C J f.mode w w') :
    mainText C J ord e fuel f args path w = mainText C J ord e fuel f args path w' :=
  quiet_of C J ord e fuel hf ho he (by simp only [initText, hw.1]) (load_alike C J hw path)

/-- Nor does it depend on the passphrase of the store. -/
theorem C170_passphrase {f : Flags} {args : List Bytes} {path : Bytes} {w w' : World}
    (hf : (f.init || f.passwd || f.store || f.remove || f.list || f.multi || f.merge || f.export || f.import) = true)
    (ho : ByKeys ord) (he : ByKeys e.metaOrder) (hw : Twins C J f.mode path w w') :
    mainText C J ord e fuel f args path w = mainText C J ord e fuel f args path w' := by
  refine quiet_of C J ord e fuel hf ho he ?_ (load_twins C J hw)
  obtain ⟨p, p', rest, h1, h2, h3, -⟩ := hw
  unfold initText Term.read
  simp only [h1, h2, List.length_eq_zero_iff]
  by_cases hp : p = []
  · rw [if_pos hp, if_pos (h3.mp hp)]
  · rw [if_neg hp, if_neg (fun h => hp (h3.mpr h))]

/-- What is printed when an entry is shown depends on this entry only. -/
theorem C170_show {clip m i ow : Bool} {l path pass pass' : Bytes} {more : List Bytes} {w w' : World} {s s' : SecretStore} {rest rest' : List (Option Bytes)}
    (hd : path ≠ dash) (ha : w.term.answers = some pass :: rest) (ha' : w'.term.answers = some pass' :: rest')
    (ho : Opens C J w.fs path pass (if i then 1 else 0) s) (ho' : Opens C J w'.fs path pass' (if i then 1 else 0) s')
    (hl : lookup s l = lookup s' l) :
    mainText C J ord e fuel { clip := clip, withMeta := m, interactive := i, overwrite := ow } (l :: more) path w =
    mainText C J ord e fuel { clip := clip, withMeta := m, interactive := i, overwrite := ow } (l :: more) path w' := by
  rw [text_of C J ord e fuel (f := { clip := clip, withMeta := m, interactive := i, overwrite := ow }) (c := .show) (args := l :: more) rfl
      (by simp [Cmd.requiredArgc]) hd ha ho,
    text_of C J ord e fuel (f := { clip := clip, withMeta := m, interactive := i, overwrite := ow }) (c := .show) (args := l :: more) rfl
      (by simp [Cmd.requiredArgc]) hd ha' ho']
  simp only [cmdText, showText, List.headD_cons]
  cases h1 : lookup s l with
  | some r =>
    have h2 := hl ▸ h1
    simp [has_of_lookup h1, has_of_lookup h2, fetch_eq.mpr h1, fetch_eq.mpr h2]
  | none =>
    have h2 := hl ▸ h1
    have key : ∀ t : SecretStore, lookup t l = none → fetch t l = .panic := by
      intro t ht
      cases hf : fetch t l with
      | panic => rfl
      | ok r => rw [fetch_eq.mp hf] at ht; simp at ht
    simp [key s h1, key s' h2]

/-- Worlds that differ in the secret of an entry are alike. -/
theorem exAlike {b b' : Bytes} (hb : unmarshalSecretStore C J b [112, 119] 0 = .ok (some (exStore [1, 2, 3] 7)))
    (hb' : unmarshalSecretStore C J b' [112, 119] 0 = .ok (some (exStore [4, 5] 7))) :
    Alike C J 0 (exWorld b [some [112, 119]]) (exWorld b' [some [112, 119]]) := by
  refine ⟨rfl, ?_, ?_⟩
  · intro q
    by_cases hq : q = [102] <;> simp [exWorld, Fs.set, hq]
  · intro q p hp
    have hp' : p = [112, 119] := by simpa [exWorld] using hp
    subst hp'
    by_cases hq : q = [102]
    · subst hq
      simp only [World.readFile, exWorld, Fs.set_same, show ([102] : Bytes) ≠ dash by decide, if_false, Option.map_some, hb, hb', seen,
        Option.some.injEq, Prod.mk.injEq]
      refine ⟨rfl, congrArg some ?_⟩
      funext k
      by_cases hk : k = [97]
      · subst hk; simp [exRecord, recordFace]
      · dsimp only
        rw [Map.set_other _ _ hk, Map.set_other _ _ hk]
    · by_cases hq2 : q = dash
      · simp [World.readFile, hq2, exWorld]
      · simp [World.readFile, hq2, exWorld, Fs.set_other _ _ hq]

/-- Listing prints the same for both; showing the entry does not. -/
example (ho : ByKeys ord) (he : ByKeys e.metaOrder) (hn : ∀ md : Map Bytes, md.Finite → md.Enumerates (e.metaOrder md)) :
    ∃ b b', mainText C J ord e fuel { list := true } [] [102] (exWorld b [some [112, 119]]) =
      mainText C J ord e fuel { list := true } [] [102] (exWorld b' [some [112, 119]]) ∧
    mainText C J ord e fuel {} [[97]] [102] (exWorld b [some [112, 119]]) ≠ mainText C J ord e fuel {} [[97]] [102] (exWorld b' [some [112, 119]]) := by
  obtain ⟨b, hb⟩ := exFile C J 0 (Or.inl rfl)
  obtain ⟨b', hb'⟩ := file_exists C J (Or.inl rfl) (exStore_valid [4, 5] 7) rfl (exStore_finite _ _) (exStore_clean _ _)
  refine ⟨b, b', C170_quiet C J ord e fuel (f := { list := true }) rfl ho he (exAlike C J hb hb'), ?_⟩
  rw [(C169_shown C J Pem.toy ord e fuel (clip := false) (m := false) (i := false) (ow := false) (l := [97]) (more := []) (path := [102]) (by decide)
    (rest := []) rfl (s := exStore [1, 2, 3] 7) ⟨b, by simp [exWorld], hb⟩ (exStore_lookup _ _) hn).2.2.1 rfl rfl,
    (C169_shown C J Pem.toy ord e fuel (clip := false) (m := false) (i := false) (ow := false) (l := [97]) (more := []) (path := [102]) (by decide)
    (rest := []) rfl (s := exStore [4, 5] 7) ⟨b', by simp [exWorld], hb'⟩ (exStore_lookup _ _) hn).2.2.1 rfl rfl]
  simp [line, exRecord]

/-- Two stores with different secrets and different passphrases. -/
example (ho : ByKeys ord) (he : ByKeys e.metaOrder) : ∃ b b',
    Twins C J 0 [102] (exWorld b [some [112, 119]]) (exWorld b' [some [113]]) ∧
    mainText C J ord e fuel { list := true } [] [102] (exWorld b [some [112, 119]]) = mainText C J ord e fuel { list := true } [] [102] (exWorld b' [some [113]]) := by
  obtain ⟨b, hb⟩ := exFile C J 0 (Or.inl rfl)
  obtain ⟨b', hb'⟩ := file_exists C J (s := { exStore [4, 5] 7 with passphrase := some [113] }) (p := [113]) (mode := 0) (Or.inl rfl)
    ((valid_iff _).mpr ⟨rfl, by simp [exStore], ⟨_, rfl⟩, _, rfl⟩) rfl (exStore_finite [4, 5] 7) (exStore_clean [4, 5] 7)
  have hw : Twins C J 0 [102] (exWorld b [some [112, 119]]) (exWorld b' [some [113]]) := by
    refine ⟨_, _, [], rfl, rfl, by simp, rfl, ?_, ?_, by simp⟩
    · intro q
      by_cases hq : q = [102] <;> simp [exWorld, Fs.set, hq]
    · simp only [World.readFile, exWorld, Fs.set_same, show ([102] : Bytes) ≠ dash by decide, if_false, Option.map_some, hb, hb', seen,
        Option.some.injEq, Prod.mk.injEq]
      refine ⟨rfl, congrArg some ?_⟩
      funext k
      by_cases hk : k = [97]
      · subst hk; simp [exRecord, recordFace]
      · dsimp only
        rw [Map.set_other _ _ hk, Map.set_other _ _ hk]
  exact ⟨b, b', hw, C170_passphrase C J ord e fuel (f := { list := true }) rfl ho he hw⟩

/-- A store with two entries. -/
def twoStore (k1 k2 : Bytes) (r1 r2 : SecretRecord) : SecretStore :=
  { version := 1, timestamp := 5, store := some ((Map.empty.set k1 (some r1)).set k2 (some r2)), passphrase := some [112, 119] }

theorem twoStore_get {k1 k2 q : Bytes} {r1 r2 : SecretRecord} {v : Option SecretRecord}
    (h : (Map.empty.set k1 (some r1)).set k2 (some r2) q = some v) : (q = k2 ∧ v = some r2) ∨ (q = k1 ∧ v = some r1) := by
  by_cases h2 : q = k2
  · subst h2; simp at h; exact Or.inl ⟨rfl, h.symm⟩
  · rw [Map.set_other _ _ h2] at h
    exact Or.inr (exMap_get h)

theorem twoStore_file {k1 k2 : Bytes} {r1 r2 : SecretRecord} (h1 : ValidUtf8 k1) (h2 : ValidUtf8 k2) (l1 : ValidUtf8 r1.label) (l2 : ValidUtf8 r2.label)
    (m1 : ∀ md, r1.metadata = some md → md.Finite ∧ ∀ j x, md j = some x → ValidUtf8 j)
    (m2 : ∀ md, r2.metadata = some md → md.Finite ∧ ∀ j x, md j = some x → ValidUtf8 j) (mode : Int) (hm : mode = 0 ∨ mode = 1) :
    ∃ b, unmarshalSecretStore C J b [112, 119] mode = .ok (some (twoStore k1 k2 r1 r2)) := by
  refine file_exists C J hm ?_ rfl ?_ ?_
  · rw [valid_iff]; exact ⟨rfl, by simp [twoStore], ⟨_, rfl⟩, _, rfl⟩
  · intro m hm
    cases hm
    refine ⟨(Map.finite_empty.set _ _).set _ _, ?_⟩
    intro k r md hk hmd
    rcases twoStore_get hk with ⟨-, h⟩ | ⟨-, h⟩ <;> cases h
    · exact (m2 md hmd).1
    · exact (m1 md hmd).1
  · intro m hm k v hk
    cases hm
    rcases twoStore_get hk with ⟨rfl, rfl⟩ | ⟨rfl, rfl⟩
    · exact ⟨h2, fun r hr => by cases hr; exact ⟨l2, fun md j x hmd hj => (m2 md hmd).2 j x hj⟩⟩
    · exact ⟨h1, fun r hr => by cases hr; exact ⟨l1, fun md j x hmd hj => (m1 md hmd).2 j x hj⟩⟩

/-- A record without metadata. -/
abbrev plain (k s : Bytes) : SecretRecord := ⟨k, 7, s, none⟩

/-- Another secret does not show. -/
example : ∃ b b', mainText C J ord e fuel {} [[97]] [102] (exWorld b [some [112, 119]]) =
      mainText C J ord e fuel {} [[97]] [102] (exWorld b' [some [112, 119]]) := by
  obtain ⟨b, hb⟩ := twoStore_file C J (k1 := [97]) (k2 := [98]) (r1 := plain [97] [1]) (r2 := plain [98] [2]) (by decide) (by decide) (by decide) (by decide)
    (by simp) (by simp) 0 (Or.inl rfl)
  obtain ⟨b', hb'⟩ := twoStore_file C J (k1 := [97]) (k2 := [98]) (r1 := plain [97] [1]) (r2 := plain [98] [3]) (by decide) (by decide) (by decide) (by decide)
    (by simp) (by simp) 0 (Or.inl rfl)
  exact ⟨b, b', C170_show C J ord e fuel (clip := false) (m := false) (i := false) (ow := false) (l := [97]) (more := []) (path := [102]) (by decide)
    (rest := []) (rest' := []) rfl rfl ⟨b, by simp [exWorld], hb⟩ ⟨b', by simp [exWorld], hb'⟩ rfl⟩

/-! ### C171: listing the labels -/

theorem sorted_mem (l : List Bytes) (k : Bytes) : k ∈ sorted l ↔ k ∈ l := (List.mergeSort_perm _ _).mem_iff

theorem sorted_length (l : List Bytes) : (sorted l).length = l.length := (List.mergeSort_perm _ _).length_eq

/-- `secrets -l` prints "no passwords" for an empty store. For any other it prints when the store was last
changed, how many labels there are, and every label once, in ascending order. -/
theorem C171_list_partial {args : List Bytes} {i ow m x : Bool} {path pass : Bytes} {w : World} {s : SecretStore} {rest : List (Option Bytes)}
    (hd : path ≠ dash) (ha : w.term.answers = some pass :: rest) (hop : Opens C J w.fs path pass (if i then 1 else 0) s)
    (ho : ∀ mm : Map (Option SecretRecord), mm.Finite → mm.Enumerates (ord mm)) :
    ∃ names : List Bytes, names.Pairwise (· < ·) ∧ (∀ k, k ∈ names ↔ s.has k = true) ∧
      (names = [] → mainText C J ord e fuel { list := true, interactive := i, overwrite := ow, withMeta := m, clip := x } args path w = ascii "no passwords") ∧
      (names ≠ [] → mainText C J ord e fuel { list := true, interactive := i, overwrite := ow, withMeta := m, clip := x } args path w =
        line (ascii "Secrets store was updated  " ++ e.date s.timestamp) ++ line (decimal names.length ++ ascii " entries") ++ line [] ++
        line (ascii "Names:") ++ indented names) := by
  have hfin : (s.store.getD Map.empty).Finite := by
    obtain ⟨b, -, hu⟩ := hop
    obtain ⟨h1, -, -⟩ := opens_fields C J hu
    cases hm : s.store with
    | none => exact Map.finite_empty
    | some mm => exact (h1 mm hm).1
  obtain ⟨hn, hk⟩ := ho _ hfin
  refine ⟨sorted (ord (s.store.getD Map.empty)), sorted_keys _ hn, ?_, ?_, ?_⟩
  · intro k
    rw [sorted_mem, hk]
    cases hm : s.store <;> simp [SecretStore.has, hm, Map.has, Map.empty, Option.isSome_iff_ne_none]
  · intro h
    have h0 : (ord (s.store.getD Map.empty)).length = 0 := by rw [← sorted_length, h]; rfl
    rw [text_of C J ord e fuel (f := { list := true, interactive := i, overwrite := ow, withMeta := m, clip := x }) (c := .list) rfl (by simp [Cmd.requiredArgc]) hd ha hop]
    simp only [cmdText, listText]
    rw [if_pos h0]
  · intro h
    have h0 : ¬ (ord (s.store.getD Map.empty)).length = 0 := by
      rw [← sorted_length]
      intro h1
      exact h (List.length_eq_zero_iff.mp h1)
    rw [text_of C J ord e fuel (f := { list := true, interactive := i, overwrite := ow, withMeta := m, clip := x }) (c := .list) rfl (by simp [Cmd.requiredArgc]) hd ha hop]
    simp only [cmdText, listText]
    rw [if_neg h0, sorted_length, tabbed_eq]
    simp [line, ascii]

/-- Lines tell themselves apart. -/
theorem line_inj {a b x y : Bytes} (ha : (10 : UInt8) ∉ a) (hb : (10 : UInt8) ∉ b) (h : line a ++ x = line b ++ y) : a = b ∧ x = y := by
  induction a generalizing b with
  | nil =>
    cases b with
    | nil => exact ⟨rfl, by simpa [line] using h⟩
    | cons c b =>
      have h1 : (10 : UInt8) = c := (List.cons.inj h).1
      exact absurd (by simp [h1]) hb
  | cons c a ih =>
    cases b with
    | nil =>
      have h1 : c = (10 : UInt8) := (List.cons.inj h).1
      exact absurd (by simp [h1]) ha
    | cons d b =>
      obtain ⟨h1, h2⟩ := List.cons.inj h
      obtain ⟨h3, h4⟩ := ih (fun hh => ha (List.mem_cons_of_mem _ hh)) (b := b) (fun hh => hb (List.mem_cons_of_mem _ hh)) h2
      have h1' : c = d := h1
      exact ⟨by rw [h1', h3], h4⟩

theorem indented_inj {l l' : List Bytes} (hl : ∀ k ∈ l, (10 : UInt8) ∉ k) (hl' : ∀ k ∈ l', (10 : UInt8) ∉ k) (h : indented l = indented l') : l = l' := by
  induction l generalizing l' with
  | nil =>
    cases l' with
    | nil => rfl
    | cons k l' => simp [indented, line, ascii] at h
  | cons a l ih =>
    cases l' with
    | nil => simp [indented, line, ascii] at h
    | cons b l' =>
      have h' : line (ascii "\t" ++ a) ++ indented l = line (ascii "\t" ++ b) ++ indented l' := h
      have ha := hl a (by simp)
      have hb := hl' b (by simp)
      obtain ⟨h1, h2⟩ := line_inj (by simpa [ascii] using ha) (by simpa [ascii] using hb) h'
      rw [List.append_cancel_left h1, ih (fun k hk => hl k (List.mem_cons_of_mem _ hk)) (fun k hk => hl' k (List.mem_cons_of_mem _ hk)) h2]

theorem decimal_line (n : Nat) : (10 : UInt8) ∉ decimal n := by
  intro h
  have := decimalF_digits _ _ _ h
  simp at this

/-- If two lists are printed the same, the labels are the same, provided that there is no newline in a
label. -/
theorem C171_apart_partial {args : List Bytes} {i : Bool} {path pass : Bytes} {w w' : World} {s s' : SecretStore} {rest rest' : List (Option Bytes)}
    (hd : path ≠ dash) (ha : w.term.answers = some pass :: rest) (hop : Opens C J w.fs path pass (if i then 1 else 0) s)
    (ha' : w'.term.answers = some pass :: rest') (hop' : Opens C J w'.fs path pass (if i then 1 else 0) s')
    (ho : ∀ mm : Map (Option SecretRecord), mm.Finite → mm.Enumerates (ord mm)) (hdate : ∀ t, (10 : UInt8) ∉ e.date t)
    (hs : ∀ k, s.has k = true → (10 : UInt8) ∉ k) (hs' : ∀ k, s'.has k = true → (10 : UInt8) ∉ k)
    (h : mainText C J ord e fuel { list := true, interactive := i } args path w = mainText C J ord e fuel { list := true, interactive := i } args path w') :
    ∀ k, s.has k = s'.has k := by
  obtain ⟨n, -, h2, h3, h4⟩ := C171_list_partial C J ord e fuel (args := args) (ow := false) (m := false) (x := false) hd ha hop ho
  obtain ⟨n', -, h2', h3', h4'⟩ := C171_list_partial C J ord e fuel (args := args) (ow := false) (m := false) (x := false) hd ha' hop' ho
  have hn : n = n' := by
    by_cases e1 : n = [] <;> by_cases e2 : n' = []
    · rw [e1, e2]
    · rw [h3 e1, h4' e2] at h
      exact absurd (List.cons.inj h).1 (by decide)
    · rw [h4 e1, h3' e2] at h
      exact absurd (List.cons.inj h).1 (by decide)
    · rw [h4 e1, h4' e2] at h
      simp only [List.append_assoc] at h
      obtain ⟨-, h⟩ := line_inj (by simpa using ⟨by decide, hdate _⟩) (by simpa using ⟨by decide, hdate _⟩) h
      obtain ⟨-, h⟩ := line_inj (by simpa using ⟨decimal_line _, by decide⟩) (by simpa using ⟨decimal_line _, by decide⟩) h
      obtain ⟨-, h⟩ := line_inj (by simp) (by simp) h
      obtain ⟨-, h⟩ := line_inj (by decide) (by decide) h
      exact indented_inj (fun k hk => hs k ((h2 k).mp hk)) (fun k hk => hs' k ((h2' k).mp hk)) h
  intro k
  have := (h2 k).symm.trans ((hn ▸ Iff.rfl : k ∈ n ↔ k ∈ n').trans (h2' k))
  cases h5 : s.has k <;> cases h6 : s'.has k <;> simp_all

/-- A strictly ascending list is given by its members. -/
theorem ascending_ext {l l' : List Bytes} (h : l.Pairwise (· < ·)) (h' : l'.Pairwise (· < ·)) (hm : ∀ k, k ∈ l ↔ k ∈ l') : l = l' := by
  induction l generalizing l' with
  | nil =>
    cases l' with
    | nil => rfl
    | cons b l' => exact absurd ((hm b).mpr (by simp)) (by simp)
  | cons a l ih =>
    cases l' with
    | nil => exact absurd ((hm a).mp (by simp)) (by simp)
    | cons b l' =>
      obtain ⟨h1, h2⟩ := List.pairwise_cons.mp h
      obtain ⟨h1', h2'⟩ := List.pairwise_cons.mp h'
      have hab : a = b := by
        refine Decidable.byContradiction fun hne => ?_
        have x1 : a ∈ l' := (List.mem_cons.mp ((hm a).mp (by simp))).resolve_left hne
        have x2 : b ∈ l := (List.mem_cons.mp ((hm b).mpr (by simp))).resolve_left (Ne.symm hne)
        exact List.lt_irrefl (α := UInt8) a (List.lt_trans (h1 b x2) (h1' a x1))
      subst hab
      refine congrArg _ (ih h2 h2' fun k => ?_)
      have hk := hm k
      simp only [List.mem_cons] at hk
      constructor
      · intro x
        rcases hk.mp (Or.inr x) with rfl | y
        · exact absurd (h1 _ x) (List.lt_irrefl (α := UInt8) _)
        · exact y
      · intro x
        rcases hk.mpr (Or.inr x) with rfl | y
        · exact absurd (h1' _ x) (List.lt_irrefl (α := UInt8) _)
        · exact y

theorem twoStore_has (k1 k2 : Bytes) (r1 r2 : SecretRecord) (k : Bytes) : (twoStore k1 k2 r1 r2).has k = true ↔ k ∈ [k1, k2] := by
  simp only [SecretStore.has, twoStore, Map.has, List.mem_cons, List.not_mem_nil, or_false]
  by_cases h2 : k = k2
  · simp [h2]
  · rw [Map.set_other _ _ h2]
    by_cases h1 : k = k1
    · simp [h1]
    · simp [Map.set_other _ _ h1, h1, h2, Map.empty]

theorem twoStore_list {k1 k2 : Bytes} {r1 r2 : SecretRecord} {b : Bytes} (hb : unmarshalSecretStore C J b [112, 119] 0 = .ok (some (twoStore k1 k2 r1 r2)))
    (hk : k1 < k2) (ho : ∀ mm : Map (Option SecretRecord), mm.Finite → mm.Enumerates (ord mm)) :
    mainText C J ord e fuel { list := true } [] [102] (exWorld b [some [112, 119]]) =
      line (ascii "Secrets store was updated  " ++ e.date 5) ++ line (ascii "2 entries") ++ line [] ++ line (ascii "Names:") ++ indented [k1, k2] := by
  obtain ⟨n, h1, h2, -, h4⟩ := C171_list_partial C J ord e fuel (args := []) (i := false) (ow := false) (m := false) (x := false) (path := [102])
    (w := exWorld b [some [112, 119]]) (s := twoStore k1 k2 r1 r2) (rest := []) (by decide) rfl ⟨b, by simp [exWorld], hb⟩ ho
  have hn : n = [k1, k2] := ascending_ext h1 (by simpa using hk) (fun k => (h2 k).trans (twoStore_has _ _ _ _ _))
  subst hn
  rw [h4 (by simp)]
  have : decimal ([k1, k2] : List Bytes).length ++ ascii " entries" = ascii "2 entries" := rfl
  rw [this]
  rfl

/-- The list for the labels "a" and "b". -/
example (ho : ∀ mm : Map (Option SecretRecord), mm.Finite → mm.Enumerates (ord mm)) : ∃ b,
    mainText C J ord e fuel { list := true } [] [102] (exWorld b [some [112, 119]]) =
      ascii "Secrets store was updated  " ++ e.date 5 ++ ascii "\n2 entries\n\nNames:\n\ta\n\tb\n" := by
  obtain ⟨b, hb⟩ := twoStore_file C J (k1 := [97]) (k2 := [98]) (r1 := plain [97] [1]) (r2 := plain [98] [2]) (by decide) (by decide) (by decide) (by decide)
    (by simp) (by simp) 0 (Or.inl rfl)
  refine ⟨b, ?_⟩
  rw [twoStore_list C J ord e fuel hb (by decide) ho]
  simp only [line, List.append_assoc]
  rfl

/-- With newlines in labels, the lists of different stores can be the same: the store with the labels "a" and
"b\n\tc" is listed as the store with the labels "a\n\tb" and "c". -/
theorem C171_violated (ho : ∀ mm : Map (Option SecretRecord), mm.Finite → mm.Enumerates (ord mm)) :
    ∃ b b' s s', Opens C J (exWorld b [some [112, 119]]).fs [102] [112, 119] 0 s ∧ Opens C J (exWorld b' [some [112, 119]]).fs [102] [112, 119] 0 s' ∧
      s.has (ascii "a") = true ∧ s'.has (ascii "a") = false ∧
      mainText C J ord e fuel { list := true } [] [102] (exWorld b [some [112, 119]]) =
        mainText C J ord e fuel { list := true } [] [102] (exWorld b' [some [112, 119]]) := by
  obtain ⟨b, hb⟩ := twoStore_file C J (k1 := ascii "a") (k2 := ascii "b\n\tc") (r1 := plain [97] [1]) (r2 := plain [98] [2]) (by decide) (by decide) (by decide) (by decide)
    (by simp) (by simp) 0 (Or.inl rfl)
  obtain ⟨b', hb'⟩ := twoStore_file C J (k1 := ascii "a\n\tb") (k2 := ascii "c") (r1 := plain [97] [1]) (r2 := plain [98] [2]) (by decide) (by decide) (by decide) (by decide)
    (by simp) (by simp) 0 (Or.inl rfl)
  refine ⟨b, b', _, _, ⟨b, by simp [exWorld], hb⟩, ⟨b', by simp [exWorld], hb'⟩, ?_, ?_, ?_⟩
  · rw [twoStore_has]; decide
  · have := (twoStore_has (ascii "a\n\tb") (ascii "c") (plain [97] [1]) (plain [98] [2]) (ascii "a")).not.mpr (by decide)
    simpa using this
  · rw [twoStore_list C J ord e fuel hb (by decide) ho, twoStore_list C J ord e fuel hb' (by decide) ho]
    congr 1

/-! ### C172: what a merge reports -/

/-- The entry is taken over: it is not there yet or older. -/
def Takes (s o : SecretStore) (k : Bytes) : Prop :=
  ∃ r, lookup o k = some r ∧ ∀ r', lookup s k = some r' → r'.timestamp.toInt < r.timestamp.toInt

theorem taken_filter {s o : SecretStore} (hlab : Labelled o) :
    ∃ p : Bytes → Bool, (∀ k, p k = true ↔ Takes s o k) ∧ ∀ l, taken s o l = l.filter p := by
  classical
  refine ⟨fun k => decide (Takes s o k), by simp, fun l => ?_⟩
  induction l with
  | nil => rfl
  | cons k l ih =>
    have h1 : taken s o (k :: l) = taken s o [k] ++ taken s o l := List.filterMap_append (l := [k])
    have key : taken s o [k] = if Takes s o k then [k] else [] := by
      cases hx : lookup o k with
      | none => simp [taken, Takes, hx]
      | some rb =>
        have hl := hlab k rb hx
        cases hy : lookup s k with
        | none => simp [taken, Takes, hx, hy, hl]
        | some ra => by_cases h3 : rb.timestamp.toInt ≤ ra.timestamp.toInt <;> simp [taken, Takes, hx, hy, h3, hl]
    rw [h1, key, ih, List.filter_cons]
    by_cases hT : Takes s o k <;> simp [hT]

/-- `secrets -merge file` prints the labels of the entries taken over, on one line and then each on its own
line, in ascending order, if every record of the other store carries the label it is stored under. -/
theorem C172_merge_partial {args : List Bytes} {i ow m x : Bool} {path q pass pass2 : Bytes} {w : World} {s o : SecretStore} {rest : List (Option Bytes)}
    (hd : path ≠ dash) (hq : q ≠ dash) (ha : w.term.answers = some pass :: some pass2 :: rest)
    (hop : Opens C J w.fs path pass (if i then 1 else 0) s) (hop2 : Opens C J w.fs q pass2 (if i then 1 else 0) o)
    (ns : NoNil s) (no : NoNil o) (hs : s.store ≠ none) (ho' : o.store ≠ none) (hlab : Labelled o)
    (ho : ∀ mm : Map (Option SecretRecord), mm.Finite → mm.Enumerates (ord mm)) :
    ∃ l names : List Bytes, l.Perm names ∧ names.Pairwise (· < ·) ∧ (∀ k, k ∈ names ↔ Takes s o k) ∧
      mainText C J ord e fuel { merge := true, interactive := i, overwrite := ow, withMeta := m, clip := x } (q :: args) path w =
        line (ascii "[" ++ List.intercalate (ascii " ") l ++ ascii "]") ++ (names.map (fun k => line (ascii "Merged '" ++ k ++ ascii "'"))).flatten := by
  obtain ⟨a, hs⟩ := Option.ne_none_iff_exists'.mp hs
  obtain ⟨c, ho'⟩ := Option.ne_none_iff_exists'.mp ho'
  obtain ⟨b2, hb2, hu2⟩ := hop2
  have hfin : c.Finite := ((opens_fields C J hu2).1 c ho').1
  have hen := ho c hfin
  have hmg := merge_spec hs ho' ns no hen
  obtain ⟨p, hp, htl⟩ := taken_filter hlab (s := s)
  replace htl := htl (ord c)
  have hnd : (taken s o (ord c)).Nodup := by rw [htl]; exact hen.1.filter _
  refine ⟨taken s o (ord c), sorted (taken s o (ord c)), (List.mergeSort_perm _ _).symm, sorted_keys _ hnd, ?_, ?_⟩
  · intro k
    rw [sorted_mem, htl, List.mem_filter, hp]
    constructor
    · exact fun h => h.2
    · intro h
      refine ⟨(hen.2 k).mpr ?_, h⟩
      obtain ⟨r, hr, -⟩ := h
      obtain ⟨mm, e1, e2⟩ := lookup_get hr
      rw [ho'] at e1
      cases e1
      rw [e2]
      simp
  · rw [text_of C J ord e fuel (f := { merge := true, interactive := i, overwrite := ow, withMeta := m, clip := x }) (c := .merge) rfl (by simp [Cmd.requiredArgc]) hd ha hop]
    have hr : ({ w with term := { w.term with answers := rest } } : World).readFile q = some b2 := by simp [World.readFile, hq, hb2]
    have hu2' : unmarshalSecretStore C J b2 pass2 ({ merge := true, interactive := i, overwrite := ow, withMeta := m, clip := x } : Flags).mode = .ok (some o) := hu2
    simp only [cmdText, mergeText, Term.read, List.headD_cons, hr, hu2', ho', Option.getD_some, hmg, mergedText, List.flatMap_def]
    simp [line, ascii, listed]

/-- A record stored by `secretscli` carries no label; its merge is reported with an empty name, although the
entry "b" was taken over. -/
theorem C172_violated (ho : ∀ mm : Map (Option SecretRecord), mm.Finite → mm.Enumerates (ord mm)) :
    ∃ w s o, Opens C J w.fs [102] [112, 119] 0 s ∧ Opens C J w.fs [103] [112, 119] 0 o ∧
      (∀ k, Takes s o k ↔ k = ascii "b") ∧ mainText C J ord e fuel { merge := true } [[103]] [102] w = ascii "[]\nMerged ''\n" := by
  obtain ⟨b, hb⟩ := exFile C J 0 (Or.inl rfl)
  obtain ⟨b', hb'⟩ := twoStore_file C J (k1 := [97]) (k2 := [98]) (r1 := plain [97] [1]) (r2 := plain [] [2]) (by decide) (by decide) (by decide) (by decide)
    (by simp) (by simp) 0 (Or.inl rfl)
  let w : World := { exWorld b [some [112, 119], some [112, 119]] with fs := (exWorld b []).fs.set [103] b' }
  have h1 : Opens C J w.fs [102] [112, 119] 0 (exStore [1, 2, 3] 7) := ⟨b, by simp [w, exWorld, Fs.set_other], hb⟩
  have h2 : Opens C J w.fs [103] [112, 119] 0 (twoStore [97] [98] (plain [97] [1]) (plain [] [2])) := ⟨b', by simp [w], hb'⟩
  refine ⟨w, _, _, h1, h2, ?_, ?_⟩
  · intro k
    unfold Takes
    constructor
    · rintro ⟨r, hr, ht⟩
      obtain ⟨mm, e1, e2⟩ := lookup_get hr
      cases e1
      rcases twoStore_get e2 with ⟨rfl, -⟩ | ⟨rfl, h⟩
      · rfl
      · cases h
        exact absurd (ht _ (exStore_lookup _ _)) (by decide)
    · rintro rfl
      refine ⟨plain [] [2], rfl, ?_⟩
      intro r' hr'
      exact absurd (has_of_lookup hr') (by rw [exMap_other (by decide)]; simp)
  · rw [text_of C J ord e fuel (f := { merge := true }) (c := .merge) (args := [[103]]) rfl (by decide) (by decide) (rest := [some [112, 119]]) rfl h1]
    have hen := ho ((Map.empty.set [97] (some (plain [97] [1]))).set [98] (some (plain [] [2]))) ((Map.finite_empty.set _ _).set _ _)
    have hmg := merge_spec (s := exStore [1, 2, 3] 7) (o := twoStore [97] [98] (plain [97] [1]) (plain [] [2])) rfl rfl (exStore_noNil _ _)
      (by intro mm k hm hk; cases hm; rcases twoStore_get hk with ⟨-, h⟩ | ⟨-, h⟩ <;> cases h) hen
    have htl : ∀ l : List Bytes, l.Nodup → (∀ k, k ∈ l ↔ k ∈ [[97], [98]]) → taken (exStore [1, 2, 3] 7) (twoStore [97] [98] (plain [97] [1]) (plain [] [2])) l = [[]] := by
      intro l hl hm
      have hperm : l.Perm [[97], [98]] := (List.perm_ext_iff_of_nodup hl (by decide)).mpr hm
      have h3 := hperm.filterMap (fun k => (lookup (twoStore [97] [98] (plain [97] [1]) (plain [] [2])) k).bind (fun rb =>
        match lookup (exStore [1, 2, 3] 7) k with
        | none => some rb.label
        | some ra => if rb.timestamp.toInt ≤ ra.timestamp.toInt then none else some rb.label))
      exact List.perm_singleton.mp h3
    have hr : ({ w with term := { w.term with answers := [] } } : World).readFile [103] = some b' := by
      simp [World.readFile, w]
    have ht := htl _ hen.1 (fun k => (hen.2 k).trans (by
      rw [← twoStore_has [97] [98] (plain [97] [1]) (plain [] [2]), has_get (m := (Map.empty.set [97] (some (plain [97] [1]))).set [98] (some (plain [] [2]))) rfl]))
    have hu : unmarshalSecretStore C J b' [112, 119] ({ merge := true } : Flags).mode = .ok (some (twoStore [97] [98] (plain [97] [1]) (plain [] [2]))) := hb'
    have hst : (twoStore [97] [98] (plain [97] [1]) (plain [] [2])).store.getD Map.empty = (Map.empty.set [97] (some (plain [97] [1]))).set [98] (some (plain [] [2])) := rfl
    simp only [cmdText, mergeText, Term.read, List.headD_cons, hr, hu, hst, hmg, ht, mergedText]
    simp [sorted, listed, ascii]

/-- One label is taken over and named. -/
example (ho : ∀ mm : Map (Option SecretRecord), mm.Finite → mm.Enumerates (ord mm)) :
    ∃ w, mainText C J ord e fuel { merge := true } [[103]] [102] w = ascii "[b]\nMerged 'b'\n" := by
  obtain ⟨b, hb⟩ := exFile C J 0 (Or.inl rfl)
  obtain ⟨b', hb'⟩ := twoStore_file C J (k1 := [97]) (k2 := [98]) (r1 := plain [97] [1]) (r2 := plain [98] [2]) (by decide) (by decide) (by decide) (by decide)
    (by simp) (by simp) 0 (Or.inl rfl)
  let w : World := { exWorld b [some [112, 119], some [112, 119]] with fs := (exWorld b []).fs.set [103] b' }
  have h1 : Opens C J w.fs [102] [112, 119] 0 (exStore [1, 2, 3] 7) := ⟨b, by simp [w, exWorld, Fs.set_other], hb⟩
  have h2 : Opens C J w.fs [103] [112, 119] 0 (twoStore [97] [98] (plain [97] [1]) (plain [98] [2])) := ⟨b', by simp [w], hb'⟩
  obtain ⟨l, n, k1, k2, k3, k4⟩ := C172_merge_partial C J ord e fuel (args := []) (i := false) (ow := false) (m := false) (x := false) (by decide) (by decide) (rest := []) rfl h1 h2
    (exStore_noNil _ _) (by intro mm k hm hk; cases hm; rcases twoStore_get hk with ⟨-, h⟩ | ⟨-, h⟩ <;> cases h) (by simp [exStore]) (by simp [twoStore])
    (by
      intro k r hr
      obtain ⟨mm, e1, e2⟩ := lookup_get hr
      cases e1
      rcases twoStore_get e2 with ⟨rfl, h⟩ | ⟨rfl, h⟩ <;> cases h <;> rfl) ho
  have hn : n = [[98]] := ascending_ext k2 (by simp) (fun k => (k3 k).trans (by
    unfold Takes
    constructor
    · rintro ⟨r, hr, ht⟩
      obtain ⟨mm, e1, e2⟩ := lookup_get hr
      cases e1
      rcases twoStore_get e2 with ⟨rfl, -⟩ | ⟨rfl, h⟩
      · simp
      · cases h
        exact absurd (ht _ (exStore_lookup _ _)) (by decide)
    · intro hk
      obtain rfl : k = [98] := by simpa using hk
      refine ⟨plain [98] [2], rfl, ?_⟩
      intro r' hr'
      exact absurd (has_of_lookup hr') (by rw [exMap_other (by decide)]; simp)))
  subst hn
  rw [List.perm_singleton.mp k1] at k4
  exact ⟨w, k4⟩

/-! ### C173: what is reported as removed -/

/-- If `secrets -r label` exits with status 0, it has said that the label was removed, the label was in the
store and no longer is. -/
theorem C173_removed_partial {f : Flags} {args : List Bytes} {path : Bytes} {w w' : World} (hd : path ≠ dash)
    (hf : f.action = .cmd .remove) (hm : f.withMeta = false) (h : main C J P ord fuel f args path w = some (.ok (0, w'))) :
    mainText C J ord e fuel f args path w = line (ascii "Removed  " ++ args.headD []) ∧
    ∃ pass s s', w.term.answers.head? = some (some pass) ∧ Opens C J w.fs path pass f.mode s ∧ Opens C J w'.fs path pass f.mode s' ∧
      s.has (args.headD []) = true ∧ s'.has (args.headD []) = false := by
  obtain ⟨pass, s, s', h1, h2, h3, h4, h5, -⟩ := C95_remove C J P ord fuel f args path w w' hd hf hm h
  refine ⟨?_, pass, s, s', h1, h2, h3, h4, h5⟩
  have hargs : Cmd.remove.requiredArgc ≤ args.length := by
    unfold main at h
    rw [hf] at h
    exact (runCmd_zero C J hd h).1
  obtain ⟨rest, ha⟩ : ∃ rest, w.term.answers = some pass :: rest := by
    cases ha : w.term.answers with
    | nil => simp [ha] at h1
    | cons a as => exact ⟨as, by simpa [ha] using h1⟩
  rw [text_of C J ord e fuel hf hargs hd ha h2]
  rw [List.headD_eq_head?_getD] at h4
  simp [cmdText, removeText, h4, hm, line, ascii]

/-- Of a label that is not in the store it does not say so. -/
theorem C173_absent_partial {f : Flags} {args : List Bytes} {path pass : Bytes} {w : World} {s : SecretStore} {rest : List (Option Bytes)} (hd : path ≠ dash)
    (hf : f.action = .cmd .remove) (hargs : args ≠ []) (ha : w.term.answers = some pass :: rest) (ho : Opens C J w.fs path pass f.mode s)
    (hh : s.has (args.headD []) = false) :
    mainText C J ord e fuel f args path w = [] ∧ ∃ w', main C J P ord fuel f args path w = some (.ok (1, w')) := by
  have hlen : Cmd.remove.requiredArgc ≤ args.length := by
    cases args with
    | nil => exact absurd rfl hargs
    | cons a l => simp [Cmd.requiredArgc]
  rw [List.headD_eq_head?_getD] at hh
  refine ⟨?_, { w with term := { w.term with answers := rest } }, ?_⟩
  · rw [text_of C J ord e fuel hf hlen hd ha ho]
    simp [cmdText, removeText, hh]
  · unfold main
    rw [hf]
    dsimp only
    unfold runCmd
    rw [if_neg (show ¬ args.length < Cmd.remove.requiredArgc by omega), load_ok C J hd ha ho]
    cases hm : f.withMeta <;> simp [Cmd.run, Model.Secrets.remove, removeMeta, hh, hm]

/-- A command that changes the store fails when the file cannot be opened for writing. -/
theorem runCmd_fails {c : Cmd} {w : World} {cfg : Config} {mode : Int}
    {path pass : Bytes} {rest : List (Option Bytes)} {s ps : SecretStore} {t : Term}
    (hd : path ≠ dash) (hm : mode = 0 ∨ mode = 1) (hargs : c.requiredArgc ≤ cfg.args.length)
    (ha : w.term.answers = some pass :: rest) (ho : Opens C J w.fs path pass mode s)
    (hrun : Cmd.run C J ord fuel c { w with term := { w.term with answers := rest } } s cfg mode = some (.ok (true, ps, { w with term := t })))
    (hw : w.write = .openFails) (hr : 56 ≤ w.rng.length) (hsw : c.shouldWrite = true) (hv : ({ ps with timestamp := t.clock 0 } : SecretStore).valid = true) :
    ∃ w', runCmd C J ord fuel c cfg mode path w = some (.ok (1, w')) ∧ w'.fs = w.fs := by
  unfold runCmd
  rw [if_neg (by omega), load_ok C J hd ha ho]
  simp only [hrun, hsw, if_true, Term.now]
  obtain ⟨out, hout⟩ := marshal_ok C J hv hm hr
  simp only [writeStore, hout, Res.ok_bind, Res.pure_eq, World.writeFile, hd, if_false, Go.writeFile, hw]
  exact ⟨_, rfl, rfl⟩

/-- When the file cannot be written, "Removed" is printed all the same, and the entry is still there. -/
theorem C173_violated : ∃ w w', mainText C J ord e fuel { remove := true } [ascii "a"] [102] w = ascii "Removed  a\n" ∧
    main C J P ord fuel { remove := true } [ascii "a"] [102] w = some (.ok (1, w')) ∧
    ∃ s, s.has (ascii "a") = true ∧ Opens C J w.fs [102] [112, 119] 0 s ∧ Opens C J w'.fs [102] [112, 119] 0 s := by
  obtain ⟨b, hb⟩ := exFile C J 0 (Or.inl rfl)
  have hh : (exStore [1, 2, 3] 7).has [97] = true := has_of_lookup (exStore_lookup _ _)
  let w : World := ⟨⟨[some [112, 119]], fun n => 1000 + BitVec.ofNat 64 n⟩, List.replicate 200 7, Fs.set (fun _ => none) [102] b, .openFails, [], []⟩
  have ho : Opens C J w.fs [102] [112, 119] 0 (exStore [1, 2, 3] 7) := ⟨b, by simp [w], hb⟩
  obtain ⟨w', h1, h2⟩ := runCmd_fails C J ord fuel (c := .remove) (w := w) (cfg := ⟨[[97]], false, false, false⟩) (path := [102]) (rest := [])
    (ps := (exStore [1, 2, 3] 7).delete [97]) (t := ⟨[], fun n => 1000 + BitVec.ofNat 64 n⟩) (by decide) (Or.inl rfl) (by decide) rfl ho
    (by simp only [Cmd.run, Model.Secrets.remove, List.headD_cons, hh, Bool.not_true, Bool.false_eq_true, if_false]; rfl) rfl
    (by show 56 ≤ (List.replicate 200 _).length; rw [List.length_replicate]; decide) rfl ((valid_iff _).mpr ⟨rfl, by decide, ⟨_, rfl⟩, _, rfl⟩)
  refine ⟨w, w', ?_, h1, _, hh, ho, by rw [h2]; exact ho⟩
  rw [text_of C J ord e fuel (f := { remove := true }) (c := .remove) rfl (by decide) (by decide) rfl ho]
  show removeText e fuel _ _ _ [97] = _
  unfold removeText
  simp only [hh, Bool.not_true, Bool.false_eq_true, if_false]
  rfl

/-- "Deleted key" is printed for a key that never was. -/
theorem C173_key_violated (he : ∀ md : Map Bytes, md.Finite → md.Enumerates (e.metaOrder md)) :
    ∃ w s r, Opens C J w.fs [102] [112, 119] 0 s ∧ lookup s (ascii "a") = some r ∧ (r.metadata.getD Map.empty) (ascii "z") = none ∧
    mainText C J ord e 2 { remove := true, withMeta := true } [ascii "a"] [102] w =
      ascii "Keys:\n\tu\nRemove key: Deleted key z\nKeys:\n\tu\nRemove key: " := by
  obtain ⟨b, hb⟩ := exFile C J 0 (Or.inl rfl)
  have hh : (exStore [1, 2, 3] 7).has [97] = true := has_of_lookup (exStore_lookup _ _)
  have ho : Opens C J (exWorld b [some [112, 119], some [122], some []]).fs [102] [112, 119] 0 (exStore [1, 2, 3] 7) := ⟨b, by simp [exWorld], hb⟩
  refine ⟨_, _, _, ho, exStore_lookup _ _, ?_, ?_⟩
  · simp [exRecord, Map.set, Map.empty, ascii]
  · rw [text_of C J ord e 2 (f := { remove := true, withMeta := true }) (c := .remove) rfl (by decide) (by decide) (rest := [some [122], some []]) rfl ho]
    have h1 := he (Map.empty.set [117] [1, 2]) (Map.finite_empty.set _ _)
    have h2 : e.metaOrder (Map.empty.set [117] [1, 2]) = [[117]] := by
      refine List.perm_singleton.mp ((List.perm_ext_iff_of_nodup h1.1 (by simp)).mpr fun k => (h1.2 k).trans ?_)
      by_cases hk : k = [117]
      · simp [hk]
      · simp [Map.set_other _ _ hk, hk, Map.empty]
    have h3 : (Map.empty.set [117] [1, 2] : Map Bytes).erase [122] = Map.empty.set [117] [1, 2] := by
      funext k
      unfold Map.erase
      split
      · rename_i h; subst h; rfl
      · rfl
    show removeText e 2 _ _ _ [97] = _
    unfold removeText
    simp only [hh, Bool.not_true, Bool.false_eq_true, if_false, if_true, fetch_eq.mpr (exStore_lookup _ _), exRecord, Option.getD_some, removeMetaLoopText, h2, h3]
    simp [sorted, tabbed, ascii]

/-- The example store loses its entry. -/
example : ∃ b w', mainText C J ord e fuel { remove := true } [[97]] [102] (exWorld b [some [112, 119]]) = ascii "Removed  a\n" ∧
    main C J P ord fuel { remove := true } [[97]] [102] (exWorld b [some [112, 119]]) = some (.ok (0, w')) := by
  obtain ⟨b, hb⟩ := exFile C J 0 (Or.inl rfl)
  have hh : (exStore [1, 2, 3] 7).has [97] = true := has_of_lookup (exStore_lookup _ _)
  obtain ⟨w', out, h, -⟩ := exRun C J P ord fuel (f := { remove := true }) (c := .remove) (args := [[97]]) (rest := [])
    (b := b) (t := ⟨[], fun n => 1000 + BitVec.ofNat 64 n⟩) rfl hb rfl (by decide)
    (by simp only [Cmd.run, Model.Secrets.remove, List.headD_cons, hh, Bool.not_true, Bool.false_eq_true, if_false]; rfl) rfl (exClock 0 (by decide)) rfl rfl
  exact ⟨b, w', (C173_removed_partial C J P ord e fuel (by decide) rfl rfl h).1, h⟩

/-- No entry "b" to remove. -/
example : ∃ b, mainText C J ord e fuel { remove := true } [[98]] [102] (exWorld b [some [112, 119]]) = [] := by
  obtain ⟨b, hb⟩ := exFile C J 0 (Or.inl rfl)
  exact ⟨b, (C173_absent_partial C J Pem.toy ord e fuel (f := { remove := true }) (args := [[98]]) (path := [102]) (by decide) rfl (by simp) (rest := []) rfl
    ⟨b, by simp [exWorld], hb⟩ (exMap_other (by decide) _ _)).1⟩

/-! ### C174: reading back what is shown -/

theorem cut_inj {c : UInt8} {a b x y : Bytes} (ha : c ∉ a) (hb : c ∉ b) (h : a ++ c :: x = b ++ c :: y) : a = b ∧ x = y := by
  induction a generalizing b with
  | nil =>
    cases b with
    | nil => exact ⟨rfl, (List.cons.inj h).2⟩
    | cons d b => exact absurd (by simp [(List.cons.inj h).1]) hb
  | cons d a ih =>
    cases b with
    | nil => exact absurd (by simp [(List.cons.inj h).1]) ha
    | cons d' b =>
      obtain ⟨h1, h2⟩ := List.cons.inj h
      obtain ⟨h3, h4⟩ := ih (fun hh => ha (List.mem_cons_of_mem _ hh)) (b := b) (fun hh => hb (List.mem_cons_of_mem _ hh)) h2
      exact ⟨by rw [h1, h3], h4⟩

theorem signed_mem {n : BitVec 64} {c : UInt8} (h : c ∈ Model.Secretscli.signed n) : c = 45 ∨ (48 ≤ c.toNat ∧ c.toNat ≤ 57) := by
  unfold Model.Secretscli.signed at h
  split at h
  · rcases List.mem_cons.mp h with h | h
    · exact Or.inl h
    · exact Or.inr (decimalF_digits _ _ _ h)
  · exact Or.inr (decimalF_digits _ _ _ h)

theorem decimal_inj {a b : Nat} (h : decimal a = decimal b) : a = b := by
  rw [← decimal_val a, ← decimal_val b, h]

theorem decimal_dash (n : Nat) (l : Bytes) : decimal n ≠ 45 :: l := by
  intro h
  have : (45 : UInt8) ∈ decimal n := by rw [h]; simp
  have := decimalF_digits _ _ _ this
  simp at this

theorem signed_inj {a b : BitVec 64} (h : Model.Secretscli.signed a = Model.Secretscli.signed b) : a = b := by
  refine BitVec.eq_of_toInt_eq ?_
  unfold Model.Secretscli.signed at h
  split at h <;> split at h
  · have := decimal_inj (List.cons.inj h).2
    omega
  · exact absurd h.symm (decimal_dash _ _)
  · exact absurd h (decimal_dash _ _)
  · have := decimal_inj h
    omega

theorem items_inj {it it' : List (Bytes × Bytes)} (fr : ∀ x ∈ it, (10 : UInt8) ∉ x.1 ∧ (58 : UInt8) ∉ x.1 ∧ (10 : UInt8) ∉ x.2)
    (fr' : ∀ x ∈ it', (10 : UInt8) ∉ x.1 ∧ (58 : UInt8) ∉ x.1 ∧ (10 : UInt8) ∉ x.2)
    (hmap : it.map (fun x => x.1 ++ (ascii ": " ++ x.2)) = it'.map (fun x => x.1 ++ (ascii ": " ++ x.2))) : it = it' := by
  induction it generalizing it' with
  | nil => exact (List.map_eq_nil_iff.mp hmap.symm).symm
  | cons x it ih =>
    cases it' with
    | nil => simp at hmap
    | cons x' it' =>
      simp only [List.map_cons] at hmap
      obtain ⟨q1, q2⟩ := List.cons.inj hmap
      obtain ⟨q3, q4⟩ := cut_inj (c := 58) (fr x (by simp)).2.1 (fr' x' (by simp)).2.1 q1
      have q5 : x = x' := Prod.ext q3 (List.cons.inj q4).2
      rw [q5, ih (fun y hy => fr y (List.mem_cons_of_mem _ hy)) (fun y hy => fr' y (List.mem_cons_of_mem _ hy)) q2]

/-- From what `secrets -m label` prints, the secret, the time and the metadata can be told, if neither a secret
nor metadata contains a newline, nor a name of metadata a colon. -/
theorem C174_apart_partial {i : Bool} {l path pass pass' : Bytes} {w w' : World} {s s' : SecretStore} {r r' : SecretRecord} {rest rest' : List (Option Bytes)}
    (hd : path ≠ dash) (ha : w.term.answers = some pass :: rest) (ho : Opens C J w.fs path pass (if i then 1 else 0) s) (hl : lookup s l = some r)
    (ha' : w'.term.answers = some pass' :: rest') (ho' : Opens C J w'.fs path pass' (if i then 1 else 0) s') (hl' : lookup s' l = some r')
    (he : ∀ md : Map Bytes, md.Finite → md.Enumerates (e.metaOrder md)) (hdate : ∀ t, (10 : UInt8) ∉ e.date t)
    (hs : (10 : UInt8) ∉ r.secret) (hs' : (10 : UInt8) ∉ r'.secret)
    (hm : ∀ md k v, r.metadata = some md → md k = some v → (10 : UInt8) ∉ k ∧ (58 : UInt8) ∉ k ∧ (10 : UInt8) ∉ v)
    (hm' : ∀ md k v, r'.metadata = some md → md k = some v → (10 : UInt8) ∉ k ∧ (58 : UInt8) ∉ k ∧ (10 : UInt8) ∉ v)
    (h : mainText C J ord e fuel { withMeta := true, interactive := i } [l] path w = mainText C J ord e fuel { withMeta := true, interactive := i } [l] path w') :
    r.secret = r'.secret ∧ r.timestamp = r'.timestamp ∧ ∀ k v, (∃ md, r.metadata = some md ∧ md k = some v) ↔ ∃ md, r'.metadata = some md ∧ md k = some v := by
  obtain ⟨it, -, h2, h3⟩ := (C169_shown C J Pem.toy ord e fuel (clip := false) (m := true) (i := i) (ow := false) (more := []) hd ha ho hl he).2.2.2 rfl rfl
  obtain ⟨it', -, h2', h3'⟩ := (C169_shown C J Pem.toy ord e fuel (clip := false) (m := true) (i := i) (ow := false) (more := []) hd ha' ho' hl' he).2.2.2 rfl rfl
  rw [h3, h3'] at h
  simp only [List.append_assoc] at h
  have sgn : ∀ t, (10 : UInt8) ∉ Model.Secretscli.signed t := by
    intro t hh
    rcases signed_mem hh with x | x
    · exact absurd x (by decide)
    · simp at x
  have sgn2 : ∀ t, (32 : UInt8) ∉ Model.Secretscli.signed t := by
    intro t hh
    rcases signed_mem hh with x | x
    · exact absurd x (by decide)
    · simp at x
  have free : ∀ t, (10 : UInt8) ∉ ascii "Timestamp: " ++ (Model.Secretscli.signed t ++ (ascii " (" ++ (e.date t ++ ascii ")"))) := by
    intro t
    simp only [List.mem_append, not_or]
    exact ⟨by decide, sgn t, by decide, hdate t, by decide⟩
  obtain ⟨g1, h⟩ := line_inj (by simp only [List.mem_append, not_or]; exact ⟨by decide, hs⟩) (by simp only [List.mem_append, not_or]; exact ⟨by decide, hs'⟩) h
  obtain ⟨g2, h⟩ := line_inj (free _) (free _) h
  refine ⟨List.append_cancel_left g1, signed_inj (cut_inj (c := 32) (sgn2 _) (sgn2 _) (List.append_cancel_left g2)).1, ?_⟩
  have fr : ∀ x ∈ it, (10 : UInt8) ∉ x.1 ∧ (58 : UInt8) ∉ x.1 ∧ (10 : UInt8) ∉ x.2 := by
    intro x hx
    obtain ⟨md, y1, y2⟩ := (h2 x.1 x.2).mp hx
    exact hm md _ _ y1 y2
  have fr' : ∀ x ∈ it', (10 : UInt8) ∉ x.1 ∧ (58 : UInt8) ∉ x.1 ∧ (10 : UInt8) ∉ x.2 := by
    intro x hx
    obtain ⟨md, y1, y2⟩ := (h2' x.1 x.2).mp hx
    exact hm' md _ _ y1 y2
  have hmap := indented_inj
    (by
      intro y hy
      obtain ⟨x, hx, rfl⟩ := List.mem_map.mp hy
      simp only [List.mem_append, not_or]
      exact ⟨(fr x hx).1, by decide, (fr x hx).2.2⟩)
    (by
      intro y hy
      obtain ⟨x, hx, rfl⟩ := List.mem_map.mp hy
      simp only [List.mem_append, not_or]
      exact ⟨(fr' x hx).1, by decide, (fr' x hx).2.2⟩) h
  have hit : it = it' := items_inj fr fr' hmap
  intro k v
  rw [← h2, ← h2', hit]

/-- A record with one item of metadata. -/
abbrev withItem (k v : Bytes) : SecretRecord := ⟨[97], 7, [1], some (Map.empty.set k v)⟩

theorem withItem_text {k v b : Bytes} (hb : unmarshalSecretStore C J b [112, 119] 0 = .ok (some (twoStore [97] [98] (withItem k v) (plain [98] [2]))))
    (he : ∀ md : Map Bytes, md.Finite → md.Enumerates (e.metaOrder md)) :
    mainText C J ord e fuel { withMeta := true } [[97]] [102] (exWorld b [some [112, 119]]) =
      line (ascii "Secret: " ++ [1]) ++ line (ascii "Timestamp: 7 (" ++ e.date 7 ++ ascii ")") ++ indented [k ++ ascii ": " ++ v] := by
  obtain ⟨it, h1, h2, h3⟩ := (C169_shown C J Pem.toy ord e fuel (clip := false) (m := true) (i := false) (ow := false) (l := [97]) (more := []) (path := [102]) (w := exWorld b [some [112, 119]]) (by decide)
    (rest := []) rfl (s := twoStore [97] [98] (withItem k v) (plain [98] [2])) (r := withItem k v) ⟨b, by simp [exWorld], hb⟩ rfl he).2.2.2 rfl rfl
  have hit : it = [(k, v)] := by
    refine List.perm_singleton.mp ((List.perm_ext_iff_of_nodup (List.Nodup.of_map _ h1) (by simp)).mpr fun x => (h2 x.1 x.2).trans ?_)
    constructor
    · rintro ⟨md, y1, y2⟩
      cases y1
      obtain ⟨z1, z2⟩ := exMap_get y2
      simp [← z1, ← z2]
    · intro hx
      obtain rfl : x = (k, v) := by simpa using hx
      exact ⟨_, rfl, by simp⟩
  subst hit
  rw [h3]
  rfl

/-- With a colon in a name, different metadata is shown the same: "a: b" with the value "c", and "a" with the
value "b: c". -/
theorem C174_violated (he : ∀ md : Map Bytes, md.Finite → md.Enumerates (e.metaOrder md)) :
    ∃ b b' s s' r r', Opens C J (exWorld b [some [112, 119]]).fs [102] [112, 119] 0 s ∧ Opens C J (exWorld b' [some [112, 119]]).fs [102] [112, 119] 0 s' ∧
      lookup s [97] = some r ∧ lookup s' [97] = some r' ∧ (r.metadata.getD Map.empty) (ascii "a") = none ∧
      (r'.metadata.getD Map.empty) (ascii "a") = some (ascii "b: c") ∧
      mainText C J ord e fuel { withMeta := true } [[97]] [102] (exWorld b [some [112, 119]]) =
        mainText C J ord e fuel { withMeta := true } [[97]] [102] (exWorld b' [some [112, 119]]) := by
  have item : ∀ k v : Bytes, ValidUtf8 k → ∀ md, (withItem k v).metadata = some md → md.Finite ∧ ∀ j x, md j = some x → ValidUtf8 j := by
    intro k v hk md hmd
    cases hmd
    exact ⟨Map.finite_empty.set _ _, fun j x hj => by rw [(exMap_get hj).1]; exact hk⟩
  obtain ⟨b, hb⟩ := twoStore_file C J (k1 := [97]) (k2 := [98]) (r1 := withItem (ascii "a: b") (ascii "c")) (r2 := plain [98] [2]) (by decide) (by decide) (by decide) (by decide)
    (item _ _ (by decide)) (by simp) 0 (Or.inl rfl)
  obtain ⟨b', hb'⟩ := twoStore_file C J (k1 := [97]) (k2 := [98]) (r1 := withItem (ascii "a") (ascii "b: c")) (r2 := plain [98] [2]) (by decide) (by decide) (by decide) (by decide)
    (item _ _ (by decide)) (by simp) 0 (Or.inl rfl)
  refine ⟨b, b', _, _, _, _, ⟨b, by simp [exWorld], hb⟩, ⟨b', by simp [exWorld], hb'⟩, rfl, rfl, rfl, rfl, ?_⟩
  rw [withItem_text C J ord e fuel hb he, withItem_text C J ord e fuel hb' he]
  rfl

/-- An entry with metadata. -/
example (he : ∀ md : Map Bytes, md.Finite → md.Enumerates (e.metaOrder md)) : ∃ b,
    mainText C J ord e fuel { withMeta := true } [[97]] [102] (exWorld b [some [112, 119]]) =
      ascii "Secret: " ++ [1] ++ ascii "\nTimestamp: 7 (" ++ e.date 7 ++ ascii ")\n\tuser: me\n" := by
  obtain ⟨b, hb⟩ := twoStore_file C J (k1 := [97]) (k2 := [98]) (r1 := withItem (ascii "user") (ascii "me")) (r2 := plain [98] [2]) (by decide) (by decide) (by decide) (by decide)
    (by intro md hmd; cases hmd; exact ⟨Map.finite_empty.set _ _, fun j x hj => by rw [(exMap_get hj).1]; decide⟩) (by simp) 0 (Or.inl rfl)
  refine ⟨b, ?_⟩
  rw [withItem_text C J ord e fuel hb he]
  simp [line, indented, ascii]

end Verif.Props.SecretsOutput
