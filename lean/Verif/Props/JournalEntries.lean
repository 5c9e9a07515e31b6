import Verif.Props.Journal
/-! Properties of the program journal (cmd/journal/journal.go): entries and files. -/

namespace Verif.Props.JournalEntries
open Verif Verif.Go Verif.Model.Util Verif.Model.SecretStore Verif.Model.Journal
open Verif.Model.Secrets (World loadStore writeStore assign fetch dash)
open Verif.Spec.SecretStore Verif.Spec.Secrets Verif.Spec.Journal Verif.Proofs.SecretStore Verif.Proofs.Journal
open Verif.Proofs.Secrets hiding fmode
open Verif.Proofs.Otpc (load_ok load_some has_of_lookup)
open Verif.Props.SecretStore Verif.Props.Journal
open Verif.Props.Secrets (exWorld exFile exMap_other exClock)
open Verif.Props.Otpc (exRng init_works init_true init_failed)

variable (C : Crypto) (J : Json) (ord : Map (Option SecretRecord) → List Bytes)

/-! ### C113: written and shown -/

/-- What is written under a new title with -w is shown for that title, as the editor left it: it was
given the title and the date. Missing: titles with white space around them, and titles that are not
UTF-8. -/
theorem C113_shown_partial (e e' : Env) (f g : Flags) (title path pass : Bytes) (w w' v : World) (o : Output) (rest rest' : List (Option Bytes))
    (hd : path ≠ dash) (hf : f.init = false ∧ f.edit = false ∧ f.list = false ∧ f.write = true)
    (hg : g.init = false ∧ g.edit = false ∧ g.list = false ∧ g.write = false) (hfg : g.mode = f.mode)
    (htr : trimSpace title = title) (hu : ValidUtf8 title)
    (ha : w.term.answers = some pass :: rest) (hnew : ∀ s, Opens C J w.fs path pass f.mode s → s.has title = false)
    (h : main C J ord e f [title] path w = .ok (0, o, w')) (hv : v.term.answers = some pass :: rest') (hvf : v.fs path = w'.fs path) :
    ∃ text v', Edited e (title ++ [10] ++ e.date (w.term.clock 0) ++ [10, 10, 45, 45, 45, 45, 45, 10]) text ∧
      main C J ord e' g [title] path v = .ok (0, .entry text, v') := by
  obtain ⟨pass', rest2, s, m, t2, r, out, t, ha2, ho, hm, hout, hfile, -, hcase⟩ := write_exit C J ord hd hf h
  rw [ha] at ha2
  cases ha2
  have hh := hnew s ho
  rw [htr] at hcase
  rcases hcase with ⟨hc, -⟩ | ⟨text, he, rfl, ⟨hc, -⟩ | ⟨-, rfl⟩⟩
  · rw [hh] at hc; cases hc
  · rw [hh] at hc; cases hc
  · obtain ⟨b, hb, hus⟩ := id ho
    obtain ⟨hfin, hutf, hp⟩ := opens_fields C J hus
    have hex := saved_exact C J (finite_set hfin hm t2 _ (fun md h => by cases h) t)
      (utf8_set hutf hm (r := ⟨t2, w.term.clock 1, text, none⟩) hu hu (fun md j x h => by cases h) t) hfile
    refine ⟨text, { v with term := ⟨rest', v.term.clock⟩ }, ?_, ?_⟩
    · have : header t2 (e.date (w.term.clock 0)) = t2 ++ [10] ++ e.date (w.term.clock 0) ++ [10, 10, 45, 45, 45, 45, 45, 10] := by
        unfold header
        have : ascii "-----" = [45, 45, 45, 45, 45] := by decide
        rw [this]
        simp
      rw [← this]
      exact he
    · have := show_entry C J ord (e := e') hg (v := v) (title := t2) hd hv ⟨out, by rw [hvf]; exact hout, by rw [hfg]; exact hex⟩
        (r := ⟨t2, w.term.clock 1, text, none⟩) (by rw [lookup_eq rfl]; simp)
      exact this

/-- `journal -w " b"` followed by `journal " b"` does not show the entry: the title is stored
without the space. -/
theorem C113_spaces_violated : ∃ (w w' v v' : World), v.fs = w'.fs ∧
    main C J ord exEnv { write := true } [[32, 98]] [102] w = .ok (0, .nothing, w') ∧
    v.term.answers = w.term.answers ∧ main C J ord exEnv {} [[32, 98]] [102] v = .ok (1, .nothing, v') := by
  obtain ⟨b, hb⟩ := exFile C J 0 (Or.inl rfl)
  have htr : trimSpace [32, 98] = [98] := by decide
  obtain ⟨w', h⟩ := write_works C J ord (e := exEnv) (f := { write := true }) (arg := [32, 98]) (path := [102])
    (w := exWorld b [some [112, 119]]) (by decide) ⟨rfl, rfl, rfl, rfl⟩ rfl ⟨b, by simp [exWorld], hb⟩ rfl
    (by rw [htr]; exact exMap_other (by decide) _ _) rfl (exEdited _) rfl (exRng _ _) rfl (exClock 2 (by decide))
  obtain ⟨pass, rest2, s, m, t2, r, out, t, ha2, ho, hm, hout, hfile, -, hcase⟩ := write_exit C J ord (by decide) ⟨rfl, rfl, rfl, rfl⟩ h
  cases ha2
  obtain ⟨b', hb', hus⟩ := id ho
  have : b' = b := by simpa [exWorld] using hb'.symm
  subst this
  have hs : s = exStore [1, 2, 3] 7 := by
    have e1 : unmarshalSecretStore C J b' [112, 119] 0 = .ok (some s) := hus
    rw [hb] at e1
    cases e1
    rfl
  subst hs
  have hh : (exStore [1, 2, 3] 7).has (trimSpace [32, 98]) = false := by rw [htr]; exact exMap_other (by decide) _ _
  have hm' : m = Map.empty.set [97] (some (exRecord [97] [1, 2, 3] 7)) := by cases hm; rfl
  rcases hcase with ⟨hc, -⟩ | ⟨text, he, rfl, ⟨hc, -⟩ | ⟨-, rfl⟩⟩
  · rw [hh] at hc; cases hc
  · rw [hh] at hc; cases hc
  · rw [htr] at hfile
    have hex := saved_exact C J (finite_set (exStore_finite _ _) hm [98] _ (fun md h => by cases h) t)
      (utf8_set (exStore_clean _ _) hm (r := ⟨[98], _, text, none⟩) (by decide) (show ValidUtf8 [98] by decide) (fun md j x h => by cases h) t) hfile
    refine ⟨exWorld b' [some [112, 119]], w', { exWorld b' [some [112, 119]] with fs := w'.fs }, _, rfl, h, rfl,
      show_missing C J ord ⟨rfl, rfl, rfl, rfl⟩ (by decide) rfl ⟨out, hout, hex⟩ ?_⟩
    subst hm'
    simp only [SecretStore.has, Map.has]
    rw [Map.set_other _ _ (by decide), Map.set_other _ _ (by decide)]
    rfl

/-- A title that is not UTF-8 is not found either. -/
theorem C113_utf8_violated : ∃ (w w' v v' : World), v.fs = w'.fs ∧
    main C J ord exEnv { write := true } [[0xFF]] [102] w = .ok (0, .nothing, w') ∧
    v.term.answers = w.term.answers ∧ main C J ord exEnv {} [[0xFF]] [102] v = .ok (1, .nothing, v') := by
  obtain ⟨b, hb⟩ := exFile C J 0 (Or.inl rfl)
  have htr : trimSpace [0xFF] = [0xFF] := by decide
  obtain ⟨w', h⟩ := write_works C J ord (e := exEnv) (f := { write := true }) (arg := [0xFF]) (path := [102])
    (w := exWorld b [some [112, 119]]) (by decide) ⟨rfl, rfl, rfl, rfl⟩ rfl ⟨b, by simp [exWorld], hb⟩ rfl
    (by rw [htr]; exact exMap_other (by decide) _ _) rfl (exEdited _) rfl (exRng _ _) rfl (exClock 2 (by decide))
  obtain ⟨pass, s, s', hpass, ho, ⟨out, hout, hs'⟩, -⟩ := C72_kept_partial C J ord exEnv { write := true } [0xFF] [102] _ w' _ (by decide) ⟨rfl, rfl, rfl, rfl⟩ h
  cases hpass
  obtain ⟨-, hutf, -⟩ := opens_fields C J hs'
  refine ⟨exWorld b [some [112, 119]], w', { exWorld b [some [112, 119]] with fs := w'.fs }, _, rfl, h, rfl,
    show_missing C J ord ⟨rfl, rfl, rfl, rfl⟩ (by decide) rfl ⟨out, hout, hs'⟩ ?_⟩
  cases hm : s'.store with
  | none => simp [SecretStore.has, hm]
  | some m =>
    cases hk : m [0xFF] with
    | none => simp [SecretStore.has, hm, Map.has, hk]
    | some x => exact absurd (hutf m hm _ _ hk).1 (by decide)

/-- Told that there is an entry "a", the user of `journal -w " a"` accepts to edit it; journal then
says that there is none. -/
theorem C113_yes_violated : ∃ (w w' : World) (s : SecretStore), Opens C J w.fs [102] [112, 119] 0 s ∧ s.has (trimSpace [32, 97]) = true ∧
    w.term.answers = [some [112, 119], some [121]] ∧
    main C J ord exEnv { write := true } [[32, 97]] [102] w = .ok (1, .nothing, w') := by
  obtain ⟨b, hb⟩ := exFile C J 0 (Or.inl rfl)
  have htr : trimSpace [32, 97] = [97] := by decide
  have hh : (exStore [1, 2, 3] 7).has (trimSpace [32, 97]) = true := by rw [htr]; exact has_of_lookup (exStore_lookup _ _)
  refine ⟨exWorld b [some [112, 119], some [121]], exWorld b [], exStore [1, 2, 3] 7, ⟨b, by simp [exWorld], hb⟩, hh, rfl, ?_⟩
  rw [main_loads C J ord (f := { write := true }) (w := exWorld b [some [112, 119], some [121]]) (path := [102]) (pass := [112, 119]) (s := exStore [1, 2, 3] 7) (rest := [some [121]])
    (by decide) rfl rfl ⟨b, by simp [exWorld], hb⟩]
  unfold run writeNew Term.read
  have hy : lower [121] = ascii "y" ∨ lower [121] = ascii "yes" := by decide
  simp only [Bool.false_eq_true, if_false, if_true, List.headD_cons, hh, hy]
  unfold editEntry
  rw [exMap_other (by decide)]
  rfl

/-- The hypotheses of `C113_shown_partial` can be met. -/
example : ∃ b w', main C J ord exEnv { write := true } [[98]] [102] (exWorld b [some [112, 119]]) = .ok (0, .nothing, w') ∧
    trimSpace [98] = [98] ∧ ValidUtf8 [98] ∧ ∀ s, Opens C J (exWorld b [some [112, 119]]).fs [102] [112, 119] 0 s → s.has [98] = false := by
  obtain ⟨b, hb⟩ := exFile C J 0 (Or.inl rfl)
  obtain ⟨w', h⟩ := write_works C J ord (e := exEnv) (f := { write := true }) (arg := [98]) (path := [102])
    (w := exWorld b [some [112, 119]]) (by decide) ⟨rfl, rfl, rfl, rfl⟩ rfl ⟨b, by simp [exWorld], hb⟩ rfl
    (exMap_other (by decide) _ _) rfl (exEdited _) rfl (exRng _ _) rfl (exClock 2 (by decide))
  refine ⟨b, w', h, by decide, by decide, ?_⟩
  rintro s ⟨b', hb', hus⟩
  have : b' = b := by simpa [exWorld] using hb'.symm
  subst this
  rw [hb] at hus
  cases hus
  exact exMap_other (by decide) _ _

/-! ### C114: editing -/

/-- `journal -e title` gives the editor the text of the entry and keeps what the editor leaves as
the new text; title, date and metadata of the entry, and all other entries, stay as they are. What
the editor is given is all of the text, or the beginning of it if writing the file failed: see C115. -/
theorem C114_edit (e : Env) (f : Flags) (title path : Bytes) (w w' : World) (o : Output) (hd : path ≠ dash)
    (hf : f.init = false ∧ f.edit = true) (h : main C J ord e f [title] path w = .ok (0, o, w')) :
    ∃ pass s s' r text, w.term.answers.head? = some (some pass) ∧ Opens C J w.fs path pass f.mode s ∧ Opens C J w'.fs path pass f.mode s' ∧
      lookup s title = some r ∧ Edited e r.secret text ∧ lookup s' title = some { r with secret := text } ∧
      ∀ k, k ≠ title → lookup s' k = lookup s k := by
  obtain ⟨pass, rest, s, r, m, text, out, ha, ho, hl, hm, he, hout, hfile⟩ := edit_exit C J ord hd hf.1 hf.2 h
  obtain ⟨b, hb, hus⟩ := id ho
  obtain ⟨hfin, hutf, hp⟩ := opens_fields C J hus
  obtain ⟨u1, u2, u3⟩ := record_utf8 hutf hl
  have hex := saved_exact C J (finite_set hfin hm title { r with secret := text } (fun md h => record_finite hfin hl md h) _)
    (utf8_set hutf hm (r := { r with secret := text }) u1 u2 u3 _) hfile
  refine ⟨pass, s, _, r, text, by rw [ha]; rfl, ho, ⟨out, hout, hex⟩, hl, he, ?_, ?_⟩
  · rw [lookup_eq (m := m.set title (some { r with secret := text })) rfl]
    simp
  · intro k hk
    rw [lookup_eq (m := m.set title (some { r with secret := text })) rfl, lookup_eq hm, Map.set_other _ _ hk]

/-- A successful edit. -/
example : ∃ b w', main C J ord exEnv { edit := true } [[97]] [102] (exWorld b [some [112, 119]]) = .ok (0, .nothing, w') := by
  obtain ⟨b, hb⟩ := exFile C J 0 (Or.inl rfl)
  obtain ⟨w', h⟩ := edit_works C J ord (e := exEnv) (f := { edit := true }) (title := [97]) (path := [102])
    (w := exWorld b [some [112, 119]]) (by decide) ⟨rfl, rfl⟩ rfl ⟨b, by simp [exWorld], hb⟩ rfl
    (exStore_lookup _ _) rfl (exEdited _) rfl (exRng _ _) rfl (exClock 0 (by decide))
  exact ⟨b, w', h⟩

/-! ### C115: looking at an entry in the editor -/

/-- Leaving the editor without changing anything leaves all entries as they were. Missing: what
happens when the temporary file could not be written. -/
theorem C115_unedited_partial (e : Env) (f : Flags) (title path : Bytes) (w w' : World) (o : Output) (hd : path ≠ dash)
    (hf : f.init = false ∧ f.edit = true) (hid : ∀ b, e.edit (some b) = (some b, true)) (hwr : e.write = .done)
    (h : main C J ord e f [title] path w = .ok (0, o, w')) :
    ∃ pass s s', w.term.answers.head? = some (some pass) ∧ Opens C J w.fs path pass f.mode s ∧ Opens C J w'.fs path pass f.mode s' ∧
      ∀ k, lookup s' k = lookup s k := by
  obtain ⟨pass, s, s', r, text, h1, h2, h3, h4, ⟨seen, h5, h6⟩, h7, h8⟩ := C114_edit C J ord e f title path w w' o hd hf h
  refine ⟨pass, s, s', h1, h2, h3, fun k => ?_⟩
  by_cases hk : k = title
  · subst hk
    rw [h7, h4]
    rw [hid] at h6
    cases h6
    rcases h5 with ⟨-, rfl⟩ | ⟨h5, -⟩ | ⟨j, h5, -⟩
    · rfl
    · rw [hwr] at h5; cases h5
    · rw [hwr] at h5; cases h5
  · exact h8 k hk

/-- If the temporary file cannot be written, as when the disk is full, the editor is started all
the same, on an empty file; leaving it without doing anything replaces the entry by nothing. -/
theorem C115_full_disk_violated : ∃ (e : Env) (w w' : World) (s s' : SecretStore),
    e.edit = (fun b => (b, true)) ∧ main C J ord e { edit := true } [[97]] [102] w = .ok (0, .nothing, w') ∧
    Opens C J w.fs [102] [112, 119] 0 s ∧ secretOf s [97] = some [1, 2, 3] ∧
    Opens C J w'.fs [102] [112, 119] 0 s' ∧ secretOf s' [97] = some [] := by
  obtain ⟨b, hb⟩ := exFile C J 0 (Or.inl rfl)
  obtain ⟨w', h⟩ := edit_works C J ord (e := { exEnv with write := .failsAfter 0, edit := fun b => (b, true) }) (text := [])
    (f := { edit := true }) (title := [97]) (path := [102])
    (w := exWorld b [some [112, 119]]) (by decide) ⟨rfl, rfl⟩ rfl ⟨b, by simp [exWorld], hb⟩ rfl
    (exStore_lookup _ _) rfl ⟨[], Or.inr (Or.inr ⟨0, rfl, rfl⟩), rfl⟩ rfl (exRng _ _) rfl (exClock 0 (by decide))
  obtain ⟨pass, s, s', r, text, h1, h2, h3, h4, ⟨seen, h5, h6⟩, h7, h8⟩ := C114_edit C J ord _ _ [97] [102] _ w' _ (by decide) ⟨rfl, rfl⟩ h
  cases h1
  have hs : s = exStore [1, 2, 3] 7 := by
    obtain ⟨b', hb', hus⟩ := h2
    have : b' = b := by simpa [exWorld] using hb'.symm
    subst this
    have e1 : unmarshalSecretStore C J b' [112, 119] 0 = .ok (some s) := hus
    rw [hb] at e1
    cases e1
    rfl
  refine ⟨_, _, w', s, s', rfl, h, h2, by rw [hs]; rfl, h3, ?_⟩
  unfold secretOf
  rw [h7]
  rcases h5 with ⟨h5, -⟩ | ⟨h5, -⟩ | ⟨j, h5, rfl⟩
  · cases h5
  · cases h5
  · cases h5
    cases h6
    rfl

/-- An editor and a world to which `C115_unedited_partial` applies. -/
example : ∃ b w', main C J ord { exEnv with edit := fun b => (b, true) } { edit := true } [[97]] [102] (exWorld b [some [112, 119]]) = .ok (0, .nothing, w') := by
  obtain ⟨b, hb⟩ := exFile C J 0 (Or.inl rfl)
  obtain ⟨w', h⟩ := edit_works C J ord (e := { exEnv with edit := fun b => (b, true) }) (f := { edit := true }) (title := [97]) (path := [102])
    (text := [1, 2, 3]) (w := exWorld b [some [112, 119]]) (by decide) ⟨rfl, rfl⟩ rfl ⟨b, by simp [exWorld], hb⟩ rfl
    (exStore_lookup _ _) rfl ⟨[1, 2, 3], Or.inl ⟨rfl, rfl⟩, rfl⟩ rfl (exRng _ _) rfl (exClock 0 (by decide))
  exact ⟨b, w', h⟩

/-! ### C116, C118: what changes files -/

/-- What a run that is not -init does to files. -/
theorem run_files {e : Env} {f : Flags} {args : List Bytes} {path : Bytes} {w w' : World} {st : Nat} {o : Output} {s : SecretStore} (hd : path ≠ dash)
    (h : run C J ord e f args path w s = .ok (st, o, w')) :
    ∃ w2, Steps e w w2 ∧ (∀ q, q ≠ path → w'.fs q = w2.fs q) ∧
      (st ≠ 0 ∨ (f.edit = false ∧ (f.list = true ∨ f.write = false)) → (∀ k, w.write ≠ .failsAfter k) → w'.fs = w2.fs) := by
  have fin : ∀ {b : Bool} {ps : SecretStore} {w2 : World}, (f.edit = false → f.list = false ∧ f.write = true) → Steps e w w2 → finish C J path f.mode (b, ps, w2) = .ok (st, o, w') →
      ∃ w2, Steps e w w2 ∧ (∀ q, q ≠ path → w'.fs q = w2.fs q) ∧
        (st ≠ 0 ∨ (f.edit = false ∧ (f.list = true ∨ f.write = false)) → (∀ k, w.write ≠ .failsAfter k) → w'.fs = w2.fs) := by
    intro b ps w2 hfl hs hf
    obtain ⟨-, h2, h3⟩ := finish_some C J hd hf
    refine ⟨w2, hs, h2, fun hc hw => ?_⟩
    have hwr : w2.write = w.write := by
      obtain ⟨⟨t, fs, rfl⟩, -, -⟩ := hs
      rfl
    rcases h3 with ⟨-, rfl, -⟩ | ⟨-, h3⟩
    · rcases hc with hc | ⟨hc, hc2⟩
      · exact absurd rfl hc
      · obtain ⟨a, b⟩ := hfl hc
        rw [a, b] at hc2
        simp at hc2
    · exact h3 (by rw [hwr]; exact hw)
  unfold run at h
  split at h
  · rename_i he
    obtain ⟨⟨b, ps, w2⟩, h1, h2⟩ := Res.bind_eq_ok.mp h
    exact fin (fun hf => by rw [he] at hf; cases hf) (editEntry_some h1).1 h2
  · split at h
    · obtain ⟨lines, -, h2⟩ := Res.bind_eq_ok.mp h
      simp only [Res.pure_eq, Res.ok.injEq, Prod.mk.injEq] at h2
      rw [← h2.2.2]
      exact ⟨w, Steps.refl _ _, fun _ _ => rfl, fun _ _ => rfl⟩
    · split at h
      · rename_i hl hw
        obtain ⟨⟨b, ps, w2⟩, h1, h2⟩ := Res.bind_eq_ok.mp h
        exact fin (fun _ => ⟨by simpa using hl, hw⟩) (writeNew_some h1).1 h2
      · obtain ⟨x, -, h2⟩ := Res.bind_eq_ok.mp h
        cases x with
        | none =>
          simp only [Res.pure_eq, Res.ok.injEq, Prod.mk.injEq] at h2
          rw [← h2.2.2]
          exact ⟨w, Steps.refl _ _, fun _ _ => rfl, fun _ _ => rfl⟩
        | some text =>
          simp only [Res.pure_eq, Res.ok.injEq, Prod.mk.injEq] at h2
          rw [← h2.2.2]
          exact ⟨w, Steps.refl _ _, fun _ _ => rfl, fun _ _ => rfl⟩

theorem init_other {w w' : World} {path : Bytes} {mode : Int} {ok : Bool} (hd : path ≠ dash)
    (h : Model.Otpc.initStore C J w path mode = .ok (ok, w')) : ∀ q, q ≠ path → w'.fs q = w.fs q := by
  unfold Model.Otpc.initStore Term.read Term.now at h
  cases ha : w.term.answers with
  | nil => simp only [ha, Res.ok.injEq, Prod.mk.injEq] at h; rw [← h.2]; exact fun _ _ => rfl
  | cons a rest =>
    cases a with
    | none => simp only [ha, Res.ok.injEq, Prod.mk.injEq] at h; rw [← h.2]; exact fun _ _ => rfl
    | some pass =>
      simp only [ha] at h
      obtain ⟨⟨out, s2, rng⟩, h3, h4⟩ := Res.bind_eq_ok.mp h
      cases out with
      | none =>
        simp only [Res.pure_eq, Res.ok.injEq, Prod.mk.injEq] at h4
        rw [← h4.2]; exact fun _ _ => rfl
      | some out =>
        simp only [World.writeFile, hd, if_false] at h4
        split at h4
        · simp only [Res.pure_eq, Res.ok.injEq, Prod.mk.injEq] at h4
          rw [← h4.2]
          exact fun q hq => writeFile_other hq
        · obtain ⟨x, -, h5⟩ := Res.bind_eq_ok.mp h4
          simp only [Res.pure_eq, Res.ok.injEq, Prod.mk.injEq] at h5
          rw [← h5.2]
          exact fun q hq => writeFile_other hq

/-- Nothing is left behind: whatever a run does and however it ends, if the temporary file can be
removed then every file but the journal is as before; there is no file with the text of an entry. If
it cannot be removed it is the only other file to change. -/
theorem C116_no_traces (e : Env) (f : Flags) (args : List Bytes) (path : Bytes) (w w' : World) (st : Nat) (o : Output) (hd : path ≠ dash)
    (hfr : Fresh e w.fs) (h : main C J ord e f args path w = .ok (st, o, w')) :
    (e.removes = true → ∀ q, q ≠ path → w'.fs q = w.fs q) ∧ ∀ q, q ≠ path → e.temp ≠ some q → w'.fs q = w.fs q := by
  cases hi : f.init with
  | true =>
    unfold main at h
    rw [hi] at h
    simp only [if_true] at h
    obtain ⟨⟨ok, w1⟩, h1, h2⟩ := Res.bind_eq_ok.mp h
    simp only [Res.pure_eq, Res.ok.injEq, Prod.mk.injEq] at h2
    obtain ⟨-, -, rfl⟩ := h2
    exact ⟨fun _ => init_other C J hd h1, fun q hq _ => init_other C J hd h1 q hq⟩
  | false =>
    rcases main_run C J ord hd hi h with ⟨-, h1⟩ | ⟨pass, rest, s, ha, ho, hr⟩
    · rw [h1]
      simp
    · obtain ⟨w2, ⟨-, k2, k3⟩, h2, -⟩ := run_files C J ord hd hr
      refine ⟨fun hrem q hq => ?_, fun q hq ht => ?_⟩
      · rw [h2 q hq, k3 hrem hfr]
      · rw [h2 q hq, k2 q ht]

/-- A run in which the editor fails: there is no trace of the entry. -/
example : ∃ b w', main C J ord { exEnv with edit := fun b => (b, false) } { edit := true } [[97]] [102] (exWorld b [some [112, 119]]) = .ok (1, .nothing, w') ∧
    Fresh { exEnv with edit := fun b => (b, false) } (exWorld b [some [112, 119]]).fs ∧ w'.fs [116] = none := by
  obtain ⟨b, hb⟩ := exFile C J 0 (Or.inl rfl)
  refine ⟨b, { exWorld b [] with fs := put (put ((Fs.set (exWorld b []).fs [116] []).set [116] [1, 2, 3]) [116] (some [1, 2, 3])) [116] none }, ?_, exFresh b _, by simp [put]⟩
  rw [main_loads C J ord (f := { edit := true }) (w := exWorld b [some [112, 119]]) (path := [102]) (pass := [112, 119]) (s := exStore [1, 2, 3] 7) (rest := [])
    (by decide) rfl rfl ⟨b, by simp [exWorld], hb⟩]
  unfold run editEntry
  simp only [if_true, List.headD_cons, has_of_lookup (exStore_lookup [1, 2, 3] 7), Bool.not_true, Bool.false_eq_true, if_false, fetch_eq.mpr (exStore_lookup [1, 2, 3] 7), Res.ok_bind]
  simp only [exEnv, runEditor, Go.writeFile, Fs.set_same, exRecord]
  rfl

/-- A run that fails, and one that only lists or shows entries, leaves the journal as it was;
provided the operating system did not stop in the middle of writing it (see C14). -/
theorem C118_unchanged (e : Env) (f : Flags) (args : List Bytes) (path : Bytes) (w w' : World) (st : Nat) (o : Output) (hd : path ≠ dash)
    (hfr : Fresh e w.fs) (hw : ∀ k, w.write ≠ .failsAfter k) (h : main C J ord e f args path w = .ok (st, o, w'))
    (hc : st ≠ 0 ∨ (f.init = false ∧ f.edit = false ∧ (f.list = true ∨ f.write = false))) :
    w'.fs path = w.fs path := by
  cases hi : f.init with
  | true =>
    rcases hc with hc | ⟨hc, -⟩
    · unfold main at h
      rw [hi] at h
      simp only [if_true] at h
      obtain ⟨⟨ok, w1⟩, h1, h2⟩ := Res.bind_eq_ok.mp h
      simp only [Res.pure_eq, Res.ok.injEq, Prod.mk.injEq] at h2
      obtain ⟨rfl, -, rfl⟩ := h2
      cases ok with
      | true => exact absurd rfl hc
      | false => rw [init_failed C J hw h1]
    · rw [hi] at hc; cases hc
  | false =>
    rcases main_run C J ord hd hi h with ⟨-, h1⟩ | ⟨pass, rest, s, ha, ho, hr⟩
    · rw [h1]
    · obtain ⟨w2, ⟨-, k2, -⟩, -, h3⟩ := run_files C J ord hd hr
      have := h3 (hc.imp_right (·.2)) hw
      rw [this, k2]
      intro ht
      obtain ⟨b, hb, -⟩ := ho
      have := hfr path ht
      rw [hb] at this
      cases this

/-- The run of `C113_yes_violated` fails; here is one that shows an entry. -/
example : ∃ b w', main C J ord exEnv {} [[97]] [102] (exWorld b [some [112, 119]]) = .ok (0, .entry [1, 2, 3], w') ∧
    Fresh exEnv (exWorld b [some [112, 119]]).fs := by
  obtain ⟨b, hb⟩ := exFile C J 0 (Or.inl rfl)
  exact ⟨b, _, show_entry C J ord (g := {}) (v := exWorld b [some [112, 119]]) ⟨rfl, rfl, rfl, rfl⟩ (by decide) rfl ⟨b, by simp [exWorld], hb⟩ (exStore_lookup _ _), exFresh b _⟩

/-! ### C117: a new journal -/

/-- `journal -init` on the path of an existing journal replaces it by an empty one, without being
asked to; and the empty passphrase is as good as any. -/
theorem C117_init_violated : ∃ (w w' : World) (s s' : SecretStore),
    main C J ord exEnv { init := true } [] [102] w = .ok (0, .nothing, w') ∧
    Opens C J w.fs [102] [112, 119] 0 s ∧ secretOf s [97] = some [1, 2, 3] ∧
    Opens C J w'.fs [102] [] 0 s' ∧ ∀ k, lookup s' k = none := by
  obtain ⟨b, hb⟩ := exFile C J 0 (Or.inl rfl)
  obtain ⟨out, w', h1, h2, h3⟩ := init_works C J (w := exWorld b [some []]) (path := [102]) (pass := []) (mode := 0) (rest := [])
    (by decide) (Or.inl rfl) rfl rfl (exRng _ _) (exClock 0 (by decide))
  refine ⟨exWorld b [some []], w', exStore [1, 2, 3] 7, _, ?_, ⟨b, by simp [exWorld], hb⟩, rfl, ⟨out, by rw [h2]; simp, h3⟩, fun k => rfl⟩
  show (Model.Otpc.initStore C J (exWorld b [some []]) [102] 0 >>= _) = _
  rw [h1]
  rfl

/-- `journal -init` creates an empty journal that opens with the passphrase given. Missing from the
property: what happens to an existing journal, and empty passphrases. -/
theorem C117_init_partial (e : Env) (f : Flags) (args : List Bytes) (path : Bytes) (w w' : World) (o : Output) (hd : path ≠ dash)
    (hf : f.init = true) (h : main C J ord e f args path w = .ok (0, o, w')) :
    ∃ pass s', w.term.answers.head? = some (some pass) ∧ Opens C J w'.fs path pass f.mode s' ∧ ∀ k, lookup s' k = none := by
  unfold main at h
  rw [hf] at h
  simp only [if_true] at h
  obtain ⟨⟨ok, w1⟩, h1, h2⟩ := Res.bind_eq_ok.mp h
  simp only [Res.pure_eq, Res.ok.injEq, Prod.mk.injEq] at h2
  obtain ⟨h2, -, rfl⟩ := h2
  cases ok with
  | false => simp at h2
  | true =>
    obtain ⟨pass, s', a, b, c, -⟩ := init_true C J hd h1
    exact ⟨pass, s', a, b, c⟩

/-- A run to which the theorem applies, where there was no file. -/
example : ∃ w', main C J ord exEnv { init := true } [] [103] (exWorld [] [some [1]]) = .ok (0, .nothing, w') ∧
    (exWorld [] [some [1]]).fs [103] = none := by
  obtain ⟨out, w', h1, h2, h3⟩ := init_works C J (w := exWorld [] [some [1]]) (path := [103]) (pass := [1]) (mode := 0) (rest := [])
    (by decide) (Or.inl rfl) rfl rfl (exRng _ _) (exClock 0 (by decide))
  refine ⟨w', ?_, rfl⟩
  show (Model.Otpc.initStore C J (exWorld [] [some [1]]) [103] 0 >>= _) = _
  rw [h1]
  rfl

end Verif.Props.JournalEntries
