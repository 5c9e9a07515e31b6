import Verif.Proofs.OtpcErrors
import Verif.Props.JournalOutput
import Verif.Props.SecretsErrors
/-! C210-C214: what cmd/journal writes to standard error. -/

namespace Verif.Props.JournalErrors
open Verif Verif.Go Verif.Model.Util Verif.Model.SecretStore Verif.Model.Journal Verif.Model.JournalErrors
open Verif.Model.Secrets (World loadStore writeStore assign fetch dash)
open Verif.Model.SecretsErrors (errorf writeErr loadErr)
open Verif.Spec.SecretStore Verif.Spec.Secrets Verif.Spec.Journal Verif.Spec.JournalErrors
open Verif.Spec.SecretsErrors (report Failure)
open Verif.Proofs.SecretStore Verif.Proofs.Journal Verif.Proofs.OtpcErrors
open Verif.Proofs.SecretsErrors (errorf_eq loadErr_some loadErr_mem writeErr_ok)
open Verif.Proofs.Secrets hiding fmode
open Verif.Proofs.Otpc (load_ok load_some has_of_lookup)
open Verif.Props.SecretStore Verif.Props.Journal Verif.Props.JournalEntries
open Verif.Props.Secrets (exWorld exFile exMap_other exClock)
open Verif.Props.Otpc (exRng)
open Verif.Props.SecretsErrors (failure_of)

variable (T : Texts) (C : Crypto) (J : Json) (ord : Map (Option SecretRecord) → List Bytes)

/-- What is on standard error when a journal has been opened. -/
theorem err_of {e : Env} {f : Flags} {arg path pass : Bytes} {w : World} {rest : List (Option Bytes)} {s : SecretStore}
    (hd : path ≠ dash) (hi : f.init = false) (ha : w.term.answers = some pass :: rest) (ho : Opens C J w.fs path pass f.mode s) :
    mainErr T C J e f [arg] path w = runErr T C J e f [arg] path { w with term := ⟨rest, w.term.clock⟩ } s := by
  unfold mainErr
  have hl : ¬ [arg].length < (if f.edit = true then 1 else if f.list = true then 0 else 1) := by
    simp only [List.length_singleton]
    split
    · simp
    · split <;> simp
  have h := load_ok C J hd ha ho
  rw [hi, if_neg (by simp), if_neg hl, loadErr_some _ C J h, h]
  rfl

/-! ### C210: failures are reported -/

theorem finishErr_failed {path : Bytes} {mode : Int} {err : Bytes} {r : Res (Bool × SecretStore × World)} {n : Nat} {o : Output} {w' : World}
    (h0 : (r >>= finish C J path mode) = .ok (n, o, w')) :
    (n ≠ 0 → ∃ pre x, finishErr T C J path mode err r = pre ++ [x] ∧ Failure x) ∧ (n = 0 → finishErr T C J path mode err r = []) := by
  obtain ⟨⟨b, ps, w⟩, rfl, h⟩ := Res.bind_eq_ok.mp h0
  clear h0
  cases b with
  | false =>
    unfold finish at h
    simp only [Res.ok.injEq, Prod.mk.injEq] at h
    refine ⟨fun _ => ⟨[], _, rfl, failure_of _⟩, fun h0 => ?_⟩
    rw [h0] at h
    simp at h
  | true =>
    unfold finish at h
    unfold finishErr
    dsimp only at h ⊢
    obtain ⟨⟨w3, ok⟩, h1, h2⟩ := Res.bind_eq_ok.mp h
    simp only [Res.pure_eq, Res.ok.injEq, Prod.mk.injEq] at h2
    cases ok with
    | true =>
      rw [writeErr_ok _ C J h1, h1]
      exact ⟨fun hn => absurd h2.1.symm hn, fun _ => rfl⟩
    | false =>
      rw [h1]
      refine ⟨fun _ => ⟨_, _, rfl, _, rfl, Or.inr (Or.inr (Or.inr rfl))⟩, fun h0 => ?_⟩
      rw [h0] at h2
      simp at h2

theorem told {e : Env} {f : Flags} {args : List Bytes} {path : Bytes} {w w' : World} {n : Nat} {o : Output}
    (h : main C J ord e f args path w = .ok (n, o, w')) :
    (n ≠ 0 → ∃ pre x, mainErr T C J e f args path w = pre ++ [x] ∧ Failure x) ∧ (n = 0 → mainErr T C J e f args path w = []) := by
  unfold main at h
  unfold mainErr
  split
  · rename_i hi
    rw [if_pos hi] at h
    obtain ⟨⟨ok, w1⟩, h1, h2⟩ := Res.bind_eq_ok.mp h
    simp only [Res.pure_eq, Res.ok.injEq, Prod.mk.injEq] at h2
    unfold Model.OtpcErrors.initMainErr
    cases ok with
    | true =>
      rw [h1]
      dsimp only
      rw [initErr_ok _ C J h1]
      exact ⟨fun hn => absurd h2.1.symm hn, fun _ => rfl⟩
    | false =>
      rw [h1]
      refine ⟨fun _ => ⟨_, _, rfl, failure_of _⟩, fun h0 => ?_⟩
      rw [h0] at h2
      simp at h2
  · rename_i hi
    rw [if_neg hi] at h
    by_cases hlt : args.length < (if f.edit = true then 1 else if f.list = true then 0 else 1)
    · rw [if_pos hlt] at h ⊢
      simp only [Res.ok.injEq, Prod.mk.injEq] at h
      refine ⟨fun _ => ⟨[_], _, rfl, _, rfl, Or.inr (Or.inl ⟨_, rfl⟩)⟩, fun h0 => ?_⟩
      rw [h0] at h
      simp at h
    · rw [if_neg hlt] at h ⊢
      obtain ⟨⟨x, w1⟩, hl, h2⟩ := Res.bind_eq_ok.mp h
      cases x with
      | none =>
        simp only [Res.pure_eq, Res.ok.injEq, Prod.mk.injEq] at h2
        rw [hl]
        refine ⟨fun _ => ⟨_, _, rfl, _, rfl, Or.inr (Or.inr (Or.inl rfl))⟩, fun h0 => ?_⟩
        rw [h0] at h2
        simp at h2
      | some ps =>
        rw [loadErr_some _ C J hl, hl, List.nil_append]
        dsimp only at h2 ⊢
        unfold run at h2
        unfold runErr
        split
        · rename_i he
          rw [if_pos he] at h2
          exact finishErr_failed T C J h2
        · rename_i he
          rw [if_neg he] at h2
          split
          · rename_i hli
            rw [if_pos hli] at h2
            obtain ⟨lines, -, h4⟩ := Res.bind_eq_ok.mp h2
            simp only [Res.pure_eq, Res.ok.injEq, Prod.mk.injEq] at h4
            exact ⟨fun hn => absurd h4.1.symm hn, fun _ => rfl⟩
          · rename_i hli
            rw [if_neg hli] at h2
            split
            · rename_i hwr
              rw [if_pos hwr] at h2
              exact finishErr_failed T C J h2
            · rename_i hwr
              rw [if_neg hwr] at h2
              obtain ⟨x, h3, h4⟩ := Res.bind_eq_ok.mp h2
              unfold showEntry at h3
              split
              · rename_i hh
                rw [hh] at h3
                simp only [Bool.not_true, Bool.false_eq_true, if_false] at h3
                obtain ⟨r, -, h5⟩ := Res.bind_eq_ok.mp h3
                cases h5
                simp only [Res.pure_eq, Res.ok.injEq, Prod.mk.injEq] at h4
                exact ⟨fun hn => absurd h4.1.symm hn, fun _ => rfl⟩
              · rename_i hh
                simp only [hh, Bool.not_false, if_true, Res.ok.injEq] at h3
                subst h3
                simp only [Res.pure_eq, Res.ok.injEq, Prod.mk.injEq] at h4
                refine ⟨fun _ => ⟨[], _, rfl, failure_of _⟩, fun h0 => ?_⟩
                rw [h0] at h4
                simp at h4

/-- When journal exits with a status other than 0, the last line on standard error says that it failed, or what
argument it lacks. -/
theorem C210_failed {e : Env} {f : Flags} {args : List Bytes} {path : Bytes} {w w' : World} {n : Nat} {o : Output} (hn : n ≠ 0)
    (h : main C J ord e f args path w = .ok (n, o, w')) :
    ∃ pre x, mainErr T C J e f args path w = pre ++ [x] ∧ Failure x := (told T C J ord h).1 hn

/-- When it exits with status 0 there is nothing on standard error. -/
theorem C210_quiet {e : Env} {f : Flags} {args : List Bytes} {path : Bytes} {w w' : World} {o : Output}
    (h : main C J ord e f args path w = .ok (0, o, w')) : mainErr T C J e f args path w = [] := (told T C J ord h).2 rfl

/-- Editing an entry, with nothing said. -/
example : ∃ b w', main C J ord exEnv { edit := true } [[97]] [102] (exWorld b [some [112, 119]]) = .ok (0, .nothing, w') ∧
    mainErr T C J exEnv { edit := true } [[97]] [102] (exWorld b [some [112, 119]]) = [] := by
  obtain ⟨b, hb⟩ := exFile C J 0 (Or.inl rfl)
  obtain ⟨w', h⟩ := edit_works C J ord (e := exEnv) (f := { edit := true }) (title := [97]) (path := [102])
    (w := exWorld b [some [112, 119]]) (by decide) ⟨rfl, rfl⟩ rfl ⟨b, by simp [exWorld], hb⟩ rfl
    (exStore_lookup _ _) rfl (exEdited _) rfl (exRng _ _) rfl (exClock 0 (by decide))
  exact ⟨b, w', h, C210_quiet T C J ord h⟩

/-- `journal -e` without a title. -/
example (e : Env) (w : World) : main C J ord e { edit := true } [] [102] w = .ok (1, .nothing, w) ∧
    mainErr T C J e { edit := true } [] [102] w = [report (ascii "Not enough arguments: want 1, have 0."), report (ascii "Want: title")] := by
  constructor
  · rfl
  · unfold mainErr
    simp [errorf_eq]
    exact ⟨rfl, rfl⟩

/-! ### C211: titles that are not there, and titles that are given up -/

/-- Showing or editing an entry that is not in the journal fails for that reason, and nothing else is said or done. -/
theorem C211_absent (e : Env) {f : Flags} {title path pass : Bytes} {w : World} {rest : List (Option Bytes)} {s : SecretStore} (hd : path ≠ dash)
    (hf : f.init = false ∧ (f.edit = true ∨ f.list = false ∧ f.write = false)) (ha : w.term.answers = some pass :: rest)
    (ho : Opens C J w.fs path pass f.mode s) (hh : s.has title = false) :
    main C J ord e f [title] path w = .ok (1, .nothing, { w with term := ⟨rest, w.term.clock⟩ }) ∧
    mainErr T C J e f [title] path w = [report (ascii "Failed: entry not found")] := by
  rw [main_loads C J ord hd hf.1 ha ho, err_of T C J hd hf.1 ha ho]
  unfold run runErr
  cases he : f.edit with
  | true =>
    simp only [if_true, List.headD_cons, editEntry, editEntryErr, hh, Bool.not_false, Res.ok_bind, finish, finishErr]
    exact ⟨trivial, rfl⟩
  | false =>
    obtain ⟨h1, h2⟩ := hf.2.resolve_left (by simp [he])
    simp only [h1, h2, Bool.false_eq_true, if_false, List.headD_cons, showEntry, hh, Bool.not_false, if_true, Res.ok_bind, Res.pure_eq]
    exact ⟨trivial, rfl⟩

/-- Of a title that is there that is not said: showing the entry says nothing. -/
theorem C211_shown {e : Env} {f : Flags} {title path pass : Bytes} {w : World} {rest : List (Option Bytes)} {s : SecretStore} (hd : path ≠ dash)
    (hf : f.init = false ∧ f.edit = false ∧ f.list = false ∧ f.write = false) (ha : w.term.answers = some pass :: rest)
    (ho : Opens C J w.fs path pass f.mode s) (hh : s.has title = true) : mainErr T C J e f [title] path w = [] := by
  obtain ⟨h1, h2, h3, h4⟩ := hf
  rw [err_of T C J hd h1 ha ho]
  unfold runErr
  simp only [h2, h3, h4, Bool.false_eq_true, if_false, List.headD_cons, hh, if_true]

/-- Writing an entry whose title is taken, and giving no other, fails for that reason, and nothing else is said or done. -/
theorem C211_aborted (e : Env) {f : Flags} {arg path pass a : Bytes} {w : World} {rest : List (Option Bytes)} {s : SecretStore} (hd : path ≠ dash)
    (hf : f.init = false ∧ f.edit = false ∧ f.list = false ∧ f.write = true) (ha : w.term.answers = some pass :: some a :: some [] :: rest)
    (ho : Opens C J w.fs path pass f.mode s) (hh : s.has (trimSpace arg) = true) (hy : ¬ Yes a) :
    main C J ord e f [arg] path w = .ok (1, .nothing, { w with term := ⟨rest, w.term.clock⟩ }) ∧
    mainErr T C J e f [arg] path w = [report (ascii "Failed: user aborted entry")] := by
  obtain ⟨h1, h2, h3, h4⟩ := hf
  rw [main_loads C J ord hd h1 ha ho, err_of T C J hd h1 ha ho]
  have hy' : ¬ (lower a = ascii "y" ∨ lower a = ascii "yes") := hy
  unfold run runErr writeNew writeNewErr Term.read
  simp only [h2, h3, h4, Bool.false_eq_true, if_false, if_true, List.headD_cons, hh, hy', Res.ok_bind, finish, finishErr]
  exact ⟨trivial, rfl⟩

/-- `journal b` and `journal -w a`, of a journal with an entry "a". -/
example (e : Env) : ∃ b, mainErr T C J e {} [[98]] [102] (exWorld b [some [112, 119]]) = [report (ascii "Failed: entry not found")] ∧
    mainErr T C J e { write := true } [[97]] [102] (exWorld b [some [112, 119], some [110], some []]) = [report (ascii "Failed: user aborted entry")] := by
  obtain ⟨b, hb⟩ := exFile C J 0 (Or.inl rfl)
  have hh : (exStore [1, 2, 3] 7).has [98] = false := exMap_other (by decide) _ _
  refine ⟨b, (C211_absent T C J (fun _ => []) e (f := {}) (by decide) ⟨rfl, Or.inr ⟨rfl, rfl⟩⟩ rfl ⟨b, by simp [exWorld], hb⟩ hh).2,
    (C211_aborted T C J (fun _ => []) e (f := { write := true }) (rest := []) (by decide) ⟨rfl, rfl, rfl, rfl⟩ rfl ⟨b, by simp [exWorld], hb⟩ rfl (by unfold Yes; decide)).2⟩

/-! ### C212: entries that cannot be edited -/

/-- The editor fails, or its file cannot be made or read. -/
theorem runEditor_fails {e : Env} {data why : Bytes} (hy : (e.temp = none ∧ why = T.temp) ∨
      ∃ n, e.temp = some n ∧ ((∀ b, (e.edit b).2 = false) ∧ why = T.editor ∨ (∀ b, e.edit b = (none, true)) ∧ why = T.reread)) (w : World) :
    (runEditor e w data).1 = none ∧ editorErr T e w data = why := by
  unfold runEditor editorErr
  rcases hy with ⟨h, rfl⟩ | ⟨n, h, ⟨h2, rfl⟩ | ⟨h2, rfl⟩⟩
  · rw [h]
    exact ⟨rfl, rfl⟩
  · rw [h]
    simp [h2]
  · rw [h]
    simp [h2]

/-- When there is no temporary file, or the editor fails, or its file cannot be read, journal says why, exits with
status 1, and leaves the journal, and every file but the temporary one, as it was. Missing from the property: the text may not get into the
temporary file (`C212_violated`). -/
theorem C212_partial {e : Env} {f : Flags} {arg path pass why : Bytes} {w : World} {rest : List (Option Bytes)} {s : SecretStore} (hd : path ≠ dash)
    (hy : (e.temp = none ∧ why = T.temp) ∨
      ∃ n, e.temp = some n ∧ ((∀ b, (e.edit b).2 = false) ∧ why = T.editor ∨ (∀ b, e.edit b = (none, true)) ∧ why = T.reread))
    (hf : f.init = false ∧ (f.edit = true ∧ (∃ r, lookup s arg = some r) ∨
      f.edit = false ∧ f.list = false ∧ f.write = true ∧ s.has (trimSpace arg) = false))
    (ha : w.term.answers = some pass :: rest) (ho : Opens C J w.fs path pass f.mode s) :
    mainErr T C J e f [arg] path w = [report (ascii "Failed: " ++ why)] ∧
    ∃ w', main C J ord e f [arg] path w = .ok (1, .nothing, w') ∧ ∀ q, e.temp ≠ some q → w'.fs q = w.fs q := by
  obtain ⟨hi, hf⟩ := hf
  rw [main_loads C J ord hd hi ha ho, err_of T C J hd hi ha ho]
  have key : ∀ data (w1 : World), w1.fs = w.fs → ∃ w2, runEditor e w1 data = (none, w2) ∧ editorErr T e w1 data = why ∧ ∀ q, e.temp ≠ some q → w2.fs q = w.fs q := by
    intro data w1 hw1
    obtain ⟨h1, h2⟩ := runEditor_fails T (data := data) hy w1
    refine ⟨(runEditor e w1 data).2, by rw [← h1], h2, fun q hq => ?_⟩
    rw [← hw1]
    unfold runEditor
    cases ht : e.temp with
    | none => rfl
    | some n =>
      have hqn : q ≠ n := fun h => hq (by rw [ht, h])
      dsimp only
      split
      · rw [put_other hqn, put_other hqn, writeFile_other hqn, Fs.set_other _ _ hqn]
      · rw [put_other hqn, writeFile_other hqn, Fs.set_other _ _ hqn]
  have htemp : e.temp = none → why = T.temp := by
    intro h
    rcases hy with ⟨-, hy⟩ | ⟨n, hn, -⟩
    · exact hy
    · rw [h] at hn; cases hn
  unfold run runErr
  rcases hf with ⟨he, r, hl⟩ | ⟨he, hli, hwr, hh⟩
  · obtain ⟨w2, h1, h2, h3⟩ := key r.secret { w with term := ⟨rest, w.term.clock⟩ } rfl
    cases ht : e.temp with
    | none =>
      simp only [he, if_true, List.headD_cons, editEntry, editEntryErr, has_of_lookup hl, Bool.not_true, Bool.false_eq_true, if_false, ht, Res.ok_bind, finish, finishErr]
      exact ⟨by rw [htemp ht, errorf_eq], _, rfl, fun _ _ => rfl⟩
    | some n =>
      simp only [he, if_true, List.headD_cons, editEntry, editEntryErr, has_of_lookup hl, Bool.not_true, Bool.false_eq_true, if_false, ht, fetch_eq.mpr hl, Res.ok_bind,
        h1, h2, Res.pure_eq, finish, finishErr]
      exact ⟨by rw [errorf_eq], _, rfl, by rw [ht] at h3; exact h3⟩
  · obtain ⟨w2, h1, h2, h3⟩ := key (header (trimSpace arg) (e.date (w.term.clock 0))) { w with term := ⟨rest, fun n => w.term.clock (n + 1)⟩ } rfl
    cases ht : e.temp with
    | none =>
      simp only [he, hli, hwr, Bool.false_eq_true, if_false, if_true, List.headD_cons, writeNew, writeNewErr, hh, addEntry, newEntry, newEntryErr, Term.now, ht, h2, Res.ok_bind, finish, finishErr]
      exact ⟨by rw [errorf_eq], _, rfl, fun _ _ => rfl⟩
    | some n =>
      simp only [he, hli, hwr, Bool.false_eq_true, if_false, if_true, List.headD_cons, writeNew, writeNewErr, hh, addEntry, newEntry, newEntryErr, Term.now, ht, h1, h2, Res.ok_bind, finish, finishErr]
      exact ⟨by rw [errorf_eq], _, rfl, by rw [ht] at h3; exact h3⟩

/-- The same when the title is taken and the user chooses to edit that entry, or types some other title. -/
theorem C212_dialogue_partial {e : Env} {f : Flags} {arg path pass why yn : Bytes} {w : World} {rest : List (Option Bytes)} {s : SecretStore} (hd : path ≠ dash)
    (hy : (e.temp = none ∧ why = T.temp) ∨
      ∃ n, e.temp = some n ∧ ((∀ b, (e.edit b).2 = false) ∧ why = T.editor ∨ (∀ b, e.edit b = (none, true)) ∧ why = T.reread))
    (hf : f.init = false ∧ f.edit = false ∧ f.list = false ∧ f.write = true) (hh : s.has (trimSpace arg) = true)
    (ha : w.term.answers = some pass :: some yn :: rest) (ho : Opens C J w.fs path pass f.mode s)
    (hq : (lower yn = ascii "y" ∨ lower yn = ascii "yes") ∧ (∃ r, lookup s arg = some r) ∨
      ¬ (lower yn = ascii "y" ∨ lower yn = ascii "yes") ∧ ∃ title more, title ≠ [] ∧ rest = some title :: more) :
    mainErr T C J e f [arg] path w = [report (ascii "Failed: " ++ why)] ∧
    ∃ w', main C J ord e f [arg] path w = .ok (1, .nothing, w') ∧ ∀ q, e.temp ≠ some q → w'.fs q = w.fs q := by
  obtain ⟨hi, he, hli, hwr⟩ := hf
  rw [main_loads C J ord hd hi ha ho, err_of T C J hd hi ha ho]
  have key : ∀ data (w1 : World), w1.fs = w.fs → ∃ w2, runEditor e w1 data = (none, w2) ∧ editorErr T e w1 data = why ∧ ∀ q, e.temp ≠ some q → w2.fs q = w.fs q := by
    intro data w1 hw1
    obtain ⟨h1, h2⟩ := runEditor_fails T (data := data) hy w1
    refine ⟨(runEditor e w1 data).2, by rw [← h1], h2, fun q hq => ?_⟩
    rw [← hw1]
    unfold runEditor
    cases ht : e.temp with
    | none => rfl
    | some n =>
      have hqn : q ≠ n := fun h => hq (by rw [ht, h])
      dsimp only
      split
      · rw [put_other hqn, put_other hqn, writeFile_other hqn, Fs.set_other _ _ hqn]
      · rw [put_other hqn, writeFile_other hqn, Fs.set_other _ _ hqn]
  have htemp : e.temp = none → why = T.temp := by
    intro h
    rcases hy with ⟨-, hy⟩ | ⟨n, hn, -⟩
    · exact hy
    · rw [h] at hn; cases hn
  unfold run runErr
  rcases hq with ⟨hyes, r, hl⟩ | ⟨hno, title, more, hne, rfl⟩
  · obtain ⟨w2, h1, h2, h3⟩ := key r.secret { w with term := ⟨rest, w.term.clock⟩ } rfl
    cases ht : e.temp with
    | none =>
      simp only [he, hli, hwr, Bool.false_eq_true, if_false, if_true, List.headD_cons, writeNew, writeNewErr, hh, Term.read, hyes, editEntry, editEntryErr, has_of_lookup hl, Bool.not_true, ht, Res.ok_bind, finish, finishErr]
      exact ⟨by rw [htemp ht, errorf_eq], _, rfl, fun _ _ => rfl⟩
    | some n =>
      simp only [he, hli, hwr, Bool.false_eq_true, if_false, if_true, List.headD_cons, writeNew, writeNewErr, hh, Term.read, hyes, editEntry, editEntryErr, has_of_lookup hl, Bool.not_true, ht, fetch_eq.mpr hl, Res.ok_bind,
        h1, h2, Res.pure_eq, finish, finishErr]
      exact ⟨by rw [errorf_eq], _, rfl, by rw [ht] at h3; exact h3⟩
  · obtain ⟨w2, h1, h2, h3⟩ := key (header title (e.date (w.term.clock 0))) { w with term := ⟨more, fun n => w.term.clock (n + 1)⟩ } rfl
    cases ht : e.temp with
    | none =>
      simp only [he, hli, hwr, Bool.false_eq_true, if_false, if_true, List.headD_cons, writeNew, writeNewErr, hh, Term.read, hno, hne, addEntry, newEntry, newEntryErr, Term.now, ht, h2, Res.ok_bind, finish, finishErr]
      exact ⟨by rw [errorf_eq], _, rfl, fun _ _ => rfl⟩
    | some n =>
      simp only [he, hli, hwr, Bool.false_eq_true, if_false, if_true, List.headD_cons, writeNew, writeNewErr, hh, Term.read, hno, hne, addEntry, newEntry, newEntryErr, Term.now, ht, h1, h2, Res.ok_bind, finish, finishErr]
      exact ⟨by rw [errorf_eq], _, rfl, by rw [ht] at h3; exact h3⟩

/-- The title a is taken, the user types "no" and the title b, and the editor fails. -/
example : ∃ b w', mainErr T C J { exEnv with edit := fun b => (b, false) } { write := true } [[97]] [102] (exWorld b [some [112, 119], some (ascii "no"), some [98]]) =
      [report (ascii "Failed: " ++ T.editor)] ∧
    main C J ord { exEnv with edit := fun b => (b, false) } { write := true } [[97]] [102] (exWorld b [some [112, 119], some (ascii "no"), some [98]]) = .ok (1, .nothing, w') := by
  obtain ⟨b, hb⟩ := exFile C J 0 (Or.inl rfl)
  obtain ⟨h1, w', h2, -⟩ := C212_dialogue_partial T C J ord (e := { exEnv with edit := fun b => (b, false) }) (f := { write := true }) (arg := [97]) (path := [102])
    (w := exWorld b [some [112, 119], some (ascii "no"), some [98]]) (by decide) (Or.inr ⟨_, rfl, Or.inl ⟨fun _ => rfl, rfl⟩⟩) ⟨rfl, rfl, rfl, rfl⟩
    (has_of_lookup (exStore_lookup _ _)) rfl ⟨b, by simp [exWorld], hb⟩ (Or.inr ⟨by decide, [98], [], by decide, rfl⟩)
  exact ⟨b, w', h1, h2⟩

/-- C212 is false when the text does not get into the temporary file: the entry is replaced by nothing, and there is not
a word about it on standard output or standard error. -/
theorem C212_violated (M : Model.JournalOutput.Messages) : ∃ (e : Env) (w w' : World) (s s' : SecretStore),
    e.edit = (fun b => (b, true)) ∧ e.write = .failsAfter 0 ∧ main C J ord e { edit := true } [[97]] [102] w = .ok (0, .nothing, w') ∧
    Opens C J w.fs [102] [112, 119] 0 s ∧ secretOf s [97] = some [1, 2, 3] ∧
    Opens C J w'.fs [102] [112, 119] 0 s' ∧ secretOf s' [97] = some [] ∧
    mainErr T C J e { edit := true } [[97]] [102] w = [] ∧ Model.JournalOutput.mainText C J ord e M { edit := true } [[97]] [102] w = [] := by
  obtain ⟨b, hb⟩ := exFile C J 0 (Or.inl rfl)
  obtain ⟨w', h⟩ := edit_works C J ord (e := { exEnv with write := .failsAfter 0, edit := fun b => (b, true) }) (text := [])
    (f := { edit := true }) (title := [97]) (path := [102])
    (w := exWorld b [some [112, 119]]) (by decide) ⟨rfl, rfl⟩ rfl ⟨b, by simp [exWorld], hb⟩ rfl
    (exStore_lookup _ _) rfl ⟨[], Or.inr (Or.inr ⟨0, rfl, rfl⟩), rfl⟩ rfl (exRng _ _) rfl (exClock 0 (by decide))
  obtain ⟨pass, s, s', r, text, h1, h2, h3, h4, ⟨seen, h5, h6⟩, h7, h8⟩ := C114_edit C J ord _ _ [97] [102] _ w' _ (by decide) ⟨rfl, rfl⟩ h
  cases h1
  have hs : s = exStore [1, 2, 3] 7 := by
    obtain ⟨b', hb', hus⟩ := h2
    have : b' = b := by simpa [exWorld] using hb'.symm
    subst this
    have e1 : unmarshalSecretStore C J b' [112, 119] 0 = .ok (some s) := hus
    rw [hb] at e1
    cases e1
    rfl
  refine ⟨{ exEnv with write := .failsAfter 0, edit := fun b => (b, true) }, _, w', s, s', rfl, rfl, h, h2, by rw [hs]; rfl, h3, ?_, C210_quiet T C J ord h, ?_⟩
  · unfold secretOf
    rw [h7]
    rcases h5 with ⟨h5, -⟩ | ⟨h5, -⟩ | ⟨j, h5, rfl⟩
    · cases h5
    · cases h5
    · cases h5
      cases h6
      rfl
  · rw [JournalOutput.text_of C J ord (by decide) rfl rfl h2]
    simp only [if_true, Model.JournalOutput.editEntryText, has_of_lookup h4, Bool.not_true, Bool.false_eq_true, if_false, fetch_eq.mpr h4]
    simp [Model.JournalOutput.editorText, exEnv, Go.writeFile]

/-- An editor that does not start. -/
example : ∃ b, mainErr T C J { exEnv with edit := fun b => (b, false) } { edit := true } [[97]] [102] (exWorld b [some [112, 119]]) =
    [report (ascii "Failed: " ++ T.editor)] := by
  obtain ⟨b, hb⟩ := exFile C J 0 (Or.inl rfl)
  exact ⟨b, (C212_partial T C J (fun _ => []) (f := { edit := true }) (e := { exEnv with edit := fun b => (b, false) }) (by decide)
    (Or.inr ⟨[116], rfl, Or.inl ⟨fun _ => rfl, rfl⟩⟩) ⟨rfl, Or.inl ⟨rfl, _, exStore_lookup _ _⟩⟩ rfl ⟨b, by simp [exWorld], hb⟩).1⟩

/-! ### C213: what can be on standard error -/

/-- All that journal writes to standard error is one of a few lines, which are known from the path of the journal alone,
but for the texts of errors of the system: no title, no text and no passphrase is among them. -/
theorem C213_vocabulary {e : Env} {f : Flags} {args : List Bytes} {path : Bytes} {w : World} :
    ∀ x ∈ mainErr T C J e f args path w, x ∈ vocabulary T path := by
  intro x hx
  unfold mainErr at hx
  split at hx
  · rcases initMainErr_mem _ C J hx with rfl | ⟨r, hr, rfl⟩
    · simp [vocabulary]
    · refine List.mem_append_left _ (List.mem_map.mpr ⟨r, ?_, rfl⟩)
      simp only [List.mem_cons, List.not_mem_nil, or_false] at hr
      rcases hr with rfl | rfl | rfl | rfl <;> simp [reasons]
  · by_cases hlt : args.length < (if f.edit = true then 1 else if f.list = true then 0 else 1)
    · rw [if_pos hlt] at hx
      have h0 : args.length = 0 ∧ (if f.edit = true then 1 else if f.list = true then 0 else 1) = 1 := by
        revert hlt
        split
        · omega
        · split <;> omega
      rw [h0.1, h0.2] at hx
      simp only [List.mem_cons, List.not_mem_nil, or_false, errorf_eq] at hx
      rcases hx with rfl | rfl
      · rw [show ascii "Not enough arguments: want " ++ decimal 1 ++ ascii ", have " ++ decimal 0 ++ ascii "." =
          ascii "Not enough arguments: want 1, have 0." from by decide]
        simp [vocabulary]
      · rw [show ascii "Want: " ++ ascii "title" = ascii "Want: title" from by decide]
        simp [vocabulary]
    · rw [if_neg hlt] at hx
      rcases List.mem_append.mp hx with hx | hx
      · rcases loadErr_mem _ hx with rfl | rfl <;> simp [vocabulary]
      · split at hx
        · simp at hx
        · rw [List.mem_singleton.mp hx, errorf_eq]; simp [vocabulary]
        · exact runErr_mem C J T hx

/-- A file that does not exist is named. -/
example (e : Env) : mainErr T C J e { list := true } [] [103] (exWorld [] [some [112, 119]]) =
    [report (ascii "could not find g"), report (ascii "Failed to open password store")] := by
  unfold mainErr
  simp [Flags.mode, loadStore, loadErr, Term.read, exWorld, World.exist, Fs.set_other _ _ (show ([103] : Bytes) ≠ [102] by decide),
    show ([103] : Bytes) ≠ dash by decide]
  exact ⟨rfl, rfl⟩

/-! ### C214: a journal that does not open -/

/-- When the passphrase does not open the file, whatever the reason, and whatever was asked for, journal writes the
same line and no other, prints nothing, exits with status 1, and has read nothing but the passphrase. -/
theorem C214_unopened (e : Env) (M : Model.JournalOutput.Messages) {f : Flags} {args : List Bytes} {path pass b : Bytes} {rest : List (Option Bytes)} {w : World} (hd : path ≠ dash)
    (hi : f.init = false) (hargs : args ≠ [] ∨ f.edit = false ∧ f.list = true) (ha : w.term.answers = some pass :: rest) (hb : w.fs path = some b)
    (hu : ∀ s, ¬ Opens C J w.fs path pass f.mode s) :
    main C J ord e f args path w = .ok (1, .nothing, { w with term := { w.term with answers := rest } }) ∧
    Model.JournalOutput.mainText C J ord e M f args path w = [] ∧
    mainErr T C J e f args path w = [report (ascii "Failed to open password store")] := by
  obtain ⟨hl, he⟩ := load_shut T.toTexts C J hd ha hb hu
  have hlt : ¬ args.length < (if f.edit = true then 1 else if f.list = true then 0 else 1) := by
    rcases hargs with h | ⟨h1, h2⟩
    · have : 0 < args.length := List.length_pos_iff.mpr h
      split
      · omega
      · split <;> omega
    · simp [h1, h2]
  refine ⟨?_, ?_, ?_⟩
  · unfold main
    rw [hi, if_neg (by simp), if_neg hlt, hl]
    rfl
  · unfold Model.JournalOutput.mainText
    rw [hi, if_neg (by simp), if_neg hlt, hl]
  · unfold mainErr
    rw [hi, if_neg (by simp), if_neg hlt, hl, he]
    rfl

/-- An empty file does not open. -/
example (e : Env) (M : Model.JournalOutput.Messages) : mainErr T C J e { list := true } [] [102] (exWorld [] [some [112, 119]]) =
    [report (ascii "Failed to open password store")] :=
  (C214_unopened T C J (fun _ => []) e M (f := { list := true }) (by decide) rfl (Or.inr ⟨rfl, rfl⟩) (pass := [112, 119]) (rest := []) rfl (b := [])
    (by simp [exWorld]) (by
      rintro s ⟨b, hb, hu⟩
      simp only [exWorld, Fs.set_same, Option.some.injEq] at hb
      subst hb
      simp [unmarshalSecretStore] at hu)).2.2

end Verif.Props.JournalErrors
