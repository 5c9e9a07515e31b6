import Verif.Proofs.Otpc
import Verif.Spec.Journal
/-! Lemmas about the model of journal. -/

namespace Verif.Proofs.Journal
open Verif Verif.Go Verif.Model.Util Verif.Model.SecretStore Verif.Model.Journal
open Verif.Model.Secrets (World loadStore writeStore assign fetch dash)
open Verif.Spec.SecretStore Verif.Spec.Secrets Verif.Spec.Journal Verif.Proofs.SecretStore
open Verif.Proofs.Secrets hiding fmode
open Verif.Proofs.Otpc (load_ok load_some has_of_lookup)

variable (C : Crypto) (J : Json) (ord : Map (Option SecretRecord) → List Bytes)

theorem fmode (f : Flags) : f.mode = 0 ∨ f.mode = 1 := by
  unfold Model.Journal.Flags.mode
  split
  · exact Or.inr rfl
  · exact Or.inl rfl

/-! ### The editor -/

theorem put_other {fs : Fs} {p q : Path} {b : Option Bytes} (h : q ≠ p) : put fs p b q = fs q := by simp [put, h]

theorem put_same (fs : Fs) (p : Path) (b : Option Bytes) : put fs p b p = b := by simp [put]

theorem given_write {e : Env} {fs : Fs} {n : Path} {data : Bytes} :
    ∃ seen, (Go.writeFile e.write (fs.set n []) n data).1 n = some seen ∧ Given e data seen := by
  unfold Go.writeFile
  cases h : e.write with
  | done => exact ⟨data, by simp, Or.inl ⟨h, rfl⟩⟩
  | openFails => exact ⟨[], by simp, Or.inr (Or.inl ⟨h, rfl⟩)⟩
  | failsAfter k => exact ⟨data.take k, by simp, Or.inr (Or.inr ⟨k, h, rfl⟩)⟩

theorem given_unique {e : Env} {data a b : Bytes} (h1 : Given e data a) (h2 : Given e data b) : a = b := by
  rcases h1 with ⟨h, rfl⟩ | ⟨h, rfl⟩ | ⟨k, h, rfl⟩ <;> rcases h2 with ⟨g, rfl⟩ | ⟨g, rfl⟩ | ⟨j, g, rfl⟩ <;> simp_all

theorem writeFile_other {o : WriteOutcome} {fs : Fs} {p q : Path} {data : Bytes} (h : q ≠ p) :
    (Go.writeFile o fs p data).1 q = fs q := by
  unfold Go.writeFile
  split
  · exact Fs.set_other _ _ h
  · rfl
  · exact Fs.set_other _ _ h

/-- What running the editor does to the world. -/
theorem runEditor_world {e : Env} {w w2 : World} {data : Bytes} {o : Option Bytes} (h : runEditor e w data = (o, w2)) :
    w2 = { w with fs := w2.fs } ∧ (∀ q, e.temp ≠ some q → w2.fs q = w.fs q) ∧
      (e.removes = true → ∀ q, e.temp = some q → w2.fs q = none) := by
  unfold runEditor at h
  cases ht : e.temp with
  | none =>
    simp only [ht, Prod.mk.injEq] at h
    rw [← h.2]
    simp
  | some n =>
    simp only [ht, Prod.mk.injEq] at h
    rw [← h.2]
    refine ⟨rfl, fun q hq => ?_, fun hr q hq => ?_⟩
    · have hq : q ≠ n := fun h => hq (by rw [h])
      simp only
      split
      · rw [put_other hq, put_other hq, writeFile_other hq, Fs.set_other _ _ hq]
      · rw [put_other hq, writeFile_other hq, Fs.set_other _ _ hq]
    · cases hq
      simp only [hr, if_true]
      exact put_same _ _ _

theorem runEditor_some {e : Env} {w w2 : World} {data text : Bytes} (h : runEditor e w data = (some text, w2)) :
    Edited e data text := by
  unfold runEditor at h
  cases ht : e.temp with
  | none => simp [ht] at h
  | some n =>
    simp only [ht, Prod.mk.injEq] at h
    obtain ⟨seen, h1, h2⟩ := given_write (e := e) (fs := w.fs) (n := n) (data := data)
    rw [h1] at h
    obtain ⟨h, -⟩ := h
    refine ⟨seen, h2, ?_⟩
    split at h
    · rename_i hb
      exact Prod.ext h hb
    · simp at h

theorem runEditor_ok {e : Env} {n : Path} (ht : e.temp = some n) {data text : Bytes} (h : Edited e data text) (w : World) :
    ∃ fs, runEditor e w data = (some text, { w with fs := fs }) := by
  obtain ⟨seen, h2, h3⟩ := h
  obtain ⟨seen', h1, h2'⟩ := given_write (e := e) (fs := w.fs) (n := n) (data := data)
  cases given_unique h2 h2'
  unfold runEditor
  simp only [ht, h1, h3, if_true]
  exact ⟨_, rfl⟩

/-! ### The commands -/

/-- How the world may change before the journal is saved. -/
structure Steps (e : Env) (w w2 : World) : Prop where
  same : ∃ t fs, w2 = { w with term := t, fs := fs }
  other : ∀ q, e.temp ≠ some q → w2.fs q = w.fs q
  gone : e.removes = true → Fresh e w.fs → w2.fs = w.fs

theorem Steps.term (e : Env) (w : World) (t : Term) : Steps e w { w with term := t } :=
  ⟨⟨t, w.fs, rfl⟩, fun _ _ => rfl, fun _ _ => rfl⟩

theorem Steps.refl (e : Env) (w : World) : Steps e w w := Steps.term e w w.term

theorem Steps.trans {e : Env} {a b c : World} (h1 : Steps e a b) (h2 : Steps e b c) : Steps e a c := by
  obtain ⟨⟨t, fs, rfl⟩, h3, h4⟩ := h1
  obtain ⟨⟨t2, fs2, rfl⟩, h5, h6⟩ := h2
  refine ⟨⟨t2, fs2, rfl⟩, fun q hq => (h5 q hq).trans (h3 q hq), fun hr hf => ?_⟩
  have := h4 hr hf
  simp only at this h6 ⊢
  subst this
  exact h6 hr hf

theorem runEditor_steps {e : Env} {w w2 : World} {data : Bytes} {o : Option Bytes} (h : runEditor e w data = (o, w2)) :
    Steps e w w2 := by
  obtain ⟨h1, h2, h3⟩ := runEditor_world h
  refine ⟨⟨w.term, w2.fs, h1⟩, h2, fun hr hf => funext fun q => ?_⟩
  by_cases hq : e.temp = some q
  · rw [h3 hr q hq, hf q hq]
  · exact h2 q hq

theorem newEntry_steps {e : Env} {w w2 : World} {title : Bytes} {o : Option Bytes} (h : newEntry e w title = (o, w2)) :
    Steps e w w2 ∧ ∀ text, o = some text → Edited e (header title (e.date (w.term.clock 0))) text ∧
      w2.term = ⟨w.term.answers, fun n => w.term.clock (n + 1)⟩ := by
  unfold newEntry at h
  cases ht : e.temp with
  | none =>
    simp only [ht, Prod.mk.injEq] at h
    obtain ⟨rfl, rfl⟩ := h
    exact ⟨Steps.refl _ _, by simp⟩
  | some n =>
    simp only [ht, Term.now] at h
    refine ⟨(Steps.term e w _).trans (runEditor_steps h), ?_⟩
    rintro text rfl
    refine ⟨runEditor_some h, ?_⟩
    rw [(runEditor_world h).1]

/-- What editing an entry did. -/
theorem editEntry_some {e : Env} {w w2 : World} {ps ps' : SecretStore} {title : Bytes} {b : Bool}
    (h : editEntry e w ps title = .ok (b, ps', w2)) :
    Steps e w w2 ∧ (b = true → ∃ r m text, lookup ps title = some r ∧ ps.store = some m ∧ Edited e r.secret text ∧
      ps' = { ps with store := some (m.set title (some { r with secret := text })) } ∧ w2.term = w.term) := by
  unfold editEntry at h
  split at h
  · simp only [Res.ok.injEq, Prod.mk.injEq] at h
    obtain ⟨rfl, rfl, rfl⟩ := h
    exact ⟨Steps.refl _ _, by simp⟩
  · split at h
    · simp only [Res.ok.injEq, Prod.mk.injEq] at h
      obtain ⟨rfl, rfl, rfl⟩ := h
      exact ⟨Steps.refl _ _, by simp⟩
    · obtain ⟨r, h1, h2⟩ := Res.bind_eq_ok.mp h
      split at h2
      · rename_i hr
        simp only [Res.pure_eq, Res.ok.injEq, Prod.mk.injEq] at h2
        obtain ⟨rfl, rfl, rfl⟩ := h2
        exact ⟨runEditor_steps hr, by simp⟩
      · rename_i text w3 hr
        obtain ⟨ps2, h3, h4⟩ := Res.bind_eq_ok.mp h2
        simp only [Res.pure_eq, Res.ok.injEq, Prod.mk.injEq] at h4
        obtain ⟨rfl, rfl, rfl⟩ := h4
        obtain ⟨m, h5, h6⟩ := assign_eq.mp h3
        refine ⟨runEditor_steps hr, fun _ => ⟨r, m, text, fetch_eq.mp h1, h5, runEditor_some hr, h6, ?_⟩⟩
        rw [(runEditor_world hr).1]

theorem addEntry_some {e : Env} {w w2 : World} {ps ps' : SecretStore} {title : Bytes} {b : Bool}
    (h : addEntry e w ps title = .ok (b, ps', w2)) :
    Steps e w w2 ∧ (b = true → ∃ m text, ps.store = some m ∧ Edited e (header title (e.date (w.term.clock 0))) text ∧
      ps' = { ps with store := some (m.set title (some ⟨title, w.term.clock 1, text, none⟩)) } ∧
      w2.term = ⟨w.term.answers, fun n => w.term.clock (n + 2)⟩) := by
  unfold addEntry at h
  split at h
  · rename_i w1 hn
    simp only [Res.ok.injEq, Prod.mk.injEq] at h
    obtain ⟨rfl, rfl, rfl⟩ := h
    exact ⟨(newEntry_steps hn).1, by simp⟩
  · rename_i text w1 hn
    simp only [Term.now] at h
    obtain ⟨ps2, h3, h4⟩ := Res.bind_eq_ok.mp h
    simp only [Res.pure_eq, Res.ok.injEq, Prod.mk.injEq] at h4
    obtain ⟨rfl, rfl, rfl⟩ := h4
    obtain ⟨m, h5, h6⟩ := assign_eq.mp h3
    obtain ⟨s1, s2⟩ := newEntry_steps hn
    obtain ⟨s3, s4⟩ := s2 text rfl
    refine ⟨s1.trans (Steps.term _ _ _), fun _ => ⟨m, text, h5, s3, ?_, ?_⟩⟩
    · rw [h6, s4]
    · rw [s4]

/-- The three ways to write an entry: edit the one there is, write one under another title, write
a new one. -/
theorem writeNew_some {e : Env} {w w2 : World} {ps ps' : SecretStore} {arg : Bytes} {b : Bool}
    (h : writeNew e w ps arg = .ok (b, ps', w2)) :
    Steps e w w2 ∧ (b = true →
      (ps.has (trimSpace arg) = true ∧ ∃ a rest, w.term.answers = some a :: rest ∧ Yes a ∧
        editEntry e { w with term := ⟨rest, w.term.clock⟩ } ps arg = .ok (true, ps', w2)) ∨
      (ps.has (trimSpace arg) = true ∧ ∃ a title rest, w.term.answers = some a :: some title :: rest ∧ ¬ Yes a ∧ title ≠ [] ∧
        addEntry e { w with term := ⟨rest, w.term.clock⟩ } ps title = .ok (true, ps', w2)) ∨
      (ps.has (trimSpace arg) = false ∧ addEntry e w ps (trimSpace arg) = .ok (true, ps', w2))) := by
  unfold writeNew at h
  simp only at h
  split at h
  · rename_i hh
    unfold Term.read at h
    cases ha : w.term.answers with
    | nil =>
      simp only [ha, Res.ok.injEq, Prod.mk.injEq] at h
      obtain ⟨rfl, rfl, rfl⟩ := h
      exact ⟨Steps.term _ _ _, by simp⟩
    | cons a rest =>
      cases a with
      | none =>
        simp only [ha, Res.ok.injEq, Prod.mk.injEq] at h
        obtain ⟨rfl, rfl, rfl⟩ := h
        exact ⟨Steps.term _ _ _, by simp⟩
      | some a =>
        simp only [ha] at h
        split at h
        · rename_i hy
          refine ⟨(Steps.term e w _).trans (editEntry_some h).1, ?_⟩
          rintro rfl
          exact Or.inl ⟨hh, a, rest, rfl, hy, h⟩
        · rename_i hy
          cases rest with
          | nil =>
            simp only [Res.ok.injEq, Prod.mk.injEq] at h
            obtain ⟨rfl, rfl, rfl⟩ := h
            exact ⟨Steps.term _ _ _, by simp⟩
          | cons t rest =>
            cases t with
            | none =>
              simp only [Res.ok.injEq, Prod.mk.injEq] at h
              obtain ⟨rfl, rfl, rfl⟩ := h
              exact ⟨Steps.term _ _ _, by simp⟩
            | some title =>
              simp only at h
              split at h
              · simp only [Res.ok.injEq, Prod.mk.injEq] at h
                obtain ⟨rfl, rfl, rfl⟩ := h
                exact ⟨Steps.term _ _ _, by simp⟩
              · rename_i hne
                refine ⟨(Steps.term e w _).trans (addEntry_some h).1, ?_⟩
                rintro rfl
                exact Or.inr (Or.inl ⟨hh, a, title, rest, rfl, hy, hne, h⟩)
  · rename_i hh
    refine ⟨(addEntry_some h).1, ?_⟩
    rintro rfl
    exact Or.inr (Or.inr ⟨by simpa using hh, h⟩)

/-! ### Saving -/

theorem finish_ok {w : World} {ps : SecretStore} {path : Bytes} {mode : Int} {m : Map (Option SecretRecord)}
    {p : Bytes} (hd : path ≠ dash) (hm : mode = 0 ∨ mode = 1) (hw : w.write = .done) (hr : 56 ≤ w.rng.length)
    (h1 : ps.version = 1) (h2 : w.term.clock 0 ≠ 0) (h3 : ps.store = some m) (h4 : ps.passphrase = some p) :
    ∃ out w', finish C J path mode (true, ps, w) = .ok (0, .nothing, w') ∧ w'.fs = w.fs.set path out ∧
      IsFile C out p mode (J.enc { ps.toFields with timestamp := w.term.clock 0 }) := by
  have hv : ({ ps with timestamp := w.term.clock 0 } : SecretStore).valid = true :=
    (valid_iff _).mpr ⟨h1, h2, ⟨m, h3⟩, p, h4⟩
  obtain ⟨out, hout⟩ := marshal_ok C J hv hm hr
  obtain ⟨-, -, q, hq, hfile⟩ := marshal_some C J hout
  simp only at hq
  rw [h4] at hq
  cases hq
  refine ⟨out, { w with term := ⟨w.term.answers, fun n => w.term.clock (n + 1)⟩, rng := w.rng.drop 56, fs := w.fs.set path out }, ?_, rfl, hfile⟩
  unfold finish writeStore
  simp only [Term.now, hout, Res.ok_bind, Res.pure_eq, World.writeFile, hd, if_false, Go.writeFile, hw, if_true]

theorem finish_some {w w' : World} {ps : SecretStore} {path : Bytes} {mode : Int} {b : Bool} {st : Nat} {o : Output}
    (hd : path ≠ dash) (h : finish C J path mode (b, ps, w) = .ok (st, o, w')) :
    o = .nothing ∧ (∀ q, q ≠ path → w'.fs q = w.fs q) ∧
    ((b = true ∧ st = 0 ∧ ∃ p out, ps.passphrase = some p ∧ w.write = .done ∧ ps.version = 1 ∧ w.term.clock 0 ≠ 0 ∧
      IsFile C out p mode (J.enc { ps.toFields with timestamp := w.term.clock 0 }) ∧ w'.fs = w.fs.set path out) ∨
    (st = 1 ∧ ((∀ k, w.write ≠ .failsAfter k) → w'.fs = w.fs))) := by
  unfold finish at h
  cases b with
  | false =>
    simp only [Res.ok.injEq, Prod.mk.injEq] at h
    obtain ⟨rfl, rfl, rfl⟩ := h
    simp
  | true =>
    simp only [Term.now] at h
    obtain ⟨⟨w3, ok⟩, h1, h2⟩ := Res.bind_eq_ok.mp h
    simp only [Res.pure_eq, Res.ok.injEq, Prod.mk.injEq] at h2
    obtain ⟨rfl, rfl, rfl⟩ := h2
    refine ⟨rfl, fun q hq => ?_, ?_⟩
    · unfold writeStore at h1
      obtain ⟨⟨out, s2, rng⟩, h3, h4⟩ := Res.bind_eq_ok.mp h1
      cases out with
      | none =>
        simp only [Res.pure_eq, Res.ok.injEq, Prod.mk.injEq] at h4
        rw [← h4.1]
      | some out =>
        simp only [Res.pure_eq, World.writeFile, hd, if_false, Res.ok.injEq, Prod.mk.injEq] at h4
        rw [← h4.1]
        exact writeFile_other hq
    · cases ok with
      | false =>
        right
        refine ⟨rfl, fun hw => ?_⟩
        have := writeStore_failed C J h1 hw
        exact this
      | true =>
        left
        refine ⟨rfl, rfl, ?_⟩
        unfold writeStore at h1
        obtain ⟨⟨out, s2, rng⟩, h3, h4⟩ := Res.bind_eq_ok.mp h1
        cases out with
        | none => simp at h4
        | some out =>
          obtain ⟨hv, -, p', hp', hfile⟩ := marshal_some C J h3
          obtain ⟨v1, v2, -, -⟩ := (valid_iff _).mp hv
          simp only [Res.pure_eq, World.writeFile, hd, if_false, Res.ok.injEq, Prod.mk.injEq] at h4
          unfold Go.writeFile at h4
          cases hwr : w.write with
          | done =>
            simp only [hwr] at h4
            exact ⟨p', out, hp', rfl, v1, v2, hfile, by rw [← h4.1]⟩
          | openFails => simp [hwr] at h4
          | failsAfter k => simp [hwr] at h4

/-! ### The program -/

/-- A run but for -init: it stops early, or runs a command on the journal. -/
theorem main_run {e : Env} {f : Flags} {args : List Bytes} {path : Bytes} {w w' : World} {st : Nat} {o : Output} (hd : path ≠ dash)
    (hi : f.init = false) (h : main C J ord e f args path w = .ok (st, o, w')) :
    (st = 1 ∧ w'.fs = w.fs) ∨
    ∃ pass rest s, w.term.answers = some pass :: rest ∧ Opens C J w.fs path pass f.mode s ∧
      run C J ord e f args path { w with term := ⟨rest, w.term.clock⟩ } s = .ok (st, o, w') := by
  unfold main at h
  rw [hi] at h
  simp only [Bool.false_eq_true, if_false] at h
  by_cases hl : args.length < (if f.edit = true then 1 else if f.list = true then 0 else 1)
  · rw [if_pos hl] at h
    simp only [Res.ok.injEq, Prod.mk.injEq] at h
    left
    exact ⟨h.1.symm, by rw [← h.2.2]⟩
  · rw [if_neg hl] at h
    obtain ⟨⟨x, w1⟩, h1, h2⟩ := Res.bind_eq_ok.mp h
    cases x with
    | none =>
      left
      obtain ⟨t, rfl⟩ := loadStore_world C J h1
      simp only [Res.pure_eq, Res.ok.injEq, Prod.mk.injEq] at h2
      exact ⟨h2.1.symm, by rw [← h2.2.2]⟩
    | some s =>
      right
      obtain ⟨pass, rest, ha, hop, rfl⟩ := load_some C J hd h1
      exact ⟨pass, rest, s, ha, hop, h2⟩

theorem main_loads {e : Env} {f : Flags} {arg path pass : Bytes} {w : World} {rest : List (Option Bytes)} {s : SecretStore}
    (hd : path ≠ dash) (hi : f.init = false) (ha : w.term.answers = some pass :: rest) (ho : Opens C J w.fs path pass f.mode s) :
    main C J ord e f [arg] path w = run C J ord e f [arg] path { w with term := ⟨rest, w.term.clock⟩ } s := by
  unfold main
  have hl : ¬ [arg].length < (if f.edit = true then 1 else if f.list = true then 0 else 1) := by
    simp only [List.length_singleton]
    split
    · simp
    · split <;> simp
  rw [hi, if_neg (by simp), if_neg hl, load_ok C J hd ha ho]
  rfl

/-- A successful edit. -/
theorem edit_exit {e : Env} {f : Flags} {title path : Bytes} {w w' : World} {o : Output} (hd : path ≠ dash)
    (hi : f.init = false) (he : f.edit = true) (h : main C J ord e f [title] path w = .ok (0, o, w')) :
    ∃ pass rest s r m text out, w.term.answers = some pass :: rest ∧ Opens C J w.fs path pass f.mode s ∧
      lookup s title = some r ∧ s.store = some m ∧ Edited e r.secret text ∧ w'.fs path = some out ∧
      IsFile C out pass f.mode (J.enc { s.toFields with store := some (m.set title (some { r with secret := text })), timestamp := w.term.clock 0 }) := by
  rcases main_run C J ord hd hi h with ⟨h1, -⟩ | ⟨pass, rest, s, ha, ho, hr⟩
  · cases h1
  · unfold run at hr
    rw [he] at hr
    simp only [if_true, List.headD_cons] at hr
    obtain ⟨⟨b, ps, w2⟩, h1, h2⟩ := Res.bind_eq_ok.mp hr
    obtain ⟨-, -, h3⟩ := finish_some C J hd h2
    rcases h3 with ⟨rfl, -, p, out, k1, k2, k3, k4, k5, k6⟩ | ⟨h3, -⟩
    · obtain ⟨-, hs⟩ := editEntry_some h1
      obtain ⟨r, m, text, e1, e2, e3, rfl, e5⟩ := hs rfl
      obtain ⟨b', -, hu⟩ := id ho
      obtain ⟨-, -, hp⟩ := opens_fields C J hu
      simp only at k1
      rw [hp] at k1
      cases k1
      rw [e5] at k5
      exact ⟨pass, rest, s, r, m, text, out, ha, ho, e1, e2, e3, by rw [k6]; simp, k5⟩
    · cases h3

/-- A successful -w. -/
theorem write_exit {e : Env} {f : Flags} {arg path : Bytes} {w w' : World} {o : Output} (hd : path ≠ dash)
    (hf : f.init = false ∧ f.edit = false ∧ f.list = false ∧ f.write = true) (h : main C J ord e f [arg] path w = .ok (0, o, w')) :
    ∃ pass rest s m title r out t, w.term.answers = some pass :: rest ∧ Opens C J w.fs path pass f.mode s ∧ s.store = some m ∧
      w'.fs path = some out ∧
      IsFile C out pass f.mode (J.enc { s.toFields with store := some (m.set title (some r)), timestamp := t }) ∧ t ≠ 0 ∧
      ((s.has (trimSpace arg) = true ∧ title = arg ∧ ∃ a rest', rest = some a :: rest' ∧ Yes a ∧ ∃ r0, lookup s arg = some r0 ∧
          ∃ text, Edited e r0.secret text ∧ r = { r0 with secret := text }) ∨
       (∃ text, Edited e (header title (e.date (w.term.clock 0))) text ∧ r = ⟨title, w.term.clock 1, text, none⟩ ∧
          ((s.has (trimSpace arg) = true ∧ ∃ a rest', rest = some a :: some title :: rest' ∧ ¬ Yes a ∧ title ≠ []) ∨
           (s.has (trimSpace arg) = false ∧ title = trimSpace arg)))) := by
  obtain ⟨hi, he, hl, hw⟩ := hf
  rcases main_run C J ord hd hi h with ⟨h1, -⟩ | ⟨pass, rest, s, ha, ho, hr⟩
  · cases h1
  · unfold run at hr
    rw [he, hl, hw] at hr
    simp only [Bool.false_eq_true, if_false, if_true, List.headD_cons] at hr
    obtain ⟨⟨b, ps, w2⟩, h1, h2⟩ := Res.bind_eq_ok.mp hr
    obtain ⟨-, -, h3⟩ := finish_some C J hd h2
    rcases h3 with ⟨rfl, -, p, out, k1, k2, k3, k4, k5, k6⟩ | ⟨h3, -⟩
    · obtain ⟨b', -, hu⟩ := id ho
      obtain ⟨-, -, hp⟩ := opens_fields C J hu
      have hfs : w'.fs path = some out := by rw [k6]; simp
      obtain ⟨-, hs⟩ := writeNew_some h1
      rcases hs rfl with ⟨c1, a, rest', c2, c3, c4⟩ | ⟨c1, a, title, rest', c2, c3, c4, c5⟩ | ⟨c1, c2⟩
      · obtain ⟨-, hs⟩ := editEntry_some c4
        obtain ⟨r, m, text, e1, e2, e3, rfl, e5⟩ := hs rfl
        simp only at k1
        rw [hp] at k1
        cases k1
        exact ⟨pass, rest, s, m, arg, _, out, _, ha, ho, e2, hfs, k5, k4, Or.inl ⟨c1, rfl, a, rest', c2, c3, r, e1, text, e3, rfl⟩⟩
      · obtain ⟨-, hs⟩ := addEntry_some c5
        obtain ⟨m, text, e2, e3, rfl, e5⟩ := hs rfl
        simp only at k1
        rw [hp] at k1
        cases k1
        exact ⟨pass, rest, s, m, title, _, out, _, ha, ho, e2, hfs, k5, k4,
          Or.inr ⟨text, e3, rfl, Or.inl ⟨c1, a, rest', c2, c3, c4⟩⟩⟩
      · obtain ⟨-, hs⟩ := addEntry_some c2
        obtain ⟨m, text, e2, e3, rfl, e5⟩ := hs rfl
        simp only at k1
        rw [hp] at k1
        cases k1
        exact ⟨pass, rest, s, m, trimSpace arg, _, out, _, ha, ho, e2, hfs, k5, k4, Or.inr ⟨text, e3, rfl, Or.inr ⟨c1, rfl⟩⟩⟩
    · cases h3

end Verif.Proofs.Journal
