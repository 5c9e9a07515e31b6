import Verif.Model.JournalOutput
import Verif.Spec.JournalOutput
import Verif.Proofs.Journal
import Verif.Proofs.SecretsOutput
/-! Lemmas on what cmd/journal prints. -/

namespace Verif.Proofs.JournalOutput
open Verif Verif.Go Verif.Model.Util Verif.Model.SecretStore Verif.Model.Journal Verif.Model.JournalOutput
open Verif.Model.Secrets (World loadStore writeStore assign fetch dash)
open Verif.Spec.SecretStore Verif.Spec.Secrets Verif.Spec.Journal Verif.Spec.JournalOutput Verif.Spec.SecretsOutput
open Verif.Proofs.Journal
open Verif.Proofs.SecretsOutput (face_has face_fetch load_alike load_twins)

/-! ### The warning -/

theorem SaysLeft.left {text name : Bytes} (h : SaysLeft text name) (a : Bytes) : SaysLeft (a ++ text) name := by
  obtain ⟨x, y, rfl⟩ := h
  exact ⟨a ++ x, y, by simp⟩

theorem SaysLeft.right {text name : Bytes} (h : SaysLeft text name) (a : Bytes) : SaysLeft (text ++ a) name := by
  obtain ⟨x, y, rfl⟩ := h
  exact ⟨x, y ++ a, by simp⟩

theorem warning_says (M : Messages) (n : Bytes) : SaysLeft (warningText M n) n := by
  refine ⟨ascii "*** WARNING ***" ++ [10], ascii "You should remove this yourself." ++ [10] ++ [10] ++ ascii "The reason: " ++ M.reason ++ [10], ?_⟩
  unfold warningText line
  rw [show ascii "FAILED TO REMOVE TEMPORARY FILE " = ascii "FAILED TO REMOVE TEMPORARY FILE" ++ [32] from by decide, show ascii "\n" = [10] from by decide]
  simp only [List.append_assoc]

theorem runEditor_left {e : Env} (M : Messages) {w w2 : World} {data : Bytes} {o : Option Bytes} {n : Path} (ht : e.temp = some n)
    (h : runEditor e w data = (o, w2)) (hn : w2.fs n ≠ none) : SaysLeft (editorText e M w data) n := by
  have hr : e.removes = false := by
    cases hr : e.removes with
    | false => rfl
    | true => exact absurd ((runEditor_world h).2.2 hr n ht) hn
  unfold editorText
  simp only [ht, hr, Bool.false_and, Bool.false_eq_true, if_false]
  exact warning_says M n

theorem newEntry_left {e : Env} (M : Messages) {w w2 : World} {title : Bytes} {o : Option Bytes} {n : Path} (ht : e.temp = some n)
    (h : newEntry e w title = (o, w2)) (hn : w2.fs n ≠ none) : SaysLeft (newEntryText e M w title) n := by
  unfold newEntry at h
  simp only [ht] at h
  unfold newEntryText
  exact runEditor_left M ht h hn

theorem addEntry_left {e : Env} (M : Messages) {w w2 : World} {ps ps' : SecretStore} {title : Bytes} {b : Bool} {n : Path} (ht : e.temp = some n)
    (h : addEntry e w ps title = .ok (b, ps', w2)) (hn : w2.fs n ≠ none) : SaysLeft (addEntryText e M w title) n := by
  unfold addEntry at h
  unfold addEntryText
  apply SaysLeft.right
  rcases hx : newEntry e w title with ⟨o, v⟩
  rw [hx] at h
  cases o with
  | none =>
    simp only [Res.ok.injEq, Prod.mk.injEq] at h
    obtain ⟨-, -, rfl⟩ := h
    exact newEntry_left M ht hx hn
  | some text =>
    simp only at h
    obtain ⟨ps2, -, h2⟩ := Res.bind_eq_ok.mp h
    simp only [Res.pure_eq, Res.ok.injEq, Prod.mk.injEq] at h2
    obtain ⟨-, -, rfl⟩ := h2
    exact newEntry_left M ht hx hn

theorem editEntry_left {e : Env} (M : Messages) {w w2 : World} {ps ps' : SecretStore} {title : Bytes} {b : Bool} {n : Path} (ht : e.temp = some n)
    (h0 : w.fs n = none) (h : editEntry e w ps title = .ok (b, ps', w2)) (hn : w2.fs n ≠ none) : SaysLeft (editEntryText e M w ps title) n := by
  unfold editEntry at h
  unfold editEntryText
  split at h
  · simp only [Res.ok.injEq, Prod.mk.injEq] at h
    obtain ⟨-, -, rfl⟩ := h
    exact absurd h0 hn
  · rename_i hh
    rw [if_neg hh]
    simp only [ht] at h
    obtain ⟨r, hr, h2⟩ := Res.bind_eq_ok.mp h
    rw [hr]
    dsimp only
    rcases hx : runEditor e w r.secret with ⟨o, v⟩
    rw [hx] at h2
    cases o with
    | none =>
      simp only [Res.pure_eq, Res.ok.injEq, Prod.mk.injEq] at h2
      obtain ⟨-, -, rfl⟩ := h2
      exact runEditor_left M ht hx hn
    | some text =>
      simp only at h2
      obtain ⟨ps2, -, h3⟩ := Res.bind_eq_ok.mp h2
      simp only [Res.pure_eq, Res.ok.injEq, Prod.mk.injEq] at h3
      obtain ⟨-, -, rfl⟩ := h3
      exact runEditor_left M ht hx hn

theorem writeNew_left {e : Env} (M : Messages) {w w2 : World} {ps ps' : SecretStore} {arg : Bytes} {b : Bool} {n : Path} (ht : e.temp = some n)
    (h0 : w.fs n = none) (h : writeNew e w ps arg = .ok (b, ps', w2)) (hn : w2.fs n ≠ none) : SaysLeft (writeNewText e M w ps arg) n := by
  unfold writeNew at h
  unfold writeNewText
  dsimp only at h ⊢
  split at h
  · rename_i hh
    rw [if_pos hh]
    apply SaysLeft.left
    rcases hr : w.term.read with ⟨a, t⟩
    rw [hr] at h
    dsimp only at h ⊢
    cases a with
    | none =>
      simp only [Res.ok.injEq, Prod.mk.injEq] at h
      obtain ⟨-, -, rfl⟩ := h
      exact absurd h0 hn
    | some a =>
      dsimp only at h ⊢
      split at h
      · rename_i hy
        rw [if_pos hy]
        exact editEntry_left M ht h0 h hn
      · rename_i hy
        rw [if_neg hy]
        apply SaysLeft.left
        rcases hr2 : t.read with ⟨a2, t2⟩
        rw [hr2] at h
        dsimp only at h ⊢
        cases a2 with
        | none =>
          simp only [Res.ok.injEq, Prod.mk.injEq] at h
          obtain ⟨-, -, rfl⟩ := h
          exact absurd h0 hn
        | some a2 =>
          dsimp only at h ⊢
          split at h
          · simp only [Res.ok.injEq, Prod.mk.injEq] at h
            obtain ⟨-, -, rfl⟩ := h
            exact absurd h0 hn
          · rename_i hz
            rw [if_neg hz]
            exact addEntry_left M ht h hn
  · rename_i hh
    rw [if_neg hh]
    exact addEntry_left M ht h hn

/-! ### Journals that differ only in the texts of entries -/

theorem editorText_same {e e' : Env} (M : Messages) (he : SameManner e e') (w w' : World) (d d' : Bytes) :
    editorText e M w d = editorText e' M w' d' := by
  obtain ⟨h1, h2, -, h4⟩ := he
  unfold editorText
  rw [← h1, ← h2]
  cases e.temp with
  | none => rfl
  | some n =>
    dsimp only
    rw [(h4 _ _).1]

theorem newEntry_same {e e' : Env} (he : SameManner e e') (w w' : World) (title : Bytes) :
    (newEntry e w title).1.isSome = (newEntry e' w' title).1.isSome := by
  obtain ⟨h1, h2, -, h4⟩ := he
  unfold newEntry runEditor
  rw [← h1]
  cases e.temp with
  | none => rfl
  | some n =>
    dsimp only
    rw [(h4 _ ((Go.writeFile e'.write (Fs.set w'.fs n []) n (header title (e'.date w'.term.now.fst))).fst n)).2]
    split
    · exact (h4 _ _).1
    · rfl

theorem addEntryText_same {e e' : Env} (M : Messages) (he : SameManner e e') (w w' : World) (title : Bytes) :
    addEntryText e M w title = addEntryText e' M w' title := by
  unfold addEntryText newEntryText
  have h := newEntry_same he w w' title
  refine congr (congrArg HAppend.hAppend (editorText_same M he _ _ _ _)) ?_
  rcases hx : newEntry e w title with ⟨o, v⟩
  rcases hy : newEntry e' w' title with ⟨o', v'⟩
  rw [hx, hy] at h
  cases o <;> cases o' <;> simp_all

theorem editEntryText_same {e e' : Env} (M : Messages) (he : SameManner e e') (w w' : World) {s s' : SecretStore} (h : face s = face s') (title : Bytes) :
    editEntryText e M w s title = editEntryText e' M w' s' title := by
  unfold editEntryText
  rw [face_has h title]
  split
  · rfl
  · rcases face_fetch h title with ⟨h1, h2⟩ | ⟨r, r', h1, h2, -⟩ <;> rw [h1, h2]
    exact editorText_same M he _ _ _ _

theorem writeNewText_same {e e' : Env} (M : Messages) (he : SameManner e e') {w w' : World} (hw : w.term = w'.term) {s s' : SecretStore}
    (h : face s = face s') (arg : Bytes) : writeNewText e M w s arg = writeNewText e' M w' s' arg := by
  unfold writeNewText
  dsimp only
  rw [face_has h (trimSpace arg), hw]
  split
  · congr 1
    cases w'.term.read.1 with
    | none => rfl
    | some a =>
      dsimp only
      split
      · exact editEntryText_same M he _ _ h _
      · congr 1
        cases w'.term.read.2.read.1 with
        | none => rfl
        | some b =>
          dsimp only
          split
          · rfl
          · exact addEntryText_same M he _ _ _
  · exact addEntryText_same M he _ _ _

theorem collect_same {m m' : Map (Option SecretRecord)} (h : ∀ k, (m k).map (Option.map recordFace) = (m' k).map (Option.map recordFace)) :
    ∀ (order : List Bytes) (st : List (BitVec 64) × (BitVec 64 → Bytes)), collect m order st = collect m' order st
  | [], _ => rfl
  | k :: ks, (ts, labels) => by
    have hk := h k
    unfold collect
    cases h1 : m k with
    | none =>
      cases h2 : m' k with
      | none => rfl
      | some v => simp [h1, h2] at hk
    | some u =>
      cases h2 : m' k with
      | none => simp [h1, h2] at hk
      | some v =>
        simp only [h1, h2, Option.map_some, Option.some.injEq] at hk
        cases u <;> cases v <;> simp only [Option.map_none, Option.map_some, reduceCtorEq, Option.some.injEq] at hk
        · rfl
        · have ht := congrArg (fun x => x.2.1) hk
          simp only [recordFace] at ht
          dsimp only
          rw [ht]
          exact collect_same h ks _

theorem listText_same {e e' : Env} (hd : e.date = e'.date) {s s' : SecretStore} (h : face s = face s') (order : List Bytes) :
    listText e s order = listText e' s' order := by
  unfold listText listEntries
  rw [hd, collect_same (m := s.store.getD Map.empty) (m' := s'.store.getD Map.empty)]
  intro k
  unfold face at h
  cases h1 : s.store <;> cases h2 : s'.store <;> simp only [h1, h2, Option.map_none, Option.map_some, reduceCtorEq, Option.some.injEq] at h
  · rfl
  · exact congrFun h k

end Verif.Proofs.JournalOutput
