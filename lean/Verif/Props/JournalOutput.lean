import Verif.Proofs.JournalOutput
import Verif.Props.JournalEntries
import Verif.Props.SecretsOutput
/-! C181 to C183: what cmd/journal prints on standard output. -/

namespace Verif.Props.JournalOutput
open Verif Verif.Go Verif.Model.Util Verif.Model.SecretStore Verif.Model.Journal Verif.Model.JournalOutput
open Verif.Model.Secrets (World loadStore writeStore assign fetch dash)
open Verif.Spec.SecretStore Verif.Spec.Secrets Verif.Spec.Journal Verif.Spec.JournalOutput Verif.Spec.SecretsOutput
open Verif.Proofs.SecretStore Verif.Proofs.Journal Verif.Proofs.JournalOutput
open Verif.Proofs.Secrets hiding fmode
open Verif.Proofs.SecretsOutput (face_has face_fetch load_alike load_twins)
open Verif.Proofs.Otpc (load_ok load_some has_of_lookup)
open Verif.Props.SecretStore Verif.Props.Journal
open Verif.Props.Secrets (exWorld exFile exMap_other exClock)
open Verif.Props.Otpc (exRng)

variable (C : Crypto) (J : Json) (ord : Map (Option SecretRecord) → List Bytes)

/-- The errors of an operating system. -/
def exMessages : Messages := ⟨ascii "no", ascii "busy"⟩

/-- What is printed by a run that opens the journal. -/
theorem text_of {e : Env} {M : Messages} {f : Flags} {arg path pass : Bytes} {w : World} {rest : List (Option Bytes)} {s : SecretStore}
    (hd : path ≠ dash) (hi : f.init = false) (ha : w.term.answers = some pass :: rest) (ho : Opens C J w.fs path pass f.mode s) :
    mainText C J ord e M f [arg] path w =
      if f.edit then editEntryText e M { w with term := ⟨rest, w.term.clock⟩ } s arg
      else if f.list then listText e s (ord (s.store.getD Map.empty))
      else if f.write then writeNewText e M { w with term := ⟨rest, w.term.clock⟩ } s arg
      else showText s arg := by
  unfold mainText
  have hl : ¬ [arg].length < (if f.edit = true then 1 else if f.list = true then 0 else 1) := by
    simp only [List.length_singleton]
    split
    · simp
    · split <;> simp
  rw [hi, if_neg (by simp), if_neg hl, load_ok C J hd ha ho]
  rfl

theorem text_list {e : Env} {M : Messages} {f : Flags} {args : List Bytes} {path pass : Bytes} {w : World} {rest : List (Option Bytes)} {s : SecretStore}
    (hd : path ≠ dash) (hf : f.init = false ∧ f.edit = false ∧ f.list = true) (ha : w.term.answers = some pass :: rest) (ho : Opens C J w.fs path pass f.mode s) :
    mainText C J ord e M f args path w = listText e s (ord (s.store.getD Map.empty)) := by
  unfold mainText
  rw [hf.1, hf.2.1, hf.2.2]
  simp only [Bool.false_eq_true, if_false, if_true, Nat.not_lt_zero, load_ok C J hd ha ho]

/-! ### C181: the texts of entries -/

/-- `journal` with a title prints the text of the entry, and a line break; if there is no such entry it prints
nothing. -/
theorem C181_shown (e : Env) (M : Messages) (f : Flags) (title path pass : Bytes) (w : World) (rest : List (Option Bytes)) (s : SecretStore)
    (hd : path ≠ dash) (hf : f.init = false ∧ f.edit = false ∧ f.list = false ∧ f.write = false)
    (ha : w.term.answers = some pass :: rest) (ho : Opens C J w.fs path pass f.mode s) :
    (∀ r, lookup s title = some r → mainText C J ord e M f [title] path w = line r.secret) ∧
    (s.has title = false → mainText C J ord e M f [title] path w = []) := by
  rw [text_of C J ord hd hf.1 ha ho, hf.2.1, hf.2.2.1, hf.2.2.2]
  simp only [Bool.false_eq_true, if_false]
  unfold showText
  refine ⟨fun r hr => ?_, fun h => ?_⟩
  · simp only [has_of_lookup hr, Bool.not_true, Bool.false_eq_true, if_false, fetch_eq.mpr hr]
    rfl
  · simp only [h, Bool.not_false, if_true]

theorem quiet_of {e e' : Env} {M : Messages} {f : Flags} {args : List Bytes} {path : Bytes} {w w' : World}
    (hf : f.init = true ∨ f.edit = true ∨ f.list = true ∨ f.write = true) (he : SameManner e e') (ho : ByKeys ord) (hi : initText w = initText w')
    (hl : (∃ s s' v v', loadStore C J w path f.mode = .ok (some s, v) ∧ loadStore C J w' path f.mode = .ok (some s', v') ∧ face s = face s' ∧
      s.timestamp = s'.timestamp ∧ Alike C J f.mode v v') ∨
    ((∀ s v, loadStore C J w path f.mode ≠ .ok (some s, v)) ∧ ∀ s v, loadStore C J w' path f.mode ≠ .ok (some s, v))) :
    mainText C J ord e M f args path w = mainText C J ord e' M f args path w' := by
  unfold mainText
  split
  · exact hi
  rename_i h0
  by_cases hlen : args.length < (if f.edit = true then 1 else if f.list = true then 0 else 1)
  · rw [if_pos hlen, if_pos hlen]
  rw [if_neg hlen, if_neg hlen]
  rcases hl with ⟨s, s', v, v', h1, h2, h3, -, h5⟩ | ⟨h1, h2⟩
  · rw [h1, h2]
    dsimp only
    split
    · exact editEntryText_same M he _ _ h3 _
    · split
      · have hk : ord (s.store.getD Map.empty) = ord (s'.store.getD Map.empty) := by
          apply ho
          intro k
          have := face_has h3 k
          unfold SecretStore.has at this
          cases g1 : s.store <;> cases g2 : s'.store <;> simp_all [Map.has, face]
        rw [hk]
        exact listText_same he.2.2.1 h3 _
      · split
        · exact writeNewText_same M he h5.1 h3 _
        · simp_all
  · cases g1 : loadStore C J w path f.mode with
    | panic =>
      cases g2 : loadStore C J w' path f.mode with
      | panic => rfl
      | ok x => rcases x with ⟨_ | s, v⟩; rfl; exact absurd g2 (h2 s v)
    | ok x =>
      rcases x with ⟨_ | s, v⟩
      · cases g2 : loadStore C J w' path f.mode with
        | panic => rfl
        | ok x => rcases x with ⟨_ | s, v⟩; rfl; exact absurd g2 (h2 s v)
      · exact absurd g1 (h1 s v)

/-- Nothing else that journal does prints any of the text of an entry: two runs with the same input print the
same, if the journals differ only in the texts of entries and the editors go the same way. -/
theorem C181_quiet (e e' : Env) (M : Messages) (f : Flags) (args : List Bytes) (path : Bytes) (w w' : World)
    (hf : f.init = true ∨ f.edit = true ∨ f.list = true ∨ f.write = true) (he : SameManner e e') (ho : ByKeys ord) (hw : Alike C J f.mode w w') :
    mainText C J ord e M f args path w = mainText C J ord e' M f args path w' :=
  quiet_of C J ord hf he ho (by simp only [initText, hw.1]) (load_alike C J hw path)

/-- Nor does it print the passphrase. -/
theorem C181_passphrase (e e' : Env) (M : Messages) (f : Flags) (args : List Bytes) (path : Bytes) (w w' : World)
    (hf : f.init = true ∨ f.edit = true ∨ f.list = true ∨ f.write = true) (he : SameManner e e') (ho : ByKeys ord) (hw : Twins C J f.mode path w w') :
    mainText C J ord e M f args path w = mainText C J ord e' M f args path w' := by
  refine quiet_of C J ord hf he ho ?_ (load_twins C J hw)
  obtain ⟨p, p', rest, h1, h2, -⟩ := hw
  unfold initText Term.read
  simp only [h1, h2]

/-- An editor with which one replaces the text. -/
def typing (text : Bytes) : Env := { exEnv with edit := fun _ => (some text, true) }

theorem typing_same (a b : Bytes) : SameManner (typing a) (typing b) := ⟨rfl, rfl, rfl, fun _ _ => ⟨rfl, rfl⟩⟩

/-- Two journals with different entries under the same title: listing them prints the same, and so does editing
the entry; showing it does not. -/
example (ho : ByKeys ord) : ∃ b b',
    mainText C J ord (typing [1]) exMessages { list := true } [] [102] (exWorld b [some [112, 119]]) = mainText C J ord (typing [2]) exMessages { list := true } [] [102] (exWorld b' [some [112, 119]]) ∧
    mainText C J ord (typing [1]) exMessages { edit := true } [[97]] [102] (exWorld b [some [112, 119]]) = mainText C J ord (typing [2]) exMessages { edit := true } [[97]] [102] (exWorld b' [some [112, 119]]) ∧
    mainText C J ord exEnv exMessages {} [[97]] [102] (exWorld b [some [112, 119]]) = [1, 2, 3, 10] ∧
    mainText C J ord exEnv exMessages {} [[97]] [102] (exWorld b' [some [112, 119]]) = [4, 5, 10] := by
  obtain ⟨b, hb⟩ := exFile C J 0 (Or.inl rfl)
  obtain ⟨b', hb'⟩ := file_exists C J (Or.inl rfl) (exStore_valid [4, 5] 7) rfl (exStore_finite _ _) (exStore_clean _ _)
  have hw := Verif.Props.SecretsOutput.exAlike C J hb hb'
  refine ⟨b, b', C181_quiet C J ord _ _ _ { list := true } _ _ _ _ (by simp) (typing_same _ _) ho hw,
    C181_quiet C J ord _ _ _ { edit := true } _ _ _ _ (by simp) (typing_same _ _) ho hw, ?_, ?_⟩
  · exact (C181_shown C J ord exEnv exMessages {} [97] [102] [112, 119] (exWorld b [some [112, 119]]) [] _ (by decide) ⟨rfl, rfl, rfl, rfl⟩ rfl ⟨b, by simp [exWorld], hb⟩).1 _ (exStore_lookup _ _)
  · exact (C181_shown C J ord exEnv exMessages {} [97] [102] [112, 119] (exWorld b' [some [112, 119]]) [] _ (by decide) ⟨rfl, rfl, rfl, rfl⟩ rfl ⟨b', by simp [exWorld], hb'⟩).1 _ (exStore_lookup _ _)

/-! ### C182: the list of entries -/

/-- `journal -l` prints a heading and a line for each entry, with its date and its title, the newest first; if no
two entries have the same timestamp. Missing: those that do (see C73). -/
theorem C182_list_partial (e : Env) (M : Messages) (f : Flags) (args : List Bytes) (path pass : Bytes) (w : World) (rest : List (Option Bytes)) (s : SecretStore)
    (hd : path ≠ dash) (hf : f.init = false ∧ f.edit = false ∧ f.list = true) (hord : ∀ m : Map (Option SecretRecord), m.Finite → m.Enumerates (ord m))
    (ha : w.term.answers = some pass :: rest) (hop : Opens C J w.fs path pass f.mode s) (hn : NoNil s)
    (hdist : ∀ k k2 r r2, lookup s k = some r → lookup s k2 = some r2 → r.timestamp = r2.timestamp → k = k2) :
    ∃ es : List (Bytes × SecretRecord), (∀ k r, (k, r) ∈ es ↔ lookup s k = some r) ∧ (es.map (·.1)).Nodup ∧
      es.Pairwise (fun a b => b.2.timestamp.toInt ≤ a.2.timestamp.toInt) ∧
      mainText C J ord e M f args path w = line (ascii "Entries:") ++ (es.map fun x => entryLine (e.date x.2.timestamp) x.1).flatten := by
  obtain ⟨lines, w', h1, -, h3, h4, h5⟩ := C73_list_partial C J ord e f args path pass w rest s hd hf hord ha hop hn hdist
  have hl : listEntries s (ord (s.store.getD Map.empty)) = .ok lines := by
    cases hx : listEntries s (ord (s.store.getD Map.empty)) with
    | ok x =>
      rw [main_list C J ord hd hf ha hop hx] at h1
      simp only [Res.ok.injEq, Prod.mk.injEq, Output.entries.injEq] at h1
      rw [h1.2.1]
    | panic =>
      exfalso
      unfold main run at h1
      rw [hf.1, hf.2.1, hf.2.2] at h1
      simp only [Bool.false_eq_true, if_false, if_true, Nat.not_lt_zero, load_ok C J hd ha hop, Res.ok_bind, hx] at h1
      cases h1
  let entry : BitVec 64 × Bytes → Bytes × SecretRecord := fun x => (x.2, (lookup s x.2).getD ⟨[], 0, [], none⟩)
  have hent : ∀ x ∈ lines, lookup s x.2 = some (entry x).2 ∧ (entry x).2.timestamp = x.1 := by
    intro x hx
    obtain ⟨r, hr, ht⟩ := (h3 x.1 x.2).mp hx
    simp only [entry, hr, Option.getD_some]
    exact ⟨trivial, ht⟩
  refine ⟨lines.map entry, ?_, ?_, ?_, ?_⟩
  · intro k r
    constructor
    · intro h
      obtain ⟨x, hx, he⟩ := List.mem_map.mp h
      have := (hent x hx).1
      rw [he] at this
      cases he
      exact this
    · intro h
      have hx := (h3 r.timestamp k).mpr ⟨r, h, rfl⟩
      exact List.mem_map.mpr ⟨_, hx, by simp [entry, h]⟩
  · rw [List.map_map]
    exact h4
  · rw [List.pairwise_map]
    refine h5.imp_of_mem ?_
    intro a b ha hb hab
    rw [(hent a ha).2, (hent b hb).2]
    exact hab
  · rw [text_list C J ord hd hf ha hop]
    unfold listText
    rw [hl]
    dsimp only
    rw [List.map_map, List.flatMap_def]
    refine congr (congrArg HAppend.hAppend rfl) (congrArg List.flatten (List.map_congr_left ?_))
    intro x hx
    simp only [Function.comp, (hent x hx).2]
    unfold entryLine line
    simp only [show ascii "\t" = [9] from by decide, show ascii "\t\t" = [9, 9] from by decide, show ascii "\n" = [10] from by decide]
    rfl

/-- The part of a text before the first of a byte. -/
theorem before_unique {c : UInt8} {a a' b b' : Bytes} (h1 : c ∉ a) (h2 : c ∉ a') (h : a ++ c :: b = a' ++ c :: b') : a = a' ∧ b = b' := by
  induction a generalizing a' with
  | nil =>
    cases a' with
    | nil => simp at h; exact ⟨rfl, h⟩
    | cons x a' => simp at h; exact absurd (by simp [h.1]) h2
  | cons y a ih =>
    cases a' with
    | nil => simp at h; exact absurd (by simp [h.1]) h1
    | cons x a' =>
      simp only [List.cons_append, List.cons.injEq] at h
      obtain ⟨e1, e2⟩ := ih (fun hh => h1 (by simp [hh])) (fun hh => h2 (by simp [hh])) h.2
      exact ⟨by rw [h.1, e1], e2⟩

theorem lines_unique (d : Bytes × SecretRecord → Bytes) (hdate : ∀ x, (9 : UInt8) ∉ d x) : ∀ es es' : List (Bytes × SecretRecord), (∀ x ∈ es, (10 : UInt8) ∉ x.1) → (∀ x ∈ es', (10 : UInt8) ∉ x.1) →
    (es.map fun x => entryLine (d x) x.1).flatten = (es'.map fun x => entryLine (d x) x.1).flatten →
    es.map (fun x => (d x, x.1)) = es'.map (fun x => (d x, x.1)) := by
  have el : ∀ x : Bytes × SecretRecord, entryLine (d x) x.1 = 9 :: (d x ++ 9 :: 9 :: (x.1 ++ [10])) := by
    intro x
    unfold entryLine line
    simp only [show ascii "\t" = [9] from by decide, show ascii "\t\t" = [9, 9] from by decide, show ascii "\n" = [10] from by decide]
    simp
  intro es
  induction es with
  | nil =>
    intro es' _ _ h
    cases es' with
    | nil => rfl
    | cons y es' => rw [List.map_cons, List.flatten_cons, el] at h; simp at h
  | cons x es ih =>
    intro es' h1 h2 h
    cases es' with
    | nil => rw [List.map_cons, List.flatten_cons, el] at h; simp at h
    | cons y es' =>
      simp only [List.map_cons, List.flatten_cons, el, List.cons_append, List.append_assoc, List.cons.injEq, true_and] at h
      obtain ⟨e1, e2⟩ := before_unique (hdate x) (hdate y) h
      simp only [List.cons.injEq, true_and] at e2
      obtain ⟨e3, e4⟩ := before_unique (h1 x (by simp)) (h2 y (by simp)) e2
      rw [List.map_cons, List.map_cons, ih es' (fun z hz => h1 z (by simp [hz])) (fun z hz => h2 z (by simp [hz])) (by simpa only [el, List.nil_append] using e4), e1, e3]

/-- If titles are single lines, the list can be read: two journals with the same list have the same titles with the
same dates. -/
theorem C182_read_partial (e : Env) (M M' : Messages) (f : Flags) (args args' : List Bytes) (path path' pass pass' : Bytes) (w w' : World) (rest rest' : List (Option Bytes)) (s s' : SecretStore)
    (hd : path ≠ dash) (hd' : path' ≠ dash) (hf : f.init = false ∧ f.edit = false ∧ f.list = true) (hord : ∀ m : Map (Option SecretRecord), m.Finite → m.Enumerates (ord m))
    (ha : w.term.answers = some pass :: rest) (hop : Opens C J w.fs path pass f.mode s) (hn : NoNil s)
    (hdist : ∀ k k2 r r2, lookup s k = some r → lookup s k2 = some r2 → r.timestamp = r2.timestamp → k = k2)
    (ha' : w'.term.answers = some pass' :: rest') (hop' : Opens C J w'.fs path' pass' f.mode s') (hn' : NoNil s')
    (hdist' : ∀ k k2 r r2, lookup s' k = some r → lookup s' k2 = some r2 → r.timestamp = r2.timestamp → k = k2)
    (hdate : ∀ t, (9 : UInt8) ∉ e.date t) (hk : ∀ k, s.has k = true ∨ s'.has k = true → (10 : UInt8) ∉ k)
    (h : mainText C J ord e M f args path w = mainText C J ord e M' f args' path' w') :
    ∀ k, (lookup s k).map (fun r => e.date r.timestamp) = (lookup s' k).map (fun r => e.date r.timestamp) := by
  obtain ⟨es, h1, h2, -, h4⟩ := C182_list_partial C J ord e M f args path pass w rest s hd hf hord ha hop hn hdist
  obtain ⟨es', h1', h2', -, h4'⟩ := C182_list_partial C J ord e M' f args' path' pass' w' rest' s' hd' hf hord ha' hop' hn' hdist'
  rw [h4, h4'] at h
  have hu := lines_unique (fun x => e.date x.2.timestamp) (fun x => hdate _) es es'
    (fun x hx => hk _ (Or.inl (has_of_lookup ((h1 x.1 x.2).mp hx)))) (fun x hx => hk _ (Or.inr (has_of_lookup ((h1' x.1 x.2).mp hx)))) (List.append_cancel_left h)
  have half : ∀ (a b : List (Bytes × SecretRecord)) (u v : SecretStore), (∀ k r, (k, r) ∈ a ↔ lookup u k = some r) → (∀ k r, (k, r) ∈ b ↔ lookup v k = some r) →
      a.map (fun x => (e.date x.2.timestamp, x.1)) = b.map (fun x => (e.date x.2.timestamp, x.1)) → ∀ k r, lookup u k = some r →
      ∃ r', lookup v k = some r' ∧ e.date r'.timestamp = e.date r.timestamp := by
    intro a b u v ha hb hab k r hr
    have hm : (e.date r.timestamp, k) ∈ b.map (fun x => (e.date x.2.timestamp, x.1)) := by
      rw [← hab]
      exact List.mem_map.mpr ⟨(k, r), (ha k r).mpr hr, rfl⟩
    obtain ⟨⟨k2, r2⟩, hx, he⟩ := List.mem_map.mp hm
    simp only [Prod.mk.injEq] at he
    obtain ⟨e1, rfl⟩ := he
    exact ⟨r2, (hb _ _).mp hx, e1⟩
  intro k
  cases g : lookup s k with
  | some r =>
    obtain ⟨r', g1, g2⟩ := half es es' s s' h1 h1' hu k r g
    rw [g1]
    simp [g2]
  | none =>
    cases g' : lookup s' k with
    | none => rfl
    | some r' =>
      obtain ⟨r, g1, -⟩ := half es' es s' s h1' h1 hu.symm k r' g'
      rw [g] at g1
      cases g1

/-- A journal with two entries, of times 8 and 7; and one with a single entry whose title has two lines. -/
abbrev pairStore : SecretStore := Verif.Props.SecretsOutput.twoStore [97] [98] ⟨[97], 7, [1], none⟩ ⟨[98], 8, [2], none⟩

abbrev longTitle : Bytes := [98, 10, 9, 48, 9, 9, 97]

def longStore : SecretStore :=
  { version := 1, timestamp := 5, store := some (Map.empty.set longTitle (some ⟨longTitle, 8, [2], none⟩)), passphrase := some [112, 119] }

theorem pair_lookup (k : Bytes) : lookup pairStore k = if k = [98] then some ⟨[98], 8, [2], none⟩ else if k = [97] then some ⟨[97], 7, [1], none⟩ else none := by
  rw [lookup_eq (m := (Map.empty.set [97] (some ⟨[97], 7, [1], none⟩)).set [98] (some ⟨[98], 8, [2], none⟩)) rfl]
  by_cases h1 : k = [98]
  · subst h1; simp
  · rw [Map.set_other _ _ h1, if_neg h1]
    by_cases h2 : k = [97]
    · subst h2; simp
    · rw [Map.set_other _ _ h2, if_neg h2]
      rfl

theorem long_lookup (k : Bytes) : lookup longStore k = if k = longTitle then some ⟨longTitle, 8, [2], none⟩ else none := by
  rw [lookup_eq (m := Map.empty.set longTitle (some ⟨longTitle, 8, [2], none⟩)) rfl]
  by_cases h1 : k = longTitle
  · subst h1; simp
  · rw [Map.set_other _ _ h1, if_neg h1]
    rfl

theorem pair_noNil : NoNil pairStore := by
  intro m k hm hk
  cases hm
  rcases Verif.Props.SecretsOutput.twoStore_get hk with ⟨-, h⟩ | ⟨-, h⟩ <;> cases h

theorem long_noNil : NoNil longStore := by
  intro m k hm hk
  cases hm
  by_cases h1 : k = longTitle
  · subst h1; simp at hk
  · rw [Map.set_other _ _ h1] at hk
    cases hk

theorem pair_dist : ∀ k k2 r r2, lookup pairStore k = some r → lookup pairStore k2 = some r2 → r.timestamp = r2.timestamp → k = k2 := by
  intro k k2 r r2 h1 h2 h
  rw [pair_lookup] at h1 h2
  split at h1 <;> split at h2
  · simp_all
  · split at h2
    · cases h1; cases h2; exact absurd h (by decide)
    · cases h2
  · split at h1
    · cases h1; cases h2; exact absurd h (by decide)
    · cases h1
  · split at h1
    · split at h2
      · simp_all
      · cases h2
    · cases h1

theorem long_dist : ∀ k k2 r r2, lookup longStore k = some r → lookup longStore k2 = some r2 → r.timestamp = r2.timestamp → k = k2 := by
  intro k k2 r r2 h1 h2 _
  rw [long_lookup] at h1 h2
  split at h1 <;> split at h2 <;> simp_all

theorem long_file : ∃ b, unmarshalSecretStore C J b [112, 119] 0 = .ok (some longStore) := by
  refine file_exists C J (Or.inl rfl) ((valid_iff _).mpr ⟨rfl, by simp [longStore], ⟨_, rfl⟩, _, rfl⟩) rfl ?_ ?_
  · exact finite_set (f := { version := 1, timestamp := 5, store := some Map.empty }) (new_finite [] 5) rfl _ _ (fun md h => by cases h) 5
  · exact utf8_set (f := { version := 1, timestamp := 5, store := some Map.empty }) (new_utf8 [] 5) rfl (r := ⟨longTitle, 8, [2], none⟩)
      (by decide) (by decide) (fun md j x h => by cases h) 5

/-- A title may have more than one line: then the list of a journal with one entry is that of a journal with
two. -/
theorem C182_lines_violated (M : Messages) (hord : ∀ m : Map (Option SecretRecord), m.Finite → m.Enumerates (ord m)) :
    ∃ w w' : World, Opens C J w.fs [102] [112, 119] 0 pairStore ∧ Opens C J w'.fs [102] [112, 119] 0 longStore ∧
      (lookup pairStore [97]).isSome ∧ (lookup longStore [97]).isSome = false ∧
      mainText C J ord exEnv M { list := true } [] [102] w = mainText C J ord exEnv M { list := true } [] [102] w' := by
  obtain ⟨b, hb⟩ := Verif.Props.SecretsOutput.twoStore_file C J (k1 := [97]) (k2 := [98]) (r1 := ⟨[97], 7, [1], none⟩) (r2 := ⟨[98], 8, [2], none⟩)
    (by decide) (by decide) (by decide) (by decide) (by simp) (by simp) 0 (Or.inl rfl)
  obtain ⟨b', hb'⟩ := long_file C J
  have hop : Opens C J (exWorld b [some [112, 119]]).fs [102] [112, 119] 0 pairStore := ⟨b, by simp [exWorld], hb⟩
  have hop' : Opens C J (exWorld b' [some [112, 119]]).fs [102] [112, 119] 0 longStore := ⟨b', by simp [exWorld], hb'⟩
  obtain ⟨es, h1, h2, h3, h4⟩ := C182_list_partial C J ord exEnv M { list := true } [] [102] [112, 119] (exWorld b [some [112, 119]]) [] _ (by decide) ⟨rfl, rfl, rfl⟩ hord rfl hop pair_noNil pair_dist
  obtain ⟨es', h1', h2', h3', h4'⟩ := C182_list_partial C J ord exEnv M { list := true } [] [102] [112, 119] (exWorld b' [some [112, 119]]) [] _ (by decide) ⟨rfl, rfl, rfl⟩ hord rfl hop' long_noNil long_dist
  refine ⟨_, _, hop, hop', by rw [pair_lookup]; rfl, by rw [long_lookup]; rfl, ?_⟩
  rw [h4, h4']
  have p : es = [([98], ⟨[98], 8, [2], none⟩), ([97], ⟨[97], 7, [1], none⟩)] := by
    have hp : es.Perm [([98], ⟨[98], 8, [2], none⟩), ([97], ⟨[97], 7, [1], none⟩)] := by
      refine (List.perm_ext_iff_of_nodup h2.of_map (by simp)).mpr ?_
      rintro ⟨k, r⟩
      rw [h1, pair_lookup]
      by_cases q1 : k = [98]
      · simp [q1, eq_comm]
      · by_cases q2 : k = [97]
        · simp [q2, eq_comm]
        · simp [q1, q2]
    have hl := hp.length_eq
    match es, hl with
    | [x, y], _ =>
      have hx : x ∈ [(([98] : Bytes), (⟨[98], 8, [2], none⟩ : SecretRecord)), ([97], ⟨[97], 7, [1], none⟩)] := hp.mem_iff.mp (by simp)
      have hy : y ∈ [(([98] : Bytes), (⟨[98], 8, [2], none⟩ : SecretRecord)), ([97], ⟨[97], 7, [1], none⟩)] := hp.mem_iff.mp (by simp)
      simp only [List.mem_cons, List.not_mem_nil, or_false] at hx hy
      rcases hx with rfl | rfl <;> rcases hy with rfl | rfl
      · simp at h2
      · rfl
      · simp at h3
      · simp at h2
  have p' : es' = [(longTitle, ⟨longTitle, 8, [2], none⟩)] := by
    have hp : es'.Perm [(longTitle, ⟨longTitle, 8, [2], none⟩)] := by
      refine (List.perm_ext_iff_of_nodup h2'.of_map (by simp)).mpr ?_
      rintro ⟨k, r⟩
      rw [h1', long_lookup]
      by_cases q1 : k = longTitle
      · simp [q1, eq_comm]
      · simp [q1]
    exact hp.eq_singleton
  rw [p, p']
  rfl

/-- The theorem applies to the journal with two entries. -/
example (hord : ∀ m : Map (Option SecretRecord), m.Finite → m.Enumerates (ord m)) : ∃ b,
    Opens C J (exWorld b [some [112, 119]]).fs [102] [112, 119] 0 pairStore ∧ NoNil pairStore ∧ ∃ es : List (Bytes × SecretRecord),
      mainText C J ord exEnv exMessages { list := true } [] [102] (exWorld b [some [112, 119]]) = line (ascii "Entries:") ++ (es.map fun x => entryLine [48] x.1).flatten := by
  obtain ⟨b, hb⟩ := Verif.Props.SecretsOutput.twoStore_file C J (k1 := [97]) (k2 := [98]) (r1 := ⟨[97], 7, [1], none⟩) (r2 := ⟨[98], 8, [2], none⟩)
    (by decide) (by decide) (by decide) (by decide) (by simp) (by simp) 0 (Or.inl rfl)
  have hop : Opens C J (exWorld b [some [112, 119]]).fs [102] [112, 119] 0 pairStore := ⟨b, by simp [exWorld], hb⟩
  obtain ⟨es, -, -, -, h4⟩ := C182_list_partial C J ord exEnv exMessages { list := true } [] [102] [112, 119] (exWorld b [some [112, 119]]) [] _ (by decide) ⟨rfl, rfl, rfl⟩ hord rfl hop pair_noNil pair_dist
  exact ⟨b, hop, pair_noNil, es, h4⟩

/-! ### C183: the warning about the temporary file -/

/-- If journal leaves its temporary file, it says so and gives the name of the file; whether it is asked to edit
or to write an entry, and whether that works. -/
theorem C183_left (e : Env) (M : Messages) (f : Flags) (args : List Bytes) (path : Bytes) (w w' : World) (st : Nat) (o : Output) (n : Path) (hd : path ≠ dash)
    (ht : e.temp = some n) (hfr : Fresh e w.fs) (hp : n ≠ path) (h : main C J ord e f args path w = .ok (st, o, w')) (hn : w'.fs n ≠ none) :
    SaysLeft (mainText C J ord e M f args path w) n := by
  have h0 := hfr n ht
  unfold main at h
  unfold mainText
  split at h
  · obtain ⟨⟨ok, w1⟩, h1, h2⟩ := Res.bind_eq_ok.mp h
    simp only [Res.pure_eq, Res.ok.injEq, Prod.mk.injEq] at h2
    obtain ⟨-, -, rfl⟩ := h2
    exact absurd ((Verif.Props.JournalEntries.init_other C J hd h1 n hp).trans h0) hn
  · rename_i hi
    rw [if_neg hi]
    by_cases hlen : args.length < (if f.edit = true then 1 else if f.list = true then 0 else 1)
    · rw [if_pos hlen] at h
      simp only [Res.ok.injEq, Prod.mk.injEq] at h
      rw [← h.2.2] at hn
      exact absurd h0 hn
    rw [if_neg hlen] at h ⊢
    obtain ⟨⟨x, w1⟩, h1, h2⟩ := Res.bind_eq_ok.mp h
    have hw1 : w1.fs n = none := by
      obtain ⟨t, rfl⟩ := loadStore_world C J h1
      exact h0
    rw [h1]
    cases x with
    | none =>
      simp only [Res.pure_eq, Res.ok.injEq, Prod.mk.injEq] at h2
      rw [← h2.2.2] at hn
      exact absurd hw1 hn
    | some ps =>
      dsimp only at h2 ⊢
      unfold run at h2
      split at h2
      · rename_i he
        rw [if_pos he]
        obtain ⟨⟨b, ps', w2⟩, h3, h4⟩ := Res.bind_eq_ok.mp h2
        obtain ⟨-, h5, -⟩ := finish_some C J hd h4
        exact editEntry_left M ht hw1 h3 (by rw [← h5 n hp]; exact hn)
      · rename_i he
        rw [if_neg he]
        split at h2
        · obtain ⟨lines, -, h4⟩ := Res.bind_eq_ok.mp h2
          simp only [Res.pure_eq, Res.ok.injEq, Prod.mk.injEq] at h4
          rw [← h4.2.2] at hn
          exact absurd hw1 hn
        · rename_i hl
          rw [if_neg hl]
          split at h2
          · rename_i hwr
            rw [if_pos hwr]
            obtain ⟨⟨b, ps', w2⟩, h3, h4⟩ := Res.bind_eq_ok.mp h2
            obtain ⟨-, h5, -⟩ := finish_some C J hd h4
            exact writeNew_left M ht hw1 h3 (by rw [← h5 n hp]; exact hn)
          · obtain ⟨x, -, h4⟩ := Res.bind_eq_ok.mp h2
            cases x with
            | none =>
              simp only [Res.pure_eq, Res.ok.injEq, Prod.mk.injEq] at h4
              rw [← h4.2.2] at hn
              exact absurd hw1 hn
            | some text =>
              simp only [Res.pure_eq, Res.ok.injEq, Prod.mk.injEq] at h4
              rw [← h4.2.2] at hn
              exact absurd hw1 hn

/-- Editing an entry prints nothing when the temporary file is removed; provided that the editor leaves a file
there. Missing: editors that remove it themselves. -/
theorem C183_quiet_partial (e : Env) (M : Messages) (f : Flags) (args : List Bytes) (path : Bytes) (w : World)
    (hf : f.init = false ∧ f.edit = true) (hr : e.removes = true) (he : ∀ b, (e.edit b).1 ≠ none) :
    mainText C J ord e M f args path w = [] := by
  unfold mainText
  rw [hf.1, hf.2]
  simp only [Bool.false_eq_true, if_false, if_true]
  split
  · rfl
  · split
    · unfold editEntryText
      split
      · rfl
      · split
        · rfl
        · unfold editorText
          split
          · rfl
          · dsimp only
            rw [if_pos]
            rw [hr, Bool.true_and]
            exact Option.isSome_iff_ne_none.mpr (he _)
    · rfl

/-- Nor does writing an entry with a new title. -/
theorem C183_write_partial (e : Env) (M : Messages) (f : Flags) (arg path pass : Bytes) (w : World) (rest : List (Option Bytes)) (s : SecretStore) (hd : path ≠ dash)
    (hf : f.init = false ∧ f.edit = false ∧ f.list = false ∧ f.write = true) (ha : w.term.answers = some pass :: rest) (ho : Opens C J w.fs path pass f.mode s)
    (hh : s.has (trimSpace arg) = false) (ht : e.temp ≠ none) (hr : e.removes = true) (he : ∀ b, (e.edit b).1 ≠ none ∧ (e.edit b).2 = true) :
    mainText C J ord e M f [arg] path w = [] := by
  rw [text_of C J ord hd hf.1 ha ho, hf.2.1, hf.2.2.1, hf.2.2.2]
  simp only [Bool.false_eq_true, if_false, if_true]
  unfold writeNewText
  simp only [hh, Bool.false_eq_true, if_false]
  unfold addEntryText newEntryText newEntry runEditor editorText
  cases hn : e.temp with
  | none => exact absurd hn ht
  | some n =>
    dsimp only
    rw [if_pos (by rw [hr, Bool.true_and]; exact Option.isSome_iff_ne_none.mpr (he _).1), if_pos (he _).2]
    split
    · rename_i h
      simp only [Prod.mk.injEq] at h
      exact absurd h.1 (he _).1
    · rfl

theorem C183_example {e : Env} {M : Messages} {b : Bytes} (hb : unmarshalSecretStore C J b [112, 119] 0 = .ok (some (exStore [1, 2, 3] 7))) :
    mainText C J ord e M { edit := true } [[97]] [102] (exWorld b [some [112, 119]]) = editorText e M { exWorld b [some [112, 119]] with term := ⟨[], (exWorld b [some [112, 119]]).term.clock⟩ } [1, 2, 3] := by
  rw [text_of C J ord (f := { edit := true }) (w := exWorld b [some [112, 119]]) (path := [102]) (pass := [112, 119]) (s := exStore [1, 2, 3] 7) (rest := [])
    (by decide) rfl rfl ⟨b, by simp [exWorld], hb⟩]
  simp only [if_true, editEntryText, has_of_lookup (exStore_lookup [1, 2, 3] 7), Bool.not_true, Bool.false_eq_true, if_false, fetch_eq.mpr (exStore_lookup [1, 2, 3] 7)]
  rfl

/-- If the editor removes the file itself, journal asks to remove a file that is not there. -/
theorem C183_gone_violated (M : Messages) : ∃ (e : Env) (w w' : World), e.temp = some [116] ∧ e.removes = true ∧ Fresh e w.fs ∧
    main C J ord e { edit := true } [[97]] [102] w = .ok (1, .nothing, w') ∧ w'.fs [116] = none ∧
    SaysLeft (mainText C J ord e M { edit := true } [[97]] [102] w) [116] := by
  obtain ⟨b, hb⟩ := exFile C J 0 (Or.inl rfl)
  refine ⟨{ exEnv with edit := fun _ => (none, true) }, exWorld b [some [112, 119]],
    { exWorld b [] with fs := put (put ((Fs.set (exWorld b []).fs [116] []).set [116] [1, 2, 3]) [116] none) [116] none }, rfl, rfl, exFresh b _, ?_, ?_, ?_⟩
  · rw [main_loads C J ord (f := { edit := true }) (w := exWorld b [some [112, 119]]) (path := [102]) (pass := [112, 119]) (s := exStore [1, 2, 3] 7) (rest := [])
      (by decide) rfl rfl ⟨b, by simp [exWorld], hb⟩]
    unfold run editEntry
    simp only [if_true, List.headD_cons, has_of_lookup (exStore_lookup [1, 2, 3] 7), Bool.not_true, Bool.false_eq_true, if_false, fetch_eq.mpr (exStore_lookup [1, 2, 3] 7), Res.ok_bind]
    simp only [exEnv, runEditor, Go.writeFile, Fs.set_same, exRecord]
    rfl
  · simp [put]
  · rw [C183_example C J ord hb]
    simp only [editorText, exEnv, Option.isSome_none, Bool.and_false, Bool.false_eq_true, if_false]
    exact warning_says M _

/-- A file that cannot be removed: journal leaves it with the text of the entry, exits with status 0, and says
so. -/
example : ∃ b w', main C J ord { exEnv with removes := false } { edit := true } [[97]] [102] (exWorld b [some [112, 119]]) = .ok (0, .nothing, w') ∧
    w'.fs [116] = some [1, 2, 3, 33] ∧
    SaysLeft (mainText C J ord { exEnv with removes := false } exMessages { edit := true } [[97]] [102] (exWorld b [some [112, 119]])) [116] := by
  obtain ⟨b, hb⟩ := exFile C J 0 (Or.inl rfl)
  obtain ⟨out, w', h1, h2, -⟩ := finish_ok C J (w := { exWorld b [] with fs := put ((Fs.set (exWorld b []).fs [116] []).set [116] [1, 2, 3]) [116] (some [1, 2, 3, 33]) })
    (ps := { exStore [1, 2, 3] 7 with store := some ((Map.empty.set [97] (some (exRecord [97] [1, 2, 3] 7))).set [97] (some { exRecord [97] [1, 2, 3] 7 with secret := [1, 2, 3, 33] })) })
    (path := [102]) (mode := 0) (p := [112, 119]) (by decide) (Or.inl rfl) rfl (exRng b []) rfl (exClock 0 (by decide)) rfl rfl
  refine ⟨b, w', ?_, ?_, ?_⟩
  · rw [main_loads C J ord (f := { edit := true }) (w := exWorld b [some [112, 119]]) (path := [102]) (pass := [112, 119]) (s := exStore [1, 2, 3] 7) (rest := [])
      (by decide) rfl rfl ⟨b, by simp [exWorld], hb⟩]
    have hr : runEditor { exEnv with removes := false } { exWorld b [some [112, 119]] with term := ⟨[], (exWorld b [some [112, 119]]).term.clock⟩ } [1, 2, 3] =
        (some [1, 2, 3, 33], { exWorld b [] with fs := put ((Fs.set (exWorld b []).fs [116] []).set [116] [1, 2, 3]) [116] (some [1, 2, 3, 33]) }) := by
      simp only [exEnv, runEditor, Go.writeFile, Fs.set_same]
      rfl
    have hed : editEntry { exEnv with removes := false } { exWorld b [some [112, 119]] with term := ⟨[], (exWorld b [some [112, 119]]).term.clock⟩ } (exStore [1, 2, 3] 7) [97] =
        .ok (true, { exStore [1, 2, 3] 7 with store := some ((Map.empty.set [97] (some (exRecord [97] [1, 2, 3] 7))).set [97] (some { exRecord [97] [1, 2, 3] 7 with secret := [1, 2, 3, 33] })) },
          { exWorld b [] with fs := put ((Fs.set (exWorld b []).fs [116] []).set [116] [1, 2, 3]) [116] (some [1, 2, 3, 33]) }) := by
      unfold editEntry
      simp only [has_of_lookup (exStore_lookup [1, 2, 3] 7), Bool.not_true, Bool.false_eq_true, if_false, fetch_eq.mpr (exStore_lookup [1, 2, 3] 7), Res.ok_bind]
      simp only [show (exRecord [97] [1, 2, 3] 7).secret = [1, 2, 3] from rfl, hr]
      rfl
    unfold run
    simp only [if_true, List.headD_cons, hed, Res.ok_bind]
    exact h1
  · rw [h2, Fs.set_other _ _ (by decide)]
    simp [put]
  · rw [C183_example C J ord hb]
    simp only [editorText, exEnv, Bool.false_and, Bool.false_eq_true, if_false]
    exact warning_says _ _

end Verif.Props.JournalOutput
