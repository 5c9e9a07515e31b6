import Verif.Proofs.Journal
import Verif.Props.Otpc
/-! Properties of the program journal (cmd/journal/journal.go). -/

namespace Verif.Props.Journal
open Verif Verif.Go Verif.Model.Util Verif.Model.SecretStore Verif.Model.Journal
open Verif.Model.Secrets (World loadStore writeStore assign fetch dash)
open Verif.Spec.SecretStore Verif.Spec.Secrets Verif.Spec.Journal Verif.Proofs.SecretStore Verif.Proofs.Journal
open Verif.Proofs.Secrets hiding fmode
open Verif.Proofs.Otpc (load_ok load_some has_of_lookup)
open Verif.Props.SecretStore
open Verif.Props.Secrets (exWorld exFile exMap_other exClock)
open Verif.Props.Otpc (exRng init_works init_true init_failed)

variable (C : Crypto) (J : Json) (ord : Map (Option SecretRecord) → List Bytes)

/-! ### Examples -/

/-- An editor with which one adds "!" to what there is. -/
def exEnv : Env :=
  { temp := some [116], write := .done, edit := fun b => (b.map (· ++ [33]), true), removes := true, date := fun _ => [48] }

theorem exEdited (data : Bytes) : Edited exEnv data (data ++ [33]) := ⟨data, Or.inl ⟨rfl, rfl⟩, rfl⟩

theorem exFresh (b : Bytes) (a : List (Option Bytes)) : Fresh exEnv (exWorld b a).fs := by
  intro n h
  cases h
  simp [exWorld, Fs.set]

/-! ### What makes a run succeed -/

theorem addEntry_ok {e : Env} {n : Path} {w : World} {ps : SecretStore} {title text : Bytes} {m : Map (Option SecretRecord)}
    (ht : e.temp = some n) (hm : ps.store = some m) (he : Edited e (header title (e.date (w.term.clock 0))) text) :
    ∃ fs, addEntry e w ps title = .ok (true, { ps with store := some (m.set title (some ⟨title, w.term.clock 1, text, none⟩)) },
      { w with term := ⟨w.term.answers, fun n => w.term.clock (n + 2)⟩, fs := fs }) := by
  obtain ⟨fs, h⟩ := runEditor_ok ht he { w with term := ⟨w.term.answers, fun n => w.term.clock (n + 1)⟩ }
  refine ⟨fs, ?_⟩
  unfold addEntry newEntry
  simp only [ht, Term.now, h, assign, hm, Res.ok_bind, Res.pure_eq]

theorem editEntry_ok {e : Env} {n : Path} {w : World} {ps : SecretStore} {title text : Bytes} {m : Map (Option SecretRecord)}
    {r : SecretRecord} (ht : e.temp = some n) (hm : ps.store = some m) (hl : lookup ps title = some r) (he : Edited e r.secret text) :
    ∃ fs, editEntry e w ps title = .ok (true, { ps with store := some (m.set title (some { r with secret := text })) }, { w with fs := fs }) := by
  obtain ⟨fs, h⟩ := runEditor_ok ht he w
  refine ⟨fs, ?_⟩
  unfold editEntry
  simp only [has_of_lookup hl, Bool.not_true, Bool.false_eq_true, if_false, ht, fetch_eq.mpr hl, Res.ok_bind, h, assign, hm, Res.pure_eq]

/-- `journal -w` with a new title works. -/
theorem write_works {e : Env} {n : Path} {f : Flags} {arg path pass text : Bytes} {w : World} {rest : List (Option Bytes)} {s : SecretStore}
    {m : Map (Option SecretRecord)} (hd : path ≠ dash) (hf : f.init = false ∧ f.edit = false ∧ f.list = false ∧ f.write = true)
    (ha : w.term.answers = some pass :: rest) (ho : Opens C J w.fs path pass f.mode s) (hm : s.store = some m)
    (hh : s.has (trimSpace arg) = false) (ht : e.temp = some n) (he : Edited e (header (trimSpace arg) (e.date (w.term.clock 0))) text)
    (hw : w.write = .done) (hr : 56 ≤ w.rng.length) (hv : s.version = 1) (hc : w.term.clock 2 ≠ 0) :
    ∃ w', main C J ord e f [arg] path w = .ok (0, .nothing, w') := by
  obtain ⟨fs, h1⟩ := addEntry_ok (w := { w with term := ⟨rest, w.term.clock⟩ }) ht hm he
  obtain ⟨b, hb, hu⟩ := id ho
  obtain ⟨-, -, hp⟩ := opens_fields C J hu
  obtain ⟨out, w', h2, -⟩ := finish_ok C J (w := { w with term := ⟨rest, fun n => w.term.clock (n + 2)⟩, fs := fs })
    (ps := { s with store := some (m.set (trimSpace arg) (some ⟨trimSpace arg, w.term.clock 1, text, none⟩)) })
    hd (fmode f) hw hr hv hc rfl hp
  refine ⟨w', ?_⟩
  obtain ⟨hi, hed, hl, hwr⟩ := hf
  rw [main_loads C J ord hd hi ha ho]
  unfold run writeNew
  rw [hed, hl, hwr]
  simp only [Bool.false_eq_true, if_false, if_true, List.headD_cons, hh, h1, Res.ok_bind]
  exact h2

/-- So does `journal -w` with an existing title for which another is then typed. -/
theorem retitle_works {e : Env} {n : Path} {f : Flags} {arg path pass text a title : Bytes} {w : World} {rest : List (Option Bytes)} {s : SecretStore}
    {m : Map (Option SecretRecord)} (hd : path ≠ dash) (hf : f.init = false ∧ f.edit = false ∧ f.list = false ∧ f.write = true)
    (ha : w.term.answers = some pass :: some a :: some title :: rest) (ho : Opens C J w.fs path pass f.mode s) (hm : s.store = some m)
    (hh : s.has (trimSpace arg) = true) (hy : ¬ Yes a) (hne : title ≠ []) (ht : e.temp = some n)
    (he : Edited e (header title (e.date (w.term.clock 0))) text)
    (hw : w.write = .done) (hr : 56 ≤ w.rng.length) (hv : s.version = 1) (hc : w.term.clock 2 ≠ 0) :
    ∃ w' out, main C J ord e f [arg] path w = .ok (0, .nothing, w') ∧ w'.fs path = some out ∧
      IsFile C out pass f.mode (J.enc { s.toFields with store := some (m.set title (some ⟨title, w.term.clock 1, text, none⟩)), timestamp := w.term.clock 2 }) := by
  obtain ⟨fs, h1⟩ := addEntry_ok (w := { w with term := ⟨rest, w.term.clock⟩ }) ht hm he
  obtain ⟨b, hb, hu⟩ := id ho
  obtain ⟨-, -, hp⟩ := opens_fields C J hu
  obtain ⟨out, w', h2, h3, h4⟩ := finish_ok C J (w := { w with term := ⟨rest, fun n => w.term.clock (n + 2)⟩, fs := fs })
    (ps := { s with store := some (m.set title (some ⟨title, w.term.clock 1, text, none⟩)) })
    hd (fmode f) hw hr hv hc rfl hp
  refine ⟨w', out, ?_, by rw [h3]; simp, h4⟩
  obtain ⟨hi, hed, hl, hwr⟩ := hf
  rw [main_loads C J ord hd hi ha ho]
  unfold run writeNew Term.read
  rw [hed, hl, hwr]
  have hy' : ¬ (lower a = ascii "y" ∨ lower a = ascii "yes") := hy
  simp only [Bool.false_eq_true, if_false, if_true, List.headD_cons, hh, hy', hne, h1, Res.ok_bind]
  exact h2

/-- `journal -e` works. -/
theorem edit_works {e : Env} {n : Path} {f : Flags} {title path pass text : Bytes} {w : World} {rest : List (Option Bytes)} {s : SecretStore}
    {m : Map (Option SecretRecord)} {r : SecretRecord} (hd : path ≠ dash) (hf : f.init = false ∧ f.edit = true)
    (ha : w.term.answers = some pass :: rest) (ho : Opens C J w.fs path pass f.mode s) (hm : s.store = some m)
    (hl : lookup s title = some r) (ht : e.temp = some n) (he : Edited e r.secret text)
    (hw : w.write = .done) (hr : 56 ≤ w.rng.length) (hv : s.version = 1) (hc : w.term.clock 0 ≠ 0) :
    ∃ w', main C J ord e f [title] path w = .ok (0, .nothing, w') := by
  obtain ⟨fs, h1⟩ := editEntry_ok (w := { w with term := ⟨rest, w.term.clock⟩ }) ht hm hl he
  obtain ⟨b, hb, hu⟩ := id ho
  obtain ⟨-, -, hp⟩ := opens_fields C J hu
  obtain ⟨out, w', h2, -⟩ := finish_ok C J (w := { w with term := ⟨rest, w.term.clock⟩, fs := fs })
    (ps := { s with store := some (m.set title (some { r with secret := text })) })
    hd (fmode f) hw hr hv hc rfl hp
  refine ⟨w', ?_⟩
  rw [main_loads C J ord hd hf.1 ha ho]
  unfold run
  rw [hf.2]
  simp only [if_true, List.headD_cons, h1, Res.ok_bind]
  exact h2

/-- Showing an entry. -/
theorem show_entry {e : Env} {g : Flags} (hg : g.init = false ∧ g.edit = false ∧ g.list = false ∧ g.write = false) {title path pass : Bytes}
    {v : World} {rest : List (Option Bytes)} {s : SecretStore} {r : SecretRecord} (hd : path ≠ dash) (ha : v.term.answers = some pass :: rest)
    (ho : Opens C J v.fs path pass g.mode s) (hl : lookup s title = some r) :
    main C J ord e g [title] path v = .ok (0, .entry r.secret, { v with term := ⟨rest, v.term.clock⟩ }) := by
  obtain ⟨g1, g2, g3, g4⟩ := hg
  rw [main_loads C J ord hd g1 ha ho]
  unfold run showEntry
  rw [g2, g3, g4]
  simp only [Bool.false_eq_true, if_false, List.headD_cons, has_of_lookup hl, Bool.not_true, fetch_eq.mpr hl, Res.ok_bind, Res.pure_eq]

theorem show_missing {e : Env} {g : Flags} (hg : g.init = false ∧ g.edit = false ∧ g.list = false ∧ g.write = false) {title path pass : Bytes}
    {v : World} {rest : List (Option Bytes)} {s : SecretStore} (hd : path ≠ dash) (ha : v.term.answers = some pass :: rest)
    (ho : Opens C J v.fs path pass g.mode s) (hl : s.has title = false) :
    main C J ord e g [title] path v = .ok (1, .nothing, { v with term := ⟨rest, v.term.clock⟩ }) := by
  obtain ⟨g1, g2, g3, g4⟩ := hg
  rw [main_loads C J ord hd g1 ha ho]
  unfold run showEntry
  rw [g2, g3, g4]
  simp only [Bool.false_eq_true, if_false, List.headD_cons, hl, Bool.not_false, if_true, Res.ok_bind, Res.pure_eq]

/-! ### C72: existing entries -/

/-- `journal -w` keeps every entry but those one is asked for: the one whose editing was accepted,
and the one whose title was typed as the other title. Missing from the property: the latter, and
titles that are not UTF-8. -/
theorem C72_kept_partial (e : Env) (f : Flags) (arg path : Bytes) (w w' : World) (o : Output) (hd : path ≠ dash)
    (hf : f.init = false ∧ f.edit = false ∧ f.list = false ∧ f.write = true) (h : main C J ord e f [arg] path w = .ok (0, o, w')) :
    ∃ pass s s', w.term.answers.head? = some (some pass) ∧ Opens C J w.fs path pass f.mode s ∧ Opens C J w'.fs path pass f.mode s' ∧
      ∀ k r, lookup s k = some r → NoAlias (trimSpace arg :: typed w) k →
        ¬ (k = arg ∧ ∃ a, w.term.answers[1]? = some (some a) ∧ Yes a) → w.term.answers[2]? ≠ some (some k) →
        lookup s' k = some r := by
  obtain ⟨pass, rest, s, m, title, r, out, t, ha, ho, hm, hout, hfile, -, hcase⟩ := write_exit C J ord hd hf h
  obtain ⟨b, hb, hu⟩ := id ho
  obtain ⟨hfin, hutf, hp⟩ := opens_fields C J hu
  have hmd : ∀ md, r.metadata = some md → md.Finite := by
    rcases hcase with ⟨-, -, -, -, -, -, r0, hl, text, -, rfl⟩ | ⟨text, -, rfl, -⟩
    · exact fun md hmd => record_finite hfin hl md hmd
    · intro md h; cases h
  obtain ⟨s', h1, h2, h3⟩ := saved_opens C J (finite_set hfin hm title r hmd t) hfile
  refine ⟨pass, s, s', by rw [ha]; rfl, ho, ⟨out, hout, h1⟩, ?_⟩
  intro k r0 hk hna hne hnt
  have hkt : k ≠ title := by
    rintro rfl
    rcases hcase with ⟨-, e1, a, rest', rfl, e2, -⟩ | ⟨text, -, -, ⟨-, a, rest', rfl, -⟩ | ⟨e1, e2⟩⟩
    · exact hne ⟨e1, a, by rw [ha]; rfl, e2⟩
    · exact hnt (by rw [ha]; rfl)
    · rw [← e2, has_of_lookup hk] at e1
      cases e1
  have hF := frame_set (ps := s) hm title r (fun _ => hmd)
  refine keep_same hutf hF h2 hk (by rw [lookup_set hm, if_neg hkt, hk]) ?_
  intro x hx hs
  simp only [List.mem_singleton] at hx
  subst hx
  rcases hcase with ⟨-, e1, a, rest', -, -, r1, hl, -⟩ | ⟨text, -, -, ⟨-, a, rest', rfl, -⟩ | ⟨e1, rfl⟩⟩
  · have := (record_utf8 hutf hl).1
    rw [e1, ← hs, e1, this]
  · refine hna _ ?_ hs
    unfold typed
    rw [ha]
    simp
  · exact hna _ (by simp) hs

/-- Told that the title is taken, the user says no and enters it again, or any other title that is
taken: the entry is replaced without further question. -/
theorem C72_retitle_violated : ∃ (w w' : World) (s s' : SecretStore),
    main C J ord exEnv { write := true } [[97]] [102] w = .ok (0, .nothing, w') ∧
    w.term.answers = [some [112, 119], some [110], some [97]] ∧
    Opens C J w.fs [102] [112, 119] 0 s ∧ secretOf s [97] = some [1, 2, 3] ∧
    Opens C J w'.fs [102] [112, 119] 0 s' ∧ secretOf s' [97] = some (header [97] [48] ++ [33]) := by
  obtain ⟨b, hb⟩ := exFile C J 0 (Or.inl rfl)
  obtain ⟨w', out, h1, h2, h3⟩ := retitle_works C J ord (e := exEnv) (f := { write := true }) (arg := [97]) (path := [102])
    (w := exWorld b [some [112, 119], some [110], some [97]]) (by decide) ⟨rfl, rfl, rfl, rfl⟩ rfl ⟨b, by simp [exWorld], hb⟩ rfl
    (has_of_lookup (exStore_lookup _ _)) (by unfold Yes; decide) (by simp) rfl (exEdited _) rfl (exRng _ _) rfl (exClock 2 (by decide))
  have hu := saved_exact C J (finite_set (exStore_finite _ _) rfl _ _ (fun md h => by cases h) _)
    (utf8_set (f := (exStore [1, 2, 3] 7).toFields) (exStore_clean _ _) rfl (r := ⟨[97], _, _, none⟩) (by decide) (show ValidUtf8 [97] by decide) (fun md j x h => by cases h) _) h3
  refine ⟨_, w', exStore [1, 2, 3] 7, _, h1, rfl, ⟨b, by simp [exWorld], hb⟩, rfl, ⟨out, h2, hu⟩, ?_⟩
  unfold secretOf
  rw [lookup_eq rfl]
  simp only [Map.set_same]
  rfl

/-- A run to which the theorem applies, with an entry that is kept. -/
example : ∃ b w', main C J ord exEnv { write := true } [[98]] [102] (exWorld b [some [112, 119]]) = .ok (0, .nothing, w') ∧
    NoAlias (trimSpace [98] :: typed (exWorld b [some [112, 119]])) [97] := by
  obtain ⟨b, hb⟩ := exFile C J 0 (Or.inl rfl)
  obtain ⟨w', h⟩ := write_works C J ord (e := exEnv) (f := { write := true }) (arg := [98]) (path := [102])
    (w := exWorld b [some [112, 119]]) (by decide) ⟨rfl, rfl, rfl, rfl⟩ rfl ⟨b, by simp [exWorld], hb⟩ rfl
    (exMap_other (by decide) _ _) rfl (exEdited _) rfl (exRng _ _) rfl (exClock 2 (by decide))
  refine ⟨b, w', h, ?_⟩
  intro x hx
  have : x = [98] ∨ x = [112, 119] := by simpa [typed, exWorld, show trimSpace [98] = [98] by decide] using hx
  rcases this with rfl | rfl <;> decide

/-! ### C73: the list -/

/-- The timestamp of the entry. -/
def stamp (m : Map (Option SecretRecord)) (k : Bytes) : BitVec 64 :=
  match m k with
  | some (some r) => r.timestamp
  | _ => 0

theorem collect_ok (m : Map (Option SecretRecord)) : ∀ (order : List Bytes) (ts : List (BitVec 64)) (labels : BitVec 64 → Bytes),
    (∀ k ∈ order, ∃ r, m k = some (some r)) →
    ∃ labels', collect m order (ts, labels) = .ok (ts ++ order.map (stamp m), labels') ∧
      (∀ t, (∃ k ∈ order, stamp m k = t) → labels' t ∈ order ∧ stamp m (labels' t) = t) ∧
      ∀ t, (∀ k ∈ order, stamp m k ≠ t) → labels' t = labels t := by
  intro order
  induction order with
  | nil => intro ts labels _; exact ⟨labels, by simp [collect], by simp, by simp⟩
  | cons k ks ih =>
    intro ts labels h
    obtain ⟨r, hr⟩ := h k List.mem_cons_self
    have hst : stamp m k = r.timestamp := by simp [stamp, hr]
    obtain ⟨labels', h1, h2, h3⟩ := ih (ts ++ [r.timestamp]) (fun t => if t = r.timestamp then k else labels t)
      (fun q hq => h q (List.mem_cons_of_mem _ hq))
    refine ⟨labels', ?_, ?_, ?_⟩
    · simp only [collect, hr, h1, List.map_cons, hst, List.append_assoc, List.singleton_append]
    · rintro t ⟨q, hq, rfl⟩
      by_cases hks : ∃ q' ∈ ks, stamp m q' = stamp m q
      · obtain ⟨a, b⟩ := h2 _ hks
        exact ⟨List.mem_cons_of_mem _ a, b⟩
      · have hne : ∀ q' ∈ ks, stamp m q' ≠ stamp m q := fun q' hq' he => hks ⟨q', hq', he⟩
        have hqk : q = k := by
          rcases List.mem_cons.mp hq with rfl | hq
          · rfl
          · exact absurd rfl (hne q hq)
        subst hqk
        rw [h3 _ hne, hst]
        simp [hst]
    · intro t ht
      rw [h3 t (fun q hq => ht q (List.mem_cons_of_mem _ hq))]
      have := ht k List.mem_cons_self
      rw [hst] at this
      simp [Ne.symm this]

theorem sort_perm (l : List (BitVec 64)) : (l.mergeSort (fun a b => decide (a.toInt ≤ b.toInt))).Perm l := List.mergeSort_perm _ _

theorem sort_sorted (l : List (BitVec 64)) : (l.mergeSort (fun a b => decide (a.toInt ≤ b.toInt))).Pairwise (fun a b => a.toInt ≤ b.toInt) := by
  have := List.pairwise_mergeSort (le := fun a b : BitVec 64 => decide (a.toInt ≤ b.toInt))
    (fun a b c h1 h2 => by simp only [decide_eq_true_eq] at *; omega) (fun a b => by simp only [Bool.or_eq_true, decide_eq_true_eq]; omega) l
  exact this.imp (by simp)

theorem stamp_lookup {s : SecretStore} {k : Bytes} {r : SecretRecord} (h : lookup s k = some r) :
    stamp (s.store.getD Map.empty) k = r.timestamp := by
  obtain ⟨m, hm, hk⟩ := lookup_get h
  simp [stamp, hm, hk]

theorem mem_order {s : SecretStore} (hn : NoNil s) {order : List Bytes} (ho : (s.store.getD Map.empty).Enumerates order) (k : Bytes) :
    k ∈ order ↔ ∃ r, lookup s k = some r := by
  rw [ho.2]
  cases hm : s.store with
  | none => simp [lookup, hm, Map.empty]
  | some m =>
    have := hn m k hm
    rw [lookup_eq hm]
    simp only [Option.getD_some]
    cases hk : m k with
    | none => simp
    | some x => cases x with
      | none => exact absurd hk this
      | some r => simp

/-- The lines printed: the timestamps of all entries, newest first, each with the title of an
entry written then. -/
theorem list_lines {s : SecretStore} (hn : NoNil s) {order : List Bytes} (ho : (s.store.getD Map.empty).Enumerates order) :
    ∃ lines, listEntries s order = .ok lines ∧
      lines.Pairwise (fun a b => b.1.toInt ≤ a.1.toInt) ∧
      (lines.map (·.1)).Perm (order.map (stamp (s.store.getD Map.empty))) ∧
      ∀ l ∈ lines, ∃ r, lookup s l.2 = some r ∧ r.timestamp = l.1 := by
  obtain ⟨labels, h1, h2, -⟩ := collect_ok (s.store.getD Map.empty) order [] (fun _ => []) (by
    intro k hk
    obtain ⟨r, hr⟩ := (mem_order hn ho k).mp hk
    obtain ⟨m, hm, hk⟩ := lookup_get hr
    exact ⟨r, by simp [hm, hk]⟩)
  refine ⟨((order.map (stamp (s.store.getD Map.empty))).mergeSort (fun a b => decide (a.toInt ≤ b.toInt))).reverse.map fun t => (t, labels t),
    by simp only [listEntries, h1, Res.ok_bind, Res.pure_eq, List.nil_append], ?_, ?_, ?_⟩
  · rw [List.pairwise_map, List.pairwise_reverse]
    exact sort_sorted _
  · rw [List.map_map]
    have : (fun x : BitVec 64 × Bytes => x.1) ∘ (fun t => (t, labels t)) = id := rfl
    rw [this, List.map_id]
    exact (List.reverse_perm _).trans (sort_perm _)
  · intro l hl
    obtain ⟨t, ht, rfl⟩ := List.mem_map.mp hl
    have ht' := (sort_perm _).mem_iff.mp (List.mem_reverse.mp ht)
    obtain ⟨k, hk, rfl⟩ := List.mem_map.mp ht'
    obtain ⟨a, b⟩ := h2 _ ⟨k, hk, rfl⟩
    obtain ⟨r, hr⟩ := (mem_order hn ho _).mp a
    refine ⟨r, hr, ?_⟩
    rw [stamp_lookup hr] at b
    exact b

/-- Running the command. -/
theorem main_list {e : Env} {f : Flags} {args : List Bytes} {path pass : Bytes} {w : World} {rest : List (Option Bytes)} {s : SecretStore}
    (hd : path ≠ dash) (hf : f.init = false ∧ f.edit = false ∧ f.list = true)
    (ha : w.term.answers = some pass :: rest) (hop : Opens C J w.fs path pass f.mode s) {lines : List (BitVec 64 × Bytes)}
    (h : listEntries s (ord (s.store.getD Map.empty)) = .ok lines) :
    main C J ord e f args path w = .ok (0, .entries lines, { w with term := ⟨rest, w.term.clock⟩ }) := by
  obtain ⟨h1, h2, h3⟩ := hf
  unfold main
  rw [h1, h2, h3]
  simp only [Bool.false_eq_true, if_false, if_true, Nat.not_lt_zero, load_ok C J hd ha hop, Res.ok_bind]
  unfold run
  rw [h2, h3]
  simp only [Bool.false_eq_true, if_false, if_true, h, Res.ok_bind, Res.pure_eq]

/-- `journal -l`: if no two entries were written in the same second, every title is listed exactly
once, with its date, newest first. Missing: entries written in the same second. -/
theorem C73_list_partial (e : Env) (f : Flags) (args : List Bytes) (path pass : Bytes) (w : World) (rest : List (Option Bytes)) (s : SecretStore)
    (hd : path ≠ dash) (hf : f.init = false ∧ f.edit = false ∧ f.list = true) (hord : ∀ m : Map (Option SecretRecord), m.Finite → m.Enumerates (ord m))
    (ha : w.term.answers = some pass :: rest) (hop : Opens C J w.fs path pass f.mode s) (hn : NoNil s)
    (hdist : ∀ k k2 r r2, lookup s k = some r → lookup s k2 = some r2 → r.timestamp = r2.timestamp → k = k2) :
    ∃ lines w', main C J ord e f args path w = .ok (0, .entries lines, w') ∧ w'.fs = w.fs ∧
      (∀ t k, (t, k) ∈ lines ↔ ∃ r, lookup s k = some r ∧ r.timestamp = t) ∧
      (lines.map (·.2)).Nodup ∧ lines.Pairwise (fun a b => b.1.toInt ≤ a.1.toInt) := by
  obtain ⟨b, hb, hu⟩ := id hop
  obtain ⟨hfin, -, -⟩ := opens_fields C J hu
  have ho : (s.store.getD Map.empty).Enumerates (ord (s.store.getD Map.empty)) := by
    apply hord
    cases hm : s.store with
    | none => exact Map.finite_empty
    | some m => exact (hfin m hm).1
  obtain ⟨lines, h1, h2, h3, h4⟩ := list_lines hn ho
  have hnd : (lines.map (·.1)).Nodup := by
    refine h3.symm.nodup ?_
    refine List.Pairwise.map _ (fun a b h => h) (List.Pairwise.imp_of_mem ?_ ho.1)
    intro a b ha hb hab he
    obtain ⟨r, hr⟩ := (mem_order hn ho a).mp ha
    obtain ⟨r2, hr2⟩ := (mem_order hn ho b).mp hb
    rw [stamp_lookup hr, stamp_lookup hr2] at he
    exact hab (hdist a b r r2 hr hr2 he)
  refine ⟨lines, _, main_list C J ord hd hf ha hop h1, rfl, ?_, ?_, h2⟩
  · intro t k
    refine ⟨fun h => h4 _ h, ?_⟩
    rintro ⟨r, hr, rfl⟩
    have : r.timestamp ∈ lines.map (·.1) := by
      rw [h3.mem_iff]
      exact List.mem_map.mpr ⟨k, (mem_order hn ho k).mpr ⟨r, hr⟩, stamp_lookup hr⟩
    obtain ⟨⟨t, k2⟩, hl, he⟩ := List.mem_map.mp this
    simp only at he
    subst he
    obtain ⟨r2, hr2, he⟩ := h4 _ hl
    have := hdist k2 k r2 r hr2 hr he
    subst this
    exact hl
  · have h5 : lines.Pairwise (fun a b => a.1 ≠ b.1) := List.pairwise_map.mp hnd
    refine List.pairwise_map.mpr (h5.imp_of_mem ?_)
    intro a b ha hb hab he
    obtain ⟨r, hr, h6⟩ := h4 a ha
    obtain ⟨r2, hr2, h7⟩ := h4 b hb
    rw [he, hr2] at hr
    cases hr
    exact hab (h6.symm.trans h7)

/-- Whatever the timestamps, there are as many lines as entries, newest first, and each line is
the title of an entry with its own date. -/
theorem C73_lines_partial (e : Env) (f : Flags) (args : List Bytes) (path pass : Bytes) (w : World) (rest : List (Option Bytes)) (s : SecretStore)
    (hd : path ≠ dash) (hf : f.init = false ∧ f.edit = false ∧ f.list = true) (hord : ∀ m : Map (Option SecretRecord), m.Finite → m.Enumerates (ord m))
    (ha : w.term.answers = some pass :: rest) (hop : Opens C J w.fs path pass f.mode s) (hn : NoNil s) :
    ∃ (lines : List (BitVec 64 × Bytes)) (w' : World) (titles : List Bytes), main C J ord e f args path w = .ok (0, .entries lines, w') ∧ w'.fs = w.fs ∧
      titles.Nodup ∧ (∀ k, k ∈ titles ↔ ∃ r, lookup s k = some r) ∧ lines.length = titles.length ∧
      lines.Pairwise (fun a b => b.1.toInt ≤ a.1.toInt) ∧ ∀ l ∈ lines, ∃ r, lookup s l.2 = some r ∧ r.timestamp = l.1 := by
  obtain ⟨b, hb, hu⟩ := id hop
  obtain ⟨hfin, -, -⟩ := opens_fields C J hu
  have ho : (s.store.getD Map.empty).Enumerates (ord (s.store.getD Map.empty)) := by
    apply hord
    cases hm : s.store with
    | none => exact Map.finite_empty
    | some m => exact (hfin m hm).1
  obtain ⟨lines, h1, h2, h3, h4⟩ := list_lines hn ho
  refine ⟨lines, _, _, main_list C J ord hd hf ha hop h1, rfl, ho.1, mem_order hn ho, ?_, h2, h4⟩
  have := h3.length_eq
  simpa using this

/-- Lines of one timestamp are the same line. -/
theorem list_functional {s : SecretStore} {order : List Bytes} {lines : List (BitVec 64 × Bytes)} (h : listEntries s order = .ok lines) :
    ∀ l ∈ lines, ∀ l' ∈ lines, l.1 = l'.1 → l = l' := by
  unfold listEntries at h
  obtain ⟨⟨ts, labels⟩, -, h⟩ := Res.bind_eq_ok.mp h
  cases h
  intro l hl l' hl' he
  obtain ⟨t, -, rfl⟩ := List.mem_map.mp hl
  obtain ⟨t', -, rfl⟩ := List.mem_map.mp hl'
  cases he
  rfl

/-- Exactly when all is well: every title is listed if and only if no two entries were written in the
same second, and so is no title listed twice. (Missing from the property, as above: entries written
in the same second; each such pair costs a title.) -/
theorem C73_iff_partial (e : Env) (f : Flags) (args : List Bytes) (path pass : Bytes) (w : World) (rest : List (Option Bytes)) (s : SecretStore)
    (hd : path ≠ dash) (hf : f.init = false ∧ f.edit = false ∧ f.list = true) (hord : ∀ m : Map (Option SecretRecord), m.Finite → m.Enumerates (ord m))
    (ha : w.term.answers = some pass :: rest) (hop : Opens C J w.fs path pass f.mode s) (hn : NoNil s) :
    ∃ lines w', main C J ord e f args path w = .ok (0, .entries lines, w') ∧
      ((∀ k r, lookup s k = some r → ∃ t, (t, k) ∈ lines) ↔
        ∀ k k2 r r2, lookup s k = some r → lookup s k2 = some r2 → r.timestamp = r2.timestamp → k = k2) ∧
      ((lines.map (·.2)).Nodup ↔
        ∀ k k2 r r2, lookup s k = some r → lookup s k2 = some r2 → r.timestamp = r2.timestamp → k = k2) ∧
      ∀ k k2 r r2, lookup s k = some r → lookup s k2 = some r2 → r.timestamp = r2.timestamp → k ≠ k2 →
        ¬ ((∃ t, (t, k) ∈ lines) ∧ ∃ t, (t, k2) ∈ lines) := by
  obtain ⟨b, hb, hu⟩ := id hop
  obtain ⟨hfin, -, -⟩ := opens_fields C J hu
  have ho : (s.store.getD Map.empty).Enumerates (ord (s.store.getD Map.empty)) := by
    apply hord
    cases hm : s.store with
    | none => exact Map.finite_empty
    | some m => exact (hfin m hm).1
  obtain ⟨lines, h1, h2, h3, h4⟩ := list_lines hn ho
  have hfun := list_functional h1
  have lost : ∀ k k2 r r2, lookup s k = some r → lookup s k2 = some r2 → r.timestamp = r2.timestamp → k ≠ k2 →
      ¬ ((∃ t, (t, k) ∈ lines) ∧ ∃ t, (t, k2) ∈ lines) := by
    rintro k k2 r r2 hr hr2 he hne ⟨⟨t, hl⟩, t2, hl2⟩
    obtain ⟨q, hq, h5⟩ := h4 _ hl
    obtain ⟨q2, hq2, h6⟩ := h4 _ hl2
    simp only at hq hq2 h5 h6
    rw [hr] at hq
    rw [hr2] at hq2
    cases hq
    cases hq2
    have := hfun _ hl _ hl2 (by simp only [← h5, ← h6, he])
    exact hne (congrArg Prod.snd this)
  have good := fun hdist => C73_list_partial C J ord e f args path pass w rest s hd hf hord ha hop hn hdist
  refine ⟨lines, _, main_list C J ord hd hf ha hop h1, ⟨fun h k k2 r r2 hr hr2 he => ?_, fun hdist => ?_⟩, ⟨fun h => ?_, fun hdist => ?_⟩, lost⟩
  · exact Classical.byContradiction fun hne => lost k k2 r r2 hr hr2 he hne ⟨h k r hr, h k2 r2 hr2⟩
  · obtain ⟨lines', w', hm, -, hall, -⟩ := good hdist
    rw [main_list C J ord hd hf ha hop h1] at hm
    cases hm
    exact fun k r hr => ⟨r.timestamp, (hall _ _).mpr ⟨r, hr, rfl⟩⟩
  · have hl : lines.Pairwise (fun a b => a.2 ≠ b.2) := List.pairwise_map.mp h
    have ht : (lines.map (·.1)).Nodup := by
      refine List.pairwise_map.mpr (hl.imp_of_mem ?_)
      intro a b ha hb hab he
      exact hab (congrArg Prod.snd (hfun a ha b hb he))
    have hs := h3.nodup ht
    intro k k2 r r2 hr hr2 he
    refine Classical.byContradiction fun hne => ?_
    have inj : ∀ (l : List Bytes), (l.map (stamp (s.store.getD Map.empty))).Nodup → k ∈ l → k2 ∈ l → False := by
      intro l
      induction l with
      | nil => intro _ h; cases h
      | cons x l ih =>
        intro hnd hk hk2
        rw [List.map_cons, List.nodup_cons] at hnd
        rcases List.mem_cons.mp hk with h5 | h5
        · rcases List.mem_cons.mp hk2 with h6 | h6
          · exact hne (h5.trans h6.symm)
          · exact hnd.1 (List.mem_map.mpr ⟨k2, h6, by rw [← h5, stamp_lookup hr, stamp_lookup hr2, he]⟩)
        · rcases List.mem_cons.mp hk2 with h6 | h6
          · exact hnd.1 (List.mem_map.mpr ⟨k, h5, by rw [← h6, stamp_lookup hr, stamp_lookup hr2, he]⟩)
          · exact ih hnd.2 h5 h6
    exact inj _ hs ((mem_order hn ho k).mpr ⟨r, hr⟩) ((mem_order hn ho k2).mpr ⟨r2, hr2⟩)
  · obtain ⟨lines', w', hm, -, -, hnd, -⟩ := good hdist
    rw [main_list C J ord hd hf ha hop h1] at hm
    cases hm
    exact hnd

/-- Two entries written in the same second. -/
def twoStore : SecretStore :=
  { version := 1, timestamp := 5, store := some ((Map.empty.set [97] (some ⟨[97], 7, [1], none⟩)).set [98] (some ⟨[98], 7, [2], none⟩)),
    passphrase := some [112, 119] }

theorem oneStore_eq : (exStore [1] 7).toFields.store = some (Map.empty.set [97] (some (exRecord [97] [1] 7))) := rfl

theorem twoStore_lookup (k : Bytes) : lookup twoStore k = if k = [98] then some ⟨[98], 7, [2], none⟩ else if k = [97] then some ⟨[97], 7, [1], none⟩ else none := by
  rw [lookup_eq (m := (Map.empty.set [97] (some ⟨[97], 7, [1], none⟩)).set [98] (some ⟨[98], 7, [2], none⟩)) rfl]
  by_cases h1 : k = [98]
  · subst h1; simp
  · rw [Map.set_other _ _ h1, if_neg h1]
    by_cases h2 : k = [97]
    · subst h2; simp
    · rw [Map.set_other _ _ h2, if_neg h2]
      rfl

theorem twoStore_file (mode : Int) (hm : mode = 0 ∨ mode = 1) : ∃ b, unmarshalSecretStore C J b [112, 119] mode = .ok (some twoStore) := by
  refine file_exists C J hm ((valid_iff _).mpr ⟨rfl, by simp [twoStore], ⟨_, rfl⟩, _, rfl⟩) rfl ?_ ?_
  · refine finite_set (f := { version := 1, timestamp := 5, store := some (Map.empty.set [97] (some ⟨[97], 7, [1], none⟩)) }) ?_ rfl _ _ (fun md h => by cases h) 5
    exact finite_set (f := { version := 1, timestamp := 5, store := some Map.empty }) (new_finite [] 5) rfl _ _ (fun md h => by cases h) 5
  · refine utf8_set (f := { version := 1, timestamp := 5, store := some (Map.empty.set [97] (some ⟨[97], 7, [1], none⟩)) }) ?_ rfl (r := ⟨[98], 7, [2], none⟩)
      (by decide) (by decide) (fun md j x h => by cases h) 5
    exact utf8_set (f := { version := 1, timestamp := 5, store := some Map.empty }) (new_utf8 [] 5) rfl (r := ⟨[97], 7, [1], none⟩)
      (by decide) (by decide) (fun md j x h => by cases h) 5

theorem twoStore_noNil : NoNil twoStore := by
  intro m k hm hk
  cases hm
  by_cases h1 : k = [98]
  · subst h1; simp at hk
  · rw [Map.set_other _ _ h1] at hk
    by_cases h2 : k = [97]
    · subst h2; simp at hk
    · rw [Map.set_other _ _ h2] at hk
      cases hk

/-- Of two entries with the same timestamp one is listed twice and the other not at all. -/
theorem C73_same_second_violated (hord : ∀ m : Map (Option SecretRecord), m.Finite → m.Enumerates (ord m)) :
    ∃ (w w' : World) (k k2 : Bytes), Opens C J w.fs [102] [112, 119] 0 twoStore ∧ k ≠ k2 ∧
      (lookup twoStore k).isSome ∧ (lookup twoStore k2).isSome ∧
      main C J ord exEnv { list := true } [] [102] w = .ok (0, .entries [(7, k), (7, k)], w') := by
  obtain ⟨b, hb⟩ := twoStore_file C J 0 (Or.inl rfl)
  have hop : Opens C J (exWorld b [some [112, 119]]).fs [102] [112, 119] 0 twoStore := ⟨b, by simp [exWorld], hb⟩
  obtain ⟨hfin, -, -⟩ := opens_fields C J hb
  have ho : (twoStore.store.getD Map.empty).Enumerates (ord (twoStore.store.getD Map.empty)) := hord _ (hfin _ rfl).1
  obtain ⟨lines, h1, -, h3, h4⟩ := list_lines twoStore_noNil ho
  obtain ⟨labels, c1, -⟩ := collect_ok (twoStore.store.getD Map.empty) (ord (twoStore.store.getD Map.empty)) [] (fun _ => []) (by
    intro k hk
    obtain ⟨r, hr⟩ := (mem_order twoStore_noNil ho k).mp hk
    obtain ⟨m, hm, hk⟩ := lookup_get hr
    exact ⟨r, by simp [hm, hk]⟩)
  have hl2 : (ord (twoStore.store.getD Map.empty)).length = 2 := by
    have hp : (ord (twoStore.store.getD Map.empty)).Perm [[97], [98]] := by
      refine (List.perm_ext_iff_of_nodup ho.1 (by decide)).mpr fun k => ?_
      rw [mem_order twoStore_noNil ho, twoStore_lookup]
      by_cases q1 : k = [98]
      · simp [q1]
      · by_cases q2 : k = [97]
        · simp [q2]
        · simp [q1, q2]
    exact hp.length_eq
  have hlen : lines.length = 2 := by
    have := h3.length_eq
    simp only [List.length_map] at this
    rw [this, hl2]
  have hst : ∀ l ∈ lines, l.1 = 7 := by
    intro l hl
    obtain ⟨r, hr, he⟩ := h4 l hl
    rw [twoStore_lookup] at hr
    rw [← he]
    split at hr
    · cases hr; rfl
    · split at hr
      · cases hr; rfl
      · cases hr
  have hlab : ∀ l ∈ lines, l.2 = labels l.1 := by
    simp only [listEntries, c1, Res.ok_bind, Res.pure_eq, Res.ok.injEq] at h1
    rw [← h1]
    intro l hl
    obtain ⟨t, -, rfl⟩ := List.mem_map.mp hl
    rfl
  match lines, hlen with
  | [l1, l2], _ =>
    have e1 : l1 = (7, labels 7) := Prod.ext (hst l1 (by simp)) (by rw [hlab l1 (by simp), hst l1 (by simp)])
    have e2 : l2 = (7, labels 7) := Prod.ext (hst l2 (by simp)) (by rw [hlab l2 (by simp), hst l2 (by simp)])
    subst e1 e2
    obtain ⟨r, hr, -⟩ := h4 _ (by simp : ((7 : BitVec 64), labels 7) ∈ [((7 : BitVec 64), labels 7), (7, labels 7)])
    simp only at hr
    refine ⟨exWorld b [some [112, 119]], { exWorld b [some [112, 119]] with term := ⟨[], _⟩ }, labels 7, if labels 7 = [98] then [97] else [98], hop, ?_, by rw [hr]; rfl, ?_,
      main_list C J ord (w := exWorld b [some [112, 119]]) (pass := [112, 119]) (by decide) ⟨rfl, rfl, rfl⟩ rfl hop h1⟩
    · split
      · rename_i h; rw [h]; decide
      · rename_i h; exact h
    · split
      · rw [twoStore_lookup]; rfl
      · rw [twoStore_lookup]; rfl

/-- The theorems apply: to the journal just used, and to one with a single entry. -/
example : ∃ b, Opens C J (exWorld b [some [112, 119]]).fs [102] [112, 119] 0 (exStore [1, 2, 3] 7) ∧ NoNil (exStore [1, 2, 3] 7) ∧
    ∀ k k2 r r2, lookup (exStore [1, 2, 3] 7) k = some r → lookup (exStore [1, 2, 3] 7) k2 = some r2 → r.timestamp = r2.timestamp → k = k2 := by
  obtain ⟨b, hb⟩ := exFile C J 0 (Or.inl rfl)
  refine ⟨b, ⟨b, by simp [exWorld], hb⟩, exStore_noNil _ _, fun k k2 r r2 h h2 _ => ?_⟩
  have key : ∀ {k r}, lookup (exStore [1, 2, 3] 7) k = some r → k = [97] := by
    intro k r h
    by_cases hk : k = [97]
    · exact hk
    · have := has_of_lookup h
      rw [exMap_other hk] at this
      cases this
  rw [key h, key h2]

end Verif.Props.Journal
