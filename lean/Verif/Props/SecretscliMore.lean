import Verif.Props.Secretscli
import Verif.Proofs.SecretscliKeeps
import Verif.Proofs.Fields
/-! Properties C119-C123: further properties of secretscli (cmd/secretscli). -/

namespace Verif.Props.SecretscliMore
open Verif Verif.Go Verif.Model.Util Verif.Model.SecretStore Verif.Model.Secretscli
open Verif.Model.Secrets (World assign metaLoop dash)
open Verif.Spec.SecretStore Verif.Spec.Secrets Verif.Spec.Secretscli
open Verif.Proofs.SecretStore Verif.Proofs.Strings Verif.Proofs.Secretscli Verif.Proofs.Fields
open Verif.Proofs.Secrets hiding fmode
open Verif.Props.SecretStore Verif.Props.Secretscli
open Verif.Props.Secrets (exWorld exFile exMap_other exClock)

variable (C : Crypto) (J : Json)

/-! ### C119: a write that failed -/

/-- When the file cannot be opened, `write` leaves all files alone and the session marked as
changed. But of the store only the labels are left: every secret, every value of the metadata and
the passphrase are now zeros. Missing from the property: the session should be as it was. -/
theorem C119_partial {e : Env} {st : St} {line p : Bytes} {as : List (Option Bytes)} (ha : st.w.term.answers = some line :: as) (hf : fields line = [ascii "write"])
    (hd : st.sess.path ≠ dash) (hm : st.sess.mode = 0 ∨ st.sess.mode = 1) (hg : Good st.sess.store) (hp : st.sess.store.passphrase = some p)
    (hdirty : st.sess.dirty = true) (hw : st.writes 0 = .openFails) (hr : 56 ≤ st.w.rng.length) :
    ∃ st', turn C J e st = .next st' ∧ st'.w.fs = st.w.fs ∧ st'.sess.dirty = true ∧ entries st'.sess.store = wipe (entries st.sess.store) ∧
      st'.sess.store.passphrase = some (List.replicate p.length 0) := by
  have hne : line ≠ [] := by rintro rfl; exact absurd hf (by decide)
  have hq : line ≠ ascii "quit" := by rintro rfl; exact absurd hf (by decide)
  obtain ⟨t1, -⟩ := turn_line C J (e := e) ha hne hq
  obtain ⟨out, hout⟩ := marshal_ok C J (sound_of_good hg).valid hm hr
  have w1 : writeStore C J (st.rest as) = (false, { sess := { st.sess with store := st.sess.store.zero }, w := { (st.rest as).w with rng := st.w.rng.drop 56, write := .openFails }, writes := fun n => st.writes (n + 1) }) := by
    unfold writeStore
    have hout' : marshalSecretStore C J st.sess.store st.sess.mode (st.rest as).w.rng = .ok (some out, st.sess.store.zero, st.w.rng.drop 56) := hout
    have hw' : (st.rest as).writes 0 = .openFails := hw
    simp only [rest_sess, hdirty, Bool.not_true, Bool.false_eq_true, if_false, hout', World.writeFile, hd, Go.writeFile, hw']
    rfl
  rw [process_write C J hf] at t1
  unfold cmdWriteStore at t1
  rw [if_neg (by simp), w1] at t1
  refine ⟨_, t1, rfl, hdirty, entries_zero _, ?_⟩
  simp [SecretStore.zero, hp, zero_eq]

/-- "store b" is typed, then "write", which fails because the file cannot be opened, and then
"quit". By then the file can be opened again, and it is overwritten: it opens with a passphrase of
two zero bytes, and the secrets are zeros. -/
theorem C119_violated (e : Env) (mode : Int) (hm : mode = 0 ∨ mode = 1) : ∃ b st evs s s',
    start C J (exWorld b [some (ascii "pw"), some (ascii "store b"), some [120], some (ascii "write"), some (ascii "quit")])
      (fun n => if n = 0 then .openFails else .done) [102] mode = .ok (some st) ∧
    Opens C J st.w.fs [102] (ascii "pw") mode (exStore [1, 2, 3] 7) ∧
    Run C J e (Sys.init st) evs s ∧ .timeout ∉ evs ∧ s.main = .exited ∧
    Opens C J s.st.w.fs [102] [0, 0] mode s' ∧ secretOf s' [97] = some [0, 0, 0] ∧ secretOf s' [98] = some [0] ∧
    ∀ t, Opens C J s.st.w.fs [102] (ascii "pw") mode t → ∃ salt nonce k k' m m', salt.length = 32 ∧ nonce.length = 24 ∧
      Model.Secret.deriveKeyStrength C (ascii "pw") salt mode = some k ∧ Model.Secret.deriveKeyStrength C [0, 0] salt mode = some k' ∧
      C.sealBox k nonce m = C.sealBox k' nonce m' := by
  obtain ⟨b, hb⟩ := exFile C J mode hm
  have hpw : ascii "pw" = [112, 119] := by decide
  rw [hpw]
  have h1 := exStored C J e b mode [some (ascii "write"), some (ascii "quit")] (fun n => if n = 0 then .openFails else .done)
  obtain ⟨b2, t2, s2, w2, ws2⟩ := turns_write_fails C J h1 (line := ascii "write") (p := [112, 119]) rfl (by decide) (show ([102] : Bytes) ≠ dash by decide) hm
    (sound_of_good exStore2_good) rfl rfl rfl (by show 56 ≤ (List.replicate 200 _).length; rw [List.length_replicate]; decide)
  obtain ⟨evs, s, out2, r1, r2, r3, r5, r6, r4⟩ := quit_saves C J t2 (z := [0, 0]) (as := []) (by rw [w2]) (by rw [s2]; exact (show ([102] : Bytes) ≠ dash by decide)) (by rw [s2]; exact hm)
    (by rw [s2]) (by rw [s2]; exact sound_zero (sound_of_good exStore2_good)) (by rw [s2]; rfl)
    (by rw [s2]; exact finite_zero exStore2_finite) (by rw [s2]; exact utf8_zero exStore2_clean)
    (by rw [ws2]; rfl) (by rw [w2]; show 56 ≤ ((List.replicate 200 _).drop 56).length; rw [List.length_drop, List.length_replicate]; decide)
  rw [s2] at r4 r5 r6
  refine ⟨b, _, evs, s, _, exStart C J hb _ _, ⟨b, by simp [exSt, exWorld], hb⟩, r1, r2, r3, r4, rfl, rfl, ?_⟩
  rintro t ⟨out', ho, hu⟩
  rw [r5] at ho
  simp only [Fs.set_same, Option.some.injEq] at ho
  subst ho
  exact same_box C J r6 hu

/-- With the toy primitives, the passphrase of the session no longer opens the file. -/
example (e : Env) : ∃ b st evs s,
    start Toy.crypto J (exWorld b [some (ascii "pw"), some (ascii "store b"), some [120], some (ascii "write"), some (ascii "quit")])
      (fun n => if n = 0 then .openFails else .done) [102] 0 = .ok (some st) ∧
    Run Toy.crypto J e (Sys.init st) evs s ∧ s.main = .exited ∧ ∀ t, ¬ Opens Toy.crypto J s.st.w.fs [102] (ascii "pw") 0 t := by
  obtain ⟨b, st, evs, s, s', h1, -, h2, -, h3, -, -, -, h4⟩ := C119_violated Toy.crypto J e 0 (Or.inl rfl)
  refine ⟨b, st, evs, s, h1, h2, h3, fun t ht => ?_⟩
  obtain ⟨salt, nonce, k, k', m, m', -, -, h5, h6, h7⟩ := h4 t ht
  have hpw : ascii "pw" = [112, 119] := by decide
  rw [hpw] at h5
  exact absurd (toy_apart (Or.inl rfl) h5 h6 h7) (by decide)

/-- The hypotheses of C119_partial. -/
example (b : Bytes) : ∃ st : St, st.w.term.answers = some (ascii "write") :: [] ∧ fields (ascii "write") = [ascii "write"] ∧ st.sess.path ≠ dash ∧
    st.sess.mode = 0 ∧ Good st.sess.store ∧ st.sess.store.passphrase = some [112, 119] ∧ st.sess.dirty = true ∧ st.writes 0 = .openFails ∧ 56 ≤ st.w.rng.length :=
  ⟨{ sess := { store := exStore2, path := [102], mode := 0, dirty := true }, w := exWorld b [some (ascii "write")], writes := fun _ => .openFails },
    rfl, by decide, show ([102] : Bytes) ≠ dash by decide, rfl, exStore2_good, rfl, rfl, rfl, by show 56 ≤ (List.replicate 200 _).length; rw [List.length_replicate]; decide⟩

/-! ### C120: labels -/

/-- In every run, whatever is typed and whatever fails, no entry of the store disappears, and the
label kept in its record stays the same. Missing: the records of new entries, see C120_violated. -/
theorem C120_partial {e : Env} {st : St} {evs : List Event} {s : Sys} (h : Run C J e (Sys.init st) evs s) (k : Bytes) (r : SecretRecord)
    (hk : lookup st.sess.store k = some r) : ∃ r', lookup s.st.sess.store k = some r' ∧ r'.label = r.label :=
  (keeps_run C J h).labels k r hk

/-- The same from the beginning of the program: every entry of the store that the passphrase opens
is there at every moment of the session. -/
theorem C120_session_partial {e : Env} {w : World} {writes : Nat → WriteOutcome} {path p : Bytes} {mode : Int} {as : List (Option Bytes)} {s0 : SecretStore}
    {st : St} {evs : List Event} {s : Sys} (ha : w.term.answers = some p :: as) (ho : Opens C J w.fs path p mode s0)
    (hst : start C J w writes path mode = .ok (some st)) (h : Run C J e (Sys.init st) evs s) (k : Bytes) (r : SecretRecord)
    (hk : lookup s0 k = some r) : ∃ r', lookup s.st.sess.store k = some r' ∧ r'.label = r.label := by
  rw [start_ok C J ha ho] at hst
  cases hst
  exact C120_partial C J h k r hk

/-- `store` with a new label makes a record that does not carry the label: it carries none. -/
theorem C120_violated {e : Env} {st : St} {line l pw : Bytes} {as : List (Option Bytes)} {m : Map (Option SecretRecord)}
    (hf : fields line = [ascii "store", l]) (hm : st.sess.store.store = some m) (hn : m l = none) (ha : st.w.term.answers = some line :: some pw :: as) (hp : pw ≠ []) :
    ∃ st' r, turn C J e st = .next st' ∧ lookup st'.sess.store l = some r ∧ r.secret = pw ∧ r.label ≠ l := by
  have hne : line ≠ [] := by
    rintro rfl
    have : fields [] = [] := by decide
    rw [this] at hf
    cases hf
  have hq : line ≠ ascii "quit" := by
    rintro rfl
    have : fields (ascii "quit") = [ascii "quit"] := by decide
    rw [this] at hf
    cases hf
  obtain ⟨t1, -⟩ := turn_line C J (e := e) ha hne hq
  rw [process_store C J (st := st.rest (some pw :: as)) (l := l) (pw := pw) (as := as) (m := m) hf hm hn rfl hp] at t1
  refine ⟨_, { label := [], timestamp := st.w.term.clock 0, secret := pw, metadata := none }, t1,
    (lookup_set (ps := { st.sess.store with timestamp := st.w.term.clock 0 }) hm l l _).trans (if_pos rfl), rfl, ?_⟩
  have : l ∈ fields line := by rw [hf]; simp
  exact (fields_words this).1.symm

example (e : Env) (b : Bytes) : ∃ st' r, turn C J e (exSt b 0 [some (ascii "store b"), some [120]]) = .next st' ∧ lookup st'.sess.store [98] = some r ∧ r.secret = [120] ∧ r.label ≠ [98] :=
  C120_violated C J (m := Map.empty.set [97] (some (exRecord [97] [1, 2, 3] 7))) (by decide) rfl (by decide) rfl (by decide)

/-- C120_session_partial for "a" in a session in which "b" is stored. -/
example (e : Env) : ∃ b st evs s, Opens C J (exWorld b [some [112, 119], some (ascii "store b"), some [120], some (ascii "quit")]).fs [102] [112, 119] 0 (exStore [1, 2, 3] 7) ∧
    start C J (exWorld b [some [112, 119], some (ascii "store b"), some [120], some (ascii "quit")]) (fun _ => .done) [102] 0 = .ok (some st) ∧
    Run C J e (Sys.init st) evs s ∧ s.main = .exited ∧ lookup (exStore [1, 2, 3] 7) [97] = some (exRecord [97] [1, 2, 3] 7) ∧
    ∃ r', lookup s.st.sess.store [97] = some r' ∧ r'.label = [97] := by
  obtain ⟨b, hb⟩ := exFile C J 0 (Or.inl rfl)
  have ho : Opens C J (exWorld b [some [112, 119], some (ascii "store b"), some [120], some (ascii "quit")]).fs [102] [112, 119] 0 (exStore [1, 2, 3] 7) := ⟨b, by simp [exWorld], hb⟩
  obtain ⟨evs, s, h1, -, h2, -⟩ := ends_run C J (exStored C J e b 0 [some (ascii "quit")] (fun _ => .done)) (turn_quit C J rfl)
  have h0 := exStart C J hb [some (ascii "store b"), some [120], some (ascii "quit")] (fun _ => .done)
  exact ⟨b, _, evs, s, ho, h0, h1, h2, exStore_lookup _ _, C120_session_partial C J rfl ho h0 h1 _ _ (exStore_lookup _ _)⟩

/-! ### C121: list -/

/-- `p` occurs in `k`, for some `p` in `args`, or there is no `p`. -/
def Matches (args : List Bytes) (k : Bytes) : Prop := args = [] ∨ ∃ p ∈ args, p <:+: k

theorem contains_iff (s p : Bytes) : contains s p = true ↔ p <:+: s := by
  induction s with
  | nil => simp [contains]
  | cons b s ih =>
    simp only [contains, Bool.or_eq_true, List.isPrefixOf_iff_prefix, ih, List.infix_cons_iff]

theorem matches_iff (args : List Bytes) (k : Bytes) : matches' args k = true ↔ Matches args k := by
  unfold matches' Matches
  cases args with
  | nil => simp
  | cons a as =>
    rw [if_pos (by simp)]
    simp only [List.any_eq_true, contains_iff, List.cons_ne_nil, false_or]

theorem sorted_keys (l : List Bytes) (h : l.Nodup) : (l.mergeSort (fun a b => decide (a ≤ b))).Pairwise (· < ·) := by
  have h1 := List.pairwise_mergeSort (le := fun a b : Bytes => decide (a ≤ b))
    (fun a b c h1 h2 => by simp only [decide_eq_true_eq] at *; exact List.le_trans (α := UInt8) h1 h2)
    (fun a b => by simp only [Bool.or_eq_true, decide_eq_true_eq]; exact List.le_total (α := UInt8) a b) l
  have h2 : (l.mergeSort (fun a b => decide (a ≤ b))).Nodup := (List.mergeSort_perm _ _).nodup_iff.mpr h
  refine List.Pairwise.imp₂ (R := fun a b => decide (a ≤ b) = true) (S := (· ≠ ·)) ?_ h1 h2
  intro a b h3 h4
  simp only [decide_eq_true_eq] at h3
  refine Decidable.byContradiction fun h5 => h4 ?_
  exact List.le_antisymm (α := UInt8) h3 (List.not_lt.mp h5)

theorem max_iff (w : Nat) (l : List Bytes) : ∀ m, l.foldl (fun m k => if k.length > m then k.length else m) m > w ↔ m > w ∨ ∃ k ∈ l, w < k.length := by
  induction l with
  | nil => intro m; simp
  | cons k l ih =>
    intro m
    rw [List.foldl_cons, ih]
    simp only [List.mem_cons, exists_eq_or_imp]
    split
    · rename_i h
      constructor
      · rintro (h1 | h1)
        · exact .inr (.inl h1)
        · exact .inr (.inr h1)
      · rintro (h1 | h1 | h1)
        · exact .inl (by omega)
        · exact .inl h1
        · exact .inr h1
    · rename_i h
      constructor
      · rintro (h1 | h1)
        · exact .inl h1
        · exact .inr (.inr h1)
      · rintro (h1 | h1 | h1)
        · exact .inl h1
        · exact .inl (by omega)
        · exact .inr h1

theorem fields_dump (keys : List Bytes) (h : ∀ k ∈ keys, Word k) : fields (dumpKeys keys) = keys := by
  induction keys with
  | nil => rfl
  | cons k keys ih =>
    have e : dumpKeys (k :: keys) = k ++ 10 :: dumpKeys keys := by simp [dumpKeys]
    rw [e, fields_word (h k List.mem_cons_self) (.inr (.inl rfl)), ih (fun x hx => h x (List.mem_cons_of_mem _ hx))]

theorem fields_padded {width : Nat} {k : Bytes} (hk : Word k) (h : runeCount k < width) (s : Bytes) : fields (9 :: padRight width k ++ s) = k :: fields s := by
  rw [List.cons_append, fields_blank (.inl rfl)]
  unfold padRight
  obtain ⟨n, hn⟩ : ∃ n, width - runeCount k = n + 1 := ⟨width - runeCount k - 1, by omega⟩
  rw [hn, List.replicate_succ, List.append_assoc, List.cons_append, fields_word hk (.inr (.inr rfl)), fields_blanks (.inr (.inr rfl))]

theorem fields_pairs (width : Nat) : ∀ keys : List Bytes, (∀ k ∈ keys, Word k) → (∀ k ∈ keys, runeCount k < width) → fields (dumpPairs width keys) = keys
  | [], _, _ => rfl
  | [k], h, h2 => by
    rw [dumpPairs, fields_padded (h k (by simp)) (h2 k (by simp)), fields_blank (.inr (.inl rfl))]
    rfl
  | k :: l :: keys, h, h2 => by
    rw [dumpPairs]
    simp only [List.append_assoc]
    rw [fields_padded (h k (by simp)) (h2 k (by simp)), List.singleton_append, fields_word (h l (by simp)) (.inr (.inl rfl)),
      fields_pairs width keys (fun x hx => h x (by simp [hx])) (fun x hx => h2 x (by simp [hx]))]

theorem process_list {e : Env} {st : St} {line : Bytes} {args : List Bytes} (hf : fields line = ascii "list" :: args) :
    processCommands C J e line st = listSecrets e args st := by
  unfold processCommands
  rw [hf]
  dsimp only
  rw [if_neg (by decide), if_neg (by decide), if_pos rfl]

/-- `list`, with patterns or without, prints the number of the labels that match, and then these
labels: each once, in order, and nothing else. If the labels have no white space in them, the words
of the output are the labels, as long as either one of them is longer than a line, or all are
shorter than a column, which is half a line minus eight. Missing: labels between these lengths, see
C121_violated. -/
theorem C121_partial {e : Env} {st : St} {line : Bytes} {args : List Bytes} (hf : fields line = ascii "list" :: args)
    (ho : (st.sess.store.store.getD Map.empty).Enumerates (e.order (st.sess.store.store.getD Map.empty))) :
    ∃ keys body, processCommands C J e line st = (.ok, st.print (ascii "Key store: " ++ decimal keys.length ++ ascii " keys" ++ [10] ++ body)) ∧
      keys.Pairwise (· < ·) ∧ (∀ k, k ∈ keys ↔ st.entry k ≠ none ∧ Matches args k) ∧
      ((∀ k ∈ keys, Word k) → ((∃ k ∈ keys, e.width.getD 80 < k.length) ∨ ∀ k ∈ keys, runeCount k < ((e.width.getD 80 : Nat) / 2 - 8 : Int).natAbs) → fields body = keys) := by
  rw [process_list C J hf]
  unfold listSecrets
  dsimp only
  have hperm := List.mergeSort_perm ((e.order (st.sess.store.store.getD Map.empty)).filter (matches' args)) (fun a b : Bytes => decide (a ≤ b))
  have hsort := sorted_keys _ (ho.1.filter (matches' args))
  rw [print_print, ← hperm.length_eq]
  refine ⟨_, _, rfl, hsort, ?_, ?_⟩
  · intro k
    rw [hperm.mem_iff, List.mem_filter, ho.2, matches_iff]
    refine and_congr_left fun _ => ?_
    unfold St.entry
    cases st.sess.store.store <;> simp [Map.empty]
  · intro hw hlen
    have hmax := max_iff (e.width.getD 80) ((e.order (st.sess.store.store.getD Map.empty)).filter (matches' args)) 0
    split
    · exact fields_dump _ hw
    · rename_i hle
      rcases hlen with ⟨k, hk, hl⟩ | hl
      · exact absurd (hmax.mpr (.inr ⟨k, hperm.mem_iff.mp hk, hl⟩)) hle
      · exact fields_pairs _ _ hw hl

theorem runeCountF_a (n m : Nat) (h : n ≤ m) : runeCountF m (List.replicate n 97) = n := by
  induction m generalizing n with
  | zero => rw [Nat.le_zero.mp h]; rfl
  | succ m ih =>
    cases n with
    | zero => rfl
    | succ n =>
      rw [List.replicate_succ, runeCountF]
      have : (runeLen (97 :: List.replicate n 97)).getD 1 = 1 := by
        cases n with
        | zero => decide
        | succ n => simp [runeLen]
      rw [this]
      show 1 + runeCountF m (List.replicate n 97) = n + 1
      rw [ih n (by omega)]
      omega

/-- Letters are no white space. -/
theorem word_letters {w : Bytes} (hne : w ≠ []) (h : ∀ b ∈ w, b = 97 ∨ b = 98) : Word w := by
  refine ⟨hne, fun t ht => ?_⟩
  cases t with
  | nil => rfl
  | cons b t =>
    have hb : b = 97 ∨ b = 98 := h b (ht.subset List.mem_cons_self)
    unfold spaceLen
    dsimp only
    rw [if_neg (by rcases hb with rfl | rfl <;> decide)]
    rcases hb with rfl | rfl
    all_goals
      cases t with
      | nil => rfl
      | cons c t =>
        dsimp only
        rw [if_neg (by simp)]
        cases t with
        | nil => rfl
        | cons d t => simp

/-- Whatever the width of the terminal, there are two labels that `list` runs together into one
word: those that are just as long as a column is wide. -/
theorem C121_violated {e : Env} {st : St} {line : Bytes} {w : Nat} (hf : fields line = [ascii "list"]) (hw : e.width.getD 80 = w) (h18 : 18 ≤ w)
    (ho : (st.sess.store.store.getD Map.empty).Enumerates (e.order (st.sess.store.store.getD Map.empty)))
    (hk : ∀ k, st.entry k ≠ none ↔ k = List.replicate (w / 2 - 8) 97 ∨ k = List.replicate (w / 2 - 8) 98) :
    ∃ body, processCommands C J e line st = (.ok, st.print (ascii "Key store: 2 keys" ++ [10] ++ body)) ∧
      fields body = [List.replicate (w / 2 - 8) 97 ++ List.replicate (w / 2 - 8) 98] := by
  have hn : w / 2 - 8 ≠ 0 := by omega
  generalize hN : w / 2 - 8 = n at *
  have hlt : List.replicate n (97 : UInt8) < List.replicate n 98 := by
    cases n with
    | zero => exact absurd rfl hn
    | succ n => rw [List.replicate_succ, List.replicate_succ]; exact List.Lex.rel (by decide)
  obtain ⟨keys, body, h1, h2, h3, -⟩ := C121_partial C J hf ho
  have hkeys : keys = [List.replicate n 97, List.replicate n 98] := by
    have hmem : ∀ k, k ∈ keys ↔ k = List.replicate n 97 ∨ k = List.replicate n 98 := by
      intro k
      rw [h3, hk]
      simp [Matches]
    have ha := (hmem (List.replicate n 97)).mpr (.inl rfl)
    have hb := (hmem (List.replicate n 98)).mpr (.inr rfl)
    have hirr : ∀ a : Bytes, ¬ a < a := fun a => List.lt_irrefl a
    match keys, h2, hmem, ha, hb with
    | [], _, _, ha, _ => cases ha
    | [x], _, _, ha, hb =>
      have e1 := List.mem_singleton.mp ha
      have e2 := List.mem_singleton.mp hb
      rw [e1.trans e2.symm] at hlt
      exact absurd hlt (hirr _)
    | x :: y :: r, h2, hmem, _, _ =>
      obtain ⟨hx, h2⟩ := List.pairwise_cons.mp h2
      obtain ⟨hy, -⟩ := List.pairwise_cons.mp h2
      have lxy := hx y (by simp)
      have hxs := (hmem x).mp (by simp)
      have hys := (hmem y).mp (by simp)
      have hba : ¬ List.replicate n (98 : UInt8) < List.replicate n 97 := fun h => List.lt_asymm hlt h
      have exy : x = List.replicate n 97 ∧ y = List.replicate n 98 := by
        rcases hxs with rfl | rfl <;> rcases hys with rfl | rfl
        · exact absurd lxy (hirr _)
        · exact ⟨rfl, rfl⟩
        · exact absurd lxy hba
        · exact absurd lxy (hirr _)
      obtain ⟨rfl, rfl⟩ := exy
      cases r with
      | nil => rfl
      | cons z r =>
        have lyz := hy z (by simp)
        rcases (hmem z).mp (by simp) with rfl | rfl
        · exact absurd lyz hba
        · exact absurd lyz (hirr _)
  -- what is printed
  have hbody : processCommands C J e line st = (.ok, st.print (ascii "Key store: " ++ decimal keys.length ++ ascii " keys" ++ [10] ++
      (9 :: padRight n (List.replicate n 97) ++ List.replicate n 98 ++ [10]))) := by
    rw [process_list C J hf]
    unfold listSecrets
    dsimp only
    have hperm := List.mergeSort_perm ((e.order (st.sess.store.store.getD Map.empty)).filter (matches' [])) (fun a b : Bytes => decide (a ≤ b))
    have hsort := sorted_keys _ (ho.1.filter (matches' []))
    have hsk : ((e.order (st.sess.store.store.getD Map.empty)).filter (matches' [])).mergeSort (fun a b => decide (a ≤ b)) = keys := by
      refine List.Perm.eq_of_pairwise (le := (· < ·)) ?_ hsort h2 ?_
      · intro a b _ _ h3 h4; exact absurd h4 (List.lt_asymm h3)
      · refine (List.perm_ext_iff_of_nodup (hsort.imp fun h => ?_) (h2.imp fun h => ?_)).mpr fun k => ?_
        · rintro rfl; exact List.lt_irrefl _ h
        · rintro rfl; exact List.lt_irrefl _ h
        · rw [hperm.mem_iff, List.mem_filter, ho.2, matches_iff, h3]
          refine and_congr_left fun _ => ?_
          unfold St.entry
          cases st.sess.store.store <;> simp [Map.empty]
    have hmax : ¬ ((e.order (st.sess.store.store.getD Map.empty)).filter (matches' [])).foldl (fun m k => if k.length > m then k.length else m) 0 > e.width.getD 80 := by
      rw [max_iff]
      rintro (h | ⟨k, hk2, hl⟩)
      · omega
      · rw [← hperm.mem_iff, hsk, hkeys] at hk2
        have : k.length = n := by
          rcases List.mem_cons.mp hk2 with rfl | h
          · simp
          · rw [List.mem_singleton.mp h]; simp
        omega
    rw [if_neg hmax, hsk, print_print, ← hperm.length_eq, hsk]
    have hwid : ((e.width.getD 80 : Nat) / 2 - 8 : Int).natAbs = n := by rw [hw]; omega
    unfold dumpFmtKeys
    rw [hwid, hkeys]
    simp [dumpPairs]
  refine ⟨9 :: padRight n (List.replicate n 97) ++ List.replicate n 98 ++ [10], ?_, ?_⟩
  · rw [hbody, hkeys]
    rfl
  · have hrc : runeCount (List.replicate n 97) = n := by
      unfold runeCount
      rw [List.length_replicate]
      exact runeCountF_a n n (Nat.le_refl _)
    unfold padRight
    rw [hrc, Nat.sub_self, List.replicate_zero, List.append_nil, List.cons_append, List.cons_append, fields_blank (.inl rfl)]
    have hwd : Word (List.replicate n 97 ++ List.replicate n 98) := by
      refine word_letters ?_ ?_
      · intro h0
        have := congrArg List.length h0
        simp only [List.length_append, List.length_replicate, List.length_nil] at this
        omega
      · intro b hb
        rcases List.mem_append.mp hb with h | h
        · exact .inl (List.eq_of_mem_replicate h)
        · exact .inr (List.eq_of_mem_replicate h)
    rw [fields_word hwd (.inr (.inl rfl))]
    rfl

/-- A store with two given labels, in the sense of C121_violated, and an order of its keys. -/
example (e0 : Env) (b : Bytes) : ∃ (e : Env) (st : St), e.width.getD 80 = 80 ∧
    (st.sess.store.store.getD Map.empty).Enumerates (e.order (st.sess.store.store.getD Map.empty)) ∧
    ∀ k, st.entry k ≠ none ↔ k = List.replicate (80 / 2 - 8) 97 ∨ k = List.replicate (80 / 2 - 8) 98 := by
  refine ⟨{ e0 with order := fun _ => [List.replicate 32 97, List.replicate 32 98], width := none },
    { exSt b 0 [] with sess := { (exSt b 0 []).sess with store := { exStore [1, 2, 3] 7 with
        store := some ((Map.empty.set (List.replicate 32 97) (some (made 0 [1]))).set (List.replicate 32 98) (some (made 0 [2]))) } } }, rfl, ⟨show [List.replicate 32 97, List.replicate 32 (98 : UInt8)].Nodup by decide, fun k => ?_⟩, fun k => ?_⟩
  · show k ∈ [List.replicate 32 97, List.replicate 32 98] ↔ ((Map.empty.set (List.replicate 32 97) (some (made 0 [1]))).set (List.replicate 32 98) (some (made 0 [2]))) k ≠ none
    by_cases h1 : k = List.replicate 32 98
    · simp [h1]
    · rw [Map.set_other _ _ h1]
      by_cases h2 : k = List.replicate 32 97
      · simp [h2]
      · rw [Map.set_other _ _ h2]; simp only [List.mem_cons, h1, h2, Map.empty, ne_eq, not_true]; simp
  · show ((Map.empty.set (List.replicate 32 97) (some (made 0 [1]))).set (List.replicate 32 98) (some (made 0 [2]))) k ≠ none ↔ _
    by_cases h1 : k = List.replicate 32 98
    · simp [h1]
    · rw [Map.set_other _ _ h1]
      by_cases h2 : k = List.replicate 32 97
      · simp [h2]
      · rw [Map.set_other _ _ h2]; exact ⟨fun h => absurd rfl h, fun h => (h.elim h2 h1).elim⟩

/-- "list a" on the example store, which has one label, "a". -/
example (e0 : Env) (b : Bytes) : ∃ body, processCommands C J { e0 with order := fun _ => [[97]], width := none } (ascii "list a") (exSt b 0 []) =
    (.ok, (exSt b 0 []).print (ascii "Key store: 1 keys" ++ [10] ++ body)) ∧ fields body = [[97]] := by
  obtain ⟨keys, body, h1, h2, h3, h4⟩ := C121_partial C J (e := { e0 with order := fun _ => [[97]], width := none }) (st := exSt b 0 [])
    (line := ascii "list a") (args := [[97]]) (by decide) ⟨show [[(97 : UInt8)]].Nodup by decide, fun k => by
      show k ∈ [[97]] ↔ (Map.empty.set [97] (some (exRecord [97] [1, 2, 3] 7))) k ≠ none
      by_cases h : k = [97]
      · simp [h]
      · rw [Map.set_other _ _ h]; simp [h, Map.empty]⟩
  have hmem : ∀ k, k ∈ keys ↔ k = [97] := by
    intro k
    rw [h3]
    constructor
    · rintro ⟨h, -⟩
      refine Decidable.byContradiction fun hk => h ?_
      show (Map.empty.set [97] (some (exRecord [97] [1, 2, 3] 7))) k = none
      rw [Map.set_other _ _ hk]
      rfl
    · rintro rfl
      exact ⟨by simp [St.entry, exSt, exStore], .inr ⟨[97], by simp, List.infix_refl _⟩⟩
  have hk : keys = [[97]] := by
    match keys, hmem, h2 with
    | [], hmem, _ => exact absurd ((hmem [97]).mpr rfl) (by simp)
    | [x], hmem, _ => rw [(hmem x).mp (by simp)]
    | x :: y :: r, hmem, h2 =>
      have := (List.pairwise_cons.mp h2).1 y (by simp)
      rw [(hmem x).mp (by simp), (hmem y).mp (by simp)] at this
      exact absurd this (List.lt_irrefl _)
  subst hk
  refine ⟨body, h1, h4 (fun k hk => ?_) (.inr fun k hk => ?_)⟩
  · rw [List.mem_singleton.mp hk]; exact word_letters (by simp) (by simp)
  · rw [List.mem_singleton.mp hk]; exact show runeCount [97] < ((((none : Option Nat).getD 80 : Nat) : Int) / 2 - 8).natAbs by decide

/-! ### C122: looking at the store -/

/-- Whatever the store holds, commands other than store, wmeta, passwd, write and quit print
something, and that is all they do. -/
theorem C122_only_prints (e : Env) (line : Bytes) (st : St) (h : ∀ c, (fields line).head? = some c → c ∉ active) :
    ∃ out, (processCommands C J e line st).2 = { st with w := { st.w with stdout := st.w.stdout ++ out } } :=
  process_prints C J e line st h

example : ∀ c, (fields (ascii "rmeta a")).head? = some c → c ∉ active := by decide

theorem process_show {e : Env} {st : St} {line : Bytes} {args : List Bytes} (hf : fields line = ascii "show" :: args) :
    processCommands C J e line st = showSecret id args st := by
  unfold processCommands
  rw [hf]
  dsimp only
  rw [if_neg (by decide), if_neg (by decide), if_neg (by decide), if_neg (by decide), if_neg (by decide), if_neg (by decide), if_pos rfl]

theorem process_showhex {e : Env} {st : St} {line : Bytes} {args : List Bytes} (hf : fields line = ascii "showhex" :: args) :
    processCommands C J e line st = showSecret hexEncode args st := by
  unfold processCommands
  rw [hf]
  dsimp only
  rw [if_neg (by decide), if_neg (by decide), if_neg (by decide), if_neg (by decide), if_neg (by decide), if_neg (by decide), if_neg (by decide), if_pos rfl]

/-- `show` with one label prints the secret and a newline. -/
theorem C122_show {e : Env} {st : St} {line l : Bytes} {r : SecretRecord} (hf : fields line = [ascii "show", l]) (hr : lookup st.sess.store l = some r) :
    processCommands C J e line st = (.ok, { st with w := { st.w with stdout := st.w.stdout ++ (r.secret ++ [10]) } }) := by
  rw [process_show C J hf]
  unfold showSecret showLine
  dsimp only
  rw [entry_of_lookup hr]
  rfl

/-- `showhex` with one label prints a number in hexadecimal that is the secret, and a newline. -/
theorem C122_showhex {e : Env} {st : St} {line l : Bytes} {r : SecretRecord} (hf : fields line = [ascii "showhex", l]) (hr : lookup st.sess.store l = some r) :
    ∃ h, processCommands C J e line st = (.ok, { st with w := { st.w with stdout := st.w.stdout ++ (h ++ [10]) } }) ∧ hexDecode h = some r.secret := by
  refine ⟨hexEncode r.secret, ?_, hexDecode_encode _⟩
  rw [process_showhex C J hf]
  unfold showSecret showLine
  dsimp only
  rw [entry_of_lookup hr]
  rfl

/-- What is to be shown of one label among several. -/
def shown (s : SecretStore) (l : Bytes) : Bytes :=
  match lookup s l with
  | some r => l ++ ascii ": " ++ r.secret ++ [10]
  | none => ascii "[!] " ++ l ++ ascii " not found." ++ [10]

theorem entry_none {st : St} (hn : NoNil st.sess.store) {l : Bytes} (h : lookup st.sess.store l = none) : st.entry l = none := by
  unfold St.entry
  cases hs : st.sess.store.store with
  | none => rfl
  | some m =>
    have := noNil_get hn hs l
    rw [h] at this
    exact this

theorem show_loop (s : SecretStore) (hn : NoNil s) (ls : List Bytes) : ∀ st : St, st.sess.store = s → showLoop id ls st = (.ok, st.print (ls.flatMap (shown s))) := by
  induction ls with
  | nil => intro st _; simp [showLoop, St.print]
  | cons l ls ih =>
    intro st hst
    have h1 : showLine id true l st = (.ok, st.print (shown s l)) := by
      unfold showLine shown
      cases hl : lookup s l with
      | none => rw [entry_none (by rw [hst]; exact hn) (by rw [hst]; exact hl)]
      | some r => rw [entry_of_lookup (by rw [hst]; exact hl)]; rfl
    rw [showLoop, h1]
    dsimp only
    rw [ih (st.print (shown s l)) hst, print_print, List.flatMap_cons]

/-- `show` with several labels prints one line for each, in order; labels that are not there are
said not to be found. -/
theorem C122_show_many {e : Env} {st : St} {line l l2 : Bytes} {ls : List Bytes} (hf : fields line = ascii "show" :: l :: l2 :: ls) (hn : NoNil st.sess.store) :
    processCommands C J e line st = (.ok, { st with w := { st.w with stdout := st.w.stdout ++ (l :: l2 :: ls).flatMap (shown st.sess.store) } }) := by
  rw [process_show C J hf]
  exact show_loop st.sess.store hn _ st rfl

/-- A label that is not there. -/
theorem C122_not_found {e : Env} {st : St} {line l : Bytes} (hf : fields line = [ascii "show", l]) (hr : st.entry l = none) :
    processCommands C J e line st = (.ok, { st with w := { st.w with stdout := st.w.stdout ++ (ascii "[!] " ++ l ++ ascii " not found." ++ [10]) } }) := by
  rw [process_show C J hf]
  unfold showSecret showLine
  dsimp only
  rw [hr]
  rfl

/-- "show a" and "show a b" on the example store. -/
example (e : Env) (b : Bytes) : processCommands C J e (ascii "show a") (exSt b 0 []) = (.ok, (exSt b 0 []).print [1, 2, 3, 10]) :=
  C122_show C J (r := exRecord [97] [1, 2, 3] 7) (by decide) (exStore_lookup _ _)

example (e : Env) (b : Bytes) : processCommands C J e (ascii "show a b") (exSt b 0 []) =
    (.ok, (exSt b 0 []).print (ascii "a: " ++ [1, 2, 3, 10] ++ (ascii "[!] b not found." ++ [10]))) :=
  C122_show_many C J (l := [97]) (l2 := [98]) (ls := []) (by decide) (exStore_noNil _ _)

/-- What `rmeta` prints of a record: the label, the time, and a line for every key and value of the
metadata. -/
def described (e : Env) (l : Bytes) (r : SecretRecord) (keys : List Bytes) : Bytes :=
  ascii "Record: " ++ l ++ [10] ++ [9] ++ ascii "Last modification: " ++ e.date r.timestamp ++ ascii " (timestamp " ++ signed r.timestamp ++ ascii ")" ++ [10] ++
    (if keys = [] then [] else [9] ++ ascii "Metadata:" ++ [10]) ++
    keys.flatMap (fun k => [9, 9] ++ k ++ ascii ": " ++ ((r.metadata.getD Map.empty) k).getD [] ++ [10])

/-- `rmeta` with one label prints every key of the metadata once, with its value. -/
theorem C122_rmeta {e : Env} {st : St} {line l : Bytes} {r : SecretRecord} (hf : fields line = [ascii "rmeta", l]) (hr : lookup st.sess.store l = some r)
    (ho : (r.metadata.getD Map.empty).Enumerates (e.metaOrder (r.metadata.getD Map.empty))) :
    ∃ keys : List Bytes, keys.Nodup ∧ (∀ k, k ∈ keys ↔ (r.metadata.getD Map.empty) k ≠ none) ∧
      processCommands C J e line st = (.ok, { st with w := { st.w with stdout := st.w.stdout ++ described e l r keys } }) := by
  refine ⟨_, ho.1, ho.2, ?_⟩
  have hp : processCommands C J e line st = readMeta e [l] st := by
    unfold processCommands
    rw [hf]
    dsimp only
    rw [if_neg (by decide), if_neg (by decide), if_neg (by decide), if_neg (by decide), if_neg (by decide), if_pos rfl]
  rw [hp]
  unfold readMeta
  dsimp only
  rw [metaLines, entry_of_lookup hr]
  dsimp only
  rw [metaLines]
  have : metaText e l r = described e l r (e.metaOrder (r.metadata.getD Map.empty)) := by
    unfold metaText described
    dsimp only
    cases e.metaOrder (r.metadata.getD Map.empty) with
    | nil => simp
    | cons k ks => rw [if_pos (by simp), if_neg (by simp)]; simp [List.append_assoc]
  rw [this]
  rfl

/-- "rmeta a", where "a" has the value 1, 2 under the key "u". -/
example (e0 : Env) (b : Bytes) : ∃ keys : List Bytes, keys.Nodup ∧ (∀ k, k ∈ keys ↔ ((exRecord [97] [1, 2, 3] 7).metadata.getD Map.empty) k ≠ none) ∧
    processCommands C J { e0 with metaOrder := fun _ => [[117]] } (ascii "rmeta a") (exSt b 0 []) =
      (.ok, (exSt b 0 []).print (described { e0 with metaOrder := fun _ => [[117]] } [97] (exRecord [97] [1, 2, 3] 7) keys)) :=
  C122_rmeta C J (by decide) (exStore_lookup _ _) ⟨show [[(117 : UInt8)]].Nodup by decide, fun k => by
    show k ∈ [[117]] ↔ (Map.empty.set [117] [1, 2]) k ≠ none
    by_cases h : k = [117]
    · simp [h]
    · rw [Map.set_other _ _ h]; simp [h, Map.empty]⟩

/-! ### C123: the file named with -f -/

/-- In every run, whatever is typed and whatever fails, the session stays with the file it was
opened from, and no other file changes. Missing: with "-f -" the file is read from, but not written
to, see C123_violated. -/
theorem C123_partial {e : Env} {w : World} {writes : Nat → WriteOutcome} {path : Bytes} {mode : Int} {st : St} {evs : List Event} {s : Sys}
    (hst : start C J w writes path mode = .ok (some st)) (h : Run C J e (Sys.init st) evs s) :
    s.st.sess.path = path ∧ ∀ q, q ≠ path → s.st.w.fs q = w.fs q := by
  have hk := keeps_run C J h
  have h0 : st.sess.path = path ∧ st.w.fs = w.fs := by
    unfold start at hst
    dsimp only at hst
    split at hst
    · cases hst
    · split at hst
      · cases hst
      · rename_i data _
        cases hu : unmarshalSecretStore C J data _ mode with
        | panic => rw [hu] at hst; cases hst
        | ok o =>
          rw [hu] at hst
          cases o with
          | none => cases hst
          | some s0 => cases hst; exact ⟨rfl, rfl⟩
  refine ⟨hk.path.trans h0.1, fun q hq => ?_⟩
  rw [← h0.2]
  exact hk.files q (.inl (by show q ≠ st.sess.path; rw [h0.1]; exact hq))

/-- With "-f -", the store is read from a file called "-", and written to the terminal: no file
changes, whatever the user does. -/
theorem C123_dash_violated {e : Env} {w : World} {writes : Nat → WriteOutcome} {mode : Int} {st : St} {evs : List Event} {s : Sys}
    (hst : start C J w writes dash mode = .ok (some st)) (h : Run C J e (Sys.init st) evs s) :
    (∃ b, w.fs dash = some b) ∧ s.st.w.fs = w.fs := by
  have hk := keeps_run C J h
  have h0 : st.sess.path = dash ∧ st.w.fs = w.fs ∧ ∃ b, w.fs dash = some b := by
    unfold start at hst
    dsimp only at hst
    split at hst
    · cases hst
    · split at hst
      · cases hst
      · rename_i data hd
        cases hu : unmarshalSecretStore C J data _ mode with
        | panic => rw [hu] at hst; cases hst
        | ok o =>
          rw [hu] at hst
          cases o with
          | none => cases hst
          | some s0 => cases hst; exact ⟨rfl, rfl, data, hd⟩
  refine ⟨h0.2.2, ?_⟩
  funext q
  rw [← h0.2.1]
  exact hk.files q (.inr h0.1)

/-- "store b" and "quit" with "-f -": the new store goes to the terminal. -/
theorem C123_violated (e : Env) (mode : Int) (hm : mode = 0 ∨ mode = 1) : ∃ w st evs s out, w.fs dash ≠ none ∧ w.term.answers = [some (ascii "pw"), some (ascii "store b"), some [120], some (ascii "quit")] ∧
    start C J w (fun _ => .done) dash mode = .ok (some st) ∧ Run C J e (Sys.init st) evs s ∧ .timeout ∉ evs ∧ s.main = .exited ∧
    s.st.w.fs = w.fs ∧ s.st.w.stdout = w.stdout ++ out ∧ IsFile C out (ascii "pw") mode (J.enc exStore2.toFields) := by
  obtain ⟨b, hb⟩ := exFile C J mode hm
  have hpw : ascii "pw" = [112, 119] := by decide
  rw [hpw]
  let w : World := { exWorld b [some [112, 119], some (ascii "store b"), some [120], some (ascii "quit")] with fs := fun q => if q = dash then some b else none }
  have hstart := start_ok C J (w := w) (writes := fun _ => .done) (path := dash) (p := [112, 119]) (mode := mode) rfl ⟨b, by simp [w], hb⟩
  obtain ⟨b1, t1, s1, w1, ws1⟩ := turns_store C J (Turns.nil (e := e) { sess := { store := exStore [1, 2, 3] 7, path := dash, mode := mode, dirty := false }, w := { w with term := ⟨[some (ascii "store b"), some [120], some (ascii "quit")], w.term.clock⟩ }, writes := fun _ => .done })
    (line := ascii "store b") (l := [98]) (pw := [120]) (as := [some (ascii "quit")]) (m := Map.empty.set [97] (some (exRecord [97] [1, 2, 3] 7))) rfl (by decide) rfl (by decide) (by decide)
  obtain ⟨evs, s, r1, r2, r3, r4⟩ := quit_run C J t1 (as := []) (by rw [w1])
  obtain ⟨out, hout⟩ := marshal_ok C J (s := exStore2) (mode := mode) (rng := w.rng) exStore2_good.1 hm (by show 56 ≤ (List.replicate 200 _).length; rw [List.length_replicate]; decide)
  have hst1 : b1.sess.store = exStore2 := by rw [s1]; rfl
  have hout' : marshalSecretStore C J (b1.rest []).sess.store (b1.rest []).sess.mode (b1.rest []).w.rng = .ok (some out, exStore2.zero, w.rng.drop 56) := by
    rw [rest_sess, hst1, show b1.sess.mode = mode by rw [s1], show (b1.rest []).w.rng = w.rng by show b1.w.rng = w.rng; rw [w1]]
    exact hout
  have hfs : s.st.w.fs = w.fs ∧ s.st.w.stdout = w.stdout ++ out := by
    rw [r4]
    unfold shutdown writeStore
    have hd : (b1.rest []).sess.dirty = true := by rw [rest_sess, s1]
    have hpath : (b1.rest []).sess.path = dash := by rw [rest_sess, s1]
    simp only [hd, Bool.not_true, Bool.false_eq_true, if_false, hout', World.writeFile, hpath, if_true]
    refine ⟨?_, ?_⟩
    · show b1.w.fs = w.fs; rw [w1]
    · show b1.w.stdout ++ out = w.stdout ++ out; rw [w1]
  obtain ⟨-, -, p, hp, hfile⟩ := marshal_some C J hout
  cases hp
  exact ⟨w, _, evs, s, out, by simp [w], rfl, hstart, r1, r2, r3, hfs.1, hfs.2, hfile⟩

end Verif.Props.SecretscliMore
