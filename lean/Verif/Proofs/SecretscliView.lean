import Verif.Proofs.SecretscliRun
/-! The session of secretscli follows what the user knows of it. -/

namespace Verif.Proofs.Secretscli
open Verif Verif.Go Verif.Model.Util Verif.Model.SecretStore Verif.Model.Secretscli
open Verif.Model.Secrets (World assign metaLoop dash)
open Verif.Spec.SecretStore Verif.Spec.Secrets Verif.Spec.Journal Verif.Spec.Secretscli
open Verif.Proofs.SecretStore Verif.Proofs.Secrets Verif.Proofs.Strings

variable (C : Crypto) (J : Json)

/-- A store that can be written, without nil records. -/
structure Sound (s : SecretStore) : Prop where
  version : s.version = 1
  time : s.timestamp ≠ 0
  store : ∃ m, s.store = some m
  pass : ∃ p, s.passphrase = some p
  noNil : NoNil s

theorem Sound.valid {s : SecretStore} (h : Sound s) : s.valid = true := (valid_iff s).mpr ⟨h.version, h.time, h.store, h.pass⟩

theorem sound_of_good {s : SecretStore} (h : Good s) : Sound s := by
  obtain ⟨h1, h2, h3, h4⟩ := (valid_iff s).mp h.1
  exact ⟨h1, h2, h3, h4, h.2⟩

/-- The store of the session is what the user thinks. -/
structure Exact (v : View) (st : St) : Prop where
  entries : entries st.sess.store = v.entry
  pass : st.sess.store.passphrase = some v.pass
  finite : st.sess.store.toFields.Finite
  utf8 : st.sess.store.toFields.Utf8
  rng : 56 ≤ st.w.rng.length

/-- What holds at each stage. -/
def AtStage (path : Bytes) (mode : Int) (fs0 : Fs) (v : View) (st : St) : Prop :=
  match v.stage with
  | .clean => st.sess.dirty = false ∧ st.w.fs = fs0 ∧ Exact v st
  | .changed => st.sess.dirty = true ∧ st.w.fs = fs0 ∧ Exact v st
  | .written e p => st.sess.dirty = false ∧ ∃ s', Opens C J st.w.fs path p mode s' ∧ entries s' = e
  | .changedAgain => True

structure Agrees (path : Bytes) (mode : Int) (fs0 : Fs) (v : View) (st : St) : Prop where
  path_eq : st.sess.path = path
  mode_eq : st.sess.mode = mode
  writes : ∀ n, st.writes n = .done
  clock : ∀ n, st.w.term.clock n ≠ 0
  utf : ∀ b, some b ∈ st.w.term.answers → ValidUtf8 b
  others : ∀ q, q ≠ path → st.w.fs q = fs0 q
  sound : Sound st.sess.store
  keys : ∀ k, (lookup st.sess.store k).isSome = (v.entry k).isSome
  stage : AtStage C J path mode fs0 v st

variable {path : Bytes} {mode : Int} {fs0 : Fs}

theorem agrees_rest {v : View} {st : St} {as : List (Option Bytes)} (h : Agrees C J path mode fs0 v st)
    (hs : as <:+ st.w.term.answers) : Agrees C J path mode fs0 v (st.rest as) := by
  refine ⟨h.path_eq, h.mode_eq, h.writes, h.clock, fun b hb => h.utf b (hs.subset hb), h.others, h.sound, h.keys, ?_⟩
  have := h.stage
  unfold AtStage at this ⊢
  cases hst : v.stage with
  | clean => rw [hst] at this; exact ⟨this.1, this.2.1, this.2.2.entries, this.2.2.pass, this.2.2.finite, this.2.2.utf8, this.2.2.rng⟩
  | changed => rw [hst] at this; exact ⟨this.1, this.2.1, this.2.2.entries, this.2.2.pass, this.2.2.finite, this.2.2.utf8, this.2.2.rng⟩
  | written e p => rw [hst] at this; exact this
  | changedAgain => trivial

theorem agrees_print {v : View} {st : St} (b : Bytes) (h : Agrees C J path mode fs0 v st) : Agrees C J path mode fs0 v (st.print b) := by
  refine ⟨h.path_eq, h.mode_eq, h.writes, h.clock, h.utf, h.others, h.sound, h.keys, ?_⟩
  have := h.stage
  unfold AtStage at this ⊢
  cases hst : v.stage with
  | clean => rw [hst] at this; exact ⟨this.1, this.2.1, this.2.2.entries, this.2.2.pass, this.2.2.finite, this.2.2.utf8, this.2.2.rng⟩
  | changed => rw [hst] at this; exact ⟨this.1, this.2.1, this.2.2.entries, this.2.2.pass, this.2.2.finite, this.2.2.utf8, this.2.2.rng⟩
  | written e p => rw [hst] at this; exact this
  | changedAgain => trivial

theorem entry_lookup {st : St} (h : Sound st.sess.store) (l : Bytes) : st.entry l = (lookup st.sess.store l).map some := by
  obtain ⟨m, hm⟩ := h.store
  unfold St.entry
  rw [hm]
  exact noNil_get h.noNil hm l

/-- A label is known to both or to neither. -/
theorem entry_cases {v : View} {st : St} (h : Agrees C J path mode fs0 v st) (l : Bytes) :
    (st.entry l = none ∧ v.entry l = none) ∨
    ∃ r x md, st.entry l = some (some r) ∧ lookup st.sess.store l = some r ∧ v.entry l = some (x, md) ∧
      (Exact v st → r.secret = x ∧ r.metadata.getD Map.empty = md) := by
  have hk := h.keys l
  rw [entry_lookup h.sound]
  cases hl : lookup st.sess.store l with
  | none =>
    rw [hl] at hk
    left
    refine ⟨rfl, ?_⟩
    cases hv : v.entry l with
    | none => rfl
    | some _ => rw [hv] at hk; cases hk
  | some r =>
    rw [hl] at hk
    right
    cases hv : v.entry l with
    | none => rw [hv] at hk; cases hk
    | some p =>
      refine ⟨r, p.1, p.2, rfl, rfl, rfl, fun he => ?_⟩
      have := congrFun he.entries l
      unfold Spec.Secretscli.entries at this
      rw [hl, hv] at this
      simp only [Option.map_some, Option.some.injEq] at this
      rw [← this]
      exact ⟨rfl, rfl⟩

theorem sound_set {s : SecretStore} (h : Sound s) {m : Map (Option SecretRecord)} (hm : s.store = some m) (l : Bytes) (r : SecretRecord)
    {t : BitVec 64} (ht : t ≠ 0) : Sound { s with timestamp := t, store := some (m.set l (some r)) } := by
  refine ⟨h.version, ht, ⟨_, rfl⟩, h.pass, ?_⟩
  intro m' k hm' hk
  cases hm'
  by_cases hkl : k = l
  · subst hkl; simp at hk
  · rw [Map.set_other _ _ hkl] at hk
    exact h.noNil m k hm hk

theorem entries_set {s : SecretStore} {m : Map (Option SecretRecord)} (hm : s.store = some m) (l : Bytes) (r : SecretRecord) :
    entries { s with store := some (m.set l (some r)) } = (entries s).set l (r.secret, r.metadata.getD Map.empty) := by
  funext k
  unfold Spec.Secretscli.entries
  rw [lookup_set hm]
  by_cases hk : k = l
  · subst hk; simp
  · rw [Map.set_other _ _ hk, if_neg hk]

theorem lookup_time (s : SecretStore) (t : BitVec 64) (k : Bytes) : lookup { s with timestamp := t } k = lookup s k := rfl

/-- A record is put into the session, now or later. -/
theorem set_exact {v : View} {st : St} {l x : Bytes} {md : Map Bytes} {r : SecretRecord} {m : Map (Option SecretRecord)} {t : BitVec 64}
    (he : Exact v st) (hm : st.sess.store.store = some m) (hl : ValidUtf8 l) (h1 : r.secret = x) (h2 : r.metadata.getD Map.empty = md)
    (h3 : ∀ m, r.metadata = some m → m.Finite) (h4 : ValidUtf8 r.label)
    (h5 : ∀ m j y, r.metadata = some m → m j = some y → ValidUtf8 j) (g : Stage) (d : Bool) (w : World) (hw : w.rng = st.w.rng)
    (ws : Nat → WriteOutcome) :
    Exact { v with entry := v.entry.set l (x, md), stage := g }
      { sess := { st.sess with store := { st.sess.store with timestamp := t, store := some (m.set l (some r)) }, dirty := d }, w := w, writes := ws } := by
  refine ⟨?_, he.pass, ?_, ?_, by rw [hw]; exact he.rng⟩
  · have := entries_set (s := { st.sess.store with timestamp := t }) (m := m) hm l r
    rw [h1, h2] at this
    refine this.trans ?_
    have h6 : entries { st.sess.store with timestamp := t } = v.entry := he.entries
    rw [h6]
  · exact finite_set he.finite hm l r h3 t
  · exact utf8_set he.utf8 hm (r := r) hl h4 h5 t

theorem agrees_touch {v : View} {st : St} {l x : Bytes} {md : Map Bytes} {r : SecretRecord} (h : Agrees C J path mode fs0 v st)
    (hl : ValidUtf8 l) (hr : Exact v st → r.secret = x ∧ r.metadata.getD Map.empty = md ∧ (∀ m, r.metadata = some m → m.Finite) ∧
      ValidUtf8 r.label ∧ ∀ m j y, r.metadata = some m → m j = some y → ValidUtf8 j) :
    ∃ st', touch st l r = (.ok, st') ∧ st'.w.term.answers = st.w.term.answers ∧
      Agrees C J path mode fs0 { v with entry := v.entry.set l (x, md), stage := v.stage.change } st' := by
  obtain ⟨m, hm⟩ := h.sound.store
  refine ⟨{ st with
      sess := { st.sess with store := { st.sess.store with timestamp := st.w.term.clock 0, store := some (m.set l (some { r with timestamp := st.w.term.clock 0 })) }, dirty := true },
      w := { st.w with term := ⟨st.w.term.answers, fun n => st.w.term.clock (n + 1)⟩ } }, ?_, rfl, ?_⟩
  · unfold touch Term.now assign
    simp only [hm]
  · refine ⟨h.path_eq, h.mode_eq, h.writes, fun n => h.clock (n + 1), h.utf, h.others, sound_set h.sound hm _ _ (h.clock 0), ?_, ?_⟩
    · intro k
      have := lookup_set (ps := { st.sess.store with timestamp := st.w.term.clock 0 }) (m := m) hm l k { r with timestamp := st.w.term.clock 0 }
      simp only at this ⊢
      rw [this]
      by_cases hk : k = l
      · subst hk; simp
      · rw [Map.set_other _ _ hk, if_neg hk]
        exact h.keys k
    · have hst := h.stage
      unfold AtStage at hst ⊢
      cases hg : v.stage with
      | clean =>
        rw [hg] at hst
        obtain ⟨a1, a2, a3, a4, a5⟩ := hr hst.2.2
        exact ⟨rfl, hst.2.1, set_exact (r := { r with timestamp := st.w.term.clock 0 }) hst.2.2 hm hl a1 a2 a3 a4 a5 _ _ { st.w with term := ⟨st.w.term.answers, fun n => st.w.term.clock (n + 1)⟩ } rfl _⟩
      | changed =>
        rw [hg] at hst
        obtain ⟨a1, a2, a3, a4, a5⟩ := hr hst.2.2
        exact ⟨rfl, hst.2.1, set_exact (r := { r with timestamp := st.w.term.clock 0 }) hst.2.2 hm hl a1 a2 a3 a4 a5 _ _ { st.w with term := ⟨st.w.term.answers, fun n => st.w.term.clock (n + 1)⟩ } rfl _⟩
      | written e p => trivial
      | changedAgain => trivial

theorem yes_iff (a : Bytes) : ¬ (lower a ≠ ascii "y" ∧ lower a ≠ ascii "yes") ↔ Yes a := by
  unfold Yes
  have h1 : ascii "y" = [121] := by decide
  have h2 : ascii "yes" = [121, 101, 115] := by decide
  rw [h1, h2]
  by_cases a1 : lower a = [121] <;> simp [a1]

/-- A password prompt fails or is answered. -/
theorem prompt_cases (st : St) : (∃ as, Fails st.w.term.answers as ∧ as <:+ st.w.term.answers ∧ st.read = (none, st.rest as)) ∨
    ∃ a as, st.w.term.answers = some a :: as ∧ as <:+ st.w.term.answers ∧ st.read = (some a, st.rest as) := by
  cases ha : st.w.term.answers with
  | nil => exact .inl ⟨[], .ended, List.suffix_refl _, by rw [read_nil ha, ← ha]; rfl⟩
  | cons a as =>
    cases a with
    | none => exact .inl ⟨as, .error as, List.suffix_cons _ _, read_cons ha⟩
    | some a => exact .inr ⟨a, as, rfl, List.suffix_cons _ _, read_cons ha⟩

theorem put_agrees {v : View} {st : St} {l : Bytes} {md : Map Bytes} {r : SecretRecord} (h : Agrees C J path mode fs0 v st)
    (hl : ValidUtf8 l) (hr : Exact v st → r.metadata.getD Map.empty = md ∧ (∀ m, r.metadata = some m → m.Finite) ∧
      ValidUtf8 r.label ∧ ∀ m j y, r.metadata = some m → m j = some y → ValidUtf8 j) :
    (∃ as, NoPassword st.w.term.answers as ∧ putSecret l (some r) st = (.err, st.rest as) ∧ as <:+ st.w.term.answers) ∨
    ∃ pw as st', st.w.term.answers = some pw :: as ∧ pw ≠ [] ∧ putSecret l (some r) st = (.ok, st') ∧ st'.w.term.answers = as ∧
      Agrees C J path mode fs0 { v with entry := v.entry.set l (pw, md), stage := v.stage.change } st' := by
  unfold putSecret
  rcases prompt_cases st with ⟨as, h1, h2, h3⟩ | ⟨pw, as, h1, h2, h3⟩
  · exact .inl ⟨as, .fails h1, by rw [h3], h2⟩
  · rw [h3]
    simp only
    by_cases hp : pw = []
    · subst hp
      exact .inl ⟨as, by rw [h1]; exact .empty as, by simp, h2⟩
    · right
      have hlen : ¬ pw.length = 0 := by simpa using hp
      rw [if_neg hlen]
      have h' := agrees_rest C J h h2
      obtain ⟨st', a1, a2, a3⟩ := agrees_touch C J (r := { r with secret := pw }) (x := pw) (md := md) h' hl (fun he => by
        have := hr ⟨he.entries, he.pass, he.finite, he.utf8, he.rng⟩
        exact ⟨rfl, this⟩)
      exact ⟨pw, as, st', h1, hp, a1, a2, a3⟩

theorem single_agrees {v : View} {st : St} {l : Bytes} (h : Agrees C J path mode fs0 v st) (hl : ValidUtf8 l) :
    ∃ v' st' b, storeSingleSecret l st = (if b then .ok else .err, st') ∧
      Store l v st.w.term.answers v' b st'.w.term.answers ∧ Agrees C J path mode fs0 v' st' := by
  unfold storeSingleSecret
  rcases entry_cases C J h l with ⟨e1, e2⟩ | ⟨r, x, md, e1, e2, e3, e4⟩
  · rw [e1]
    simp only
    rcases put_agrees C J (r := { label := [], timestamp := 0, secret := [], metadata := none }) (md := Map.empty) h hl
      (fun _ => ⟨rfl, fun m hm => (nomatch hm), by show ValidUtf8 []; decide, fun m j y hm => (nomatch hm)⟩) with
      ⟨as, a1, a2, a3⟩ | ⟨pw, as, st', a1, a2, a3, a4, a5⟩
    · exact ⟨v, st.rest as, false, a2, .noPassword e2 a1, agrees_rest C J h a3⟩
    · exact ⟨_, st', true, a3, by rw [a1, a4]; exact .new e2 a2, a5⟩
  · rw [e1]
    simp only
    rcases prompt_cases st with ⟨as, h1, h2, h3⟩ | ⟨a, as, h1, h2, h3⟩
    · rw [h3]
      exact ⟨v, st.rest as, false, rfl, .noAnswer e3 h1, agrees_rest C J h h2⟩
    · rw [h3]
      simp only
      have h' := agrees_rest C J h h2
      by_cases hy : Yes a
      · rw [if_neg ((yes_iff a).mpr hy)]
        rcases put_agrees C J (r := r) (md := md) h' hl (fun he => by
          have he' : Exact v st := ⟨he.entries, he.pass, he.finite, he.utf8, he.rng⟩
          obtain ⟨-, u2, u3⟩ := record_utf8 he'.utf8 e2
          exact ⟨(e4 he').2, fun m hm => record_finite he'.finite e2 m hm, u2, u3⟩) with
          ⟨as2, a1, a2, a3⟩ | ⟨pw, as2, st', a1, a2, a3, a4, a5⟩
        · exact ⟨v, st.rest as2, false, a2, by rw [h1]; exact .noNewPassword e3 hy a1, agrees_rest C J h (a3.trans h2)⟩
        · refine ⟨_, st', true, a3, ?_, a5⟩
          rw [rest_answers] at a1
          rw [h1, a1, a4]
          exact .replace e3 hy a2
      · rw [if_pos (by
          by_cases hh : lower a ≠ ascii "y" ∧ lower a ≠ ascii "yes"
          · exact hh
          · exact absurd ((yes_iff a).mp hh) hy)]
        exact ⟨v, st.rest as, true, rfl, by rw [h1]; exact .keep e3 hy, h'⟩

/-! ### Writing -/

theorem lookup_zero (s : SecretStore) (k : Bytes) : lookup s.zero k = (lookup s k).map SecretRecord.zero := by
  cases hs : s.store with
  | none => simp [lookup, SecretStore.zero, hs]
  | some m =>
    rw [lookup_eq hs, lookup_eq (m := fun k => (m k).map (Option.map SecretRecord.zero)) (by simp [SecretStore.zero, hs])]
    cases hk : m k with
    | none => rfl
    | some o => cases o <;> rfl

theorem sound_zero {s : SecretStore} (h : Sound s) : Sound s.zero := by
  obtain ⟨m, hm⟩ := h.store
  obtain ⟨p, hp⟩ := h.pass
  refine ⟨h.version, h.time, ⟨_, by simp [SecretStore.zero, hm]; rfl⟩, ⟨_, by simp [SecretStore.zero, hp]; rfl⟩, ?_⟩
  intro m' k hm' hk
  simp only [SecretStore.zero, hm, Option.map_some, Option.some.injEq] at hm'
  subst hm'
  simp only at hk
  cases hk' : m k with
  | none => simp [hk'] at hk
  | some o =>
    cases o with
    | none => exact h.noNil m k hm hk'
    | some r => simp [hk'] at hk

/-- Writing a changed session. -/
theorem write_ok {st : St} {p : Bytes} (hd : st.sess.path ≠ dash) (hm : st.sess.mode = 0 ∨ st.sess.mode = 1) (hs : Sound st.sess.store)
    (hp : st.sess.store.passphrase = some p) (hdirty : st.sess.dirty = true) (hw : st.writes 0 = .done) (hr : 56 ≤ st.w.rng.length) :
    ∃ out, writeStore C J st = (true, { sess := { st.sess with store := st.sess.store.zero, dirty := false }, w := { st.w with rng := st.w.rng.drop 56, write := .done, fs := st.w.fs.set st.sess.path out }, writes := fun n => st.writes (n + 1) }) ∧
      IsFile C out p st.sess.mode (J.enc st.sess.store.toFields) := by
  obtain ⟨out, hout⟩ := marshal_ok C J hs.valid hm hr
  obtain ⟨-, -, q, hq, hfile⟩ := marshal_some C J hout
  rw [hp] at hq
  cases hq
  refine ⟨out, ?_, hfile⟩
  unfold writeStore
  simp only [hdirty, Bool.not_true, Bool.false_eq_true, if_false, hout, World.writeFile, hd, Go.writeFile, hw]

theorem write_clean {st : St} (h : st.sess.dirty = false) : writeStore C J st = (true, st) := by
  unfold writeStore
  simp [h]

/-- What writing leaves alone, whether it works or not. -/
theorem write_frame (st : St) (hs : Sound st.sess.store) :
    (writeStore C J st).2.sess.path = st.sess.path ∧ (writeStore C J st).2.sess.mode = st.sess.mode ∧
    ((∀ n, st.writes n = .done) → ∀ n, (writeStore C J st).2.writes n = .done) ∧
    (∀ q, q ≠ st.sess.path → (writeStore C J st).2.w.fs q = st.w.fs q) ∧ Sound (writeStore C J st).2.sess.store ∧
    ∀ k, (lookup (writeStore C J st).2.sess.store k).isSome = (lookup st.sess.store k).isSome := by
  unfold writeStore
  split
  · exact ⟨rfl, rfl, id, fun _ _ => rfl, hs, fun _ => rfl⟩
  · split
    · exact ⟨rfl, rfl, id, fun _ _ => rfl, hs, fun _ => rfl⟩
    · rename_i s rng hout
      have : s = st.sess.store := by
        obtain ⟨p, hp⟩ := hs.pass
        rw [marshal_eq C J _ p _ _ hs.valid hp] at hout
        repeat' split at hout
        all_goals simp at hout
        all_goals exact hout.1.symm
      subst this
      exact ⟨rfl, rfl, id, fun _ _ => rfl, hs, fun _ => rfl⟩
    · rename_i out s rng hout
      obtain ⟨-, rfl, -⟩ := marshal_some C J hout
      refine ⟨rfl, rfl, fun h n => h (n + 1), ?_, sound_zero hs, fun k => by simp [lookup_zero]⟩
      intro q hq
      simp only [World.writeFile]
      split
      · rfl
      · unfold Go.writeFile
        cases st.writes 0 with
        | done => exact Fs.set_other _ _ hq
        | openFails => rfl
        | failsAfter n => exact Fs.set_other _ _ hq

theorem agrees_write {v : View} {st : St} (hd : path ≠ dash) (hm : mode = 0 ∨ mode = 1) (h : Agrees C J path mode fs0 v st) :
    Agrees C J path mode fs0 v.write (writeStore C J st).2 := by
  obtain ⟨f1, f2, f3, f4, f5, f6⟩ := write_frame C J st h.sound
  have hst := h.stage
  have ht := writeStore_term C J st
  have hentry : v.write.entry = v.entry := by unfold View.write; split <;> rfl
  refine ⟨f1.trans h.path_eq, f2.trans h.mode_eq, f3 h.writes, by rw [ht]; exact h.clock, by rw [ht]; exact h.utf,
    fun q hq => (f4 q (by rw [h.path_eq]; exact hq)).trans (h.others q hq), f5, fun k => by rw [f6, h.keys, hentry], ?_⟩
  cases hg : v.stage with
  | clean =>
    unfold AtStage at hst
    rw [hg] at hst
    rw [write_clean C J hst.1]
    have : v.write = v := by unfold View.write; rw [hg]
    rw [this]
    exact h.stage
  | changed =>
    unfold AtStage at hst
    rw [hg] at hst
    obtain ⟨d1, d2, d3⟩ := hst
    obtain ⟨out, w1, w2⟩ := write_ok C J (by rw [h.path_eq]; exact hd) (by rw [h.mode_eq]; exact hm) h.sound d3.pass d1 (h.writes 0) d3.rng
    rw [w1]
    have : v.write = { v with stage := .written v.entry v.pass } := by unfold View.write; rw [hg]
    rw [this]
    refine ⟨rfl, { toFields := st.sess.store.toFields, passphrase := some v.pass }, ⟨out, ?_, ?_⟩, ?_⟩
    · simp only [h.path_eq, Fs.set_same]
    · rw [← h.mode_eq]
      exact saved_exact C J d3.finite d3.utf8 w2
    · exact d3.entries
  | written e p =>
    unfold AtStage at hst
    rw [hg] at hst
    rw [write_clean C J hst.1]
    have : v.write = v := by unfold View.write; rw [hg]
    rw [this]
    exact h.stage
  | changedAgain =>
    have : v.write = v := by unfold View.write; rw [hg]
    rw [this]
    unfold AtStage
    rw [hg]
    trivial

/-! ### The commands -/

theorem storeLoop_agrees (hd : path ≠ dash) (hm : mode = 0 ∨ mode = 1) (ls : List Bytes) : ∀ (i : Nat) (v : View) (st : St),
    (∀ l ∈ ls, ValidUtf8 l) → Agrees C J path mode fs0 v st →
    ∃ v' st' b, storeLoop C J (i + 1) ls st = (if b then .ok else .err, st') ∧ StoreAll ls v st.w.term.answers v' b st'.w.term.answers ∧
      Agrees C J path mode fs0 (if b then v' else v'.write) st' := by
  induction ls with
  | nil => intro i v st _ h; exact ⟨v, st, true, rfl, .nil, h⟩
  | cons l ls ih =>
    intro i v st hl h
    obtain ⟨v1, st1, b, h1, h2, h3⟩ := single_agrees C J h (hl l List.mem_cons_self)
    rw [storeLoop, h1]
    cases b with
    | true =>
      obtain ⟨v2, st2, b2, h4, h5, h6⟩ := ih (i + 1) v1 st1 (fun x hx => hl x (List.mem_cons_of_mem _ hx)) h3
      exact ⟨v2, st2, b2, h4, .cons h2 h5, h6⟩
    | false =>
      refine ⟨v1, (writeStore C J st1).2, false, by simp, ?_, agrees_write C J hd hm h3⟩
      rw [writeStore_term]
      exact .stop h2

/-- A command other than quit does what the user expects. -/
def Does (line : Bytes) (v : View) (st : St) (path : Bytes) (mode : Int) (fs0 : Fs) (x : Ret × St) : Prop :=
  (x.1 = .ok ∨ x.1 = .err) ∧ ∃ v', Command line v st.w.term.answers v' x.2.w.term.answers ∧ Agrees C J path mode fs0 v' x.2

theorem does_other {line : Bytes} {v : View} {st st' : St} {r : Ret} {c : Bytes} {args : List Bytes} (hf : fields line = c :: args) (hc : c ∉ active)
    (hr : r = .ok ∨ r = .err) (ht : st'.w.term = st.w.term) (h : Agrees C J path mode fs0 v st') : Does C J line v st path mode fs0 (r, st') := by
  refine ⟨hr, v, ?_, h⟩
  rw [show (r, st').2.w.term.answers = st.w.term.answers by rw [ht]]
  refine .other fun c' hc' => ?_
  rw [hf] at hc'
  cases hc'
  exact hc

theorem does_store (hd : path ≠ dash) (hm : mode = 0 ∨ mode = 1) {line : Bytes} {v : View} {st : St} {args : List Bytes}
    (hf : fields line = ascii "store" :: args) (hl : ∀ l ∈ args, ValidUtf8 l) (h : Agrees C J path mode fs0 v st) :
    Does C J line v st path mode fs0 (storeSecret C J args st) := by
  unfold storeSecret
  cases args with
  | nil => exact ⟨Or.inr rfl, v, .storeNothing hf, h⟩
  | cons l ls =>
    rw [if_neg (by simp), storeLoop]
    obtain ⟨v1, st1, b, h1, h2, h3⟩ := single_agrees C J h (hl l List.mem_cons_self)
    rw [h1]
    cases b with
    | true =>
      simp only [if_true]
      obtain ⟨v2, st2, b2, h4, h5, h6⟩ := storeLoop_agrees C J hd hm ls 0 v1 st1 (fun x hx => hl x (List.mem_cons_of_mem _ hx)) h3
      rw [h4]
      cases b2 with
      | true => exact ⟨Or.inl rfl, v2, .storeAll hf (.cons h2 h5), h6⟩
      | false => exact ⟨Or.inr rfl, v2.write, .storeLaterFails hf h2 h5, h6⟩
    | false => exact ⟨Or.inr rfl, v1, .storeFirstFails hf h2, h3⟩

theorem metaLoop_false (as : List (Option Bytes)) : ∀ (md md' : Map Bytes) (rest : List (Option Bytes)),
    metaLoop md as = (md', false, rest) → ∃ (lines : List Bytes) (as' : List (Option Bytes)), as = lines.map some ++ as' ∧ (∀ l ∈ lines, l ≠ []) ∧ Fails as' rest ∧
      EnteredAll md lines md' := by
  intro md md' rest h
  -- end the input with an empty line instead
  suffices key : ∀ (as : List (Option Bytes)) (md md' : Map Bytes) (rest : List (Option Bytes)), metaLoop md as = (md', false, rest) →
      ∃ (lines : List Bytes) (as' : List (Option Bytes)), as = lines.map some ++ as' ∧ Fails as' rest ∧ (∀ l ∈ lines, l ≠ []) ∧
        metaLoop md (lines.map some ++ [some []]) = (md', true, []) by
    obtain ⟨lines, as', h1, h2, h3, h4⟩ := key as md md' rest h
    obtain ⟨lines2, g1, g2, g3⟩ := Props.SecretsMeta.metaLoop_true _ _ _ _ h4
    have : lines2 = lines := by
      have g4 := List.append_inj_left' g1 rfl
      exact (List.map_injective_iff.mpr (fun a b h => Option.some.inj h) g4).symm
    subst this
    exact ⟨lines2, as', h1, h3, h2, g3⟩
  clear h as md md' rest
  intro as
  induction as with
  | nil =>
    intro md md' rest h
    simp only [metaLoop, Prod.mk.injEq, true_and] at h
    obtain ⟨rfl, rfl⟩ := h
    exact ⟨[], [], rfl, .ended, by simp, by simp [metaLoop]⟩
  | cons a as ih =>
    intro md md' rest h
    cases a with
    | none =>
      simp only [metaLoop, Prod.mk.injEq, true_and] at h
      obtain ⟨rfl, rfl⟩ := h
      exact ⟨[], none :: as, rfl, .error _, by simp, by simp [metaLoop]⟩
    | some line =>
      rw [metaLoop] at h
      split at h
      · simp at h
      · rename_i hl
        split at h
        · rename_i hs
          obtain ⟨lines, as', h1, h2, h3, h4⟩ := ih _ _ _ h
          refine ⟨line :: lines, as', by simp [h1], h2, by simpa [hl] using h3, ?_⟩
          rw [List.map_cons, List.cons_append, metaLoop, if_neg hl, hs]
          exact h4
        · rename_i k x hs
          obtain ⟨lines, as', h1, h2, h3, h4⟩ := ih _ _ _ h
          refine ⟨line :: lines, as', by simp [h1], h2, by simpa [hl] using h3, ?_⟩
          rw [List.map_cons, List.cons_append, metaLoop, if_neg hl, hs]
          exact h4

theorem entered_utf8 {md md' : Map Bytes} {lines : List Bytes} (h : EnteredAll md lines md') (h1 : ∀ l ∈ lines, ValidUtf8 l)
    (h2 : ∀ j y, md j = some y → ValidUtf8 j) (j y : Bytes) (hj : md' j = some y) : ValidUtf8 j := by
  rcases (h j y).mp hj with ⟨pre, line, post, e1, ⟨a, b, e2, e3, e4, -⟩, -⟩ | ⟨e1, -⟩
  · rw [e4]
    exact valid_trimSpace (valid_splitEq (h1 line (by rw [e1]; simp)) ((Props.SecretsMeta.split_iff line a b).mpr ⟨e2, e3⟩)).1
  · exact h2 j y e1

theorem entered_exists (lines : List Bytes) (hl : ∀ l ∈ lines, l ≠ []) (md : Map Bytes) : ∃ md', EnteredAll md lines md' := by
  suffices key : ∀ (md : Map Bytes), ∃ md', metaLoop md (lines.map some ++ [some []]) = (md', true, []) by
    obtain ⟨md', h⟩ := key md
    obtain ⟨lines2, g1, g2, g3⟩ := Props.SecretsMeta.metaLoop_true _ _ _ _ h
    have : lines2 = lines := by
      have g4 := List.append_inj_left' g1 rfl
      exact (List.map_injective_iff.mpr (fun a b h => Option.some.inj h) g4).symm
    subst this
    exact ⟨md', g3⟩
  clear md
  induction lines with
  | nil => intro md; exact ⟨md, by simp [metaLoop]⟩
  | cons l ls ih =>
    intro md
    have hne := hl l List.mem_cons_self
    rw [List.map_cons, List.cons_append, metaLoop, if_neg hne]
    split <;> exact ih (fun x hx => hl x (List.mem_cons_of_mem _ hx)) _

theorem entered_unique {md md1 md2 : Map Bytes} {lines : List Bytes} (h1 : EnteredAll md lines md1) (h2 : EnteredAll md lines md2) : md1 = md2 := by
  funext k
  apply Option.ext
  intro x
  exact (h1 k x).trans (h2 k x).symm

/-- A record is changed without marking the session. -/
theorem agrees_assign {v : View} {st : St} {l x : Bytes} {md : Map Bytes} {r : SecretRecord} (h : Agrees C J path mode fs0 v st)
    (hl : ValidUtf8 l) (hr : Exact v st → r.secret = x ∧ r.metadata.getD Map.empty = md ∧ (∀ m, r.metadata = some m → m.Finite) ∧
      ValidUtf8 r.label ∧ ∀ m j y, r.metadata = some m → m j = some y → ValidUtf8 j) :
    ∃ s, assign st.sess.store l r = .ok s ∧
      Agrees C J path mode fs0 { v with entry := v.entry.set l (x, md) } { st with sess := { st.sess with store := s } } := by
  obtain ⟨m, hm⟩ := h.sound.store
  refine ⟨{ st.sess.store with store := some (m.set l (some r)) }, ?_, ?_⟩
  · unfold assign
    simp only [hm]
  · refine ⟨h.path_eq, h.mode_eq, h.writes, h.clock, h.utf, h.others, sound_set h.sound hm _ _ h.sound.time, ?_, ?_⟩
    · intro k
      have := lookup_set hm l k r
      simp only at this ⊢
      rw [this]
      by_cases hk : k = l
      · subst hk; simp
      · rw [Map.set_other _ _ hk, if_neg hk]
        exact h.keys k
    · have hst := h.stage
      unfold AtStage at hst ⊢
      cases hg : v.stage with
      | clean =>
        rw [hg] at hst
        obtain ⟨a1, a2, a3, a4, a5⟩ := hr hst.2.2
        have := set_exact (t := st.sess.store.timestamp) hst.2.2 hm hl a1 a2 a3 a4 a5 v.stage st.sess.dirty st.w rfl st.writes
        rw [hg] at this
        exact ⟨hst.1, hst.2.1, this.1, this.2, this.3, this.4, this.5⟩
      | changed =>
        rw [hg] at hst
        obtain ⟨a1, a2, a3, a4, a5⟩ := hr hst.2.2
        have := set_exact (t := st.sess.store.timestamp) hst.2.2 hm hl a1 a2 a3 a4 a5 v.stage st.sess.dirty st.w rfl st.writes
        rw [hg] at this
        exact ⟨hst.1, hst.2.1, this.1, this.2, this.3, this.4, this.5⟩
      | written e p => rw [hg] at hst; exact hst
      | changedAgain => trivial

theorem does_wmeta {line : Bytes} {v : View} {st : St} {args : List Bytes}
    (hf : fields line = ascii "wmeta" :: args) (hl : ∀ l ∈ args, ValidUtf8 l) (h : Agrees C J path mode fs0 v st) :
    Does C J line v st path mode fs0 (writeMeta args st) := by
  unfold writeMeta
  match args, hf, hl with
  | [], hf, hl => exact ⟨Or.inr rfl, v, .wmetaUsage hf (by simp), h⟩
  | a :: b :: args, hf, hl => exact ⟨Or.inr rfl, v, .wmetaUsage hf (by simp), h⟩
  | [l], hf, hl =>
    simp only
    rcases entry_cases C J h l with ⟨e1, e2⟩ | ⟨r, x, md, e1, e2, e3, e4⟩
    · rw [e1]
      exact ⟨Or.inr rfl, v, .wmetaUnknown hf e2, h⟩
    · rw [e1]
      simp only
      cases hml : metaLoop (r.metadata.getD Map.empty) st.w.term.answers with
      | mk md' q =>
        obtain ⟨ok, rest⟩ := q
        have hfin : Exact v st → md'.Finite := by
          intro he
          have := metaLoop_finite st.w.term.answers (r.metadata.getD Map.empty) (by
            cases hr : r.metadata with
            | none => exact Map.finite_empty
            | some m => exact record_finite he.finite e2 m hr)
          rw [hml] at this
          exact this
        have hold : Exact v st → ∀ j y, (r.metadata.getD Map.empty) j = some y → ValidUtf8 j := by
          intro he j y hj
          cases hr : r.metadata with
          | none => rw [hr] at hj; cases hj
          | some m => rw [hr] at hj; exact (record_utf8 he.utf8 e2).2.2 m j y hr hj
        have hsuf := metaLoop_suffix st.w.term.answers (r.metadata.getD Map.empty)
        rw [hml] at hsuf
        have h' := agrees_rest C J h hsuf
        -- what the user expects the new metadata to be, and what the program makes of it
        have hex : ∀ lines : List Bytes, (∀ l ∈ lines, l ≠ []) → (∀ l ∈ lines, ValidUtf8 l) → EnteredAll (r.metadata.getD Map.empty) lines md' →
            ∃ mdv, EnteredAll md lines mdv ∧ (Exact v (st.rest rest) → r.secret = x ∧ md' = mdv ∧ md'.Finite ∧
              ValidUtf8 r.label ∧ ∀ j y, md' j = some y → ValidUtf8 j) := by
          intro lines hne hu hent
          obtain ⟨mdv, hmdv⟩ := entered_exists lines hne md
          refine ⟨mdv, hmdv, fun he => ?_⟩
          have he' : Exact v st := ⟨he.entries, he.pass, he.finite, he.utf8, he.rng⟩
          obtain ⟨g1, g2⟩ := e4 he'
          refine ⟨g1, ?_, hfin he', (record_utf8 he'.utf8 e2).2.1, entered_utf8 hent hu (hold he')⟩
          rw [g2] at hent
          exact entered_unique hent hmdv
        cases ok with
        | false =>
          obtain ⟨lines, as', g1, g2, g3, g4⟩ := metaLoop_false _ _ _ _ hml
          obtain ⟨mdv, m1, m2⟩ := hex lines g2 (fun l hl => h.utf l (by rw [g1]; simp [hl])) g4
          obtain ⟨s, s1, s2⟩ := agrees_assign C J (r := { r with metadata := some md' }) (x := x) (md := mdv) h' (hl l (by simp)) (fun he => by
            obtain ⟨n1, n2, n3, n4, n5⟩ := m2 he
            exact ⟨n1, n2, fun m hm => by cases hm; exact n3, n4, fun m j y hm => by cases hm; exact n5 j y⟩)
          simp only [Bool.not_false, if_true]
          have s1' : assign st.sess.store l { r with metadata := some md' } = .ok s := s1
          simp only [s1']
          refine ⟨Or.inr rfl, _, ?_, s2⟩
          rw [g1]
          exact .wmetaFails hf e3 g2 m1 g3
        | true =>
          obtain ⟨lines, g1, g2, g3⟩ := Props.SecretsMeta.metaLoop_true _ _ _ _ hml
          obtain ⟨mdv, m1, m2⟩ := hex lines g2 (fun l hl => h.utf l (by rw [g1]; simp [hl])) g3
          obtain ⟨st', t1, t2, t3⟩ := agrees_touch C J (r := { r with metadata := some md' }) (x := x) (md := mdv) h' (hl l (by simp)) (fun he => by
            obtain ⟨n1, n2, n3, n4, n5⟩ := m2 he
            exact ⟨n1, n2, fun m hm => by cases hm; exact n3, n4, fun m j y hm => by cases hm; exact n5 j y⟩)
          simp only [Bool.not_true, Bool.false_eq_true, if_false]
          have t1' : touch { st with w := { st.w with term := { st.w.term with answers := rest } } } l { r with metadata := some md' } = (.ok, st') := t1
          rw [t1']
          refine ⟨Or.inl rfl, _, ?_, t3⟩
          simp only
          rw [g1, t2]
          exact .wmeta hf e3 g2 m1

theorem agrees_passwd {v : View} {st : St} (p : Bytes) (h : Agrees C J path mode fs0 v st) :
    Agrees C J path mode fs0 { v with pass := p } { st with sess := { st.sess with store := st.sess.store.changePassword p } } := by
  refine ⟨h.path_eq, h.mode_eq, h.writes, h.clock, h.utf, h.others,
    ⟨h.sound.version, h.sound.time, h.sound.store, ⟨_, rfl⟩, h.sound.noNil⟩, h.keys, ?_⟩
  have hst := h.stage
  unfold AtStage at hst ⊢
  cases hg : v.stage with
  | clean => rw [hg] at hst; exact ⟨hst.1, hst.2.1, hst.2.2.entries, rfl, hst.2.2.finite, hst.2.2.utf8, hst.2.2.rng⟩
  | changed => rw [hg] at hst; exact ⟨hst.1, hst.2.1, hst.2.2.entries, rfl, hst.2.2.finite, hst.2.2.utf8, hst.2.2.rng⟩
  | written e p => rw [hg] at hst; exact hst
  | changedAgain => trivial

theorem does_passwd {line : Bytes} {v : View} {st : St} {args : List Bytes}
    (hf : fields line = ascii "passwd" :: args) (h : Agrees C J path mode fs0 v st) : Does C J line v st path mode fs0 (passwd st) := by
  unfold passwd
  rcases prompt_cases st with ⟨as, h1, h2, h3⟩ | ⟨p, as, h1, h2, h3⟩
  · rw [h3]
    exact ⟨Or.inr rfl, v, .passwdFails hf h1, agrees_rest C J h h2⟩
  · rw [h3]
    simp only
    have h' := agrees_rest C J h h2
    rcases prompt_cases (st.rest as) with ⟨as', g1, g2, g3⟩ | ⟨q, as', g1, g2, g3⟩
    · rw [g3]
      refine ⟨Or.inr rfl, v, ?_, agrees_rest C J h' g2⟩
      rw [h1]
      exact .passwdFails2 hf g1
    · rw [g3]
      simp only
      rw [rest_answers] at g1
      have h'' := agrees_rest C J h' g2
      by_cases hq : q = p
      · subst hq
        rw [if_neg (by simp)]
        refine ⟨Or.inl rfl, _, ?_, agrees_passwd C J q h''⟩
        rw [h1, g1]
        exact .passwd hf
      · rw [if_pos hq]
        refine ⟨Or.inr rfl, v, ?_, h''⟩
        rw [h1, g1]
        exact .passwdMismatch hf (fun e => hq e.symm)

theorem does_write (hd : path ≠ dash) (hm : mode = 0 ∨ mode = 1) {line : Bytes} {v : View} {st : St} {args : List Bytes}
    (hf : fields line = ascii "write" :: args) (h : Agrees C J path mode fs0 v st) : Does C J line v st path mode fs0 (cmdWriteStore C J args st) := by
  unfold cmdWriteStore
  cases args with
  | cons a args => exact ⟨Or.inr rfl, v, .writeUsage hf, h⟩
  | nil =>
    simp only [List.length_nil, ne_eq, not_true_eq_false, if_false]
    have h1 := agrees_write C J hd hm h
    have h2 := writeStore_term C J st
    have h3 : Command line v st.w.term.answers v.write (writeStore C J st).2.w.term.answers := by
      rw [h2]
      exact .write hf
    cases hw : writeStore C J st with
    | mk ok st' =>
      rw [hw] at h1 h3
      cases ok with
      | false => exact ⟨Or.inr rfl, _, h3, h1⟩
      | true => exact ⟨Or.inl rfl, _, h3, h1⟩

/-- Showing secrets or metadata changes neither the session nor the files. -/
theorem line_agrees {v : View} {st : St} (format : Bytes → Bytes) (named : Bool) (l : Bytes) (h : Agrees C J path mode fs0 v st) :
    ∃ st', showLine format named l st = (.ok, st') ∧ st'.w.term = st.w.term ∧ Agrees C J path mode fs0 v st' := by
  unfold showLine
  rcases entry_cases C J h l with ⟨e1, e2⟩ | ⟨r, x, md, e1, e2, e3, e4⟩ <;> rw [e1] <;> exact ⟨_, rfl, rfl, agrees_print C J _ h⟩

theorem showLoop_agrees (format : Bytes → Bytes) (ls : List Bytes) : ∀ {v : View} {st : St}, Agrees C J path mode fs0 v st →
    ∃ st', showLoop format ls st = (.ok, st') ∧ st'.w.term = st.w.term ∧ Agrees C J path mode fs0 v st' := by
  induction ls with
  | nil => intro v st h; exact ⟨st, rfl, rfl, h⟩
  | cons l ls ih =>
    intro v st h
    obtain ⟨st1, h1, h2, h3⟩ := line_agrees C J format true l h
    obtain ⟨st2, h4, h5, h6⟩ := ih h3
    exact ⟨st2, by rw [showLoop, h1]; exact h4, h5.trans h2, h6⟩

theorem show_agrees {v : View} {st : St} (format : Bytes → Bytes) (args : List Bytes) (h : Agrees C J path mode fs0 v st) :
    ∃ r st', showSecret format args st = (r, st') ∧ (r = .ok ∨ r = .err) ∧ st'.w.term = st.w.term ∧ Agrees C J path mode fs0 v st' := by
  unfold showSecret
  split
  · exact ⟨_, _, rfl, .inr rfl, rfl, h⟩
  · obtain ⟨st1, h1, h2, h3⟩ := line_agrees C J format false _ h
    exact ⟨_, _, h1, .inl rfl, h2, h3⟩
  · obtain ⟨st1, h1, h2, h3⟩ := showLoop_agrees C J format args h
    exact ⟨_, _, h1, .inl rfl, h2, h3⟩

theorem metaLines_agrees (e : Env) (ls : List Bytes) : ∀ {v : View} {st : St}, Agrees C J path mode fs0 v st →
    ∃ st', metaLines e ls st = (.ok, st') ∧ st'.w.term = st.w.term ∧ Agrees C J path mode fs0 v st' := by
  induction ls with
  | nil => intro v st h; exact ⟨st, rfl, rfl, h⟩
  | cons l ls ih =>
    intro v st h
    rw [metaLines]
    rcases entry_cases C J h l with ⟨e1, e2⟩ | ⟨r, x, md, e1, e2, e3, e4⟩ <;> rw [e1]
    · obtain ⟨st2, h4, h5, h6⟩ := ih (agrees_print C J (ascii "[!] " ++ l ++ ascii " not found." ++ [10]) h)
      exact ⟨st2, h4, h5, h6⟩
    · obtain ⟨st2, h4, h5, h6⟩ := ih (agrees_print C J (metaText e l r) h)
      exact ⟨st2, h4, h5, h6⟩

theorem readMeta_agrees {v : View} {st : St} (e : Env) (args : List Bytes) (h : Agrees C J path mode fs0 v st) :
    ∃ r st', readMeta e args st = (r, st') ∧ (r = .ok ∨ r = .err) ∧ st'.w.term = st.w.term ∧ Agrees C J path mode fs0 v st' := by
  unfold readMeta
  split
  · exact ⟨_, _, rfl, .inr rfl, rfl, h⟩
  · obtain ⟨st1, h1, h2, h3⟩ := metaLines_agrees C J e args h
    exact ⟨_, _, h1, .inl rfl, h2, h3⟩

/-- Every command but quit does what the user expects. -/
theorem process_agrees (hd : path ≠ dash) (hm : mode = 0 ∨ mode = 1) (e : Env) {line : Bytes} {v : View} {st : St} (hl : ValidUtf8 line)
    (h : Agrees C J path mode fs0 v st) :
    ((fields line).head? = some (ascii "quit") ∧ processCommands C J e line st = (.exit, shutdown C J st)) ∨
    Does C J line v st path mode fs0 (processCommands C J e line st) := by
  have hfl : ∀ l ∈ fields line, ValidUtf8 l := valid_fields hl
  unfold processCommands
  cases hf : fields line with
  | nil =>
    refine .inr ⟨.inl rfl, v, .other ?_, h⟩
    intro c hc
    rw [hf] at hc
    cases hc
  | cons c args =>
    rw [hf] at hfl
    have hargs : ∀ l ∈ args, ValidUtf8 l := fun l hl => hfl l (List.mem_cons_of_mem _ hl)
    dsimp only
    by_cases c1 : c = ascii "clear"
    · rw [if_pos c1]; right; exact does_other C J hf (by subst c1; decide) (.inl rfl) rfl (agrees_print C J _ h)
    rw [if_neg c1]
    by_cases c2 : c = ascii "help"
    · rw [if_pos c2]; right
      unfold help
      split
      · exact does_other C J hf (by subst c2; decide) (.inr rfl) rfl h
      · exact does_other C J hf (by subst c2; decide) (.inl rfl) rfl (agrees_print C J _ h)
    rw [if_neg c2]
    by_cases c3 : c = ascii "list"
    · rw [if_pos c3]; right
      exact does_other C J hf (by subst c3; decide) (.inl rfl) rfl (agrees_print C J _ (agrees_print C J _ h))
    rw [if_neg c3]
    by_cases c4 : c = ascii "quit"
    · rw [if_pos c4]
      exact .inl ⟨by rw [c4]; rfl, rfl⟩
    rw [if_neg c4]
    by_cases c5 : c = ascii "passwd"
    · rw [if_pos c5]; right; subst c5; exact does_passwd C J hf h
    rw [if_neg c5]
    by_cases c6 : c = ascii "rmeta"
    · rw [if_pos c6]; right
      obtain ⟨r, st', h1, h2, h3, h4⟩ := readMeta_agrees C J e args h
      rw [h1]
      exact does_other C J hf (by subst c6; decide) h2 h3 h4
    rw [if_neg c6]
    by_cases c7 : c = ascii "show"
    · rw [if_pos c7]; right
      obtain ⟨r, st', h1, h2, h3, h4⟩ := show_agrees C J id args h
      rw [h1]
      exact does_other C J hf (by subst c7; decide) h2 h3 h4
    rw [if_neg c7]
    by_cases c8 : c = ascii "showhex"
    · rw [if_pos c8]; right
      obtain ⟨r, st', h1, h2, h3, h4⟩ := show_agrees C J hexEncode args h
      rw [h1]
      exact does_other C J hf (by subst c8; decide) h2 h3 h4
    rw [if_neg c8]
    by_cases c9 : c = ascii "store"
    · rw [if_pos c9]; right; subst c9; exact does_store C J hd hm hf hargs h
    rw [if_neg c9]
    by_cases c10 : c = ascii "wmeta"
    · rw [if_pos c10]; right; subst c10; exact does_wmeta C J hf hargs h
    rw [if_neg c10]
    by_cases c11 : c = ascii "write"
    · rw [if_pos c11]; right; subst c11; exact does_write C J hd hm hf h
    rw [if_neg c11]
    right
    refine does_other C J hf ?_ (.inr rfl) rfl h
    unfold active
    intro hmem
    rcases List.mem_cons.mp hmem with hx | hmem
    · exact c9 hx
    rcases List.mem_cons.mp hmem with hx | hmem
    · exact c10 hx
    rcases List.mem_cons.mp hmem with hx | hmem
    · exact c5 hx
    rcases List.mem_cons.mp hmem with hx | hmem
    · exact c11 hx
    rcases List.mem_cons.mp hmem with hx | hmem
    · exact c4 hx
    · cases hmem

/-! ### Sessions -/

theorem session_snoc {ls ls2 : List Bytes} {v v1 v2 : View} {as as1 as2 : List (Option Bytes)} (h : Session ls v as v1 as1) (h2 : Session ls2 v1 as1 v2 as2) :
    Session (ls ++ ls2) v as v2 as2 := by
  induction h with
  | nil => exact h2
  | blank _ ih => exact .blank (ih h2)
  | error _ ih => exact .error (ih h2)
  | command a b c _ ih => exact .command a b c (ih h2)

theorem turn_agrees (hd : path ≠ dash) (hm : mode = 0 ∨ mode = 1) (e : Env) {v : View} {st : St} (h : Agrees C J path mode fs0 v st) :
    (∃ st' v', turn C J e st = .next st' ∧ Session (typedLine st) v st.w.term.answers v' st'.w.term.answers ∧ Agrees C J path mode fs0 v' st') ∨
    AtEnd st.w.term.answers ∧ ((∃ as, as <:+ st.w.term.answers ∧ turn C J e st = .stop (st.rest as)) ∨
    ∃ as, as <:+ st.w.term.answers ∧ turn C J e st = .over (shutdown C J (st.rest as))) := by
  unfold turn typedLine
  split
  · rename_i ha
    refine .inr ⟨.inl ha, .inl ⟨[], by rw [ha], ?_⟩⟩
    rw [← ha]
    rfl
  · rename_i as ha
    rw [ha]
    exact .inl ⟨_, v, rfl, .error .nil, agrees_rest C J h (by rw [ha]; exact List.suffix_cons _ _)⟩
  · rename_i line as ha
    have hsuf : as <:+ st.w.term.answers := by rw [ha]; exact List.suffix_cons _ _
    simp only [ha]
    split
    · rename_i hl
      exact .inl ⟨_, v, rfl, by rw [hl]; exact .blank .nil, agrees_rest C J h hsuf⟩
    · rename_i hne
      rw [ha] at hsuf
      have hsuf' : as <:+ st.w.term.answers := by rw [ha]; exact hsuf
      split
      · rename_i hq
        exact .inr ⟨.inr ⟨line, as, rfl, by rw [hq]; decide⟩, .inl ⟨as, hsuf, rfl⟩⟩
      · rename_i hq
        rcases process_agrees C J hd hm e (h.utf line (by rw [ha]; simp)) (agrees_rest C J h hsuf') with ⟨h0, h1⟩ | ⟨h1, v', h2, h3⟩
        · rw [h1]
          exact .inr ⟨.inr ⟨line, as, rfl, h0⟩, .inr ⟨as, hsuf, rfl⟩⟩
        · left
          cases hp : processCommands C J e line (st.rest as) with
          | mk r st' =>
            rw [hp] at h1 h2 h3
            refine ⟨st', v', ?_, ?_, h3⟩
            · rcases h1 with h1 | h1 <;> · simp only at h1; rw [h1]; rfl
            · exact .command hne hq h2 .nil

theorem turns_agrees (hd : path ≠ dash) (hm : mode = 0 ∨ mode = 1) (e : Env) {v : View} {st st' : St} {ls : List Bytes} (h : Agrees C J path mode fs0 v st)
    (ht : Turns C J e st ls st') : ∃ v', Session ls v st.w.term.answers v' st'.w.term.answers ∧ Agrees C J path mode fs0 v' st' := by
  induction ht with
  | nil => exact ⟨v, .nil, h⟩
  | snoc _ h2 ih =>
    obtain ⟨v1, s1, a1⟩ := ih
    rcases turn_agrees C J hd hm e a1 with ⟨st2, v2, t1, t2, t3⟩ | ⟨-, ⟨as, -, t1⟩ | ⟨as, -, t1⟩⟩
    · rw [t1] at h2
      cases h2
      exact ⟨v2, session_snoc s1 t2, t3⟩
    · rw [t1] at h2; cases h2
    · rw [t1] at h2; cases h2

/-- What the file holds when the session is over. -/
theorem agrees_shutdown (hd : path ≠ dash) (hm : mode = 0 ∨ mode = 1) {v : View} {st : St} (h : Agrees C J path mode fs0 v st) :
    (∀ q, q ≠ path → (shutdown C J st).w.fs q = fs0 q) ∧
    match v.stage with
    | .clean => (shutdown C J st).w.fs = fs0
    | .changed => ∃ s', Opens C J (shutdown C J st).w.fs path v.pass mode s' ∧ entries s' = v.entry
    | .written e p => ∃ s', Opens C J (shutdown C J st).w.fs path p mode s' ∧ entries s' = e
    | .changedAgain => True := by
  have h1 := agrees_write C J hd hm h
  have hfs : (shutdown C J st).w.fs = (writeStore C J st).2.w.fs := rfl
  refine ⟨fun q hq => by rw [hfs]; exact h1.others q hq, ?_⟩
  have h2 := h1.stage
  unfold AtStage View.write at h2
  cases hg : v.stage with
  | clean => simp only [hg] at h2 ⊢; rw [hfs]; exact h2.2.1
  | changed => simp only [hg] at h2 ⊢; rw [hfs]; exact h2.2
  | written e p => simp only [hg] at h2 ⊢; rw [hfs]; exact h2.2
  | changedAgain => trivial

theorem shutdown_rest (st : St) (as : List (Option Bytes)) : shutdown C J (st.rest as) = (shutdown C J st).rest as := by
  unfold shutdown
  have : writeStore C J (st.rest as) = ((writeStore C J st).1, (writeStore C J st).2.rest as) := by
    obtain ⟨⟨s0, p0, m0, d0⟩, w0, ws⟩ := st
    unfold writeStore
    simp only [St.rest]
    cases d0 with
    | false => rfl
    | true =>
      simp only [Bool.not_true, Bool.false_eq_true, if_false]
      cases marshalSecretStore C J s0 m0 w0.rng with
      | panic => rfl
      | ok q =>
        obtain ⟨o, s, rng⟩ := q
        cases o with
        | none => rfl
        | some out =>
          simp only [World.writeFile]
          by_cases hd : p0 = dash
          · simp only [hd, if_true]
          · simp only [hd, if_false]
  rw [this]
  rfl

/-- Every run that ends the process, whatever the schedule. -/
theorem run_agrees (hd : path ≠ dash) (hm : mode = 0 ∨ mode = 1) (e : Env) {v : View} {st : St} (h : Agrees C J path mode fs0 v st)
    {evs : List Event} {s : Sys} (hr : Run C J e (Sys.init st) evs s) (hx : s.main = .exited) :
    ∃ v' as x, Session (commands evs) v st.w.term.answers v' as ∧ (.timeout ∈ evs ∨ AtEnd as) ∧ Agrees C J path mode fs0 v' x ∧
      s.st.w.fs = (shutdown C J x).w.fs := by
  obtain ⟨b, hb, hcase⟩ := run_exited C J hr hx
  obtain ⟨v', s1, a1⟩ := turns_agrees C J hd hm e h hb
  rcases hcase with ⟨x, t1, t2⟩ | t1 | ⟨t0, as, t1⟩
  · rcases turn_agrees C J hd hm e a1 with ⟨st2, v2, u1, u2, u3⟩ | ⟨ue, ⟨as, u0, u1⟩ | ⟨as, u0, u1⟩⟩
    · rw [u1] at t1; cases t1
    · rw [u1] at t1; cases t1
      exact ⟨v', _, _, s1, .inr ue, agrees_rest C J a1 u0, by rw [t2]⟩
    · rw [u1] at t1; cases t1
  · rcases turn_agrees C J hd hm e a1 with ⟨st2, v2, u1, u2, u3⟩ | ⟨ue, ⟨as, u0, u1⟩ | ⟨as, u0, u1⟩⟩
    · rw [u1] at t1; cases t1
    · rw [u1] at t1; cases t1
    · rw [u1] at t1
      injection t1 with t1
      exact ⟨v', _, _, s1, .inr ue, agrees_rest C J a1 u0, by rw [t1]⟩
  · exact ⟨v', _, b, s1, .inl t0, a1, by rw [t1, shutdown_rest]; rfl⟩

end Verif.Proofs.Secretscli
