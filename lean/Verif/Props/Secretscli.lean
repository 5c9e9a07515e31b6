import Verif.Proofs.SecretscliView
import Verif.Props.Journal
/-! Properties C69-C71 and C119 on: the program secretscli (cmd/secretscli). -/

namespace Verif.Props.Secretscli
open Verif Verif.Go Verif.Model.Util Verif.Model.SecretStore Verif.Model.Secretscli
open Verif.Model.Secrets (World assign metaLoop dash)
open Verif.Spec.SecretStore Verif.Spec.Secrets Verif.Spec.Journal Verif.Spec.Secretscli
open Verif.Proofs.SecretStore Verif.Proofs.Strings Verif.Proofs.Secretscli
open Verif.Proofs.Secrets hiding fmode
open Verif.Props.SecretStore
open Verif.Props.Secrets (exWorld exFile exMap_other exClock)

variable (C : Crypto) (J : Json)

/-! ### The session opens -/

theorem start_ok {w : World} {writes : Nat → WriteOutcome} {path p : Bytes} {mode : Int} {as : List (Option Bytes)} {s : SecretStore}
    (ha : w.term.answers = some p :: as) (ho : Opens C J w.fs path p mode s) :
    start C J w writes path mode =
      .ok (some { sess := { store := s, path := path, mode := mode, dirty := false }, w := { w with term := ⟨as, w.term.clock⟩ }, writes := writes }) := by
  obtain ⟨b, hb, hu⟩ := ho
  unfold start Term.read
  simp only [ha, hb, hu, Res.ok_bind, Res.pure_eq]

/-- What is known when the session begins. -/
theorem start_agrees {w : World} {writes : Nat → WriteOutcome} {path p : Bytes} {mode : Int} {as : List (Option Bytes)} {s : SecretStore} {st : St}
    (ha : w.term.answers = some p :: as) (ho : Opens C J w.fs path p mode s) (hg : Good s)
    (hu : ∀ b, some b ∈ as → ValidUtf8 b) (hc : ∀ n, w.term.clock n ≠ 0) (hw : ∀ n, writes n = .done) (hr : 56 ≤ w.rng.length)
    (hst : start C J w writes path mode = .ok (some st)) :
    Agrees C J path mode w.fs ⟨entries s, p, .clean⟩ st ∧ st.w.term.answers = as := by
  rw [start_ok C J ha ho] at hst
  cases hst
  obtain ⟨b, hb, hub⟩ := ho
  obtain ⟨h1, h2, h3⟩ := opens_fields C J hub
  refine ⟨⟨rfl, rfl, hw, hc, hu, fun _ _ => rfl, sound_of_good hg, fun k => ?_, rfl, rfl, rfl, h3, h1, h2, hr⟩, rfl⟩
  simp [entries]

/-! ### C69: what the file holds after a session -/

/-- Every session that ends, with quit, at the end of the input or because of the timer: nothing
happens to other files, and the user's store is as the user expects, unless something was changed
after the store was written within the session. -/
theorem C69_partial {e : Env} {w : World} {writes : Nat → WriteOutcome} {path p : Bytes} {mode : Int} {as : List (Option Bytes)} {s0 : SecretStore}
    {st : St} {evs : List Event} {s : Sys} (hd : path ≠ dash) (hm : mode = 0 ∨ mode = 1)
    (ha : w.term.answers = some p :: as) (ho : Opens C J w.fs path p mode s0) (hg : Good s0)
    (hu : ∀ b, some b ∈ as → ValidUtf8 b) (hc : ∀ n, w.term.clock n ≠ 0) (hw : ∀ n, writes n = .done) (hr : 56 ≤ w.rng.length)
    (hst : start C J w writes path mode = .ok (some st)) (hrun : Run C J e (Sys.init st) evs s) (hx : s.main = .exited) :
    ∃ v rest, Session (commands evs) ⟨entries s0, p, .clean⟩ as v rest ∧ (.timeout ∈ evs ∨ AtEnd rest) ∧
      (∀ q, q ≠ path → s.st.w.fs q = w.fs q) ∧
      match v.stage with
      | .clean => s.st.w.fs = w.fs
      | .changed => ∃ s', Opens C J s.st.w.fs path v.pass mode s' ∧ entries s' = v.entry
      | .written e p => ∃ s', Opens C J s.st.w.fs path p mode s' ∧ entries s' = e
      | .changedAgain => True := by
  obtain ⟨h1, h2⟩ := start_agrees C J ha ho hg hu hc hw hr hst
  obtain ⟨v, rest, x, h3, hend, h4, h5⟩ := run_agrees C J hd hm e h1 hrun hx
  obtain ⟨h6, h7⟩ := agrees_shutdown C J hd hm h4
  rw [h2] at h3
  rw [h5]
  exact ⟨v, rest, h3, hend, h6, h7⟩

/-! Sessions without `write` -/

theorem store_stage {l : Bytes} {v v' : View} {as as' : List (Option Bytes)} {b : Bool} (h : Store l v as v' b as')
    (hv : v.stage = .clean ∨ v.stage = .changed) : v'.stage = .clean ∨ v'.stage = .changed := by
  cases h with
  | new => rcases hv with h | h <;> simp [h, Stage.change]
  | replace => rcases hv with h | h <;> simp [h, Stage.change]
  | _ => exact hv

theorem storeAll_stage {ls : List Bytes} {v v' : View} {as as' : List (Option Bytes)} {b : Bool} (h : StoreAll ls v as v' b as')
    (hv : v.stage = .clean ∨ v.stage = .changed) : v'.stage = .clean ∨ v'.stage = .changed := by
  induction h with
  | nil => exact hv
  | cons h1 _ ih => exact ih (store_stage h1 hv)
  | stop h1 => exact store_stage h1 hv

theorem command_stage {line : Bytes} {v v' : View} {as as' : List (Option Bytes)} (h : Command line v as v' as')
    (hw : fields line ≠ [ascii "write"]) (hs : ∀ l l2 ls, fields line ≠ ascii "store" :: l :: l2 :: ls)
    (hv : v.stage = .clean ∨ v.stage = .changed) : v'.stage = .clean ∨ v'.stage = .changed := by
  cases h with
  | storeAll _ h => exact storeAll_stage h hv
  | storeFirstFails _ h => exact store_stage h hv
  | storeLaterFails h1 _ h3 =>
    cases h3 with
    | cons => exact absurd h1 (hs _ _ _)
    | stop => exact absurd h1 (hs _ _ _)
  | wmeta => rcases hv with h | h <;> simp [h, Stage.change]
  | write h => exact absurd h hw
  | _ => exact hv

theorem session_stage {ls : List Bytes} {v v' : View} {as as' : List (Option Bytes)} (h : Session ls v as v' as')
    (hw : ∀ b ∈ ls, fields b ≠ [ascii "write"] ∧ ∀ l l2 ls, fields b ≠ ascii "store" :: l :: l2 :: ls)
    (hv : v.stage = .clean ∨ v.stage = .changed) : v'.stage = .clean ∨ v'.stage = .changed := by
  induction h with
  | nil => exact hv
  | blank _ ih => exact ih hw hv
  | error _ ih => exact ih hw hv
  | command h1 h2 h3 _ ih =>
    have hl := hw _ List.mem_cons_self
    exact ih (fun b hb => hw b (List.mem_cons_of_mem _ hb)) (command_stage h3 hl.1 hl.2 hv)

/-- If no command is `write`, or `store` with more than one label, then a session that stored a
secret or changed metadata leaves a file that opens with the session's passphrase and holds
everything; any other session leaves the file alone. -/
theorem C69_no_write_partial {e : Env} {w : World} {writes : Nat → WriteOutcome} {path p : Bytes} {mode : Int} {as : List (Option Bytes)} {s0 : SecretStore}
    {st : St} {evs : List Event} {s : Sys} (hd : path ≠ dash) (hm : mode = 0 ∨ mode = 1)
    (ha : w.term.answers = some p :: as) (ho : Opens C J w.fs path p mode s0) (hg : Good s0)
    (hu : ∀ b, some b ∈ as → ValidUtf8 b) (hc : ∀ n, w.term.clock n ≠ 0) (hw : ∀ n, writes n = .done) (hr : 56 ≤ w.rng.length)
    (hst : start C J w writes path mode = .ok (some st)) (hrun : Run C J e (Sys.init st) evs s) (hx : s.main = .exited)
    (hno : ∀ b ∈ commands evs, fields b ≠ [ascii "write"] ∧ ∀ l l2 ls, fields b ≠ ascii "store" :: l :: l2 :: ls) :
    ∃ v rest, Session (commands evs) ⟨entries s0, p, .clean⟩ as v rest ∧ (.timeout ∈ evs ∨ AtEnd rest) ∧
      ((v.stage = .clean ∧ s.st.w.fs = w.fs) ∨
        (v.stage = .changed ∧ ∃ s', Opens C J s.st.w.fs path v.pass mode s' ∧ entries s' = v.entry)) := by
  obtain ⟨v, rest, h1, h0, -, h2⟩ := C69_partial C J hd hm ha ho hg hu hc hw hr hst hrun hx
  refine ⟨v, rest, h1, h0, ?_⟩
  rcases session_stage h1 hno (Or.inl rfl) with h | h <;> rw [h] at h2
  · exact .inl ⟨h, h2⟩
  · exact .inr ⟨h, h2⟩

/-! What a few commands do -/

theorem process_store {e : Env} {st : St} {line l pw : Bytes} {as : List (Option Bytes)} {m : Map (Option SecretRecord)}
    (hf : fields line = [ascii "store", l]) (hm : st.sess.store.store = some m) (hn : m l = none)
    (ha : st.w.term.answers = some pw :: as) (hp : pw ≠ []) :
    processCommands C J e line st = (.ok, { st with
      sess := { st.sess with
        store := { st.sess.store with
          timestamp := st.w.term.clock 0
          store := some (m.set l (some { label := [], timestamp := st.w.term.clock 0, secret := pw, metadata := none })) }
        dirty := true }
      w := { st.w with term := ⟨as, fun n => st.w.term.clock (n + 1)⟩ } }) := by
  have he : st.entry l = none := by simp [St.entry, hm, hn]
  have hlen : ¬ pw.length = 0 := by simpa using hp
  unfold processCommands
  rw [hf]
  dsimp only
  rw [if_neg (by decide), if_neg (by decide), if_neg (by decide), if_neg (by decide), if_neg (by decide), if_neg (by decide),
    if_neg (by decide), if_neg (by decide), if_pos rfl]
  unfold storeSecret
  rw [if_neg (by simp), storeLoop]
  unfold storeSingleSecret
  rw [he]
  unfold putSecret
  rw [read_cons ha]
  dsimp only
  rw [if_neg hlen]
  simp only [touch, Term.now, assign, rest_sess, hm, storeLoop]
  rfl

theorem process_write {e : Env} {st : St} {line : Bytes} (hf : fields line = [ascii "write"]) :
    processCommands C J e line st = cmdWriteStore C J [] st := by
  unfold processCommands
  rw [hf]
  dsimp only
  rw [if_neg (by decide), if_neg (by decide), if_neg (by decide), if_neg (by decide), if_neg (by decide), if_neg (by decide),
    if_neg (by decide), if_neg (by decide), if_neg (by decide), if_neg (by decide), if_pos rfl]

theorem process_passwd {e : Env} {st : St} {line p : Bytes} {as : List (Option Bytes)} (hf : fields line = [ascii "passwd"])
    (ha : st.w.term.answers = some p :: some p :: as) :
    processCommands C J e line st = (.ok, { st.rest as with sess := { st.sess with store := st.sess.store.changePassword p } }) := by
  unfold processCommands
  rw [hf]
  dsimp only
  rw [if_neg (by decide), if_neg (by decide), if_neg (by decide), if_neg (by decide), if_pos rfl]
  unfold passwd
  rw [read_cons ha]
  dsimp only
  rw [read_cons (st := st.rest (some p :: as)) rfl]
  simp

theorem turn_line {e : Env} {st : St} {line : Bytes} {as : List (Option Bytes)} (ha : st.w.term.answers = some line :: as) (hl : line ≠ [])
    (hq : line ≠ ascii "quit") : turn C J e st = Turn.after (processCommands C J e line (st.rest as)) ∧ typedLine st = [line] := by
  unfold turn typedLine
  rw [ha]
  dsimp only
  rw [if_neg hl, if_neg hq, if_neg hl]
  exact ⟨rfl, rfl⟩

theorem turn_quit {e : Env} {st : St} {as : List (Option Bytes)} (ha : st.w.term.answers = some (ascii "quit") :: as) :
    turn C J e st = .stop (st.rest as) := by
  unfold turn
  rw [ha]
  dsimp only
  rw [if_neg (by decide), if_pos rfl]

/-! After a write -/

/-- Entries with all their bytes set to zero. -/
def wipe (e : Entries) : Entries := fun k => (e k).map (fun q => (List.replicate q.1.length 0, fun j => (q.2 j).map (fun b => List.replicate b.length 0)))

theorem entries_zero (s : SecretStore) : entries s.zero = wipe (entries s) := by
  funext k
  unfold Spec.Secretscli.entries wipe
  dsimp only
  rw [lookup_zero]
  cases lookup s k with
  | none => rfl
  | some r =>
    simp only [Option.map_some, SecretRecord.zero, zero_eq, Option.some.injEq, Prod.mk.injEq, true_and]
    cases r.metadata with
    | none => rfl
    | some m => funext j; cases h : m j <;> simp [zero_eq, h]

theorem finite_zero {s : SecretStore} (h : s.toFields.Finite) : s.zero.toFields.Finite := by
  intro m hm
  simp only [SecretStore.zero] at hm
  cases hs : s.store with
  | none => rw [hs] at hm; cases hm
  | some m0 =>
    rw [hs] at hm
    cases hm
    obtain ⟨⟨keys, h1⟩, h2⟩ := h m0 hs
    refine ⟨⟨keys, fun k hk => h1 k (fun h0 => hk (by simp [h0]))⟩, ?_⟩
    intro k r md hk hmd
    cases h0 : m0 k with
    | none => simp [h0] at hk
    | some o =>
      cases o with
      | none => simp [h0] at hk
      | some r0 =>
        simp only [h0, Option.map_some, Option.some.injEq] at hk
        subst hk
        simp only [SecretRecord.zero] at hmd
        cases hr0 : r0.metadata with
        | none => rw [hr0] at hmd; cases hmd
        | some md0 =>
          rw [hr0] at hmd
          cases hmd
          obtain ⟨ks, h3⟩ := h2 k r0 md0 h0 hr0
          exact ⟨ks, fun j hj => h3 j (fun h0 => hj (by simp [h0]))⟩

theorem utf8_zero {s : SecretStore} (h : s.toFields.Utf8) : s.zero.toFields.Utf8 := by
  intro m hm k v hk
  simp only [SecretStore.zero] at hm
  cases hs : s.store with
  | none => rw [hs] at hm; cases hm
  | some m0 =>
    rw [hs] at hm
    cases hm
    cases h0 : m0 k with
    | none => simp [h0] at hk
    | some o =>
      simp only [h0, Option.map_some, Option.some.injEq] at hk
      obtain ⟨h1, h2⟩ := h m0 hs k o h0
      refine ⟨h1, fun r hr => ?_⟩
      subst hk
      cases o with
      | none => cases hr
      | some r0 =>
        cases hr
        obtain ⟨h3, h4⟩ := h2 r0 rfl
        refine ⟨h3, fun md j x hmd hj => ?_⟩
        simp only [SecretRecord.zero] at hmd
        cases hr0 : r0.metadata with
        | none => rw [hr0] at hmd; cases hmd
        | some md0 =>
          rw [hr0] at hmd
          cases hmd
          cases hj0 : md0 j with
          | none => simp [hj0] at hj
          | some y => exact h4 md0 j y hr0 hj0

/-- After `write` in a changed session, the session goes on with a store in which every secret,
every value of the metadata and the passphrase are zeros. If anything is changed after that, this
is what the file holds in the end. -/
theorem C69_wiped_violated {e : Env} {st : St} {path p line : Bytes} {mode : Int} {as : List (Option Bytes)} (hd : path ≠ dash) (hm : mode = 0 ∨ mode = 1)
    (hpath : st.sess.path = path) (hmode : st.sess.mode = mode) (hdirty : st.sess.dirty = true)
    (hg : Good st.sess.store) (hfin : st.sess.store.toFields.Finite) (hutf : Clean st.sess.store.toFields) (hp : st.sess.store.passphrase = some p)
    (ha : st.w.term.answers = some line :: as) (hl : fields line = [ascii "write"])
    (hu : ∀ b, some b ∈ as → ValidUtf8 b) (hc : ∀ n, st.w.term.clock n ≠ 0) (hw : ∀ n, st.writes n = .done) (hr : 112 ≤ st.w.rng.length) :
    ∃ st1, turn C J e st = .next st1 ∧ ∀ evs s, Run C J e (Sys.init st1) evs s → s.main = .exited →
      ∃ v rest, Session (commands evs) ⟨wipe (entries st.sess.store), List.replicate p.length 0, .clean⟩ as v rest ∧ (.timeout ∈ evs ∨ AtEnd rest) ∧
        match v.stage with
        | .clean => ∃ s', Opens C J s.st.w.fs path p mode s' ∧ entries s' = entries st.sess.store
        | .changed => ∃ s', Opens C J s.st.w.fs path v.pass mode s' ∧ entries s' = v.entry
        | _ => True := by
  obtain ⟨out, w1, w2⟩ := write_ok C J (st := st.rest as) (p := p) (by rw [rest_sess, hpath]; exact hd) (by rw [rest_sess, hmode]; exact hm) (sound_of_good hg) hp hdirty (hw 0)
    (by show 56 ≤ st.w.rng.length; omega)
  have hne : line ≠ [] := by rintro rfl; revert hl; decide
  have hq : line ≠ ascii "quit" := by rintro rfl; revert hl; decide
  obtain ⟨t1, -⟩ := turn_line C J (e := e) ha hne hq
  rw [process_write C J hl] at t1
  unfold cmdWriteStore at t1
  rw [if_neg (by simp), w1] at t1
  refine ⟨_, t1, ?_⟩
  intro evs s hrun hx
  have hA : Agrees C J path mode (st.w.fs.set path out) ⟨wipe (entries st.sess.store), List.replicate p.length 0, .clean⟩
      { sess := { st.sess with store := st.sess.store.zero, dirty := false }, w := { (st.rest as).w with rng := st.w.rng.drop 56, write := .done, fs := st.w.fs.set st.sess.path out }, writes := fun n => st.writes (n + 1) } := by
    refine ⟨hpath, hmode, fun n => hw _, hc, hu, fun q hq => by rw [hpath], sound_zero (sound_of_good hg), fun k => ?_, rfl, by rw [hpath], entries_zero _, ?_,
      finite_zero hfin, utf8_zero hutf, ?_⟩
    · rw [lookup_zero]
      simp [wipe, Spec.Secretscli.entries]
    · simp [SecretStore.zero, hp, zero_eq]
    · simp only [List.length_drop]; omega
  obtain ⟨v, rest, x, h3, hend, h4, h5⟩ := run_agrees C J hd hm e hA hrun hx
  refine ⟨v, rest, h3, hend, ?_⟩
  obtain ⟨-, h7⟩ := agrees_shutdown C J hd hm h4
  rw [h5]
  cases hs : v.stage with
  | clean =>
    rw [hs] at h7
    simp only at h7 ⊢
    rw [h7]
    refine ⟨{ toFields := st.sess.store.toFields, passphrase := some p }, ⟨out, by simp, ?_⟩, rfl⟩
    rw [← hmode]
    exact saved_exact C J hfin hutf w2
  | changed => rw [hs] at h7; exact h7
  | written e p => trivial
  | changedAgain => trivial

/-! ### Examples -/

/-- The state in which a session with the example file begins, with all writes going well. -/
def exSt (b : Bytes) (mode : Int) (as : List (Option Bytes)) (writes : Nat → WriteOutcome := fun _ => .done) : St :=
  { sess := { store := exStore [1, 2, 3] 7, path := [102], mode := mode, dirty := false }, w := exWorld b as, writes := writes }

theorem exStart {b : Bytes} {mode : Int} (hb : unmarshalSecretStore C J b [112, 119] mode = .ok (some (exStore [1, 2, 3] 7)))
    (as : List (Option Bytes)) (writes : Nat → WriteOutcome) :
    start C J (exWorld b (some [112, 119] :: as)) writes [102] mode = .ok (some (exSt b mode as writes)) := by
  rw [start_ok C J (p := [112, 119]) (as := as) rfl ⟨b, by simp [exWorld], hb⟩]
  rfl

theorem exGood : Good (exStore [1, 2, 3] 7) := ⟨exStore_valid _ _, exStore_noNil _ _⟩

/-- The record that `store` makes of a new label. -/
abbrev made (n : Nat) (pw : Bytes) : SecretRecord := { label := [], timestamp := 1000 + BitVec.ofNat 64 n, secret := pw, metadata := none }

/-- The store "a", with "b" added. -/
abbrev exStore2 : SecretStore :=
  { exStore [1, 2, 3] 7 with
    timestamp := 1000
    store := some ((Map.empty.set [97] (some (exRecord [97] [1, 2, 3] 7))).set [98] (some (made 0 [120]))) }

/-- "store b" is typed at the beginning of the example session. -/
theorem exStored (e : Env) (b : Bytes) (mode : Int) (as : List (Option Bytes)) (writes : Nat → WriteOutcome) :
    Turns C J e (exSt b mode (some (ascii "store b") :: some [120] :: as) writes) [ascii "store b"]
      { sess := { store := exStore2, path := [102], mode := mode, dirty := true },
        w := { exWorld b as with term := ⟨as, fun n => 1000 + BitVec.ofNat 64 (n + 1)⟩ }, writes := writes } := by
  obtain ⟨t1, t2⟩ := turn_line C J (e := e) (st := exSt b mode (some (ascii "store b") :: some [120] :: as) writes)
    (line := ascii "store b") (as := some [120] :: as) rfl (by decide) (by decide)
  rw [process_store C J (l := [98]) (pw := [120]) (as := as) (m := Map.empty.set [97] (some (exRecord [97] [1, 2, 3] 7))) (by decide) rfl (by decide) rfl (by decide)] at t1
  have := Turns.snoc (.nil _) t1
  rw [t2] at this
  exact this

theorem exStore2_good : Good exStore2 :=
  ⟨(valid_iff _).mpr ⟨rfl, by decide, ⟨_, rfl⟩, ⟨_, rfl⟩⟩, (sound_set (sound_of_good exGood) (t := 1000) rfl [98] (made 0 [120]) (by decide)).noNil⟩

theorem exStore2_finite : exStore2.toFields.Finite :=
  finite_set (exStore_finite [1, 2, 3] 7) rfl [98] (made 0 [120]) (fun _ h => nomatch h) 1000

theorem exStore2_clean : exStore2.toFields.Utf8 :=
  utf8_set (exStore_clean [1, 2, 3] 7) rfl (r := made 0 [120]) (by decide) (by decide) (fun _ _ _ h => nomatch h) 1000

/-- A session that ends with quit, and what it saves. -/
theorem quit_saves {e : Env} {st b : St} {ls : List Bytes} {z : Bytes} {as : List (Option Bytes)} (ht : Turns C J e st ls b)
    (ha : b.w.term.answers = some (ascii "quit") :: as) (hd : b.sess.path ≠ dash) (hm : b.sess.mode = 0 ∨ b.sess.mode = 1)
    (hdirty : b.sess.dirty = true) (hs : Sound b.sess.store) (hz : b.sess.store.passphrase = some z) (hfin : b.sess.store.toFields.Finite)
    (hutf : b.sess.store.toFields.Utf8) (hw : b.writes 0 = .done) (hr : 56 ≤ b.w.rng.length) :
    ∃ evs s out, Run C J e (Sys.init st) evs s ∧ .timeout ∉ evs ∧ s.main = .exited ∧ s.st.w.fs = b.w.fs.set b.sess.path out ∧
      IsFile C out z b.sess.mode (J.enc b.sess.store.toFields) ∧
      Opens C J s.st.w.fs b.sess.path z b.sess.mode { toFields := b.sess.store.toFields, passphrase := some z } := by
  obtain ⟨evs, s, h1, h2, h3, h4⟩ := ends_run C J ht (turn_quit C J ha)
  obtain ⟨out, h5, h6⟩ := write_ok C J (st := b.rest as) hd hm hs hz hdirty hw hr
  have hfs : s.st.w.fs = b.w.fs.set b.sess.path out := by
    rw [h4]
    unfold shutdown
    rw [h5]
    rfl
  refine ⟨evs, s, out, h1, h2, h3, hfs, h6, out, by rw [hfs]; simp, saved_exact C J hfin hutf h6⟩

/-- `store` with a new label. -/
theorem turns_store {e : Env} {st b : St} {ls : List Bytes} {line l pw : Bytes} {as : List (Option Bytes)} {m : Map (Option SecretRecord)}
    (ht : Turns C J e st ls b) (ha : b.w.term.answers = some line :: some pw :: as) (hf : fields line = [ascii "store", l])
    (hm : b.sess.store.store = some m) (hn : m l = none) (hp : pw ≠ []) :
    ∃ b', Turns C J e st (ls ++ [line]) b' ∧
      b'.sess = { b.sess with
        store := { b.sess.store with
          timestamp := b.w.term.clock 0
          store := some (m.set l (some { label := [], timestamp := b.w.term.clock 0, secret := pw, metadata := none })) }
        dirty := true } ∧
      b'.w = { b.w with term := ⟨as, fun n => b.w.term.clock (n + 1)⟩ } ∧ b'.writes = b.writes := by
  have hne : line ≠ [] := by
    rintro rfl
    have : fields [] = [] := by decide
    rw [this] at hf
    cases hf
  have hq : line ≠ ascii "quit" := by
    rintro rfl
    have : fields (ascii "quit") = [ascii "quit"] := by decide
    rw [this] at hf
    cases hf
  obtain ⟨t1, t2⟩ := turn_line C J (e := e) ha hne hq
  rw [process_store C J (st := b.rest (some pw :: as)) (l := l) (pw := pw) (as := as) (m := m) hf hm hn rfl hp] at t1
  have := Turns.snoc ht t1
  rw [t2] at this
  exact ⟨_, this, rfl, rfl, rfl⟩

/-- `write` in a changed session. -/
theorem turns_write {e : Env} {st b : St} {ls : List Bytes} {line p : Bytes} {as : List (Option Bytes)}
    (ht : Turns C J e st ls b) (ha : b.w.term.answers = some line :: as) (hf : fields line = [ascii "write"])
    (hd : b.sess.path ≠ dash) (hm : b.sess.mode = 0 ∨ b.sess.mode = 1) (hs : Sound b.sess.store) (hp : b.sess.store.passphrase = some p)
    (hdirty : b.sess.dirty = true) (hw : b.writes 0 = .done) (hr : 56 ≤ b.w.rng.length) :
    ∃ b' out, Turns C J e st (ls ++ [line]) b' ∧ b'.sess = { b.sess with store := b.sess.store.zero, dirty := false } ∧
      b'.w = { b.w with rng := b.w.rng.drop 56, write := .done, term := ⟨as, b.w.term.clock⟩, fs := b.w.fs.set b.sess.path out } ∧
      b'.writes = (fun n => b.writes (n + 1)) ∧ IsFile C out p b.sess.mode (J.enc b.sess.store.toFields) := by
  have hne : line ≠ [] := by rintro rfl; exact absurd hf (by decide)
  have hq : line ≠ ascii "quit" := by rintro rfl; exact absurd hf (by decide)
  obtain ⟨t1, t2⟩ := turn_line C J (e := e) ha hne hq
  obtain ⟨out, w1, w2⟩ := write_ok C J (st := b.rest as) hd hm hs hp hdirty hw hr
  rw [process_write C J hf] at t1
  unfold cmdWriteStore at t1
  rw [if_neg (by simp), w1] at t1
  have := Turns.snoc ht t1
  rw [t2] at this
  exact ⟨_, out, this, rfl, rfl, rfl, w2⟩

/-- `write` when the file cannot be opened. -/
theorem turns_write_fails {e : Env} {st b : St} {ls : List Bytes} {line p : Bytes} {as : List (Option Bytes)}
    (ht : Turns C J e st ls b) (ha : b.w.term.answers = some line :: as) (hf : fields line = [ascii "write"])
    (hd : b.sess.path ≠ dash) (hm : b.sess.mode = 0 ∨ b.sess.mode = 1) (hs : Sound b.sess.store) (hp : b.sess.store.passphrase = some p)
    (hdirty : b.sess.dirty = true) (hw : b.writes 0 = .openFails) (hr : 56 ≤ b.w.rng.length) :
    ∃ b', Turns C J e st (ls ++ [line]) b' ∧ b'.sess = { b.sess with store := b.sess.store.zero } ∧
      b'.w = { b.w with rng := b.w.rng.drop 56, write := .openFails, term := ⟨as, b.w.term.clock⟩ } ∧
      b'.writes = (fun n => b.writes (n + 1)) := by
  have hne : line ≠ [] := by rintro rfl; exact absurd hf (by decide)
  have hq : line ≠ ascii "quit" := by rintro rfl; exact absurd hf (by decide)
  obtain ⟨t1, t2⟩ := turn_line C J (e := e) ha hne hq
  obtain ⟨out, hout⟩ := marshal_ok C J hs.valid hm hr
  have w1 : writeStore C J (b.rest as) = (false, { sess := { b.sess with store := b.sess.store.zero }, w := { (b.rest as).w with rng := b.w.rng.drop 56, write := .openFails }, writes := fun n => b.writes (n + 1) }) := by
    unfold writeStore
    have hout' : marshalSecretStore C J b.sess.store b.sess.mode (b.rest as).w.rng = .ok (some out, b.sess.store.zero, b.w.rng.drop 56) := hout
    have hw' : (b.rest as).writes 0 = .openFails := hw
    simp only [rest_sess, hdirty, Bool.not_true, Bool.false_eq_true, if_false, hout', World.writeFile, hd, Go.writeFile, hw']
    rfl
  rw [process_write C J hf] at t1
  unfold cmdWriteStore at t1
  rw [if_neg (by simp), w1] at t1
  have := Turns.snoc ht t1
  rw [t2] at this
  exact ⟨_, this, rfl, rfl, rfl⟩

/-- If a file made with one passphrase opens with another, both give the same box. -/
theorem same_box {out p q data : Bytes} {mode : Int} {t : SecretStore} (h : IsFile C out q mode data)
    (hu : unmarshalSecretStore C J out p mode = .ok (some t)) : ∃ salt nonce k k' m m', salt.length = 32 ∧ nonce.length = 24 ∧
      Model.Secret.deriveKeyStrength C p salt mode = some k ∧ Model.Secret.deriveKeyStrength C q salt mode = some k' ∧
      C.sealBox k nonce m = C.sealBox k' nonce m' := by
  obtain ⟨data', ⟨salt, nonce, k, l1, l2, hk, e⟩, -, -⟩ := (unmarshal_iff C J _ p mode t).mp hu
  obtain ⟨salt', nonce', k', l1', l2', hk', e'⟩ := h
  rw [e] at e'
  obtain ⟨rfl, e2⟩ := List.append_inj e' (by rw [l1, l1'])
  obtain ⟨rfl, e3⟩ := List.append_inj e2 (by rw [l2, l2'])
  exact ⟨salt, nonce, k, k', data', data, l1, l2, hk, hk', e3⟩

/-- "store b", "write", "store c" and "quit" are typed, nothing goes wrong, and the file can then be
opened with a passphrase of two zero bytes, the secrets "a" and "b" are zeros, and the passphrase of
the session opens the file only if it gives a box that the other one gives too. -/
theorem C69_violated (e : Env) (mode : Int) (hm : mode = 0 ∨ mode = 1) : ∃ b st evs s s',
    start C J (exWorld b [some (ascii "pw"), some (ascii "store b"), some [120], some (ascii "write"), some (ascii "store c"), some [121], some (ascii "quit")])
      (fun _ => .done) [102] mode = .ok (some st) ∧
    Opens C J st.w.fs [102] (ascii "pw") mode (exStore [1, 2, 3] 7) ∧
    Run C J e (Sys.init st) evs s ∧ .timeout ∉ evs ∧ s.main = .exited ∧
    Opens C J s.st.w.fs [102] [0, 0] mode s' ∧ secretOf s' [97] = some [0, 0, 0] ∧ secretOf s' [98] = some [0] ∧ secretOf s' [99] = some [121] ∧
    ∀ t, Opens C J s.st.w.fs [102] (ascii "pw") mode t → ∃ salt nonce k k' m m', salt.length = 32 ∧ nonce.length = 24 ∧
      Model.Secret.deriveKeyStrength C (ascii "pw") salt mode = some k ∧ Model.Secret.deriveKeyStrength C [0, 0] salt mode = some k' ∧
      C.sealBox k nonce m = C.sealBox k' nonce m' := by
  obtain ⟨b, hb⟩ := exFile C J mode hm
  have hpw : ascii "pw" = [112, 119] := by decide
  rw [hpw]
  have h1 := exStored C J e b mode [some (ascii "write"), some (ascii "store c"), some [121], some (ascii "quit")] (fun _ => .done)
  obtain ⟨b2, out, t2, s2, w2, ws2, -⟩ := turns_write C J h1 (line := ascii "write") (p := [112, 119]) rfl (by decide) (show ([102] : Bytes) ≠ dash by decide) hm
    (sound_of_good exStore2_good) rfl rfl rfl (by show 56 ≤ (List.replicate 200 _).length; rw [List.length_replicate]; decide)
  obtain ⟨b3, t3, s3, w3, ws3⟩ := turns_store C J t2 (line := ascii "store c") (l := [99]) (pw := [121]) (as := [some (ascii "quit")])
    (by rw [w2]) (by decide) (by rw [s2]; rfl) (by decide) (by decide)
  rw [w2] at s3 w3
  rw [s2] at s3
  have hz : Sound exStore2.zero := sound_zero (sound_of_good exStore2_good)
  obtain ⟨evs, s, out2, r1, r2, r3, r5, r6, r4⟩ := quit_saves C J t3 (z := [0, 0]) (as := []) (by rw [w3]) (by rw [s3]; exact (show ([102] : Bytes) ≠ dash by decide)) (by rw [s3]; exact hm)
    (by rw [s3]) (by rw [s3]; exact sound_set hz rfl [99] _ (show (1000 + BitVec.ofNat 64 1 : BitVec 64) ≠ 0 by decide)) (by rw [s3]; rfl)
    (by rw [s3]; exact finite_set (finite_zero exStore2_finite) rfl [99] _ (fun md (h : none = some md) => nomatch h) _)
    (by rw [s3]; exact utf8_set (utf8_zero exStore2_clean) rfl (by decide) (show ValidUtf8 [] by decide) (fun md _ _ (h : none = some md) => nomatch h) _)
    (by rw [ws3, ws2]) (by rw [w3]; show 56 ≤ ((List.replicate 200 _).drop 56).length; rw [List.length_drop, List.length_replicate]; decide)
  rw [s3] at r4 r5 r6
  refine ⟨b, _, evs, s, _, exStart C J hb _ _, ⟨b, by simp [exSt, exWorld], hb⟩, r1, r2, r3, r4, rfl, rfl, rfl, ?_⟩
  rintro t ⟨out', ho, hu⟩
  rw [r5] at ho
  simp only [Fs.set_same, Option.some.injEq] at ho
  subst ho
  exact same_box C J r6 hu

/-- With the toy primitives, passphrases that begin differently never give the same box. -/
theorem toy_apart {x y : UInt8} {p q salt nonce k k' m m' : Bytes} {mode : Int} (hm : mode = 0 ∨ mode = 1)
    (h1 : Model.Secret.deriveKeyStrength Toy.crypto (x :: p) salt mode = some k) (h2 : Model.Secret.deriveKeyStrength Toy.crypto (y :: q) salt mode = some k')
    (h : Toy.crypto.sealBox k nonce m = Toy.crypto.sealBox k' nonce m') : x = y := by
  have key : ∀ (x : UInt8) (p k : Bytes), Model.Secret.deriveKeyStrength Toy.crypto (x :: p) salt mode = some k → k.head? = some x := by
    intro x p k hk
    rcases hm with rfl | rfl <;> · cases hk; rfl
  have a1 := key x p k h1
  have a2 := key y q k' h2
  have e := congrArg List.head? h
  cases k with
  | nil => cases a1
  | cons c ks =>
    cases k' with
    | nil => cases a2
    | cons d ks' =>
      cases a1
      cases a2
      simpa [Toy.crypto, Toy.pad] using e

/-- For instance, with the toy primitives the user of that session is locked out. -/
example (e : Env) : ∃ b st evs s,
    start Toy.crypto J (exWorld b [some (ascii "pw"), some (ascii "store b"), some [120], some (ascii "write"), some (ascii "store c"), some [121], some (ascii "quit")])
      (fun _ => .done) [102] 0 = .ok (some st) ∧
    Run Toy.crypto J e (Sys.init st) evs s ∧ s.main = .exited ∧ ∀ t, ¬ Opens Toy.crypto J s.st.w.fs [102] (ascii "pw") 0 t := by
  obtain ⟨b, st, evs, s, s', h1, -, h2, -, h3, -, -, -, -, h4⟩ := C69_violated Toy.crypto J e 0 (Or.inl rfl)
  refine ⟨b, st, evs, s, h1, h2, h3, fun t ht => ?_⟩
  obtain ⟨salt, nonce, k, k', m, m', -, -, h5, h6, h7⟩ := h4 t ht
  have hpw : ascii "pw" = [112, 119] := by decide
  rw [hpw] at h5
  exact absurd (toy_apart (Or.inl rfl) h5 h6 h7) (by decide)

/-- A session in which "b" is stored, and what C69 says about it. -/
example (e : Env) : ∃ b st evs s s',
    start C J (exWorld b [some (ascii "pw"), some (ascii "store b"), some [120], some (ascii "quit")]) (fun _ => .done) [102] 0 = .ok (some st) ∧
    Run C J e (Sys.init st) evs s ∧ s.main = .exited ∧ Opens C J s.st.w.fs [102] (ascii "pw") 0 s' ∧
    entries s' [97] = some ([1, 2, 3], Map.empty.set [117] [1, 2]) ∧ entries s' [98] = some ([120], Map.empty) := by
  obtain ⟨b, hb⟩ := exFile C J 0 (Or.inl rfl)
  have h1 := exStored C J e b 0 [some (ascii "quit")] (fun _ => .done)
  obtain ⟨evs, s, out, r1, -, r3, -, -, r4⟩ := quit_saves C J h1 (z := [112, 119]) (as := []) rfl (show ([102] : Bytes) ≠ dash by decide) (Or.inl rfl) rfl
    (sound_of_good exStore2_good) rfl exStore2_finite exStore2_clean rfl (by show 56 ≤ (List.replicate 200 _).length; rw [List.length_replicate]; decide)
  have hpw : ascii "pw" = [112, 119] := by decide
  rw [hpw]
  exact ⟨b, _, evs, s, _, exStart C J hb _ _, r1, r3, r4, rfl, rfl⟩

/-! ### C70: passwd -/

theorem command_clean {line : Bytes} {v v' : View} {as as' : List (Option Bytes)} (h : Command line v as v' as')
    (hs : ∀ c, (fields line).head? = some c → c ≠ ascii "store" ∧ c ≠ ascii "wmeta") (hv : v.stage = .clean) : v'.stage = .clean := by
  cases h with
  | storeAll h => exact absurd rfl (hs _ (by rw [h]; rfl)).1
  | storeFirstFails h => exact absurd rfl (hs _ (by rw [h]; rfl)).1
  | storeLaterFails h => exact absurd rfl (hs _ (by rw [h]; rfl)).1
  | wmeta h => exact absurd rfl (hs _ (by rw [h]; rfl)).2
  | wmetaFails h => exact absurd rfl (hs _ (by rw [h]; rfl)).2
  | write h => unfold View.write; rw [hv]; exact hv
  | _ => exact hv

theorem session_clean {ls : List Bytes} {v v' : View} {as as' : List (Option Bytes)} (h : Session ls v as v' as')
    (hs : ∀ b ∈ ls, ∀ c, (fields b).head? = some c → c ≠ ascii "store" ∧ c ≠ ascii "wmeta") (hv : v.stage = .clean) : v'.stage = .clean := by
  induction h with
  | nil => exact hv
  | blank _ ih => exact ih hs hv
  | error _ ih => exact ih hs hv
  | command h1 h2 h3 _ ih => exact ih (fun b hb => hs b (List.mem_cons_of_mem _ hb)) (command_clean h3 (hs _ List.mem_cons_self) hv)

/-- A session without `store` and `wmeta` leaves the file alone, whatever passwords were set with
passwd, and even if `write` was used. -/
theorem C70_unsaved_violated {e : Env} {w : World} {writes : Nat → WriteOutcome} {path p : Bytes} {mode : Int} {as : List (Option Bytes)} {s0 : SecretStore}
    {st : St} {evs : List Event} {s : Sys} (hd : path ≠ dash) (hm : mode = 0 ∨ mode = 1)
    (ha : w.term.answers = some p :: as) (ho : Opens C J w.fs path p mode s0) (hg : Good s0)
    (hu : ∀ b, some b ∈ as → ValidUtf8 b) (hc : ∀ n, w.term.clock n ≠ 0) (hw : ∀ n, writes n = .done) (hr : 56 ≤ w.rng.length)
    (hst : start C J w writes path mode = .ok (some st)) (hrun : Run C J e (Sys.init st) evs s) (hx : s.main = .exited)
    (hno : ∀ b ∈ commands evs, ∀ c, (fields b).head? = some c → c ≠ ascii "store" ∧ c ≠ ascii "wmeta") : s.st.w.fs = w.fs := by
  obtain ⟨v, rest, h1, -, -, h2⟩ := C69_partial C J hd hm ha ho hg hu hc hw hr hst hrun hx
  rw [session_clean h1 hno rfl] at h2
  exact h2

/-- `passwd` with a password typed twice. -/
theorem turns_passwd {e : Env} {st b : St} {ls : List Bytes} {line p : Bytes} {as : List (Option Bytes)}
    (ht : Turns C J e st ls b) (ha : b.w.term.answers = some line :: some p :: some p :: as) (hf : fields line = [ascii "passwd"]) :
    ∃ b', Turns C J e st (ls ++ [line]) b' ∧ b'.sess = { b.sess with store := b.sess.store.changePassword p } ∧
      b'.w = { b.w with term := ⟨as, b.w.term.clock⟩ } ∧ b'.writes = b.writes := by
  have hne : line ≠ [] := by rintro rfl; exact absurd hf (by decide)
  have hq : line ≠ ascii "quit" := by rintro rfl; exact absurd hf (by decide)
  obtain ⟨t1, t2⟩ := turn_line C J (e := e) ha hne hq
  rw [process_passwd C J (st := b.rest (some p :: some p :: as)) hf rfl] at t1
  have := Turns.snoc ht t1
  rw [t2] at this
  exact ⟨_, this, rfl, rfl, rfl⟩

/-- A run for given turns and quit carries out the commands of the turns. -/
theorem quit_run {e : Env} {st b : St} {ls : List Bytes} {as : List (Option Bytes)} (ht : Turns C J e st ls b)
    (ha : b.w.term.answers = some (ascii "quit") :: as) :
    ∃ evs s, Run C J e (Sys.init st) evs s ∧ .timeout ∉ evs ∧ s.main = .exited ∧ s.st = shutdown C J (b.rest as) :=
  ends_run C J ht (turn_quit C J ha)

/-- "passwd" and "quit" are typed, the new password is confirmed, and nothing goes wrong: the file
stays as it was and opens with the old passphrase, and with the new one only if both give the same
box. -/
theorem C70_violated (e : Env) (mode : Int) (hm : mode = 0 ∨ mode = 1) : ∃ b st st1 evs s,
    start C J (exWorld b [some (ascii "pw"), some (ascii "passwd"), some (ascii "new"), some (ascii "new"), some (ascii "quit")])
      (fun _ => .done) [102] mode = .ok (some st) ∧
    turn C J e st = .next st1 ∧ st1.sess.store.passphrase = some (ascii "new") ∧
    Run C J e (Sys.init st) evs s ∧ .timeout ∉ evs ∧ s.main = .exited ∧ s.st.w.fs = st.w.fs ∧
    Opens C J s.st.w.fs [102] (ascii "pw") mode (exStore [1, 2, 3] 7) ∧
    ∀ t, Opens C J s.st.w.fs [102] (ascii "new") mode t → ∃ salt nonce k k' m m', salt.length = 32 ∧ nonce.length = 24 ∧
      Model.Secret.deriveKeyStrength C (ascii "new") salt mode = some k ∧ Model.Secret.deriveKeyStrength C (ascii "pw") salt mode = some k' ∧
      C.sealBox k nonce m = C.sealBox k' nonce m' := by
  obtain ⟨b, hb⟩ := exFile C J mode hm
  have hpw : ascii "pw" = [112, 119] := by decide
  rw [hpw]
  have h0 : Turns C J e (exSt b mode [some (ascii "passwd"), some (ascii "new"), some (ascii "new"), some (ascii "quit")]) [] _ := .nil _
  obtain ⟨t1, t2⟩ := turn_line C J (e := e) (st := exSt b mode [some (ascii "passwd"), some (ascii "new"), some (ascii "new"), some (ascii "quit")])
    (line := ascii "passwd") rfl (by decide) (by decide)
  rw [process_passwd C J (p := ascii "new") (as := [some (ascii "quit")]) (by decide) rfl] at t1
  have h1 := Turns.snoc h0 t1
  obtain ⟨evs, s, r1, r2, r3, r4⟩ := quit_run C J h1 (as := []) rfl
  have hfs : s.st.w.fs = (exWorld b []).fs := by
    rw [r4]
    unfold shutdown
    rw [write_clean C J rfl]
    rfl
  have hget : (exWorld b []).fs [102] = some b := by simp [exWorld]
  refine ⟨b, _, _, evs, s, exStart C J hb _ _, t1, rfl, r1, r2, r3, hfs, ⟨b, by rw [hfs]; exact hget, hb⟩, ?_⟩
  rintro t ⟨out', ho, hu⟩
  rw [hfs, hget] at ho
  cases ho
  obtain ⟨data, h, -⟩ := (unmarshal_iff C J b [112, 119] mode _).mp hb
  exact same_box C J h hu

/-- With the toy primitives the new password does not open the file. -/
example (e : Env) : ∃ b st evs s,
    start Toy.crypto J (exWorld b [some (ascii "pw"), some (ascii "passwd"), some (ascii "new"), some (ascii "new"), some (ascii "quit")])
      (fun _ => .done) [102] 0 = .ok (some st) ∧
    Run Toy.crypto J e (Sys.init st) evs s ∧ s.main = .exited ∧ ∀ t, ¬ Opens Toy.crypto J s.st.w.fs [102] (ascii "new") 0 t := by
  obtain ⟨b, st, st1, evs, s, h1, -, -, h2, -, h3, -, -, h4⟩ := C70_violated Toy.crypto J e 0 (Or.inl rfl)
  refine ⟨b, st, evs, s, h1, h2, h3, fun t ht => ?_⟩
  obtain ⟨salt, nonce, k, k', m, m', -, -, h5, h6, h7⟩ := h4 t ht
  have hpw : ascii "pw" = [112, 119] := by decide
  have hnew : ascii "new" = [110, 101, 119] := by decide
  rw [hpw] at h6
  rw [hnew] at h5
  exact absurd (toy_apart (Or.inl rfl) h5 h6 h7) (by decide)

/-- If something else was changed in the session too, and not written before its end, the file
opens with the password that was set last: `View.pass` in the rules for sessions. Missing from the
property: sessions with no other change, which C70_unsaved_violated is about, and sessions that
wrote the store. -/
theorem C70_partial {e : Env} {w : World} {writes : Nat → WriteOutcome} {path p : Bytes} {mode : Int} {as : List (Option Bytes)} {s0 : SecretStore}
    {st : St} {evs : List Event} {s : Sys} (hd : path ≠ dash) (hm : mode = 0 ∨ mode = 1)
    (ha : w.term.answers = some p :: as) (ho : Opens C J w.fs path p mode s0) (hg : Good s0)
    (hu : ∀ b, some b ∈ as → ValidUtf8 b) (hc : ∀ n, w.term.clock n ≠ 0) (hw : ∀ n, writes n = .done) (hr : 56 ≤ w.rng.length)
    (hst : start C J w writes path mode = .ok (some st)) (hrun : Run C J e (Sys.init st) evs s) (hx : s.main = .exited)
    (hno : ∀ b ∈ commands evs, fields b ≠ [ascii "write"] ∧ ∀ l l2 ls, fields b ≠ ascii "store" :: l :: l2 :: ls) :
    ∃ v rest, Session (commands evs) ⟨entries s0, p, .clean⟩ as v rest ∧ (.timeout ∈ evs ∨ AtEnd rest) ∧
      (v.stage ≠ .clean → ∃ s', Opens C J s.st.w.fs path v.pass mode s') := by
  obtain ⟨v, rest, h1, h2, h3⟩ := C69_no_write_partial C J hd hm ha ho hg hu hc hw hr hst hrun hx hno
  refine ⟨v, rest, h1, h2, fun hne => ?_⟩
  rcases h3 with ⟨h3, -⟩ | ⟨-, s', h3, -⟩
  · exact absurd h3 hne
  · exact ⟨s', h3⟩

/-- "passwd", "store b" and "quit". -/
example (e : Env) : ∃ b st evs s s',
    start C J (exWorld b [some (ascii "pw"), some (ascii "passwd"), some (ascii "new"), some (ascii "new"), some (ascii "store b"), some [120], some (ascii "quit")])
      (fun _ => .done) [102] 0 = .ok (some st) ∧
    Run C J e (Sys.init st) evs s ∧ s.main = .exited ∧ Opens C J s.st.w.fs [102] (ascii "new") 0 s' ∧ secretOf s' [98] = some [120] := by
  obtain ⟨b, hb⟩ := exFile C J 0 (Or.inl rfl)
  have hpw : ascii "pw" = [112, 119] := by decide
  rw [hpw]
  obtain ⟨b1, t1, s1, w1, ws1⟩ := turns_passwd C J (Turns.nil (e := e) (exSt b 0 [some (ascii "passwd"), some (ascii "new"), some (ascii "new"), some (ascii "store b"), some [120], some (ascii "quit")]))
    (line := ascii "passwd") (p := ascii "new") rfl (by decide)
  obtain ⟨b2, t2, s2, w2, ws2⟩ := turns_store C J t1 (line := ascii "store b") (l := [98]) (pw := [120]) (as := [some (ascii "quit")])
    (by rw [w1]) (by decide) (by rw [s1]; rfl) (by decide) (by decide)
  rw [w1] at s2 w2
  rw [s1] at s2
  obtain ⟨evs, s, out, r1, -, r3, -, -, r4⟩ := quit_saves C J t2 (z := ascii "new") (as := []) (by rw [w2]) (by rw [s2]; exact (show ([102] : Bytes) ≠ dash by decide))
    (by rw [s2]; exact Or.inl rfl) (by rw [s2])
    (by rw [s2]; exact sound_set (s := (exStore [1, 2, 3] 7).changePassword (ascii "new")) ⟨rfl, by show (5 : BitVec 64) ≠ 0; decide, ⟨_, rfl⟩, ⟨_, rfl⟩, exStore_noNil _ _⟩ rfl [98] _ (show (1000 + BitVec.ofNat 64 0 : BitVec 64) ≠ 0 by decide))
    (by rw [s2]; rfl)
    (by rw [s2]; exact finite_set (exStore_finite [1, 2, 3] 7) rfl [98] _ (fun md (h : none = some md) => nomatch h) _)
    (by rw [s2]; exact utf8_set (exStore_clean [1, 2, 3] 7) rfl (by decide) (show ValidUtf8 [] by decide) (fun md _ _ (h : none = some md) => nomatch h) _)
    (by rw [ws2, ws1]; rfl) (by rw [w2]; show 56 ≤ (List.replicate 200 _).length; rw [List.length_replicate]; decide)
  rw [s2] at r4
  exact ⟨b, _, evs, s, _, exStart C J hb _ _, r1, r3, r4, rfl⟩

end Verif.Props.Secretscli
