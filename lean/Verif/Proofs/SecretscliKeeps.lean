import Verif.Proofs.SecretscliView
/-! What no command of secretscli changes, whatever goes wrong. -/

namespace Verif.Proofs.Secretscli
open Verif Verif.Go Verif.Model.Util Verif.Model.SecretStore Verif.Model.Secretscli
open Verif.Model.Secrets (World assign metaLoop dash)
open Verif.Spec.SecretStore Verif.Spec.Secrets Verif.Spec.Secretscli
open Verif.Proofs.SecretStore
open Verif.Proofs.Secrets hiding fmode

variable (C : Crypto) (J : Json)

/-- Every entry of `s` is one of `s'`, with the same label. -/
def Labels (s s' : SecretStore) : Prop := ∀ k r, lookup s k = some r → ∃ r', lookup s' k = some r' ∧ r'.label = r.label

theorem Labels.refl (s : SecretStore) : Labels s s := fun _ r h => ⟨r, h, rfl⟩

theorem Labels.trans {s s1 s2 : SecretStore} (h1 : Labels s s1) (h2 : Labels s1 s2) : Labels s s2 := by
  intro k r h
  obtain ⟨r1, h3, h4⟩ := h1 k r h
  obtain ⟨r2, h5, h6⟩ := h2 k r1 h3
  exact ⟨r2, h5, h6.trans h4⟩

/-- The session is about the same file, no other file was changed, and no entry lost its label. -/
structure Keeps (st st' : St) : Prop where
  path : st'.sess.path = st.sess.path
  mode : st'.sess.mode = st.sess.mode
  files : ∀ q, q ≠ st.sess.path ∨ st.sess.path = dash → st'.w.fs q = st.w.fs q
  labels : Labels st.sess.store st'.sess.store

theorem Keeps.refl (st : St) : Keeps st st := ⟨rfl, rfl, fun _ _ => rfl, .refl _⟩

theorem Keeps.trans {st st1 st2 : St} (h1 : Keeps st st1) (h2 : Keeps st1 st2) : Keeps st st2 := by
  refine ⟨h2.path.trans h1.path, h2.mode.trans h1.mode, fun q hq => ?_, h1.labels.trans h2.labels⟩
  exact (h2.files q (by rw [h1.path]; exact hq)).trans (h1.files q hq)

theorem keeps_rest (st : St) (as : List (Option Bytes)) : Keeps st (st.rest as) := ⟨rfl, rfl, fun _ _ => rfl, .refl _⟩
theorem keeps_print (st : St) (b : Bytes) : Keeps st (st.print b) := ⟨rfl, rfl, fun _ _ => rfl, .refl _⟩
theorem keeps_read (st : St) : Keeps st st.read.2 := ⟨rfl, rfl, fun _ _ => rfl, .refl _⟩

theorem labels_zero (s : SecretStore) : Labels s s.zero := fun k r h => ⟨r.zero, by rw [lookup_zero, h]; rfl, rfl⟩

theorem marshal_store {s s' : SecretStore} {mode : Int} {rng rng' : Rng} {o : Option Bytes} (h : marshalSecretStore C J s mode rng = .ok (o, s', rng')) :
    s' = s ∨ s' = s.zero := by
  cases o with
  | some out => exact .inr (marshal_some C J h).2.1
  | none =>
    cases hv : s.valid with
    | false => rw [marshal_invalid C J _ _ _ hv] at h; cases h; exact .inl rfl
    | true =>
      obtain ⟨-, -, -, p, hp⟩ := (valid_iff s).mp hv
      rw [marshal_eq C J _ p _ _ hv hp] at h
      repeat' split at h
      all_goals simp at h
      all_goals exact .inl h.1.symm

theorem keeps_write (st : St) : Keeps st (writeStore C J st).2 := by
  unfold writeStore
  split
  · exact .refl _
  · split
    · exact .refl _
    · rename_i s rng hout
      refine ⟨rfl, rfl, fun _ _ => rfl, ?_⟩
      rcases marshal_store C J hout with h | h <;> rw [h]
      · exact .refl _
      · exact labels_zero _
    · rename_i out s rng hout
      obtain ⟨-, rfl, -⟩ := marshal_some C J hout
      refine ⟨rfl, rfl, ?_, labels_zero _⟩
      intro q hq
      simp only [World.writeFile]
      by_cases hd : st.sess.path = dash
      · rw [if_pos hd]
      · rw [if_neg hd]
        have hq : q ≠ st.sess.path := hq.resolve_right hd
        unfold Go.writeFile
        cases st.writes 0 with
        | done => exact Fs.set_other _ _ hq
        | openFails => rfl
        | failsAfter n => exact Fs.set_other _ _ hq

theorem keeps_shutdown (st : St) : Keeps st (shutdown C J st) := by
  have h := keeps_write C J st
  exact ⟨h.path, h.mode, h.files, h.labels.trans (labels_zero _)⟩

theorem keeps_passwd (st : St) : Keeps st (passwd st).2 := by
  have h1 := keeps_read st
  unfold passwd
  cases hr : st.read with
  | mk a st1 =>
    rw [hr] at h1
    cases a with
    | none => exact h1
    | some p =>
      dsimp only
      have h2 := keeps_read st1
      cases hr2 : st1.read with
      | mk a st2 =>
        rw [hr2] at h2
        cases a with
        | none => exact h1.trans h2
        | some q =>
          dsimp only
          split
          · exact h1.trans h2
          · exact (h1.trans h2).trans ⟨rfl, rfl, fun _ _ => rfl, fun k r h => ⟨r, h, rfl⟩⟩

/-- The entry under `l`, if any, has the label of `r`. -/
theorem labels_assign {s s' : SecretStore} {l : Bytes} {r : SecretRecord} (h : assign s l r = .ok s')
    (hl : ∀ r0, lookup s l = some r0 → r.label = r0.label) : Labels s s' := by
  obtain ⟨m, hm, rfl⟩ := assign_eq.mp h
  intro k r0 h0
  rw [lookup_set hm]
  by_cases hk : k = l
  · subst hk; rw [if_pos rfl]; exact ⟨r, rfl, hl r0 h0⟩
  · rw [if_neg hk]; exact ⟨r0, h0, rfl⟩

theorem keeps_touch (st : St) (l : Bytes) (r : SecretRecord) (hl : ∀ r0, lookup st.sess.store l = some r0 → r.label = r0.label) : Keeps st (touch st l r).2 := by
  unfold touch
  simp only
  split
  · exact ⟨rfl, rfl, fun _ _ => rfl, fun k r h => ⟨r, h, rfl⟩⟩
  · rename_i s hs
    refine ⟨rfl, rfl, fun _ _ => rfl, ?_⟩
    exact Labels.trans (s1 := { st.sess.store with timestamp := st.w.term.now.1 }) (fun k r h => ⟨r, h, rfl⟩) (labels_assign hs hl)

theorem entry_of_lookup {st : St} {l : Bytes} {r : SecretRecord} (h : lookup st.sess.store l = some r) : st.entry l = some (some r) := by
  unfold lookup at h
  unfold St.entry
  cases hs : st.sess.store.store with
  | none => rw [hs] at h; cases h
  | some m =>
    rw [hs] at h
    simp only at h ⊢
    cases hm : m l with
    | none => rw [hm] at h; cases h
    | some o =>
      rw [hm] at h
      cases o with
      | none => cases h
      | some r' => cases h; exact hm

theorem keeps_put (l : Bytes) (r : Option SecretRecord) (st : St) (hl : ∀ r0, lookup st.sess.store l = some r0 → ∀ r1, r = some r1 → r1.label = r0.label) :
    Keeps st (putSecret l r st).2 := by
  have h1 := keeps_read st
  unfold putSecret
  cases hr : st.read with
  | mk a st1 =>
    rw [hr] at h1
    have hs : st1.sess = st.sess := by
      have : st.read.2.sess = st.sess := rfl
      rw [hr] at this
      exact this
    cases a with
    | none => exact h1
    | some p =>
      dsimp only
      split
      · exact h1
      · cases r with
        | none => exact h1
        | some r => exact h1.trans (keeps_touch st1 l _ (fun r0 h => hl r0 (by rw [hs] at h; exact h) r rfl))

theorem keeps_single (l : Bytes) (st : St) : Keeps st (storeSingleSecret l st).2 := by
  have h1 := keeps_read st
  unfold storeSingleSecret
  cases he : st.entry l with
  | none =>
    dsimp only
    refine keeps_put l _ st (fun r0 h => ?_)
    rw [entry_of_lookup h] at he
    cases he
  | some r =>
    dsimp only
    cases hr : st.read with
    | mk a st1 =>
      rw [hr] at h1
      have hs : st1.sess = st.sess := by
        have : st.read.2.sess = st.sess := rfl
        rw [hr] at this
        exact this
      cases a with
      | none => exact h1
      | some a =>
        dsimp only
        split
        · exact h1
        · refine h1.trans (keeps_put l r st1 (fun r0 h r1 h2 => ?_))
          rw [hs] at h
          rw [entry_of_lookup h] at he
          cases he
          cases h2
          rfl

theorem keeps_storeLoop (ls : List Bytes) : ∀ (i : Nat) (st : St), Keeps st (storeLoop C J i ls st).2 := by
  induction ls with
  | nil => intro i st; exact .refl _
  | cons l ls ih =>
    intro i st
    rw [storeLoop]
    have h1 := keeps_single l st
    cases hr : storeSingleSecret l st with
    | mk r st1 =>
      rw [hr] at h1
      cases r with
      | ok => exact h1.trans (ih _ _)
      | err =>
        dsimp only
        split
        · exact h1.trans (keeps_write C J _)
        · exact h1
      | panic => exact h1
      | exit => exact h1

theorem keeps_writeMeta (args : List Bytes) (st : St) : Keeps st (writeMeta args st).2 := by
  unfold writeMeta
  split
  · exact .refl _
  · rename_i l
    cases he : st.entry l with
    | none => exact .refl _
    | some o =>
      cases o with
      | none => exact .refl _
      | some r =>
        dsimp only
        have hlab : ∀ r0, lookup st.sess.store l = some r0 → r.label = r0.label := by
          intro r0 h
          rw [entry_of_lookup h] at he
          cases he
          rfl
        split
        · split
          · exact keeps_rest _ _
          · rename_i s hs
            exact ⟨rfl, rfl, fun _ _ => rfl, labels_assign hs hlab⟩
        · exact (keeps_rest st _).trans (keeps_touch _ l _ hlab)
  · exact .refl _

/-! ### Commands that only print -/

theorem prints_line (f : Bytes → Bytes) (b : Bool) (l : Bytes) (st : St) : ∃ o, (showLine f b l st).2 = st.print o := by
  unfold showLine
  split
  · exact ⟨_, rfl⟩
  · exact ⟨[], by simp [St.print]⟩
  · exact ⟨_, rfl⟩

theorem print_print (st : St) (a b : Bytes) : (st.print a).print b = st.print (a ++ b) := by
  simp [St.print, List.append_assoc]

theorem prints_loop (f : Bytes → Bytes) (ls : List Bytes) : ∀ st, ∃ o, (showLoop f ls st).2 = st.print o := by
  induction ls with
  | nil => intro st; exact ⟨[], by simp [St.print, showLoop]⟩
  | cons l ls ih =>
    intro st
    rw [showLoop]
    obtain ⟨o, ho⟩ := prints_line f true l st
    cases hr : showLine f true l st with
    | mk r st1 =>
      rw [hr] at ho
      dsimp only at ho
      subst ho
      cases r with
      | ok =>
        obtain ⟨o2, ho2⟩ := ih (st.print o)
        exact ⟨o ++ o2, by dsimp only; rw [ho2, print_print]⟩
      | err => exact ⟨o, rfl⟩
      | panic => exact ⟨o, rfl⟩
      | exit => exact ⟨o, rfl⟩

theorem prints_meta (e : Env) (ls : List Bytes) : ∀ st, ∃ o, (metaLines e ls st).2 = st.print o := by
  induction ls with
  | nil => intro st; exact ⟨[], by simp [St.print, metaLines]⟩
  | cons l ls ih =>
    intro st
    rw [metaLines]
    split
    · obtain ⟨o, h⟩ := ih (st.print (ascii "[!] " ++ l ++ ascii " not found." ++ [10]))
      exact ⟨_, by rw [h, print_print]⟩
    · exact ⟨_, rfl⟩
    · rename_i r _
      obtain ⟨o, h⟩ := ih (st.print (metaText e l r))
      exact ⟨_, by rw [h, print_print]⟩

theorem prints_show (f : Bytes → Bytes) (args : List Bytes) (st : St) : ∃ o, (showSecret f args st).2 = st.print o := by
  unfold showSecret
  split
  · exact ⟨[], by simp [St.print]⟩
  · exact prints_line _ _ _ _
  · exact prints_loop _ _ _

theorem print_nil (st : St) : st = st.print [] := by simp [St.print]

/-- Commands that are not `active` print something and change nothing. -/
theorem process_prints (e : Env) (line : Bytes) (st : St) (h : ∀ c, (fields line).head? = some c → c ∉ active) :
    ∃ o, (processCommands C J e line st).2 = st.print o := by
  unfold processCommands
  cases hf : fields line with
  | nil => exact ⟨[], print_nil st⟩
  | cons c args =>
    have hc := h c (by rw [hf]; rfl)
    have ne : ∀ x ∈ active, c ≠ x := fun x hx h => hc (by rw [h]; exact hx)
    dsimp only
    by_cases h1 : c = ascii "clear"
    · rw [if_pos h1]; exact ⟨_, rfl⟩
    rw [if_neg h1]
    by_cases h2 : c = ascii "help"
    · rw [if_pos h2]
      unfold help
      split
      · exact ⟨[], print_nil st⟩
      · exact ⟨_, rfl⟩
    rw [if_neg h2]
    by_cases h3 : c = ascii "list"
    · rw [if_pos h3]; exact ⟨_, print_print _ _ _⟩
    rw [if_neg h3, if_neg (ne _ (by simp [active])), if_neg (ne _ (by simp [active]))]
    by_cases h4 : c = ascii "rmeta"
    · rw [if_pos h4]
      unfold readMeta
      split
      · exact ⟨[], print_nil st⟩
      · exact prints_meta _ _ _
    rw [if_neg h4]
    by_cases h5 : c = ascii "show"
    · rw [if_pos h5]; exact prints_show _ _ _
    rw [if_neg h5]
    by_cases h6 : c = ascii "showhex"
    · rw [if_pos h6]; exact prints_show _ _ _
    rw [if_neg h6, if_neg (ne _ (by simp [active])), if_neg (ne _ (by simp [active])), if_neg (ne _ (by simp [active]))]
    exact ⟨[], print_nil st⟩

theorem keeps_process (e : Env) (line : Bytes) (st : St) : Keeps st (processCommands C J e line st).2 := by
  by_cases h : ∀ c, (fields line).head? = some c → c ∉ active
  · obtain ⟨o, ho⟩ := process_prints C J e line st h
    rw [ho]
    exact keeps_print st o
  · cases hf : fields line with
    | nil => rw [hf] at h; exact absurd (fun c (hc : none = some c) => nomatch hc) h
    | cons c args =>
      rw [hf] at h
      have hc : c ∈ active := Decidable.byContradiction fun h2 => h (fun d hd => by cases hd; exact h2)
      unfold processCommands
      rw [hf]
      dsimp only
      rcases List.mem_cons.mp hc with rfl | hc
      · rw [if_neg (by decide), if_neg (by decide), if_neg (by decide), if_neg (by decide), if_neg (by decide), if_neg (by decide),
          if_neg (by decide), if_neg (by decide), if_pos rfl]
        unfold storeSecret
        split
        · exact .refl _
        · exact keeps_storeLoop C J _ _ _
      rcases List.mem_cons.mp hc with rfl | hc
      · rw [if_neg (by decide), if_neg (by decide), if_neg (by decide), if_neg (by decide), if_neg (by decide), if_neg (by decide),
          if_neg (by decide), if_neg (by decide), if_neg (by decide), if_pos rfl]
        exact keeps_writeMeta _ _
      rcases List.mem_cons.mp hc with rfl | hc
      · rw [if_neg (by decide), if_neg (by decide), if_neg (by decide), if_neg (by decide), if_pos rfl]
        exact keeps_passwd _
      rcases List.mem_cons.mp hc with rfl | hc
      · rw [if_neg (by decide), if_neg (by decide), if_neg (by decide), if_neg (by decide), if_neg (by decide), if_neg (by decide),
          if_neg (by decide), if_neg (by decide), if_neg (by decide), if_neg (by decide), if_pos rfl]
        have hk := keeps_write C J st
        unfold cmdWriteStore
        split
        · exact .refl _
        · split
          · rename_i h; rw [h] at hk; exact hk
          · rename_i h; rw [h] at hk; exact hk
      rcases List.mem_cons.mp hc with rfl | hc
      · rw [if_neg (by decide), if_neg (by decide), if_neg (by decide), if_pos rfl]
        exact keeps_shutdown C J st
      · cases hc

theorem keeps_step {e : Env} {s s' : Sys} {ev : Event} (h : Step C J e s ev s') : Keeps s.st s'.st := by
  cases h with
  | readLine => exact keeps_rest _ _
  | readBlank => exact keeps_rest _ _
  | readError => exact keeps_rest _ _
  | command line r st h1 h2 =>
    have := keeps_process C J e line s.st
    rw [h2] at this
    exact this
  | shutdown => exact keeps_shutdown C J _
  | _ => exact .refl _

theorem keeps_run {e : Env} {s s' : Sys} {evs : List Event} (h : Run C J e s evs s') : Keeps s.st s'.st := by
  induction h with
  | nil => exact .refl _
  | cons h1 _ ih => exact (keeps_step C J h1).trans ih

end Verif.Proofs.Secretscli
