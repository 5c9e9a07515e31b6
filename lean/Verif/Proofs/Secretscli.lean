import Verif.Proofs.Otpc
import Verif.Props.SecretsMeta
import Verif.Spec.Secretscli
/-! Lemmas about the model of secretscli. -/

namespace Verif.Proofs.Strings
open Verif Verif.Go

theorem valid_fieldsF (n : Nat) : ∀ (cur s : Bytes), ValidUtf8 (cur.reverse ++ s) → s.length < n → ∀ w ∈ fieldsF n cur s, ValidUtf8 w := by
  induction n with
  | zero => intro cur s _ hn; omega
  | succ n ih =>
    intro cur s hv hn w hw
    cases s with
    | nil =>
      simp only [fieldsF] at hw
      split at hw
      · simp at hw
      · simp only [List.mem_singleton] at hw
        subst hw
        simpa using hv
    | cons b s =>
      rw [fieldsF] at hw
      split at hw
      · exact ih (b :: cur) s (by simpa using hv) (by simpa using hn) w hw
      · rename_i hs
        have hr := spaceLen_rune hs
        obtain ⟨h1, h2⟩ := valid_split _ cur.reverse (b :: s) (Nat.le_refl _) hv (by
          intro x hx
          simp only [List.head?_cons, Option.some.injEq] at hx
          subst hx
          exact runeLen_head hr)
        rcases List.mem_append.mp hw with hw | hw
        · split at hw
          · simp at hw
          · simp only [List.mem_singleton] at hw
            subst hw
            exact h1
        · refine ih [] _ ?_ ?_ w hw
          · exact (valid_drop_rune hr).mp h2
          · simp only [List.length_drop, List.length_cons] at hn ⊢
            omega

/-- The words of a UTF-8 string are UTF-8 strings. -/
theorem valid_fields {s : Bytes} (h : ValidUtf8 s) : ∀ w ∈ fields s, ValidUtf8 w :=
  valid_fieldsF _ [] s h (Nat.lt_succ_self _)

end Verif.Proofs.Strings

namespace Verif.Proofs.Secretscli
open Verif Verif.Go Verif.Model.Util Verif.Model.SecretStore Verif.Model.Secretscli
open Verif.Model.Secrets (World assign metaLoop dash)
open Verif.Spec.SecretStore Verif.Spec.Secrets Verif.Spec.Journal Verif.Spec.Secretscli
open Verif.Proofs.SecretStore Verif.Proofs.Secrets Verif.Proofs.Strings

variable (C : Crypto) (J : Json)

/-! ### What is read -/

@[simp] theorem rest_answers (st : St) (as : List (Option Bytes)) : (st.rest as).w.term.answers = as := rfl
@[simp] theorem rest_rest (st : St) (as bs : List (Option Bytes)) : (st.rest as).rest bs = st.rest bs := rfl
@[simp] theorem rest_self (st : St) : st.rest st.w.term.answers = st := rfl
@[simp] theorem rest_sess (st : St) (as : List (Option Bytes)) : (st.rest as).sess = st.sess := rfl
@[simp] theorem rest_entry (st : St) (as : List (Option Bytes)) (l : Bytes) : (st.rest as).entry l = st.entry l := rfl

theorem read_nil {st : St} (h : st.w.term.answers = []) : st.read = (none, st) := by
  unfold St.read Term.read
  rw [h]

theorem read_cons {st : St} {a : Option Bytes} {as : List (Option Bytes)} (h : st.w.term.answers = a :: as) :
    st.read = (a, st.rest as) := by
  unfold St.read Term.read
  rw [h]
  rfl

theorem read_suffix (st : St) : st.read.2.w.term.answers <:+ st.w.term.answers := by
  cases h : st.w.term.answers with
  | nil => rw [read_nil h, h]
  | cons a as => rw [read_cons h]; exact List.suffix_cons a as

theorem metaLoop_suffix (as : List (Option Bytes)) : ∀ md, (metaLoop md as).2.2 <:+ as := by
  induction as with
  | nil => intro md; exact List.suffix_refl _
  | cons a as ih =>
    intro md
    cases a with
    | none => exact List.suffix_cons _ _
    | some line =>
      rw [metaLoop]
      split
      · exact List.suffix_cons _ _
      · split
        · exact (ih md).trans (List.suffix_cons _ _)
        · exact (ih _).trans (List.suffix_cons _ _)

theorem writeStore_term (st : St) : (writeStore C J st).2.w.term = st.w.term := by
  unfold writeStore
  split
  · rfl
  · split
    · rfl
    · rfl
    · simp only [World.writeFile]
      split
      · rfl
      · rfl

theorem shutdown_term (st : St) : (shutdown C J st).w.term = st.w.term := writeStore_term C J st

theorem touch_suffix (st : St) (l : Bytes) (r : SecretRecord) : (touch st l r).2.w.term.answers = st.w.term.answers := by
  unfold touch Term.now
  simp only
  split <;> rfl

theorem putSecret_suffix (l : Bytes) (r : Option SecretRecord) (st : St) : (putSecret l r st).2.w.term.answers <:+ st.w.term.answers := by
  have := read_suffix st
  unfold putSecret
  split
  · rename_i h; rw [h] at this; exact this
  · rename_i h; rw [h] at this
    split
    · exact this
    · split
      · exact this
      · rw [touch_suffix]; exact this

theorem storeSingle_suffix (l : Bytes) (st : St) : (storeSingleSecret l st).2.w.term.answers <:+ st.w.term.answers := by
  have := read_suffix st
  unfold storeSingleSecret
  split
  · exact putSecret_suffix _ _ _
  · split
    · rename_i h; rw [h] at this; exact this
    · rename_i h; rw [h] at this
      simp only
      split
      · exact this
      · exact (putSecret_suffix _ _ _).trans this

theorem storeLoop_suffix (ls : List Bytes) : ∀ (i : Nat) (st : St), (storeLoop C J i ls st).2.w.term.answers <:+ st.w.term.answers := by
  induction ls with
  | nil => intro i st; exact List.suffix_refl _
  | cons l ls ih =>
    intro i st
    have := storeSingle_suffix l st
    unfold storeLoop
    split
    · rename_i h; rw [h] at this; exact (ih _ _).trans this
    · rename_i h; rw [h] at this
      simp only
      split
      · rw [writeStore_term]; exact this
      · exact this
    · exact this

theorem showLine_term (f : Bytes → Bytes) (b : Bool) (l : Bytes) (st : St) : (showLine f b l st).2.w.term = st.w.term := by
  unfold showLine
  split <;> rfl

theorem showLoop_term (f : Bytes → Bytes) (ls : List Bytes) : ∀ st, (showLoop f ls st).2.w.term = st.w.term := by
  induction ls with
  | nil => intro st; rfl
  | cons l ls ih =>
    intro st
    have := showLine_term f true l st
    unfold showLoop
    split
    · rename_i h; rw [h] at this; rw [ih]; exact this
    · exact this

theorem metaLines_term (e : Env) (ls : List Bytes) : ∀ st, (metaLines e ls st).2.w.term = st.w.term := by
  induction ls with
  | nil => intro st; rfl
  | cons l ls ih =>
    intro st
    unfold metaLines
    split
    · rw [ih]; rfl
    · rfl
    · rw [ih]; rfl

theorem writeMeta_suffix (args : List Bytes) (st : St) : (writeMeta args st).2.w.term.answers <:+ st.w.term.answers := by
  unfold writeMeta
  split
  · exact List.suffix_refl _
  · split
    · exact List.suffix_refl _
    · exact List.suffix_refl _
    · rename_i r _
      simp only
      have := metaLoop_suffix st.w.term.answers (r.metadata.getD Map.empty)
      split
      · split
        · exact this
        · exact this
      · rw [touch_suffix]; exact this
  · exact List.suffix_refl _

theorem passwd_suffix (st : St) : (passwd st).2.w.term.answers <:+ st.w.term.answers := by
  have := read_suffix st
  unfold passwd
  split
  · rename_i h; rw [h] at this; exact this
  · rename_i st1 h; rw [h] at this
    have h2 := read_suffix st1
    split
    · rename_i h; rw [h] at h2; exact h2.trans this
    · rename_i h; rw [h] at h2
      split
      · exact h2.trans this
      · exact h2.trans this

/-- A command reads some of the answers, from the front. -/
theorem process_suffix (e : Env) (line : Bytes) (st : St) : (processCommands C J e line st).2.w.term.answers <:+ st.w.term.answers := by
  unfold processCommands
  split
  · exact List.suffix_refl _
  · repeat' split
    all_goals first
      | exact List.suffix_refl _
      | exact passwd_suffix _
      | exact writeMeta_suffix _ _
      | skip
    · unfold help
      split <;> exact List.suffix_refl _
    · rw [show (quitProgram C J st).2.w.term = st.w.term from shutdown_term C J st]
    · unfold readMeta
      split
      · exact List.suffix_refl _
      · rw [metaLines_term]
    · unfold showSecret
      split
      · exact List.suffix_refl _
      · rw [showLine_term]
      · rw [showLoop_term]
    · unfold showSecret
      split
      · exact List.suffix_refl _
      · rw [showLine_term]
      · rw [showLoop_term]
    · unfold storeSecret
      split
      · exact List.suffix_refl _
      · exact storeLoop_suffix C J _ _ _
    · unfold cmdWriteStore
      have := writeStore_term C J st
      split
      · exact List.suffix_refl _
      · split
        · rename_i h; rw [h] at this; rw [this]
        · rename_i h; rw [h] at this; rw [this]

end Verif.Proofs.Secretscli
