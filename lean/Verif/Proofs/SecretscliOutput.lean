import Verif.Spec.SecretscliOutput
import Verif.Proofs.SecretscliKeeps
/-! What the text of a command of cmd/secretscli depends on. -/

namespace Verif.Proofs.SecretscliOutput
open Verif Verif.Go Verif.Model.Util Verif.Model.SecretStore Verif.Model.Secretscli Verif.Model.SecretscliOutput
open Verif.Model.Secrets (assign)
open Verif.Spec.SecretscliOutput Verif.Spec.SecretsOutput

variable (F : Printf) (C : Crypto) (J : Json)

/-- States that look alike to someone who does not see secrets, metadata and times. -/
structure Alike (st st' : St) : Prop where
  labels : labels st.sess.store = labels st'.sess.store
  dirty : st.sess.dirty = st'.sess.dirty
  typed : TypedAlike st.w.term.answers st'.w.term.answers

theorem entry_alike {st st' : St} (h : labels st.sess.store = labels st'.sess.store) (k : Bytes) :
    (st.entry k).map Option.isSome = (st'.entry k).map Option.isSome := by
  unfold St.entry
  unfold labels at h
  cases h1 : st.sess.store.store <;> cases h2 : st'.sess.store.store <;> rw [h1, h2] at h
  · cases h
  · cases h
  · simp only [Option.map_some, Option.some.injEq] at h
    exact congrFun h k

theorem read_alike {st st' : St} (h : Alike st st') :
    Likewise st.read.1 st'.read.1 ∧ Alike st.read.2 st'.read.2 := by
  obtain ⟨h1, h2, h3⟩ := h
  unfold St.read Term.read
  cases ha : st.w.term.answers with
  | nil =>
    cases hb : st'.w.term.answers with
    | nil =>
      rw [ha, hb] at h3
      exact ⟨⟨Iff.rfl, Iff.rfl, Iff.rfl⟩, h1, h2, by simp only [ha, hb]; exact h3⟩
    | cons b bs => rw [ha, hb] at h3; cases h3
  | cons a as =>
    cases hb : st'.w.term.answers with
    | nil => rw [ha, hb] at h3; cases h3
    | cons b bs =>
      rw [ha, hb] at h3
      exact ⟨h3.1, h1, h2, h3.2⟩

theorem touch_alike {st st' : St} (h : Alike st st') (label : Bytes) (r r' : SecretRecord) :
    (touch st label r).1 = (touch st' label r').1 ∧ Alike (touch st label r).2 (touch st' label r').2 := by
  obtain ⟨h1, h2, h3⟩ := h
  unfold touch Term.now
  simp only [assign]
  unfold labels at h1
  cases e1 : st.sess.store.store <;> cases e2 : st'.sess.store.store <;> rw [e1, e2] at h1
  · simp only
    exact ⟨trivial, rfl, h2, h3⟩
  · cases h1
  · cases h1
  · simp only
    refine ⟨trivial, ?_, rfl, h3⟩
    simp only [Option.map_some, Option.some.injEq] at h1
    simp only [labels, Option.map_some, Option.some.injEq]
    funext k
    by_cases hk : k = label
    · subst hk; simp
    · rw [Map.set_other _ _ hk, Map.set_other _ _ hk]
      exact congrFun h1 k

theorem put_alike {st st' : St} (h : Alike st st') (label : Bytes) {r r' : Option SecretRecord} (hr : r.isSome = r'.isSome) :
    (putSecret label r st).1 = (putSecret label r' st').1 ∧ Alike (putSecret label r st).2 (putSecret label r' st').2 := by
  obtain ⟨⟨l1, l2, -⟩, h2⟩ := read_alike h
  unfold putSecret
  cases e1 : st.read with
  | mk a s1 =>
  cases e2 : st'.read with
  | mk b s2 =>
  rw [e1, e2] at l1 l2 h2
  cases a with
  | none =>
    cases b with
    | none => exact ⟨rfl, h2⟩
    | some b => exact absurd (l1.mp rfl) (by simp)
  | some a =>
    cases b with
    | none => exact absurd (l1.mpr rfl) (by simp)
    | some b =>
      simp only [Option.some.injEq] at l2
      by_cases ha : a = []
      · have hb := l2.mp ha
        subst ha hb
        exact ⟨rfl, h2⟩
      · have hb : b ≠ [] := fun hb => ha (l2.mpr hb)
        simp only [List.length_eq_zero_iff, ha, hb, if_false]
        cases r with
        | none =>
          cases r' with
          | none => exact ⟨rfl, h2⟩
          | some _ => cases hr
        | some r =>
          cases r' with
          | none => cases hr
          | some r' => exact touch_alike h2 label _ _

theorem single_alike {st st' : St} (h : Alike st st') (label : Bytes) :
    (storeSingleSecret label st).1 = (storeSingleSecret label st').1 ∧
    Alike (storeSingleSecret label st).2 (storeSingleSecret label st').2 ∧
    storeSingleText F label st = storeSingleText F label st' := by
  have he := entry_alike h.labels label
  unfold storeSingleSecret storeSingleText
  cases e1 : st.entry label with
  | none =>
    cases e2 : st'.entry label with
    | none =>
      obtain ⟨h1, h2⟩ := put_alike h label (r := some { label := [], timestamp := 0, secret := [], metadata := none })
        (r' := some { label := [], timestamp := 0, secret := [], metadata := none }) rfl
      exact ⟨h1, h2, rfl⟩
    | some r' => rw [e1, e2] at he; cases he
  | some r =>
    cases e2 : st'.entry label with
    | none => rw [e1, e2] at he; cases he
    | some r' =>
      rw [e1, e2] at he
      simp only [Option.map_some, Option.some.injEq] at he
      obtain ⟨⟨l1, -, l3⟩, h2⟩ := read_alike h
      cases x1 : st.read with
      | mk a s1 =>
      cases x2 : st'.read with
      | mk b s2 =>
      rw [x1, x2] at l1 l3 h2
      cases a with
      | none =>
        cases b with
        | none => exact ⟨rfl, h2, rfl⟩
        | some b => exact absurd (l1.mp rfl) (by simp)
      | some a =>
        cases b with
        | none => exact absurd (l1.mpr rfl) (by simp)
        | some b =>
          have l3 : (lower a = ascii "y" ∨ lower a = ascii "yes") ↔ (lower b = ascii "y" ∨ lower b = ascii "yes") := l3
          by_cases ha : lower a = ascii "y" ∨ lower a = ascii "yes"
          · have hb := l3.mp ha
            have na : ¬ (lower a ≠ ascii "y" ∧ lower a ≠ ascii "yes") := fun ⟨n1, n2⟩ => ha.elim n1 n2
            have nb : ¬ (lower b ≠ ascii "y" ∧ lower b ≠ ascii "yes") := fun ⟨n1, n2⟩ => hb.elim n1 n2
            simp only [if_neg na, if_neg nb]
            obtain ⟨h3, h4⟩ := put_alike h2 label he
            exact ⟨h3, h4, trivial⟩
          · have hb : ¬ (lower b = ascii "y" ∨ lower b = ascii "yes") := fun hb => ha (l3.mpr hb)
            have na : lower a ≠ ascii "y" ∧ lower a ≠ ascii "yes" := ⟨fun x => ha (.inl x), fun x => ha (.inr x)⟩
            have nb : lower b ≠ ascii "y" ∧ lower b ≠ ascii "yes" := ⟨fun x => hb (.inl x), fun x => hb (.inr x)⟩
            simp only [if_pos na, if_pos nb]
            exact ⟨trivial, h2, trivial⟩

theorem writeText_alike {st st' : St} (h : st.sess.dirty = st'.sess.dirty) : writeText st = writeText st' := by
  unfold writeText; rw [h]

theorem storeLoopText_alike (ls : List Bytes) : ∀ (i : Nat) {st st' : St}, Alike st st' →
    storeLoopText F i ls st = storeLoopText F i ls st' := by
  induction ls with
  | nil => intros; rfl
  | cons l ls ih =>
    intro i st st' h
    obtain ⟨h1, h2, h3⟩ := single_alike F h l
    unfold storeLoopText
    rw [h3]
    congr 1
    cases e1 : storeSingleSecret l st with
    | mk a s1 =>
    cases e2 : storeSingleSecret l st' with
    | mk b s2 =>
    rw [e1, e2] at h1 h2
    cases h1
    cases a with
    | ok => exact ih (i + 1) h2
    | err => simp only; rw [writeText_alike h2.dirty]
    | panic => rfl
    | exit => rfl

theorem passwdText_eq (st : St) : (Repeated st.w.term.answers → passwdText st = ascii "[+] Password updated.\n") ∧
    (¬ Repeated st.w.term.answers → passwdText st = []) := by
  unfold passwdText passwd St.read Term.read
  match h : st.w.term.answers with
  | [] => exact ⟨fun ⟨p, r, h'⟩ => by simp [h] at h', fun _ => by simp [h]⟩
  | none :: _ => exact ⟨fun ⟨p, r, h'⟩ => by simp [h] at h', fun _ => by simp [h]⟩
  | [some a] => exact ⟨fun ⟨p, r, h'⟩ => by simp [h] at h', fun _ => by simp [h]⟩
  | some a :: none :: _ => exact ⟨fun ⟨p, r, h'⟩ => by simp [h] at h', fun _ => by simp [h]⟩
  | some a :: some b :: r =>
    by_cases hb : b = a
    · subst hb
      exact ⟨fun _ => by simp [h], fun hn => absurd ⟨_, _, rfl⟩ hn⟩
    · exact ⟨fun ⟨p, r, h'⟩ => by simp [h] at h'; exact absurd (h'.2.1.trans h'.1.symm) hb, fun _ => by simp [h, hb]⟩

theorem list_alike {e : Env} (ho : ByKeys e.order) {st st' : St} (h : labels st.sess.store = labels st'.sess.store) (args : List Bytes) :
    printed (listSecrets e args) st = printed (listSecrets e args) st' := by
  have : e.order (st.sess.store.store.getD Map.empty) = e.order (st'.sess.store.store.getD Map.empty) := by
    apply ho
    intro k
    unfold labels at h
    cases h1 : st.sess.store.store <;> cases h2 : st'.sess.store.store <;> rw [h1, h2] at h
    · cases h
    · cases h
    · simp only [Option.map_some, Option.some.injEq] at h
      have := congrArg Option.isSome (congrFun h k)
      simpa using this
  unfold printed listSecrets
  simp only [St.print, this]

theorem help_alike (args : List Bytes) (st st' : St) : printed (help args) st = printed (help args) st' := by
  unfold printed help
  cases helpText args <;> rfl

theorem entry_open {st st' : St} (h : openPart st.sess.store = openPart st'.sess.store) (k : Bytes) :
    (st.entry k).map (Option.map (fun r => (r.timestamp, r.metadata))) = (st'.entry k).map (Option.map (fun r => (r.timestamp, r.metadata))) := by
  unfold St.entry
  unfold openPart at h
  cases h1 : st.sess.store.store <;> cases h2 : st'.sess.store.store <;> rw [h1, h2] at h
  · cases h
  · cases h
  · simp only [Option.map_some, Option.some.injEq] at h
    exact congrFun h k

theorem metaLines_open (e : Env) (ls : List Bytes) : ∀ {st st' : St}, openPart st.sess.store = openPart st'.sess.store →
    st.w.stdout = st'.w.stdout → (metaLines e ls st).2.w.stdout = (metaLines e ls st').2.w.stdout := by
  induction ls with
  | nil => intro st st' _ h; exact h
  | cons l ls ih =>
    intro st st' h hs
    have he := entry_open h l
    unfold metaLines
    cases e1 : st.entry l with
    | none =>
      cases e2 : st'.entry l with
      | none => exact ih (by exact h) (by simp only [St.print, hs])
      | some r' => rw [e1, e2] at he; cases he
    | some r =>
      cases e2 : st'.entry l with
      | none => rw [e1, e2] at he; cases he
      | some r' =>
        rw [e1, e2] at he
        simp only [Option.map_some, Option.some.injEq] at he
        cases r with
        | none =>
          cases r' with
          | none => simp only [St.print, hs]
          | some _ => cases he
        | some r =>
          cases r' with
          | none => cases he
          | some r' =>
            simp only [Option.map_some, Option.some.injEq, Prod.mk.injEq] at he
            refine ih (by exact h) ?_
            simp only [St.print, hs, metaText, he.1, he.2]

theorem readMeta_open (e : Env) {st st' : St} (h : openPart st.sess.store = openPart st'.sess.store) (args : List Bytes) :
    printed (readMeta e args) st = printed (readMeta e args) st' := by
  unfold printed readMeta
  cases args with
  | nil => rfl
  | cons l ls => exact metaLines_open e (l :: ls) (by exact h) rfl

theorem writeMeta_open {st st' : St} (h : openPart st.sess.store = openPart st'.sess.store)
    (ha : st.w.term.answers = st'.w.term.answers) (args : List Bytes) : writeMetaText args st = writeMetaText args st' := by
  unfold writeMetaText
  match args with
  | [] => rfl
  | _ :: _ :: _ => rfl
  | [l] =>
    have he := entry_open h l
    simp only
    cases e1 : st.entry l with
    | none =>
      cases e2 : st'.entry l with
      | none => rfl
      | some r' => rw [e1, e2] at he; cases he
    | some r =>
      cases e2 : st'.entry l with
      | none => rw [e1, e2] at he; cases he
      | some r' =>
        rw [e1, e2] at he
        simp only [Option.map_some, Option.some.injEq] at he
        cases r with
        | none =>
          cases r' with
          | none => rfl
          | some _ => cases he
        | some r =>
          cases r' with
          | none => cases he
          | some r' =>
            simp only [Option.map_some, Option.some.injEq, Prod.mk.injEq] at he
            simp only [he.2, ha]

theorem labels_of_open {s s' : SecretStore} (h : openPart s = openPart s') : labels s = labels s' := by
  unfold openPart at h
  unfold labels
  cases h1 : s.store <;> cases h2 : s'.store <;> rw [h1, h2] at h
  · cases h
  · cases h
  · simp only [Option.map_some, Option.some.injEq] at h ⊢
    funext k
    have := congrArg (Option.map Option.isSome) (congrFun h k)
    simpa [Option.map_map, Function.comp_def] using this

theorem likewise_refl (a : Option Bytes) : Likewise a a := ⟨Iff.rfl, Iff.rfl, Iff.rfl⟩

theorem typedAlike_refl (as : List (Option Bytes)) : TypedAlike as as := by
  induction as with
  | nil => trivial
  | cons a as ih => exact ⟨likewise_refl a, ih⟩

theorem showLine_same {f : Bytes → Bytes} {named : Bool} {l : Bytes} {st st' : St} (he : st.entry l = st'.entry l)
    (hs : st.w.stdout = st'.w.stdout) :
    (showLine f named l st).1 = (showLine f named l st').1 ∧
    (showLine f named l st).2.w.stdout = (showLine f named l st').2.w.stdout ∧
    (showLine f named l st).2.sess = st.sess ∧ (showLine f named l st').2.sess = st'.sess := by
  unfold showLine
  rw [← he]
  cases st.entry l with
  | none => exact ⟨rfl, by simp only [St.print, hs], rfl, rfl⟩
  | some r =>
    cases r with
    | none => exact ⟨rfl, hs, rfl, rfl⟩
    | some r => exact ⟨rfl, by simp only [St.print, hs], rfl, rfl⟩

theorem showLoop_same (f : Bytes → Bytes) (ls : List Bytes) : ∀ {st st' : St}, (∀ l ∈ ls, st.entry l = st'.entry l) →
    st.w.stdout = st'.w.stdout → (showLoop f ls st).2.w.stdout = (showLoop f ls st').2.w.stdout := by
  induction ls with
  | nil => intro st st' _ h; exact h
  | cons l ls ih =>
    intro st st' h hs
    obtain ⟨h1, h2, h3, h4⟩ := showLine_same (f := f) (named := true) (h l (by simp)) hs
    unfold showLoop
    cases e1 : showLine f true l st with
    | mk a s1 =>
    cases e2 : showLine f true l st' with
    | mk b s2 =>
    rw [e1] at h1 h2 h3
    rw [e2] at h1 h2 h4
    cases h1
    have key : ∀ k ∈ ls, s1.entry k = s2.entry k := by
      intro k hk
      have := h k (by simp [hk])
      unfold St.entry at this ⊢
      simp only at h3 h4
      rw [h3, h4]; exact this
    cases a with
    | ok => exact ih key h2
    | err => exact h2
    | panic => exact h2
    | exit => exact h2

theorem show_same (f : Bytes → Bytes) {ls : List Bytes} {st st' : St} (h : ∀ l ∈ ls, st.entry l = st'.entry l) :
    printed (showSecret f ls) st = printed (showSecret f ls) st' := by
  unfold printed showSecret
  match ls with
  | [] => rfl
  | [l] =>
    exact (showLine_same (f := f) (named := false) (l := l) (st := { st with w := { st.w with stdout := [] } })
      (st' := { st' with w := { st'.w with stdout := [] } }) (h l (by simp)) rfl).2.1
  | l :: m :: ls => exact showLoop_same f (l :: m :: ls) (by exact h) rfl

/-! ### Metadata -/

theorem trimLeft_suffix (n : Nat) : ∀ s, trimLeftF n s <:+ s := by
  induction n with
  | zero => intro s; exact List.suffix_refl _
  | succ n ih =>
    intro s
    unfold trimLeftF
    split
    · exact List.suffix_refl _
    · exact (ih _).trans (List.drop_suffix _ _)

theorem trimRight_prefix (n : Nat) : ∀ s, trimRightF n s <+: s := by
  induction n with
  | zero => intro s; exact List.prefix_refl _
  | succ n ih =>
    intro s
    unfold trimRightF
    split
    · exact List.prefix_refl _
    · exact (ih _).trans (List.take_prefix _ _)

theorem trimSpace_infix (s : Bytes) : trimSpace s <:+: s :=
  (trimRight_prefix _ _).isInfix.trans (trimLeft_suffix _ _).isInfix

theorem splitEq_infix {s k v : Bytes} (h : splitEq s = some (k, v)) : v <:+: s := by
  unfold splitEq at h
  split at h
  · cases h
    exact ((List.drop_suffix _ _).trans (List.dropWhile_suffix _)).isInfix
  · cases h

open Verif.Model.Secrets (metaLoop)

/-- A value that is gone after the loop was noted. -/
theorem loop_notes (as : List (Option Bytes)) : ∀ (md : Map Bytes) (k v : Bytes), md k = some v →
    (metaLoop md as).1 k ≠ some v → note v <:+: metaLoopText md as := by
  induction as with
  | nil => intro md k v h hn; exact absurd h hn
  | cons a as ih =>
    intro md k v h hn
    cases a with
    | none => exact absurd h hn
    | some line =>
      unfold metaLoop at hn
      unfold metaLoopText
      split at hn
      · exact absurd h hn
      · rename_i hl
        rw [if_neg hl]
        cases hs : splitEq line with
        | none =>
          rw [hs] at hn
          exact (ih md k v h hn).trans (List.suffix_append _ _).isInfix
        | some x =>
          obtain ⟨k', v'⟩ := x
          rw [hs] at hn
          simp only at hn ⊢
          by_cases hk : k = trimSpace k'
          · subst hk
            rw [h]
            exact ((List.prefix_append _ _).isInfix).trans (List.suffix_append _ _).isInfix
          · have h' : (md.set (trimSpace k') (trimSpace v')) k = some v := by rw [Map.set_other _ _ hk]; exact h
            exact ((ih _ k v h' hn).trans (List.suffix_append _ _).isInfix).trans (List.suffix_append _ _).isInfix

/-- The loop prints prompts and notes about values that were there or were typed. -/
theorem loop_pieces (as : List (Option Bytes)) : ∀ md : Map Bytes, ∃ ps : List Bytes,
    metaLoopText md as = (ps.map (fun p => ascii "key = value: " ++ p)).flatten ++ ascii "key = value: " ∧
    ∀ p ∈ ps, p = [] ∨ ∃ v, p = note v ∧ ((∃ k, md k = some v) ∨ ∃ l, some l ∈ as ∧ v <:+: l) := by
  induction as with
  | nil => intro md; exact ⟨[], rfl, by simp⟩
  | cons a as ih =>
    intro md
    cases a with
    | none => exact ⟨[], rfl, by simp⟩
    | some line =>
      unfold metaLoopText
      by_cases hl : line = []
      · rw [if_pos hl]; exact ⟨[], rfl, by simp⟩
      · rw [if_neg hl]
        cases hs : splitEq line with
        | none =>
          obtain ⟨ps, h1, h2⟩ := ih md
          refine ⟨[] :: ps, by simp only [h1]; simp, ?_⟩
          intro p hp
          rcases List.mem_cons.1 hp with rfl | hp
          · exact .inl rfl
          · rcases h2 p hp with h | ⟨v, h, h'⟩
            · exact .inl h
            · exact .inr ⟨v, h, h'.imp id (fun ⟨l, m1, m2⟩ => ⟨l, by simp [m1], m2⟩)⟩
        | some x =>
          obtain ⟨k', v'⟩ := x
          simp only
          obtain ⟨ps, h1, h2⟩ := ih (md.set (trimSpace k') (trimSpace v'))
          refine ⟨(match md (trimSpace k') with
            | some prev => note prev
            | none => []) :: ps, by rw [h1]; cases md (trimSpace k') <;> simp [note], ?_⟩
          intro p hp
          rcases List.mem_cons.1 hp with rfl | hp
          · cases hm : md (trimSpace k') with
            | none => exact .inl rfl
            | some prev => exact .inr ⟨prev, rfl, .inl ⟨_, hm⟩⟩
          · rcases h2 p hp with h | ⟨v, h, h'⟩
            · exact .inl h
            · refine .inr ⟨v, h, ?_⟩
              rcases h' with ⟨k, hk⟩ | ⟨l, m1, m2⟩
              · by_cases he : k = trimSpace k'
                · subst he
                  rw [Map.set_same] at hk
                  cases hk
                  exact .inr ⟨line, by simp, (trimSpace_infix v').trans (splitEq_infix hs)⟩
                · rw [Map.set_other _ _ he] at hk
                  exact .inl ⟨k, hk⟩
              · exact .inr ⟨l, by simp [m1], m2⟩

end Verif.Proofs.SecretscliOutput
