import Verif.Model.Journal
import Verif.Model.SecretsOutput
/-!
What package sort promises determines its result. `sort.Sort` and `sort.Strings` leave a permutation of the slice in
which no element is less than its predecessor (cmd/journal/journal.go:23-37, 140); the models sort with `List.mergeSort`,
which is the only such permutation.
-/

namespace Verif.Proofs.Sorting
open Verif Verif.Go

theorem sorted_unique {α : Type} {le : α → α → Prop} (anti : ∀ a b, le a b → le b a → a = b) (refl : ∀ a, le a a) :
    ∀ {l l' : List α}, l.Perm l' → l.Pairwise le → l'.Pairwise le → l = l'
  | [], _, h, _, _ => h.nil_eq
  | a :: l, [], h, _, _ => absurd h.length_eq (by simp)
  | a :: l, b :: l', h, h1, h2 => by
    have hab : a = b := by
      have ha : a ∈ b :: l' := h.mem_iff.mp (List.mem_cons_self ..)
      have hb : b ∈ a :: l := h.mem_iff.mpr (List.mem_cons_self ..)
      have e1 : le a b := by
        rcases List.mem_cons.mp hb with rfl | hb
        · exact refl _
        · exact (List.pairwise_cons.mp h1).1 b hb
      have e2 : le b a := by
        rcases List.mem_cons.mp ha with rfl | ha
        · exact refl _
        · exact (List.pairwise_cons.mp h2).1 a ha
      exact anti a b e1 e2
    subst hab
    rw [sorted_unique anti refl (List.Perm.cons_inv h) (List.pairwise_cons.mp h1).2 (List.pairwise_cons.mp h2).2]

/-- The timestamps in the journal: a permutation in which no element is less than one before it. -/
theorem timestamps_sorted (ts l : List (BitVec 64)) (hp : l.Perm ts) (hs : l.Pairwise (fun a b => ¬ b.toInt < a.toInt)) :
    l = ts.mergeSort (fun a b => decide (a.toInt ≤ b.toInt)) := by
  refine sorted_unique (le := fun a b => a.toInt ≤ b.toInt) (fun a b h1 h2 => BitVec.eq_of_toInt_eq (Int.le_antisymm h1 h2))
    (fun a => Int.le_refl _) (hp.trans (List.mergeSort_perm _ _).symm) (hs.imp (fun h => Int.not_lt.mp h)) ?_
  exact (List.pairwise_mergeSort (le := fun a b : BitVec 64 => decide (a.toInt ≤ b.toInt))
    (by intro a b c; simp only [decide_eq_true_eq]; omega) (by intro a b; simp only [Bool.or_eq_true, decide_eq_true_eq]; omega) ts).imp
      (fun h => of_decide_eq_true h)

/-- The labels in secrets and secretscli. -/
theorem strings_sorted (ks l : List Bytes) (hp : l.Perm ks) (hs : l.Pairwise (fun a b => ¬ b < a)) :
    l = ks.mergeSort (fun a b => decide (a ≤ b)) := by
  refine sorted_unique (le := fun a b : Bytes => a ≤ b) (fun a b h1 h2 => List.le_antisymm h1 h2)
    (fun a => List.le_refl _) (hp.trans (List.mergeSort_perm _ _).symm) (hs.imp (fun h => List.not_lt.mp h)) ?_
  exact (List.pairwise_mergeSort (le := fun a b : Bytes => decide (a ≤ b))
    (by intro a b c; simp only [decide_eq_true_eq]; exact List.le_trans)
    (by intro a b; simp only [Bool.or_eq_true, decide_eq_true_eq]; exact List.le_total a b) ks).imp (fun h => of_decide_eq_true h)

/-- Three timestamps. -/
example : ([1, 2, 2] : List (BitVec 64)).Perm [2, 1, 2] ∧ ([1, 2, 2] : List (BitVec 64)).Pairwise (fun a b => ¬ b.toInt < a.toInt) := by
  decide

end Verif.Proofs.Sorting
