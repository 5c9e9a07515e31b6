import Verif.Model.ReadLine
import Verif.Spec.ReadLine
/-! Property C100: ReadLine (common/util/util.go). -/

namespace Verif.Props.ReadLine
open Verif Verif.Go Verif.Model.Util Verif.Spec.ReadLine

theorem lines_none (c : Bytes) (h : (10 : UInt8) ∉ c) (t : Bytes) :
    lines (c ++ t) = match (lines t).1 with
      | [] => ([], c ++ (lines t).2)
      | l :: ls => ((c ++ l) :: ls, (lines t).2) := by
  induction c with
  | nil =>
    cases hl : (lines t).1 with
    | nil => simp only [List.nil_append]; rw [← hl]
    | cons l ls => simp only [List.nil_append]; rw [← hl]
  | cons b c ih =>
    have hb : b ≠ 10 := fun e => h (by simp [e])
    rw [List.cons_append, lines, ih (fun e => h (List.mem_cons_of_mem _ e))]
    cases hl : (lines t).1 <;> simp [hb]

theorem lines_line (c : Bytes) (h : (10 : UInt8) ∉ c) (t : Bytes) :
    lines (c ++ 10 :: t) = ((c ++ [10]) :: (lines t).1, (lines t).2) := by
  rw [lines_none c h (10 :: t)]
  simp [lines]

theorem takeWhile_split {c : Bytes} (h : (10 : UInt8) ∈ c) :
    ∃ b, c = c.takeWhile (· ≠ 10) ++ 10 :: b ∧ (10 : UInt8) ∉ c.takeWhile (· ≠ 10) := by
  induction c with
  | nil => simp at h
  | cons x c ih =>
    by_cases hx : x = 10
    · subst hx; exact ⟨c, by simp, by simp⟩
    · obtain ⟨b, e1, e2⟩ := ih (by simpa [Ne.symm hx] using h)
      refine ⟨b, ?_, ?_⟩
      · rw [List.takeWhile_cons_of_pos (by simpa using hx), List.cons_append, ← e1]
      · rw [List.takeWhile_cons_of_pos (by simpa using hx)]
        simp only [List.mem_cons, not_or]
        exact ⟨Ne.symm hx, e2⟩

theorem readString_eq (cs : List Bytes) (h : ∀ c ∈ cs, AtMostLine c) : ∀ acc, (10 : UInt8) ∉ acc →
    (lines (acc ++ cs.flatten)).1 = [] ∧ readString acc cs = (acc ++ cs.flatten, false, []) ∨
    ∃ l ls rest, (lines (acc ++ cs.flatten)).1 = l :: ls ∧ readString acc cs = (l, true, rest) ∧
      lines rest.flatten = (ls, (lines (acc ++ cs.flatten)).2) ∧ ∀ c ∈ rest, c ∈ cs := by
  induction cs with
  | nil =>
    intro acc hacc
    refine Or.inl ⟨?_, by simp [readString]⟩
    rw [List.flatten_nil, lines_none acc hacc]
    simp [lines]
  | cons c cs ih =>
    intro acc hacc
    by_cases hc : (10 : UInt8) ∈ c
    · obtain ⟨b, e1, e2⟩ := takeWhile_split hc
      have hb : b = [] := h c List.mem_cons_self _ _ e1
      subst hb
      refine Or.inr ⟨acc ++ c.takeWhile (· ≠ 10) ++ [10], (lines cs.flatten).1, cs, ?_, by simp [readString, hc], ?_,
        fun x hx => List.mem_cons_of_mem _ hx⟩
      all_goals
        have e3 : acc ++ (c :: cs).flatten = (acc ++ c.takeWhile (· ≠ 10)) ++ 10 :: cs.flatten := by
          rw [List.flatten_cons]
          conv => lhs; rw [e1]
          simp
        rw [e3, lines_line _ (by simp only [List.mem_append, not_or]; exact ⟨hacc, e2⟩)]
    · have := ih (fun x hx => h x (List.mem_cons_of_mem _ hx)) (acc ++ c) (by simp [hacc, hc])
      rw [List.flatten_cons, ← List.append_assoc]
      rcases this with ⟨h1, h2⟩ | ⟨l, ls, rest, h1, h2, h3, h4⟩
      · exact Or.inl ⟨h1, by rw [readString, if_neg hc]; exact h2⟩
      · exact Or.inr ⟨l, ls, rest, h1, by rw [readString, if_neg hc]; exact h2, h3,
          fun x hx => List.mem_cons_of_mem _ (h4 x hx)⟩

/-- While no read returns more than one line, `ReadLine` returns the next line of the input,
trimmed, and leaves exactly the lines after it; when there is none it fails. So its successive
calls return the successive lines. Missing from the property: reads that return more. -/
theorem C100_lines_partial (input : List Bytes) (h : ∀ c ∈ input, AtMostLine c) :
    (lines input.flatten).1 = [] ∧ readLine input = (input.flatten, false, []) ∨
    ∃ l ls rest, (lines input.flatten).1 = l :: ls ∧ readLine input = (trimSpace l, true, rest) ∧
      lines rest.flatten = (ls, (lines input.flatten).2) ∧ ∀ c ∈ rest, AtMostLine c := by
  rcases readString_eq input h [] (by simp) with ⟨h1, h2⟩ | ⟨l, ls, rest, h1, h2, h3, h4⟩
  · exact Or.inl ⟨h1, by unfold readLine; rw [h2]; rfl⟩
  · exact Or.inr ⟨l, ls, rest, h1, by unfold readLine; rw [h2], h3, fun c hc => h c (h4 c hc)⟩

/-- Two lines arriving in three reads. -/
example : (∀ c ∈ [[97], [98, 10], [99, 10]], AtMostLine c) ∧
    readLine [[97], [98, 10], [99, 10]] = ([97, 98], true, [[99, 10]]) ∧ readLine [[99, 10]] = ([99], true, []) := by
  refine ⟨?_, by decide, by decide⟩
  intro c hc a b e
  simp only [List.mem_cons, List.not_mem_nil, or_false] at hc
  rcases hc with rfl | rfl | rfl
  · cases a with
    | nil => simp at e
    | cons x a => simp at e
  · match a, e with
    | [], e => simp at e
    | [x], e => simp at e; exact e.2
    | x :: y :: a, e => simp at e
  · match a, e with
    | [], e => simp at e
    | [x], e => simp at e; exact e.2
    | x :: y :: a, e => simp at e

/-- When one read returns two lines, as it does when the input is a pipe or a file, the second is
lost: the next call fails. -/
theorem C100_pipe_violated : ∃ input, lines input.flatten = ([[97, 10], [98, 10]], []) ∧
    readLine input = ([97], true, []) ∧ readLine [] = ([], false, []) :=
  ⟨[[97, 10, 98, 10]], by decide, by decide, by decide⟩

/-- In general whatever was read together with a newline is lost. -/
theorem C100_dropped_violated (a b : Bytes) (cs : List Bytes) (ha : (10 : UInt8) ∉ a) :
    readLine ((a ++ 10 :: b) :: cs) = (trimSpace (a ++ [10]), true, cs) := by
  have : (a ++ 10 :: b).takeWhile (· ≠ 10) = a := by
    rw [List.takeWhile_append_of_pos (by intro x hx; simp only [ne_eq, decide_eq_true_eq]; rintro rfl; exact ha hx)]
    simp
  have h2 : (10 : UInt8) ∈ a ++ 10 :: b := by simp
  unfold readLine readString
  rw [if_pos h2, this]
  rfl

end Verif.Props.ReadLine
