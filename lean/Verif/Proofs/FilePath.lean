import Verif.Go.FilePath
/-! Lemmas about paths. -/

namespace Verif.Proofs.FilePath
open Verif.Go

theorem splitSlashF_noslash (cur c : Bytes) (h : slash ∉ c) : splitSlashF cur c = [cur.reverse ++ c] := by
  induction c generalizing cur with
  | nil => simp [splitSlashF]
  | cons b c ih =>
    simp only [List.mem_cons, not_or] at h
    rw [splitSlashF, if_neg (fun e => h.1 e.symm), ih _ h.2]
    simp

theorem splitSlashF_append (cur a b : Bytes) : splitSlashF cur (a ++ slash :: b) = splitSlashF cur a ++ splitSlash b := by
  induction a generalizing cur with
  | nil => simp [splitSlashF, splitSlash]
  | cons x a ih =>
    simp only [List.cons_append, splitSlashF]
    split
    · rw [ih]; rfl
    · rw [ih]

theorem splitSlash_noslash {c : Bytes} (h : slash ∉ c) : splitSlash c = [c] := by
  unfold splitSlash
  rw [splitSlashF_noslash _ _ h]; rfl

theorem splitSlash_append (a b : Bytes) : splitSlash (a ++ slash :: b) = splitSlash a ++ splitSlash b :=
  splitSlashF_append [] a b

theorem splitSlash_cons (b : Bytes) : splitSlash (slash :: b) = [] :: splitSlash b := splitSlash_append [] b

theorem splitSlashF_mem {cur p c : Bytes} (hc : slash ∉ cur) (h : c ∈ splitSlashF cur p) : slash ∉ c := by
  induction p generalizing cur with
  | nil => simp only [splitSlashF, List.mem_singleton] at h; subst h; simpa using hc
  | cons b p ih =>
    rw [splitSlashF] at h
    split at h
    · rcases List.mem_cons.mp h with rfl | h
      · simpa using hc
      · exact ih (by simp) h
    · rename_i hb
      exact ih (by simp only [List.mem_cons, not_or]; exact ⟨fun e => hb e.symm, hc⟩) h

theorem splitSlash_mem {p c : Bytes} (h : c ∈ splitSlash p) : slash ∉ c := splitSlashF_mem (by simp) h

theorem splitSlash_join {cs : List Bytes} (h : ∀ c ∈ cs, slash ∉ c) (hne : cs ≠ []) : splitSlash (joinSlash cs) = cs := by
  induction cs with
  | nil => exact absurd rfl hne
  | cons c cs ih =>
    cases cs with
    | nil => exact splitSlash_noslash (h c (by simp))
    | cons c' cs =>
      rw [joinSlash]
      · rw [splitSlash_append, splitSlash_noslash (h c (by simp)), ih (fun x hx => h x (by simp [hx])) (by simp)]
        rfl
      · simp

/-- Every component on the stack is one that Clean would keep. -/
def Kept (st : List Bytes) : Prop := ∀ c ∈ st, c ≠ [] ∧ c ≠ dot ∧ slash ∉ c

theorem kept_step {r : Bool} {st : List Bytes} {c : Bytes} (hk : Kept st) (hc : slash ∉ c) : Kept (pathStep r st c) := by
  unfold pathStep
  split
  · exact hk
  · rename_i h1
    simp only [not_or] at h1
    split
    · rename_i h2
      have hdd : dotdot ≠ [] ∧ dotdot ≠ dot ∧ slash ∉ dotdot := by decide
      split
      · split
        · exact hk
        · intro x hx; simp only [List.mem_singleton] at hx; subst hx; exact hdd
      · rename_i t rest
        split
        · intro x hx
          rcases List.mem_cons.mp hx with rfl | hx
          · exact hdd
          · exact hk x hx
        · exact fun x hx => hk x (by simp [hx])
    · intro x hx
      rcases List.mem_cons.mp hx with rfl | hx
      · exact ⟨h1.1, h1.2, hc⟩
      · exact hk x hx

theorem kept_fold {r : Bool} {st cs : List Bytes} (hk : Kept st) (hc : ∀ c ∈ cs, slash ∉ c) :
    Kept (cs.foldl (pathStep r) st) := by
  induction cs generalizing st with
  | nil => exact hk
  | cons c cs ih => exact ih (kept_step hk (hc c (by simp))) (fun x hx => hc x (by simp [hx]))

/-- Cleaning a list of components does not change what they do to a rooted stack. -/
theorem clean_step {r : Bool} {S st : List Bytes} {c : Bytes} (hr : r = true → S = []) (hk : Kept st) :
    (pathStep r st c).reverse.foldl (pathStep true) S = pathStep true (st.reverse.foldl (pathStep true) S) c := by
  by_cases h1 : c = [] ∨ c = dot
  · simp only [pathStep, if_pos h1]
  by_cases h2 : c = dotdot
  · subst h2
    cases st with
    | nil =>
      cases r with
      | true =>
        rw [hr rfl]
        decide
      | false => rfl
    | cons t st =>
      by_cases ht : t = dotdot
      · subst ht
        have : pathStep r (dotdot :: st) dotdot = dotdot :: dotdot :: st := by
          simp only [pathStep, if_neg h1, if_true]
        rw [this, List.reverse_cons (a := dotdot), List.foldl_append]
        rfl
      · have : pathStep r (t :: st) dotdot = st := by
          simp only [pathStep, if_neg h1, if_true, if_neg ht]
        rw [this, List.reverse_cons, List.foldl_append]
        obtain ⟨k1, k2, -⟩ := hk t (by simp)
        have e : ∀ X, pathStep true X t = t :: X := by
          intro X
          simp only [pathStep, k1, k2, or_self, if_false, if_neg ht]
        simp only [List.foldl_cons, List.foldl_nil, e]
        simp only [pathStep, if_neg h1, if_true, if_neg ht]
  · have : pathStep r st c = c :: st := by simp only [pathStep, if_neg h1, if_neg h2]
    rw [this, List.reverse_cons, List.foldl_append]
    rfl

theorem clean_fold {r : Bool} {S : List Bytes} (cs st : List Bytes) (hr : r = true → S = []) (hk : Kept st)
    (hc : ∀ c ∈ cs, slash ∉ c) :
    (cs.foldl (pathStep r) st).reverse.foldl (pathStep true) S =
      cs.foldl (pathStep true) (st.reverse.foldl (pathStep true) S) := by
  induction cs generalizing st with
  | nil => rfl
  | cons c cs ih =>
    simp only [List.foldl_cons]
    rw [ih _ (kept_step hk (hc c (by simp))) (fun x hx => hc x (by simp [hx])), clean_step hr hk]

/-- What the text of a cleaned path does to a stack. -/
theorem fold_render {r : Bool} {cs S : List Bytes} (hk : Kept cs) :
    (splitSlash (renderPath r cs)).foldl (pathStep true) S = cs.foldl (pathStep true) S := by
  have hnil : pathStep true S [] = S := by simp [pathStep]
  have hj : (splitSlash (joinSlash cs)).foldl (pathStep true) S = cs.foldl (pathStep true) S := by
    by_cases hne : cs = []
    · subst hne; exact hnil
    · rw [splitSlash_join (fun c hc => (hk c hc).2.2) hne]
  unfold renderPath
  cases r with
  | true => rw [if_pos rfl, splitSlash_cons, List.foldl_cons, hnil, hj]
  | false =>
    rw [if_neg (by simp)]
    split
    · rename_i he
      subst he
      show pathStep true S dot = S
      simp [pathStep]
    · exact hj

theorem kept_cleanComps (p : Bytes) : Kept (cleanComps p) := by
  intro c hc
  exact (kept_fold (r := rootedPath p) (st := []) (by simp [Kept]) (fun c h => splitSlash_mem h)) c (by simpa [cleanComps] using hc)

theorem rooted_render (r : Bool) (cs : List Bytes) (hk : Kept cs) : rootedPath (renderPath r cs) = r := by
  unfold renderPath rootedPath
  cases r with
  | true => simp
  | false =>
    rw [if_neg (by simp)]
    split
    · decide
    · rename_i hne
      cases cs with
      | nil => exact absurd rfl hne
      | cons c cs =>
        obtain ⟨h1, -, h3⟩ := hk c (by simp)
        have : (joinSlash (c :: cs)).head? = c.head? := by
          cases cs with
          | nil => rfl
          | cons d ds =>
            rw [joinSlash]
            · cases c with
              | nil => exact absurd rfl h1
              | cons x c => rfl
            · simp
        rw [this]
        cases c with
        | nil => exact absurd rfl h1
        | cons x c =>
          simp only [List.head?_cons, beq_eq_false_iff_ne, ne_eq, Option.some.injEq]
          rintro rfl
          simp at h3

theorem rooted_clean (p : Bytes) : rootedPath (cleanPath p) = rootedPath p := rooted_render _ _ (kept_cleanComps p)

/-- The operating system finds the same place for a path and for its cleaned form. -/
theorem resolve_clean (cwd : List Bytes) (p : Bytes) : resolvePath cwd (cleanPath p) = resolvePath cwd p := by
  unfold resolvePath
  rw [rooted_clean]
  congr 1
  unfold cleanPath
  rw [fold_render (kept_cleanComps p)]
  unfold cleanComps
  rw [clean_fold _ _ (by intro h; rw [if_pos h]) (by simp [Kept]) (fun c h => splitSlash_mem h)]
  rfl

theorem clean_ne_nil (p : Bytes) : cleanPath p ≠ [] := by
  unfold cleanPath renderPath
  split
  · simp
  · split
    · simp
    · rename_i hne
      have hk := kept_cleanComps p
      cases hc : cleanComps p with
      | nil => exact absurd hc hne
      | cons c cs =>
        have := (hk c (by simp [hc])).1
        cases cs with
        | nil => exact this
        | cons d ds =>
          rw [joinSlash]
          · simp [this]
          · simp

/-- The place for `filepath.Join(top, p)`: start from the place for `top` and follow the
components of `p`. -/
theorem resolve_join (cwd : List Bytes) {top : Bytes} (p : Bytes) (ht : top ≠ []) :
    resolvePath cwd (joinPath top p) =
      ((splitSlash p).foldl (pathStep true) (resolvePath cwd top).reverse).reverse := by
  unfold joinPath
  rw [if_neg ht]
  split
  · rename_i hp
    subst hp
    rw [resolve_clean]
    show _ = (pathStep true _ []).reverse
    simp [pathStep]
  · rw [resolve_clean]
    unfold resolvePath
    have : rootedPath (top ++ slash :: p) = rootedPath top := by
      cases top with
      | nil => exact absurd rfl ht
      | cons x t => rfl
    rw [this, splitSlash_append, List.foldl_append, List.reverse_reverse]

/-- The components that lead somewhere. -/
def names (cs : List Bytes) : List Bytes := cs.filter (fun c => !(c == [] || c == dot))

theorem fold_names {cs S : List Bytes} (h : dotdot ∉ cs) :
    cs.foldl (pathStep true) S = (names cs).reverse ++ S := by
  induction cs generalizing S with
  | nil => rfl
  | cons c cs ih =>
    simp only [List.mem_cons, not_or] at h
    rw [List.foldl_cons, ih h.2]
    unfold names
    by_cases h1 : c = [] ∨ c = dot
    · rw [List.filter_cons_of_neg]
      · simp only [pathStep, if_pos h1]
      · simpa [Classical.or_iff_not_imp_left] using h1
    · have h2 : ¬ c = dotdot := fun e => h.1 e.symm
      rw [List.filter_cons_of_pos]
      · simp only [pathStep, if_neg h1, if_neg h2, List.reverse_cons, List.append_assoc, List.cons_append, List.nil_append]
      · simpa using h1

/-- Without "..", joining leads below `top`. -/
theorem resolve_join_below (cwd : List Bytes) {top p : Bytes} (ht : top ≠ []) (hp : dotdot ∉ splitSlash p) :
    resolvePath cwd (joinPath top p) = resolvePath cwd top ++ names (splitSlash p) := by
  rw [resolve_join cwd p ht, fold_names hp]
  simp

/-- The components of a path before the last slash. -/
theorem not_mem_takeWhile (l : Bytes) : slash ∉ l.takeWhile (fun x => decide (x ≠ slash)) := by
  induction l with
  | nil => simp
  | cons x l ih =>
    rw [List.takeWhile_cons]
    split
    · rename_i h
      simp only [ne_eq, decide_not, Bool.not_eq_true', decide_eq_false_iff_not] at h
      simp only [List.mem_cons, not_or]
      exact ⟨fun e => h e.symm, ih⟩
    · simp

theorem dropWhile_head {l r : Bytes} {x : UInt8} (h : l.dropWhile (fun x => decide (x ≠ slash)) = x :: r) : x = slash := by
  induction l with
  | nil => simp at h
  | cons y l ih =>
    rw [List.dropWhile_cons] at h
    split at h
    · exact ih h
    · rename_i h2
      simp only [List.cons.injEq] at h
      rw [← h.1]
      simpa using h2

theorem dirPart_cases (p : Bytes) : (slash ∉ p ∧ dirPart p = []) ∨
    ∃ a b, p = a ++ slash :: b ∧ slash ∉ b ∧ dirPart p = a ++ [slash] := by
  unfold dirPart
  have hsplit := List.takeWhile_append_dropWhile (p := fun x => decide (x ≠ slash)) (l := p.reverse)
  have htake : slash ∉ p.reverse.takeWhile (fun x => decide (x ≠ slash)) := not_mem_takeWhile _
  cases hd : p.reverse.dropWhile (fun x => decide (x ≠ slash)) with
  | nil =>
    left
    rw [hd, List.append_nil] at hsplit
    refine ⟨?_, by simp⟩
    rw [hsplit] at htake
    simpa using htake
  | cons x r =>
    right
    have hx : x = slash := dropWhile_head hd
    subst hx
    refine ⟨r.reverse, (p.reverse.takeWhile (fun x => decide (x ≠ slash))).reverse, ?_, by simpa using htake, by simp⟩
    have := congrArg List.reverse hsplit
    rw [hd] at this
    simpa using this.symm

/-- Cleaning introduces no "..". -/
theorem fold_no_dotdot {r : Bool} {cs st : List Bytes} (hs : dotdot ∉ st) (hc : dotdot ∉ cs) :
    dotdot ∉ cs.foldl (pathStep r) st ∧ ∀ c ∈ cs.foldl (pathStep r) st, c ∈ st ∨ c ∈ cs := by
  induction cs generalizing st with
  | nil => exact ⟨hs, fun c h => .inl h⟩
  | cons c cs ih =>
    simp only [List.mem_cons, not_or] at hc
    have hcc : ¬ c = dotdot := fun e => hc.1 e.symm
    have hstep : pathStep r st c = st ∨ pathStep r st c = c :: st := by
      unfold pathStep
      split
      · exact .inl rfl
      · exact .inr rfl
    rw [List.foldl_cons]
    rcases hstep with e | e
    · rw [e]
      obtain ⟨i1, i2⟩ := ih hs hc.2
      exact ⟨i1, fun x hx => (i2 x hx).imp id (fun h => List.mem_cons_of_mem _ h)⟩
    · rw [e]
      obtain ⟨i1, i2⟩ := ih (st := c :: st) (fun h => (List.mem_cons.mp h).elim hc.1 hs) hc.2
      refine ⟨i1, fun x hx => ?_⟩
      rcases i2 x hx with h | h
      · rcases List.mem_cons.mp h with rfl | h
        · exact .inr (by simp)
        · exact .inl h
      · exact .inr (List.mem_cons_of_mem _ h)

theorem split_render_no_dotdot {r : Bool} {cs : List Bytes} (hk : Kept cs) (h : dotdot ∉ cs) :
    dotdot ∉ splitSlash (renderPath r cs) := by
  have hj : dotdot ∉ splitSlash (joinSlash cs) := by
    by_cases hne : cs = []
    · subst hne; decide
    · rw [splitSlash_join (fun c hc => (hk c hc).2.2) hne]; exact h
  unfold renderPath
  cases r with
  | true => rw [if_pos rfl, splitSlash_cons]; simpa using hj
  | false =>
    rw [if_neg (by simp)]
    split
    · decide
    · exact hj

theorem clean_no_dotdot {p : Bytes} (h : dotdot ∉ splitSlash p) : dotdot ∉ splitSlash (cleanPath p) := by
  unfold cleanPath
  refine split_render_no_dotdot (kept_cleanComps p) ?_
  unfold cleanComps
  rw [List.mem_reverse]
  exact (fold_no_dotdot (by simp) h).1

theorem dir_no_dotdot {p : Bytes} (h : dotdot ∉ splitSlash p) : dotdot ∉ splitSlash (dirPath p) := by
  unfold dirPath
  refine clean_no_dotdot ?_
  rcases dirPart_cases p with ⟨-, e⟩ | ⟨a, b, rfl, hb, e⟩
  · rw [e]; decide
  · rw [e, splitSlash_append]
    rw [splitSlash_append] at h
    simp only [List.mem_append, not_or] at h ⊢
    exact ⟨h.1, by decide⟩

theorem names_append (a b : List Bytes) : names (a ++ b) = names a ++ names b := by
  unfold names; rw [List.filter_append]

/-- The names in a cleaned path without ".." are those of the path. -/
theorem names_clean {p : Bytes} (h : dotdot ∉ splitSlash p) : names (splitSlash (cleanPath p)) = names (splitSlash p) := by
  have key := fold_render (r := rootedPath p) (cs := cleanComps p) (S := []) (kept_cleanComps p)
  have h1 := clean_no_dotdot h
  unfold cleanPath at h1 ⊢
  rw [fold_names h1] at key
  have h2 : dotdot ∉ cleanComps p := by
    unfold cleanComps
    rw [List.mem_reverse]
    exact (fold_no_dotdot (by simp) h).1
  have e2 : (cleanComps p).foldl (pathStep true) [] = (splitSlash p).foldl (pathStep true) [] := by
    unfold cleanComps
    exact clean_fold (r := rootedPath p) (S := []) _ _ (fun _ => rfl) (by simp [Kept]) (fun c hc => splitSlash_mem hc)
  rw [e2, fold_names h] at key
  simpa using key

theorem names_dir {p : Bytes} (h : dotdot ∉ splitSlash p) :
    ∃ l, names (splitSlash p) = names (splitSlash (dirPath p)) ++ l ∧ l.length ≤ 1 := by
  unfold dirPath
  rcases dirPart_cases p with ⟨hs, e⟩ | ⟨a, b, rfl, hb, e⟩
  · rw [e, splitSlash_noslash hs]
    have : names (splitSlash (cleanPath [])) = [] := by decide
    rw [this]
    exact ⟨names [p], rfl, List.length_filter_le _ _⟩
  · rw [e]
    rw [splitSlash_append] at h ⊢
    simp only [List.mem_append, not_or] at h
    rw [names_clean (by rw [splitSlash_append]; simp only [List.mem_append, not_or]; exact ⟨h.1, by decide⟩),
      splitSlash_append, names_append, names_append]
    have : names (splitSlash []) = [] := by decide
    rw [this, List.append_nil, splitSlash_noslash hb]
    exact ⟨names [b], rfl, List.length_filter_le _ _⟩

end Verif.Proofs.FilePath
