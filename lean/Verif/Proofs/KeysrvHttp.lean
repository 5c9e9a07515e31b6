import Verif.Model.KeysrvHttp
import Verif.Proofs.FilePath
import Verif.Proofs.TotpUrl
/-! Lemmas about the routing of requests in exp/keysrv. -/

namespace Verif.Proofs.KeysrvHttp
open Verif Verif.Go Verif.Model.Keysrv Verif.Proofs.FilePath Verif.Proofs.TotpUrl
open Verif.Spec.TotpUrl (pctDecode)

theorem pathUnescape_eq (b : Bytes) : pathUnescape b = pctDecode b := by
  induction b using pathUnescape.induct with
  | case1 => rfl
  | case2 => simp [pathUnescape, pctDecode]
  | case3 a h => simp [pathUnescape, pctDecode, h, Ne.symm h]
  | case4 a b h =>
    rw [pathUnescape, if_pos h, pctDecode]
    · rw [if_pos]
      rcases h with rfl | rfl <;> simp
    · simp
  | case5 a b h =>
    rw [pathUnescape, if_neg h, pctDecode]
    · rw [if_neg]
      simp only [List.mem_cons, List.not_mem_nil, or_false]
      exact fun e => h (e.imp Eq.symm Eq.symm)
    · simp
  | case6 b c r x y h1 h2 ih =>
    rw [pathUnescape, if_pos rfl, pctDecode, if_pos rfl, h1, h2, ← ih]
    cases pathUnescape r <;> rfl
  | case7 b c r h =>
    rw [pathUnescape, if_pos rfl, pctDecode, if_pos rfl]
    cases hb : hexVal b with
    | none => rfl
    | some x =>
      cases hc : hexVal c with
      | none => rfl
      | some y => exact absurd hc (h x y hb)
  | case8 a b c r h ih => rw [pathUnescape, if_neg h, pctDecode, if_neg h, ih]

/-- The names that a path keeps when it is cleaned. -/
structure Name (w : Bytes) : Prop where
  ne : w ≠ []
  noSlash : slash ∉ w
  notDot : w ≠ dot
  notDotdot : w ≠ dotdot

theorem Name.step {w : Bytes} (h : Name w) (r : Bool) (st : List Bytes) : pathStep r st w = w :: st := by
  unfold pathStep
  rw [if_neg (by exact fun e => e.elim h.ne h.notDot), if_neg h.notDotdot]

theorem split_two {w l : Bytes} (hw : slash ∉ w) (hl : slash ∉ l) : splitSlash (slash :: w ++ slash :: l) = [[], w, l] := by
  rw [splitSlash_append, splitSlash_cons, splitSlash_noslash hw, splitSlash_noslash hl]
  rfl

theorem comps_two {w l : Bytes} (hw : Name w) (hl : slash ∉ l) :
    cleanComps (slash :: w ++ slash :: l) = (pathStep true [w] l).reverse := by
  unfold cleanComps
  rw [split_two hw.noSlash hl]
  have : rootedPath (slash :: w ++ slash :: l) = true := by simp [rootedPath]
  rw [this]
  simp only [List.foldl_cons, List.foldl_nil]
  have h0 : pathStep true [] [] = [] := by simp [pathStep]
  rw [h0, hw.step]

theorem clean_two {w l : Bytes} (hw : Name w) (hl : slash ∉ l) :
    cleanPath (slash :: w ++ slash :: l) = slash :: joinSlash (pathStep true [w] l).reverse := by
  unfold cleanPath renderPath
  rw [comps_two hw hl]
  have : rootedPath (slash :: w ++ slash :: l) = true := by simp [rootedPath]
  rw [this, if_pos rfl]

theorem last_append {a b : Bytes} (h : b ≠ []) : (a ++ b).getLast? = b.getLast? := by
  rw [List.getLast?_append]
  cases hb : b.getLast? with
  | none => exact absurd (List.getLast?_eq_none_iff.mp hb) h
  | some x => rfl

theorem getLast_noslash {a l : Bytes} (hne : l ≠ []) (hl : slash ∉ l) : (a ++ l).getLast? ≠ some slash := by
  rw [last_append hne]
  intro h
  exact hl (List.mem_of_getLast? h)

theorem mux_two {w l : Bytes} (hw : Name w) (hl : slash ∉ l) (hne : l ≠ []) :
    muxClean (slash :: w ++ slash :: l) = slash :: joinSlash (pathStep true [w] l).reverse := by
  unfold muxClean
  rw [if_neg (by simp)]
  dsimp only
  rw [if_neg (show ¬ (slash :: w ++ slash :: l).head? ≠ some slash by simp)]
  rw [if_neg, clean_two hw hl]
  rintro ⟨h, -⟩
  rw [show slash :: w ++ slash :: l = (slash :: w ++ [slash]) ++ l by simp] at h
  exact getLast_noslash hne hl h

theorem mux_name {w l : Bytes} (hw : Name w) (hl : Name l) : muxClean (slash :: w ++ slash :: l) = slash :: w ++ slash :: l := by
  rw [mux_two hw hl.noSlash hl.ne, hl.step]
  rfl

theorem mux_fixed {w l : Bytes} (hw : Name w) (hl : slash ∉ l) (hne : l ≠ []) (h : muxClean (slash :: w ++ slash :: l) = slash :: w ++ slash :: l) :
    Name l := by
  refine ⟨hne, hl, ?_, ?_⟩
  · rintro rfl
    rw [mux_two hw hl hne] at h
    have := congrArg List.length h
    simp [pathStep, joinSlash] at this
  · rintro rfl
    rw [mux_two hw hl hne] at h
    have := congrArg List.length h
    have hd : w ≠ [46, 46] := hw.notDotdot
    simp [pathStep, joinSlash, hd] at this

theorem mux_dir {w : Bytes} (hw : Name w) : muxClean (slash :: w ++ [slash]) = slash :: w ++ [slash] := by
  unfold muxClean
  rw [if_neg (by simp)]
  dsimp only
  rw [if_neg (show ¬ (slash :: w ++ [slash]).head? ≠ some slash by simp)]
  have hc := clean_two hw (l := []) (by simp)
  have h0 : pathStep true [w] [] = [w] := by simp [pathStep]
  rw [h0] at hc
  rw [hc, if_pos]
  · rfl
  · refine ⟨last_append (a := slash :: w) (by simp), ?_⟩
    show slash :: w ≠ [slash]
    intro e
    cases e
    exact hw.ne rfl

theorem fold_kept {r : Bool} {cs st : List Bytes} (hk : ∀ c ∈ cs, Name c) : cs.foldl (pathStep r) st = cs.reverse ++ st := by
  induction cs generalizing st with
  | nil => rfl
  | cons c cs ih =>
    rw [List.foldl_cons, (hk c (by simp)).step, ih (fun x hx => hk x (by simp [hx]))]
    simp

theorem rooted_step {st : List Bytes} {c : Bytes} (hs : ∀ x ∈ st, Name x) (hc : slash ∉ c) : ∀ x ∈ pathStep true st c, Name x := by
  unfold pathStep
  split
  · exact hs
  · rename_i h1
    split
    · cases st with
      | nil => simp
      | cons t r =>
        dsimp only
        rw [if_neg (hs t (by simp)).notDotdot]
        exact fun x hx => hs x (by simp [hx])
    · rename_i h2
      intro x hx
      rcases List.mem_cons.mp hx with rfl | hx
      · exact ⟨fun e => h1 (.inl e), hc, fun e => h1 (.inr e), h2⟩
      · exact hs x hx

theorem rooted_names {cs st : List Bytes} (hs : ∀ x ∈ st, Name x) (hc : ∀ c ∈ cs, slash ∉ c) : ∀ x ∈ cs.foldl (pathStep true) st, Name x := by
  induction cs generalizing st with
  | nil => exact hs
  | cons c cs ih => exact ih (rooted_step hs (hc c (by simp))) (fun x hx => hc x (by simp [hx]))

theorem comps_names {p : Bytes} (hp : rootedPath p = true) : ∀ c ∈ cleanComps p, Name c := by
  intro c hc
  unfold cleanComps at hc
  rw [hp, List.mem_reverse] at hc
  exact rooted_names (by simp) (fun c h => splitSlash_mem h) c hc

theorem comps_text {cs : List Bytes} (hk : ∀ c ∈ cs, Name c) (t : Bytes) (ht : t = [] ∨ t = [slash] ∧ cs ≠ []) :
    cleanComps (slash :: joinSlash cs ++ t) = cs := by
  have hr : rootedPath (slash :: joinSlash cs ++ t) = true := by simp [rootedPath]
  have hf : (splitSlash (slash :: joinSlash cs)).foldl (pathStep true) [] = cs.reverse := by
    rw [splitSlash_cons, List.foldl_cons]
    have h0 : pathStep true [] [] = [] := by simp [pathStep]
    rw [h0]
    by_cases hne : cs = []
    · subst hne; exact h0
    · rw [splitSlash_join (fun c hc => (hk c hc).noSlash) hne, fold_kept hk, List.append_nil]
  unfold cleanComps
  rw [hr]
  rcases ht with rfl | ⟨rfl, -⟩
  · rw [List.append_nil, hf, List.reverse_reverse]
  · rw [splitSlash_append, List.foldl_append, hf]
    have : splitSlash [] = [[]] := rfl
    rw [this]
    simp [pathStep]

theorem join_last {cs : List Bytes} (hk : ∀ c ∈ cs, Name c) (hne : cs ≠ []) : (slash :: joinSlash cs).getLast? ≠ some slash := by
  induction cs with
  | nil => exact absurd rfl hne
  | cons c cs ih =>
    cases cs with
    | nil => exact getLast_noslash (a := [slash]) (hk c (by simp)).ne (hk c (by simp)).noSlash
    | cons d ds =>
      have := ih (fun x hx => hk x (by simp [hx])) (by simp)
      rw [joinSlash]
      · rw [show slash :: (c ++ slash :: joinSlash (d :: ds)) = (slash :: c) ++ (slash :: joinSlash (d :: ds)) by simp,
          last_append (by simp)]
        exact this
      · simp

theorem mux_head (p : Bytes) : (muxClean p).head? = some slash := by
  have h : ∀ q : Bytes, q.head? = some slash → (cleanPath q).head? = some slash := by
    intro q hq
    have := rooted_clean q
    simp only [rootedPath, hq, beq_self_eq_true] at this
    simpa using this
  have h' : ∀ q : Bytes, q.head? = some slash →
      (if q.getLast? = some slash ∧ cleanPath q ≠ [slash] then cleanPath q ++ [slash] else cleanPath q).head? = some slash := by
    intro q hq
    split
    · rw [List.head?_append, h q hq]
      rfl
    · exact h q hq
  unfold muxClean
  split
  · rfl
  · dsimp only
    apply h'
    split
    · rfl
    · rename_i e
      exact Classical.not_not.mp e

/-- Cleaning twice is cleaning once. -/
theorem mux_idem (p : Bytes) : muxClean (muxClean p) = muxClean p := by
  have key : ∀ q : Bytes, q.head? = some slash →
      muxClean (if q.getLast? = some slash ∧ cleanPath q ≠ [slash] then cleanPath q ++ [slash] else cleanPath q) =
        (if q.getLast? = some slash ∧ cleanPath q ≠ [slash] then cleanPath q ++ [slash] else cleanPath q) := by
    intro q hq
    have hr : rootedPath q = true := by simp [rootedPath, hq]
    have hn := comps_names hr
    have hc : cleanPath q = slash :: joinSlash (cleanComps q) := by unfold cleanPath renderPath; rw [hr, if_pos rfl]
    rw [hc]
    generalize cleanComps q = cs at hn
    split
    · rename_i h
      have hne : cs ≠ [] := by rintro rfl; exact h.2 rfl
      have hcc := comps_text hn [slash] (.inr ⟨rfl, hne⟩)
      have hr2 : rootedPath (slash :: joinSlash cs ++ [slash]) = true := by simp [rootedPath]
      have hcl : cleanPath (slash :: joinSlash cs ++ [slash]) = slash :: joinSlash cs := by
        unfold cleanPath renderPath; rw [hr2, if_pos rfl, hcc]
      unfold muxClean
      rw [if_neg (by simp)]
      dsimp only
      rw [if_neg (show ¬ (slash :: joinSlash cs ++ [slash]).head? ≠ some slash by simp), hcl, if_pos]
      exact ⟨last_append (a := slash :: joinSlash cs) (by simp), h.2⟩
    · have hcc := comps_text hn [] (.inl rfl)
      rw [List.append_nil] at hcc
      have hr2 : rootedPath (slash :: joinSlash cs) = true := by simp [rootedPath]
      have hcl : cleanPath (slash :: joinSlash cs) = slash :: joinSlash cs := by
        unfold cleanPath renderPath; rw [hr2, if_pos rfl, hcc]
      unfold muxClean
      rw [if_neg (by simp)]
      dsimp only
      rw [if_neg (show ¬ (slash :: joinSlash cs).head? ≠ some slash by simp), hcl, if_neg]
      rintro ⟨h1, h2⟩
      refine join_last hn ?_ h1
      rintro rfl
      exact h2 rfl
  by_cases hp : p = []
  · subst hp; decide
  · have : muxClean p = (if (if p.head? ≠ some slash then slash :: p else p).getLast? = some slash ∧ cleanPath (if p.head? ≠ some slash then slash :: p else p) ≠ [slash]
        then cleanPath (if p.head? ≠ some slash then slash :: p else p) ++ [slash] else cleanPath (if p.head? ≠ some slash then slash :: p else p)) := by
      rw [muxClean, if_neg hp]
    rw [this]
    apply key
    split
    · rfl
    · rename_i e
      exact Classical.not_not.mp e

theorem routeLabel_iff {pre p l : Bytes} : routeLabel pre p = some l ↔ p = pre ++ l ∧ l ≠ [] ∧ slash ∉ l := by
  unfold routeLabel
  constructor
  · intro h
    split at h
    · rename_i hp
      dsimp only at h
      split at h
      · cases h
      · rename_i hl
        cases h
        obtain ⟨t, rfl⟩ := List.isPrefixOf_iff_prefix.mp hp
        rw [List.drop_left] at *
        exact ⟨rfl, fun e => hl (.inl e), fun e => hl (.inr e)⟩
    · cases h
  · rintro ⟨rfl, h1, h2⟩
    rw [if_pos (List.isPrefixOf_iff_prefix.mpr (List.prefix_append _ _))]
    simp [h1, h2]

theorem route_other {pre p : Bytes} (h : pre.isPrefixOf p = false) : routeLabel pre p = none := by
  unfold routeLabel
  rw [h]
  rfl

theorem name_public : Name (ascii "public") := by constructor <;> decide
theorem name_upload : Name (ascii "upload") := by constructor <;> decide
theorem name_fingerprint : Name (ascii "fingerprint") := by constructor <;> decide

theorem public_eq : ascii "/public/" = slash :: ascii "public" ++ [slash] := by decide
theorem upload_eq : ascii "/upload/" = slash :: ascii "upload" ++ [slash] := by decide
theorem fingerprint_eq : ascii "/fingerprint/" = slash :: ascii "fingerprint" ++ [slash] := by decide

end Verif.Proofs.KeysrvHttp
