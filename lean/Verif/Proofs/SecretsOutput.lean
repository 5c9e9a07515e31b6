import Verif.Model.SecretsOutput
import Verif.Spec.SecretsOutput
import Verif.Proofs.Secrets
/-! What cmd/secrets prints: lemmas. -/

namespace Verif.Proofs.SecretsOutput
open Verif Verif.Go Verif.Model.Util Verif.Model.SecretStore Verif.Model.Secrets Verif.Model.SecretsOutput
open Verif.Spec.SecretStore Verif.Spec.Secrets Verif.Spec.SecretsOutput Verif.Proofs.SecretStore Verif.Proofs.Secrets

variable (C : Crypto) (J : Json) (ord : Map (Option SecretRecord) → List Bytes) (e : Env)

theorem load_ok {w : World} {path pass : Bytes} {mode : Int} {s : SecretStore} {rest : List (Option Bytes)} (hd : path ≠ dash)
    (ha : w.term.answers = some pass :: rest) (ho : Opens C J w.fs path pass mode s) :
    loadStore C J w path mode = .ok (some s, { w with term := { w.term with answers := rest } }) := by
  obtain ⟨b, hb, hu⟩ := ho
  have hex : ({ w with term := { w.term with answers := rest } } : World).exist path = true := by simp [World.exist, hb]
  have hrd : ({ w with term := { w.term with answers := rest } } : World).readFile path = some b := by
    simp [World.readFile, hd, hb]
  unfold loadStore Term.read
  simp only [ha, hex, if_true, hrd, hu, Res.ok_bind, Res.pure_eq]

theorem has_of_lookup {s : SecretStore} {k : Bytes} {r : SecretRecord} (h : lookup s k = some r) : s.has k = true := by
  obtain ⟨m, hm, hk⟩ := lookup_get h
  simp [SecretStore.has, hm, Map.has, hk]

theorem tabbed_eq (l : List Bytes) : tabbed l = indented l := by
  unfold tabbed indented
  rw [List.flatMap_def]
  rfl

/-! ### Stores that differ only in secrets -/

theorem face_has {s s' : SecretStore} (h : face s = face s') (k : Bytes) : s.has k = s'.has k := by
  unfold face at h
  unfold SecretStore.has
  cases h1 : s.store <;> cases h2 : s'.store <;> simp only [h1, h2, Option.map_none, Option.map_some, reduceCtorEq, Option.some.injEq] at h
  · rfl
  · have := congrFun h k
    simp only [Map.has]
    rename_i m m'
    cases h3 : m k <;> cases h4 : m' k <;> simp_all

/-- Both pointers can be followed, and lead to similar records, or neither. -/
theorem face_fetch {s s' : SecretStore} (h : face s = face s') (k : Bytes) :
    (fetch s k = .panic ∧ fetch s' k = .panic) ∨ ∃ r r', fetch s k = .ok r ∧ fetch s' k = .ok r' ∧ recordFace r = recordFace r' := by
  unfold face at h
  unfold fetch
  cases h1 : s.store <;> cases h2 : s'.store <;> simp only [h1, h2, Option.map_none, Option.map_some, reduceCtorEq, Option.some.injEq] at h
  · exact Or.inl ⟨rfl, rfl⟩
  · rename_i m m'
    have := congrFun h k
    dsimp only
    cases h3 : m k with
    | none =>
      cases h4 : m' k with
      | none => exact Or.inl ⟨rfl, rfl⟩
      | some v => simp [h3, h4] at this
    | some u =>
      cases h4 : m' k with
      | none => simp [h3, h4] at this
      | some v =>
        simp only [h3, h4, Option.map_some, Option.some.injEq] at this
        cases u <;> cases v <;> simp only [Option.map_none, Option.map_some, reduceCtorEq, Option.some.injEq] at this
        · exact Or.inl ⟨rfl, rfl⟩
        · exact Or.inr ⟨_, _, rfl, rfl, this⟩

theorem face_set {m m' : Map (Option SecretRecord)} (h : (fun k => (m k).map (Option.map recordFace)) = fun k => (m' k).map (Option.map recordFace))
    (k : Bytes) {r r' : Option SecretRecord} (hr : r.map recordFace = r'.map recordFace) :
    (fun q => (m.set k r q).map (Option.map recordFace)) = fun q => (m'.set k r' q).map (Option.map recordFace) := by
  funext q
  by_cases hq : q = k
  · subst hq; simp [hr]
  · rw [Map.set_other _ _ hq, Map.set_other _ _ hq]; exact congrFun h q

theorem face_assign {s s' : SecretStore} (h : face s = face s') (k : Bytes) {r r' : SecretRecord} (hr : recordFace r = recordFace r') :
    (assign s k r = .panic ∧ assign s' k r' = .panic) ∨ ∃ t t', assign s k r = .ok t ∧ assign s' k r' = .ok t' ∧ face t = face t' := by
  unfold face at h
  unfold assign
  cases h1 : s.store <;> cases h2 : s'.store <;> simp only [h1, h2, Option.map_none, Option.map_some, reduceCtorEq, Option.some.injEq] at h
  · exact Or.inl ⟨rfl, rfl⟩
  · exact Or.inr ⟨_, _, rfl, rfl, congrArg some (face_set h k (by simp [hr]))⟩

theorem recordFace_upd {r r' : SecretRecord} (h : recordFace r = recordFace r') (p p' : Bytes) (t : BitVec 64) :
    recordFace { r with secret := p, timestamp := t } = recordFace { r' with secret := p', timestamp := t } := by
  simp only [recordFace, Prod.mk.injEq] at h ⊢
  exact ⟨h.1, trivial, h.2.2⟩

theorem recordFace_keys {r r' : SecretRecord} (h : recordFace r = recordFace r') (j : Bytes) :
    ((r.metadata.getD Map.empty) j).isSome = ((r'.metadata.getD Map.empty) j).isSome := by
  simp only [recordFace, Prod.mk.injEq] at h
  exact congrFun h.2.2 j

theorem editMetaText_face {w w' : World} (hw : w.term.answers = w'.term.answers) {s s' : SecretStore} (h : face s = face s') (k : Bytes) :
    editMetaText w s k = editMetaText w' s' k := by
  unfold editMetaText
  rcases face_fetch h k with ⟨h1, h2⟩ | ⟨r, r', h1, h2, -⟩ <;> rw [h1, h2]
  dsimp only
  rw [hw]

/-- Adding an entry goes the same way for both. -/
theorem addPlain_face {w w' : World} (hw : w.term = w'.term) {s s' : SecretStore} (h : face s = face s') (k : Bytes) (ow : Bool) :
    (∃ t t' v v', addPlain w s k ow = .ok (true, t, v) ∧ addPlain w' s' k ow = .ok (true, t', v') ∧ face t = face t' ∧ v.term = v'.term) ∨
    ((∀ t v, addPlain w s k ow ≠ .ok (true, t, v)) ∧ ∀ t v, addPlain w' s' k ow ≠ .ok (true, t, v)) := by
  unfold addPlain
  simp only [← face_has h k, ← hw]
  by_cases hc : (s.has k && !ow) = true
  · rw [if_pos hc, if_pos hc]
    exact Or.inr ⟨by simp, by simp⟩
  rw [if_neg hc, if_neg hc]
  rcases hr : w.term.read with ⟨pw, t⟩
  dsimp only
  cases pw with
  | none => exact Or.inr ⟨by simp, by simp⟩
  | some pw =>
    dsimp only
    by_cases h0 : pw.length = 0
    · rw [if_pos h0, if_pos h0]; exact Or.inr ⟨by simp, by simp⟩
    rw [if_neg h0, if_neg h0]
    have key : ∀ r r' : SecretRecord, recordFace r = recordFace r' → ∀ (u u' : World), u.term = u'.term →
        (∃ x x' v v', (do let ps ← assign s k { r with secret := pw, timestamp := t.now.1 }; pure (true, ps, u) : Res (Bool × SecretStore × World)) = .ok (true, x, v) ∧
          (do let ps ← assign s' k { r' with secret := pw, timestamp := t.now.1 }; pure (true, ps, u') : Res (Bool × SecretStore × World)) = .ok (true, x', v') ∧
          face x = face x' ∧ v.term = v'.term) ∨
        ((∀ x v, (do let ps ← assign s k { r with secret := pw, timestamp := t.now.1 }; pure (true, ps, u) : Res (Bool × SecretStore × World)) ≠ .ok (true, x, v)) ∧
          ∀ x v, (do let ps ← assign s' k { r' with secret := pw, timestamp := t.now.1 }; pure (true, ps, u') : Res (Bool × SecretStore × World)) ≠ .ok (true, x, v)) := by
      intro r r' hr u u' hu
      rcases face_assign h k (recordFace_upd hr pw pw t.now.1) with ⟨a1, a2⟩ | ⟨x, x', a1, a2, a3⟩ <;> rw [a1, a2]
      · exact Or.inr ⟨by simp, by simp⟩
      · exact Or.inl ⟨x, x', u, u', rfl, rfl, a3, hu⟩
    by_cases he : s.has k = true
    · simp only [he, if_true]
      rcases face_fetch h k with ⟨a1, a2⟩ | ⟨r, r', a1, a2, a3⟩ <;> rw [a1, a2]
      · exact Or.inr ⟨by simp, by simp⟩
      · exact key r r' a3 _ _ rfl
    · simp only [he, if_false]
      exact key _ _ rfl _ _ rfl

theorem addText_face {w w' : World} (hw : w.term = w'.term) {s s' : SecretStore} (h : face s = face s') (cfg : Config) (k : Bytes) :
    addText w s cfg k = addText w' s' cfg k := by
  unfold addText
  by_cases hm : cfg.withMeta = true
  · rw [if_pos hm, if_pos hm, ← face_has h k]
    by_cases hh : s.has k = true
    · rw [if_pos hh, if_pos hh]; exact editMetaText_face (by rw [hw]) h k
    · rw [if_neg hh, if_neg hh]
      rcases addPlain_face hw h k cfg.overwrite with ⟨t, t', v, v', a1, a2, a3, a4⟩ | ⟨a1, a2⟩
      · rw [a1, a2]; exact editMetaText_face (by rw [a4]) a3 k
      · split
        · rename_i x; exact absurd x (a1 _ _)
        · first
            | rfl
            | (split
               · rename_i x; exact absurd x (a2 _ _)
               · rfl)
  · rw [if_neg hm, if_neg hm]

theorem erase_keys {m m' : Map Bytes} (h : ∀ j, (m j).isSome = (m' j).isSome) (k j : Bytes) : ((m.erase k) j).isSome = ((m'.erase k) j).isSome := by
  unfold Map.erase
  split
  · rfl
  · exact h j

theorem removeMetaLoopText_face (he : ByKeys e.metaOrder) (n : Nat) : ∀ (m m' : Map Bytes) (as : List (Option Bytes)),
    (∀ j, (m j).isSome = (m' j).isSome) → removeMetaLoopText e n m as = removeMetaLoopText e n m' as := by
  induction n with
  | zero => intros; rfl
  | succ n ih =>
    intro m m' as h
    unfold removeMetaLoopText
    rw [he m m' h]
    congr 1
    split
    · exact ih _ _ _ h
    · exact ih _ _ _ h
    · split
      · rfl
      · rw [ih _ _ _ (erase_keys h _)]

theorem removeText_face (he : ByKeys e.metaOrder) {w w' : World} (hw : w.term = w'.term) {s s' : SecretStore} (h : face s = face s') (n : Nat) (cfg : Config) (k : Bytes) :
    removeText e n w s cfg k = removeText e n w' s' cfg k := by
  unfold removeText
  rw [← face_has h k]
  split
  · rfl
  · split
    · rcases face_fetch h k with ⟨h1, h2⟩ | ⟨r, r', h1, h2, h3⟩ <;> rw [h1, h2]
      dsimp only
      rw [hw]
      exact removeMetaLoopText_face e he n _ _ _ (recordFace_keys h3)
    · rfl

theorem multiLoopText_face (ow : Bool) (n : Nat) : ∀ (as : List (Option Bytes)) (ck : Nat → BitVec 64) (s s' : SecretStore), as.length ≤ n →
    face s = face s' → multiLoopText ow as ck s = multiLoopText ow as ck s' := by
  induction n with
  | zero =>
    intro as ck s s' hn h
    cases as with
    | nil => rfl
    | cons a as => simp at hn
  | succ n ih =>
    intro as ck s s' hn h
    match as with
    | [] => rfl
    | none :: as => rfl
    | some name :: as =>
      unfold multiLoopText
      rw [← face_has h name]
      congr 1
      split
      · rfl
      · split
        · exact ih _ _ _ _ (by simp at hn; omega) h
        · match as with
          | [] => rfl
          | none :: as => rfl
          | some pw :: as =>
            dsimp only
            split
            · exact ih _ _ _ _ (by simp at hn; omega) h
            · have key : ∀ r r' : SecretRecord, recordFace r = recordFace r' →
                  (match assign s name { r with secret := pw, timestamp := ck 0 } with | .panic => [] | .ok ps => multiLoopText ow as (fun n => ck (n + 1)) ps) =
                  (match assign s' name { r' with secret := pw, timestamp := ck 0 } with | .panic => [] | .ok ps => multiLoopText ow as (fun n => ck (n + 1)) ps) := by
                intro r r' hr
                rcases face_assign h name (recordFace_upd hr pw pw (ck 0)) with ⟨a1, a2⟩ | ⟨x, x', a1, a2, a3⟩ <;> rw [a1, a2]
                exact ih _ _ _ _ (by simp at hn; omega) a3
              by_cases hh : s.has name = true
              · simp only [hh, if_true]
                rcases face_fetch h name with ⟨a1, a2⟩ | ⟨r, r', a1, a2, a3⟩ <;> rw [a1, a2]
                · rfl
                · exact key r r' a3
              · simp only [hh, if_false]
                exact key _ _ rfl

/-- The part of a store that the merge loop changes, with the secrets taken out. -/
def mapFace (a : Option (Map (Option SecretRecord))) : Option (Bytes → Option (Option (Bytes × BitVec 64 × (Bytes → Bool)))) :=
  a.map (fun m k => (m k).map (Option.map recordFace))

theorem mergeRecord_face {x x' y y' : Option SecretRecord} (hx : x.map recordFace = x'.map recordFace) (hy : y.map recordFace = y'.map recordFace) :
    (mergeRecord x y = .panic ∧ mergeRecord x' y' = .panic) ∨
    ∃ z z' g, mergeRecord x y = .ok (z, g) ∧ mergeRecord x' y' = .ok (z', g) ∧ z.map recordFace = z'.map recordFace := by
  cases x <;> cases x' <;> simp only [Option.map_none, Option.map_some, reduceCtorEq] at hx
  · cases y <;> cases y' <;> simp only [Option.map_none, Option.map_some, reduceCtorEq] at hy <;> exact Or.inl ⟨rfl, rfl⟩
  · cases y <;> cases y' <;> simp only [Option.map_none, Option.map_some, reduceCtorEq] at hy
    · exact Or.inl ⟨rfl, rfl⟩
    · rename_i a a' b b'
      have ha : a.timestamp = a'.timestamp := by
        simp only [Option.some.injEq, recordFace, Prod.mk.injEq] at hx; exact hx.2.1
      have hb : b.timestamp = b'.timestamp := by
        simp only [Option.some.injEq, recordFace, Prod.mk.injEq] at hy; exact hy.2.1
      unfold mergeRecord
      dsimp only
      rw [← ha, ← hb]
      split
      · exact Or.inr ⟨_, _, _, rfl, rfl, by simpa using hx⟩
      · exact Or.inr ⟨_, _, _, rfl, rfl, by simpa using hy⟩

theorem mergeStep_face {b b' : Map (Option SecretRecord)} (hb : mapFace (some b) = mapFace (some b'))
    {a a' : Option (Map (Option SecretRecord))} (h : mapFace a = mapFace a') (list : List Bytes) (k : Bytes) :
    (mergeStep b (a, list) k = .panic ∧ mergeStep b' (a', list) k = .panic) ∨
    ∃ x x' l, mergeStep b (a, list) k = .ok (x, l) ∧ mergeStep b' (a', list) k = .ok (x', l) ∧ mapFace x = mapFace x' := by
  unfold mergeStep
  have hk := congrFun (Option.some.inj hb) k
  cases h1 : b k <;> cases h2 : b' k <;> simp only [h1, h2, Option.map_none, Option.map_some, reduceCtorEq] at hk
  · exact Or.inr ⟨a, a', list, rfl, rfl, h⟩
  rename_i v v'
  have hv := Option.some.inj hk
  cases a <;> cases a' <;> simp only [mapFace, Option.map_none, Option.map_some, reduceCtorEq] at h
  · exact Or.inl ⟨rfl, rfl⟩
  rename_i m m'
  have hm' := Option.some.inj h
  have hm := congrFun hm' k
  dsimp only
  have fin : ∀ (z z' : Option SecretRecord) (g : Bool), z.map recordFace = z'.map recordFace →
      ((if g = true then (match z with | none => .panic | some r => pure (some (m.set k z), list ++ [r.label])) else pure (some (m.set k z), list) : Res (Option (Map (Option SecretRecord)) × List Bytes)) = .panic ∧
       (if g = true then (match z' with | none => .panic | some r => pure (some (m'.set k z'), list ++ [r.label])) else pure (some (m'.set k z'), list) : Res (Option (Map (Option SecretRecord)) × List Bytes)) = .panic) ∨
      ∃ x x' l, (if g = true then (match z with | none => .panic | some r => pure (some (m.set k z), list ++ [r.label])) else pure (some (m.set k z), list) : Res (Option (Map (Option SecretRecord)) × List Bytes)) = .ok (x, l) ∧
       (if g = true then (match z' with | none => .panic | some r => pure (some (m'.set k z'), list ++ [r.label])) else pure (some (m'.set k z'), list) : Res (Option (Map (Option SecretRecord)) × List Bytes)) = .ok (x', l) ∧ mapFace x = mapFace x' := by
    intro z z' g hz
    have hs : mapFace (some (m.set k z)) = mapFace (some (m'.set k z')) := congrArg some (face_set hm' k hz)
    cases g with
    | false => exact Or.inr ⟨_, _, _, rfl, rfl, hs⟩
    | true =>
      cases z <;> cases z' <;> simp only [Option.map_none, Option.map_some, reduceCtorEq] at hz
      · exact Or.inl ⟨rfl, rfl⟩
      · rename_i r r'
        have hl : r.label = r'.label := by
          simp only [Option.some.injEq, recordFace, Prod.mk.injEq] at hz; exact hz.1
        exact Or.inr ⟨_, _, _, rfl, by rw [hl]; rfl, hs⟩
  cases h3 : m k <;> cases h4 : m' k <;> simp only [h3, h4, Option.map_none, Option.map_some, reduceCtorEq] at hm
  · exact fin v v' true hv
  · rcases mergeRecord_face (Option.some.inj hm) hv with ⟨a1, a2⟩ | ⟨z, z', g, a1, a2, a3⟩
    · dsimp only; rw [a1, a2]; exact Or.inl ⟨rfl, rfl⟩
    · dsimp only; rw [a1, a2]; exact fin z z' g a3

theorem mergeLoop_face {b b' : Map (Option SecretRecord)} (hb : mapFace (some b) = mapFace (some b')) (order : List Bytes) :
    ∀ (a a' : Option (Map (Option SecretRecord))) (list : List Bytes), mapFace a = mapFace a' →
    (mergeLoop b (a, list) order = .panic ∧ mergeLoop b' (a', list) order = .panic) ∨
    ∃ x x' l, mergeLoop b (a, list) order = .ok (x, l) ∧ mergeLoop b' (a', list) order = .ok (x', l) := by
  induction order with
  | nil => intro a a' list _; exact Or.inr ⟨a, a', list, rfl, rfl⟩
  | cons k ks ih =>
    intro a a' list h
    unfold mergeLoop
    rcases mergeStep_face hb h list k with ⟨h1, h2⟩ | ⟨x, x', l, h1, h2, h3⟩ <;> rw [h1, h2]
    · exact Or.inl ⟨rfl, rfl⟩
    · exact ih x x' l h3

theorem face_store {s s' : SecretStore} (h : face s = face s') : mapFace (some (s.store.getD Map.empty)) = mapFace (some (s'.store.getD Map.empty)) := by
  unfold face at h
  cases h1 : s.store <;> cases h2 : s'.store <;> simp only [h1, h2, Option.map_none, Option.map_some, reduceCtorEq] at h
  · rfl
  · exact h

theorem face_keys {s s' : SecretStore} (h : face s = face s') (k : Bytes) :
    ((s.store.getD Map.empty) k).isSome = ((s'.store.getD Map.empty) k).isSome := by
  have := congrFun (Option.some.inj (face_store h)) k
  dsimp only at this
  have h2 := congrArg Option.isSome this
  simpa using h2

theorem merge_face {s s' o o' : SecretStore} (h : face s = face s') (ho : face o = face o') (order : List Bytes) (now : BitVec 64) :
    (match s.merge o order now with | .ok (_, l) => mergedText l | .panic => []) =
    (match s'.merge o' order now with | .ok (_, l) => mergedText l | .panic => []) := by
  unfold SecretStore.merge
  rcases mergeLoop_face (face_store ho) order s.store s'.store [] h with ⟨h1, h2⟩ | ⟨x, x', l, h1, h2⟩ <;> rw [h1, h2] <;> rfl

theorem seen_cases {a b : Res (Option SecretStore)} (h : seen a = seen b) :
    (a = .panic ∧ b = .panic) ∨ (a = .ok none ∧ b = .ok none) ∨
    ∃ s s', a = .ok (some s) ∧ b = .ok (some s') ∧ s.timestamp = s'.timestamp ∧ face s = face s' := by
  cases a <;> cases b <;> simp only [seen, reduceCtorEq, Option.some.injEq] at h
  · rename_i a b
    cases a <;> cases b <;> simp only [Option.map_none, Option.map_some, reduceCtorEq, Option.some.injEq, Prod.mk.injEq] at h
    · exact Or.inr (Or.inl ⟨rfl, rfl⟩)
    · exact Or.inr (Or.inr ⟨_, _, rfl, rfl, h.1, h.2⟩)
  · exact Or.inl ⟨rfl, rfl⟩

theorem read_mem {t t' : Term} {p : Bytes} (h : t.read = (some p, t')) : some p ∈ t.answers ∧ ∀ x ∈ t'.answers, x ∈ t.answers := by
  unfold Term.read at h
  split at h
  · simp at h
  · rename_i a as ha
    simp only [Prod.mk.injEq] at h
    obtain ⟨rfl, rfl⟩ := h
    rw [ha]
    exact ⟨by simp, fun x hx => List.mem_cons_of_mem _ hx⟩

theorem mergeText_alike (ho : ByKeys ord) {mode : Int} {w w' : World} (hw : Alike C J mode w w') {s s' : SecretStore} (h : face s = face s') (q : Bytes) :
    mergeText C J ord w s q mode = mergeText C J ord w' s' q mode := by
  unfold mergeText
  rw [← hw.1]
  rcases hr : w.term.read with ⟨pass, t⟩
  dsimp only
  cases pass with
  | none => rfl
  | some pass =>
    dsimp only
    have hf := hw.2.2 q pass (read_mem hr).1
    have e1 : ({ w with term := t } : World).readFile q = w.readFile q := rfl
    have e2 : ({ w' with term := t } : World).readFile q = w'.readFile q := rfl
    rw [e1, e2]
    cases h1 : w.readFile q <;> cases h2 : w'.readFile q <;> simp only [h1, h2, Option.map_none, Option.map_some, reduceCtorEq, Option.some.injEq] at hf
    · rfl
    · dsimp only
      rcases seen_cases hf with ⟨a1, a2⟩ | ⟨a1, a2⟩ | ⟨o, o', a1, a2, -, a3⟩ <;> rw [a1, a2]
      dsimp only
      rw [ho _ _ (face_keys a3)]
      exact merge_face h a3 _ _

/-- Loading goes the same way in both. -/
theorem load_alike {mode : Int} {w w' : World} (hw : Alike C J mode w w') (path : Bytes) :
    (∃ s s' v v', loadStore C J w path mode = .ok (some s, v) ∧ loadStore C J w' path mode = .ok (some s', v') ∧ face s = face s' ∧
      s.timestamp = s'.timestamp ∧ Alike C J mode v v') ∨
    ((∀ s v, loadStore C J w path mode ≠ .ok (some s, v)) ∧ ∀ s v, loadStore C J w' path mode ≠ .ok (some s, v)) := by
  unfold loadStore
  rw [← hw.1]
  rcases hr : w.term.read with ⟨pass, t⟩
  dsimp only
  cases pass with
  | none => exact Or.inr ⟨by simp, by simp⟩
  | some pass =>
    dsimp only
    have hx : ({ w with term := t } : World).exist path = ({ w' with term := t } : World).exist path := hw.2.1 path
    rw [← hx]
    split
    · have hf := hw.2.2 path pass (read_mem hr).1
      have e1 : ({ w with term := t } : World).readFile path = w.readFile path := rfl
      have e2 : ({ w' with term := t } : World).readFile path = w'.readFile path := rfl
      rw [e1, e2]
      cases h1 : w.readFile path <;> cases h2 : w'.readFile path <;> simp only [h1, h2, Option.map_none, Option.map_some, reduceCtorEq, Option.some.injEq] at hf
      · exact Or.inr ⟨by simp, by simp⟩
      · dsimp only
        rcases seen_cases hf with ⟨a1, a2⟩ | ⟨a1, a2⟩ | ⟨o, o', a1, a2, a4, a3⟩ <;> rw [a1, a2]
        · exact Or.inr ⟨by simp, by simp⟩
        · exact Or.inr ⟨by simp, by simp⟩
        · exact Or.inl ⟨o, o', _, _, rfl, rfl, a3, a4, rfl, hw.2.1, fun q p hp => hw.2.2 q p ((read_mem hr).2 _ hp)⟩
    · exact Or.inr ⟨by simp, by simp⟩

/-- The same with different passphrases. -/
theorem load_twins {mode : Int} {path : Bytes} {w w' : World} (hw : Twins C J mode path w w') :
    (∃ s s' v v', loadStore C J w path mode = .ok (some s, v) ∧ loadStore C J w' path mode = .ok (some s', v') ∧ face s = face s' ∧
      s.timestamp = s'.timestamp ∧ Alike C J mode v v') ∨
    ((∀ s v, loadStore C J w path mode ≠ .ok (some s, v)) ∧ ∀ s v, loadStore C J w' path mode ≠ .ok (some s, v)) := by
  obtain ⟨p, p', rest, h1, h2, -, h3, h4, h5, h6⟩ := hw
  unfold loadStore Term.read
  simp only [h1, h2]
  have hx : ({ w with term := { w.term with answers := rest } } : World).exist path = ({ w' with term := { w'.term with answers := rest } } : World).exist path := h4 path
  rw [← hx]
  split
  · have e1 : ({ w with term := { w.term with answers := rest } } : World).readFile path = w.readFile path := rfl
    have e2 : ({ w' with term := { w'.term with answers := rest } } : World).readFile path = w'.readFile path := rfl
    rw [e1, e2]
    cases g1 : w.readFile path <;> cases g2 : w'.readFile path <;> simp only [g1, g2, Option.map_none, Option.map_some, reduceCtorEq, Option.some.injEq] at h5
    · exact Or.inr ⟨by simp, by simp⟩
    · dsimp only
      rcases seen_cases h5 with ⟨a1, a2⟩ | ⟨a1, a2⟩ | ⟨o, o', a1, a2, a4, a3⟩ <;> rw [a1, a2]
      · exact Or.inr ⟨by simp, by simp⟩
      · exact Or.inr ⟨by simp, by simp⟩
      · exact Or.inl ⟨o, o', _, _, rfl, rfl, a3, a4, by simp [h3], h4, fun q r hr => h6 q r hr⟩
  · exact Or.inr ⟨by simp, by simp⟩

end Verif.Proofs.SecretsOutput
