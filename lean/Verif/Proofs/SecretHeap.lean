import Verif.Model.SecretHeap
import Verif.Proofs.SecretStore
/-! Lemmas about the memory model of the secret store. -/

namespace Verif.Proofs.SecretHeap
open Verif Verif.Go Verif.Model.SecretStore Verif.Model.SecretHeap Verif.Spec.SecretStore

/-- `h'` is `h` after wiping buffers among `P`, at least those in `Q`. -/
structure Wiped (P Q : Nat → Prop) (h h' : Heap) : Prop where
  recs : h'.recs = h.recs
  maps : h'.maps = h.maps
  next : h'.next = h.next
  out : ∀ b, ¬P b → h'.bufs b = h.bufs b
  zero : ∀ b, Q b → h'.bufs b = Model.Util.zero (h.bufs b)
  any : ∀ b, h'.bufs b = h.bufs b ∨ h'.bufs b = Model.Util.zero (h.bufs b)

theorem zero_zero (b : Bytes) : Model.Util.zero (Model.Util.zero b) = Model.Util.zero b := by
  simp [Model.Util.zero_eq]

theorem Wiped.refl (P : Nat → Prop) (h : Heap) : Wiped P (fun _ => False) h h :=
  ⟨rfl, rfl, rfl, fun _ _ => rfl, fun _ hb => hb.elim, fun _ => Or.inl rfl⟩

theorem Wiped.buf (h : Heap) (a : Nat) : Wiped (· = a) (· = a) h (h.zeroBuf a) := by
  refine ⟨rfl, rfl, rfl, ?_, ?_, ?_⟩
  · intro b hb; simp [Heap.zeroBuf, hb]
  · rintro b rfl; simp [Heap.zeroBuf]
  · intro b
    by_cases hb : b = a
    · subst hb; right; simp [Heap.zeroBuf]
    · left; simp [Heap.zeroBuf, hb]

theorem Wiped.trans {P Q P' Q' : Nat → Prop} {h1 h2 h3 : Heap} (a : Wiped P Q h1 h2) (b : Wiped P' Q' h2 h3) :
    Wiped (fun x => P x ∨ P' x) (fun x => Q x ∨ Q' x) h1 h3 := by
  refine ⟨b.recs.trans a.recs, b.maps.trans a.maps, b.next.trans a.next, ?_, ?_, ?_⟩
  · intro x hx
    rw [b.out x (fun h => hx (Or.inr h)), a.out x (fun h => hx (Or.inl h))]
  · rintro x (hx | hx)
    · rcases b.any x with h | h
      · rw [h, a.zero x hx]
      · rw [h, a.zero x hx, zero_zero]
    · rw [b.zero x hx]
      rcases a.any x with h | h
      · rw [h]
      · rw [h, zero_zero]
  · intro x
    rcases b.any x with h | h <;> rcases a.any x with h' | h' <;> rw [h, h']
    · exact Or.inl rfl
    · exact Or.inr rfl
    · exact Or.inr rfl
    · exact Or.inr (zero_zero _)

theorem Wiped.mono {P Q P' Q' : Nat → Prop} {h h' : Heap} (a : Wiped P Q h h') (hp : ∀ x, P x → P' x)
    (hq : ∀ x, Q' x → Q x) : Wiped P' Q' h h' :=
  ⟨a.recs, a.maps, a.next, fun b hb => a.out b (fun h => hb (hp b h)), fun b hb => a.zero b (hq b hb), a.any⟩

/-- A loop of wipes. -/
theorem Wiped.fold {α : Type} (f : Heap → α → Heap) (P : α → Nat → Prop) (h0 : Heap)
    (hf : ∀ h x, h.recs = h0.recs → h.maps = h0.maps → Wiped (P x) (P x) h (f h x)) (l : List α) (h : Heap)
    (e1 : h.recs = h0.recs) (e2 : h.maps = h0.maps) :
    Wiped (fun b => ∃ x ∈ l, P x b) (fun b => ∃ x ∈ l, P x b) h (l.foldl f h) := by
  induction l generalizing h with
  | nil => exact (Wiped.refl _ h).mono (fun _ h => h) (by simp)
  | cons x l ih =>
    have h1 := hf h x e1 e2
    have h2 := ih (f h x) (h1.recs.trans e1) (h1.maps.trans e2)
    exact (h1.trans h2).mono (by simp) (by simp)

theorem wiped_md (m : Nat) (keys : List Bytes) (h : Heap) (he : (h.maps m).Enumerates keys) :
    Wiped (fun b => ∃ k, h.maps m k = some b) (fun b => ∃ k, h.maps m k = some b) h
      (keys.foldl (fun h k => match h.maps m k with
        | none => h
        | some b => h.zeroBuf b) h) := by
  have := Wiped.fold (fun h k => match h.maps m k with
        | none => h
        | some b => h.zeroBuf b) (fun k b => h.maps m k = some b) h (by
      intro h' k e1 e2
      simp only [e2]
      cases hk : h.maps m k with
      | none => exact (Wiped.refl _ h').mono (fun _ h => h) (by simp)
      | some b => exact (Wiped.buf h' b).mono (by rintro x rfl; rfl) (by rintro x ⟨⟩; rfl)) keys h rfl rfl
  refine this.mono ?_ ?_
  · rintro b ⟨k, -, hk⟩; exact ⟨k, hk⟩
  · rintro b ⟨k, hk⟩; exact ⟨k, (he.2 k).mpr (by simp [hk]), hk⟩

theorem wiped_record (order : Nat → List Bytes) (a : Nat) (h : Heap)
    (he : ∀ m, (h.maps m).Enumerates (order m)) :
    Wiped (h.RecordHolds a) (h.RecordHolds a) h (h.zeroRecord order (some a)) := by
  unfold Heap.zeroRecord
  simp only
  have h1 := Wiped.buf h (h.recs a).secret
  cases hm : (h.recs a).metadata with
  | none =>
    refine h1.mono ?_ ?_
    · rintro x rfl; exact Or.inl rfl
    · rintro x (h2 | ⟨m, k, h2, -⟩)
      · exact h2
      · rw [hm] at h2; cases h2
  | some m =>
    have h2 := wiped_md m (order m) (h.zeroBuf (h.recs a).secret) (by rw [h1.maps]; exact he m)
    refine (h1.trans h2).mono ?_ ?_
    · rintro x (rfl | ⟨k, hk⟩)
      · exact Or.inl rfl
      · exact Or.inr ⟨m, k, hm, by rw [h1.maps] at hk; exact hk⟩
    · rintro x (h3 | ⟨m', k, h3, h4⟩)
      · exact Or.inl h3
      · rw [hm] at h3
        cases h3
        exact Or.inr ⟨k, by rw [h1.maps]; exact h4⟩

/-- `Zero` wipes exactly the buffers the store holds. -/
theorem wiped_store (h : Heap) (s : HStore) (keys : List Bytes) (order : Nat → List Bytes)
    (hk : ∀ m, s.store = some m → m.Enumerates keys) (he : ∀ m, (h.maps m).Enumerates (order m)) :
    Wiped (h.Holds s) (h.Holds s) h (h.zeroStore s keys order) := by
  have h1 : Wiped (fun b => ∃ m k a, s.store = some m ∧ m k = some (some a) ∧ h.RecordHolds a b)
      (fun b => ∃ m k a, s.store = some m ∧ m k = some (some a) ∧ h.RecordHolds a b) h
      (match s.store with
        | none => h
        | some m => keys.foldl (fun h k => match m k with
          | none => h
          | some r => h.zeroRecord order r) h) := by
    cases hm : s.store with
    | none => exact (Wiped.refl _ h).mono (fun _ h => h) (by simp)
    | some m =>
      have := Wiped.fold (fun h k => match m k with
          | none => h
          | some r => h.zeroRecord order r)
        (fun k b => ∃ a, m k = some (some a) ∧ h.RecordHolds a b) h (by
          intro h' k e1 e2
          cases hmk : m k with
          | none => exact (Wiped.refl _ h').mono (fun _ h => h) (by simp)
          | some r =>
            cases r with
            | none => exact (Wiped.refl _ h').mono (fun _ h => h) (by simp)
            | some a =>
              have hr := wiped_record order a h' (by rw [e2]; exact he)
              have hh : ∀ b, h'.RecordHolds a b ↔ h.RecordHolds a b := by
                intro b; unfold Heap.RecordHolds; rw [e1, e2]
              refine hr.mono ?_ ?_
              · intro x hx; exact ⟨a, rfl, (hh x).mp hx⟩
              · rintro x ⟨a', ⟨⟩, hx⟩; exact (hh x).mpr hx) keys h rfl rfl
      refine this.mono ?_ ?_
      · rintro b ⟨k, -, a, h1, h2⟩; exact ⟨m, k, a, rfl, h1, h2⟩
      · rintro b ⟨m', k, a, ⟨⟩, h1, h2⟩
        exact ⟨k, ((hk m hm).2 k).mpr (by simp [h1]), a, h1, h2⟩
  unfold Heap.zeroStore
  simp only
  cases hp : s.passphrase with
  | none =>
    refine h1.mono (fun x hx => Or.inr hx) ?_
    rintro x (hx | hx)
    · rw [hp] at hx; cases hx
    · exact hx
  | some p =>
    refine (h1.trans (Wiped.buf _ p)).mono ?_ ?_
    · rintro x (hx | rfl)
      · exact Or.inr hx
      · exact Or.inl hp
    · rintro x (hx | hx)
      · rw [hp] at hx; cases hx; exact Or.inr rfl
      · exact Or.inl hx

/-- A record none of whose buffers was wiped reads as before. -/
theorem record_out {P Q : Nat → Prop} {h h' : Heap} (w : Wiped P Q h h') (a : Nat)
    (ha : ∀ b, h.RecordHolds a b → ¬P b) : h'.record a = h.record a := by
  unfold Heap.record
  rw [w.recs, w.maps, w.out _ (ha _ (Or.inl rfl))]
  congr 1
  cases hm : (h.recs a).metadata with
  | none => rfl
  | some m =>
    simp only [Option.map_some, Option.some.injEq]
    funext k
    cases hk : h.maps m k with
    | none => rfl
    | some b =>
      simp only [Option.map_some, Option.some.injEq]
      exact w.out _ (ha b (Or.inr ⟨m, k, hm, hk⟩))

/-- A record all of whose buffers were wiped reads as its wiped self. -/
theorem record_zero {P Q : Nat → Prop} {h h' : Heap} (w : Wiped P Q h h') (a : Nat)
    (ha : ∀ b, h.RecordHolds a b → Q b) : h'.record a = (h.record a).zero := by
  unfold Heap.record SecretRecord.zero
  rw [w.recs, w.maps, w.zero _ (ha _ (Or.inl rfl))]
  simp only [SecretRecord.mk.injEq, true_and]
  cases hm : (h.recs a).metadata with
  | none => rfl
  | some m =>
    simp only [Option.map_some, Option.some.injEq]
    funext k
    cases hk : h.maps m k with
    | none => rfl
    | some b =>
      simp only [Option.map_some, Option.some.injEq]
      exact w.zero _ (ha b (Or.inr ⟨m, k, hm, hk⟩))

/-- Wiping a store, seen as values, is the value-level `Zero`. -/
theorem zeroStore_view (h : Heap) (s : HStore) (keys : List Bytes) (order : Nat → List Bytes)
    (hk : ∀ m, s.store = some m → m.Enumerates keys) (he : ∀ m, (h.maps m).Enumerates (order m)) :
    (h.zeroStore s keys order).view s = (h.view s).zero := by
  have w := wiped_store h s keys order hk he
  generalize h.zeroStore s keys order = h' at w
  unfold Heap.view SecretStore.zero
  simp only [SecretStore.mk.injEq, Fields.mk.injEq, true_and]
  constructor
  · cases hm : s.store with
    | none => rfl
    | some m =>
      simp only [Option.map_some, Option.some.injEq]
      funext k
      cases hmk : m k with
      | none => rfl
      | some v =>
        cases v with
        | none => rfl
        | some a =>
          simp only [Option.map_some, Option.some.injEq]
          exact record_zero w a (fun b hb => Or.inr ⟨m, k, a, hm, hmk, hb⟩)
  · cases hp : s.passphrase with
    | none => rfl
    | some p =>
      simp only [Option.map_some, Option.some.injEq]
      exact w.zero p (Or.inl hp)

/-! ### Merge -/

/-- Reading through the map of pointers. -/
def viewMap (h : Heap) (m : Map (Option Nat)) : Map (Option SecretRecord) :=
  fun k => (m k).map (Option.map h.record)

theorem view_store {h : Heap} {s : HStore} {m : Map (Option Nat)} (hm : s.store = some m) :
    (h.view s).store = some (viewMap h m) := by
  simp only [Heap.view, hm, Option.map_some]; rfl

theorem viewMap_set (h : Heap) (m : Map (Option Nat)) (k : Bytes) (v : Option Nat) :
    viewMap h (m.set k v) = (viewMap h m).set k (v.map h.record) := by
  funext q
  by_cases hq : q = k
  · subst hq; simp [viewMap]
  · rw [Map.set_other _ _ hq]; simp only [viewMap]; rw [Map.set_other _ _ hq]

/-- The result of a merge step, read through the pointers. -/
def viewRes (h : Heap) : Res (Option (Map (Option Nat)) × List Bytes) →
    Res (Option (Map (Option SecretRecord)) × List Bytes)
  | .panic => .panic
  | .ok (m, l) => .ok (m.map (viewMap h), l)

theorem mergeStep_view (h : Heap) (other : Map (Option Nat)) (m : Option (Map (Option Nat)))
    (l : List Bytes) (k : Bytes) :
    mergeStep (viewMap h other) (m.map (viewMap h), l) k = viewRes h (hmergeStep h other (m, l) k) := by
  unfold mergeStep hmergeStep
  have e : ∀ q : Map (Option Nat), viewMap h q k = (q k).map (Option.map h.record) := fun _ => rfl
  rw [e]
  cases hk : other k with
  | none => rfl
  | some v =>
    cases m with
    | none => rfl
    | some m =>
      simp only [Option.map_some, e]
      cases hmk : m k with
      | none =>
        cases v with
        | none => rfl
        | some b => simp [viewRes, viewMap_set, Heap.record]
      | some r =>
        cases r with
        | none => rfl
        | some a =>
          cases v with
          | none => rfl
          | some b =>
            simp only [Option.map_some, mergeRecord]
            have t : ∀ x, (h.record x).timestamp = (h.recs x).timestamp := fun _ => rfl
            rw [t, t]
            by_cases hle : (h.recs b).timestamp.toInt ≤ (h.recs a).timestamp.toInt
            · simp [hle, viewRes, viewMap_set]
            · simp [hle, viewRes, viewMap_set, Heap.record]

theorem mergeLoop_view (h : Heap) (other : Map (Option Nat)) (m : Option (Map (Option Nat)))
    (l : List Bytes) (order : List Bytes) :
    mergeLoop (viewMap h other) (m.map (viewMap h), l) order = viewRes h (hmergeLoop h other (m, l) order) := by
  induction order generalizing m l with
  | nil => rfl
  | cons k ks ih =>
    rw [mergeLoop, hmergeLoop, mergeStep_view]
    cases hmergeStep h other (m, l) k with
    | panic => rfl
    | ok st =>
      obtain ⟨m', l'⟩ := st
      simp only [viewRes, Res.ok_bind]
      exact ih m' l'

/-- Merging pointers, read as values, is merging values. -/
theorem merge_view (h : Heap) (s o : HStore) (order : List Bytes) (now : BitVec 64) :
    (h.view s).merge (h.view o) order now =
      match s.merge h o order now with
      | .panic => .panic
      | .ok (s', l) => .ok (h.view s', l) := by
  unfold SecretStore.merge HStore.merge
  have e1 : (h.view o).store.getD Map.empty = viewMap h (o.store.getD Map.empty) := by
    unfold Heap.view
    cases o.store <;> rfl
  have e2 : (h.view s).store = s.store.map (viewMap h) := rfl
  rw [e1, e2, mergeLoop_view]
  cases hmergeLoop h (o.store.getD Map.empty) (s.store, []) order with
  | panic => rfl
  | ok st => rfl

/-- Which pointer the merged store has under `k`. -/
def pick (h : Heap) (a b : Option (Option Nat)) : Option (Option Nat) :=
  match a, b with
  | none, b => b
  | a, none => a
  | some (some x), some (some y) =>
    if (h.recs y).timestamp.toInt ≤ (h.recs x).timestamp.toInt then some (some x) else some (some y)
  | a, _ => a

theorem mergeStep_pick {h : Heap} {b a a' : Map (Option Nat)} {l l' : List Bytes} {k : Bytes}
    (hs : hmergeStep h b (some a, l) k = .ok (some a', l')) (hk : b k ≠ none) :
    a' k = pick h (a k) (b k) ∧ ∀ q, q ≠ k → a' q = a q := by
  unfold hmergeStep at hs
  cases hbk : b k with
  | none => exact absurd hbk hk
  | some v =>
    simp only [hbk] at hs
    cases hak : a k with
    | none =>
      cases v with
      | none => simp [hak] at hs
      | some y =>
        simp [hak] at hs
        rw [← hs.1]
        exact ⟨by simp [pick], fun q hq => Map.set_other _ _ hq⟩
    | some r =>
      cases r with
      | none => simp [hak] at hs
      | some x =>
        cases v with
        | none => simp [hak] at hs
        | some y =>
          by_cases hle : (h.recs y).timestamp.toInt ≤ (h.recs x).timestamp.toInt
          · simp [hak, hle] at hs
            rw [← hs.1]
            exact ⟨by simp [pick, hle], fun q hq => Map.set_other _ _ hq⟩
          · simp [hak, hle] at hs
            rw [← hs.1]
            exact ⟨by simp [pick, hle], fun q hq => Map.set_other _ _ hq⟩

theorem mergeStep_some {h : Heap} {b a : Map (Option Nat)} {l : List Bytes} {k : Bytes}
    {st : Option (Map (Option Nat)) × List Bytes} (hs : hmergeStep h b (some a, l) k = .ok st) :
    ∃ a', st.1 = some a' := by
  unfold hmergeStep at hs
  cases hbk : b k with
  | none => simp only [hbk] at hs; cases hs; exact ⟨a, rfl⟩
  | some v =>
    simp only [hbk] at hs
    cases hak : a k with
    | none =>
      cases v with
      | none => simp [hak] at hs
      | some y => simp [hak] at hs; exact ⟨_, by rw [← hs]⟩
    | some r =>
      cases r with
      | none => simp [hak] at hs
      | some x =>
        cases v with
        | none => simp [hak] at hs
        | some y =>
          by_cases hle : (h.recs y).timestamp.toInt ≤ (h.recs x).timestamp.toInt
          · simp [hak, hle] at hs; exact ⟨_, by rw [← hs]⟩
          · simp [hak, hle] at hs; exact ⟨_, by rw [← hs]⟩

theorem mergeLoop_pick {h : Heap} {b : Map (Option Nat)} (order : List Bytes) (hnd : order.Nodup)
    (hb : ∀ k ∈ order, b k ≠ none) {a a' : Map (Option Nat)} {l l' : List Bytes}
    (hl : hmergeLoop h b (some a, l) order = .ok (some a', l')) (q : Bytes) :
    a' q = if q ∈ order then pick h (a q) (b q) else a q := by
  induction order generalizing a l with
  | nil => cases hl; simp
  | cons k ks ih =>
    obtain ⟨h1, h2⟩ := List.nodup_cons.mp hnd
    rw [hmergeLoop, Res.bind_eq_ok] at hl
    obtain ⟨⟨m1, l1⟩, hs, hl⟩ := hl
    obtain ⟨a1, ha1⟩ := mergeStep_some hs
    simp only at ha1
    subst ha1
    obtain ⟨e1, e2⟩ := mergeStep_pick hs (hb k List.mem_cons_self)
    rw [ih h2 (fun q hq => hb q (List.mem_cons_of_mem _ hq)) hl]
    by_cases hq : q = k
    · subst hq; simp [h1, e1]
    · simp [hq, e2 q hq]

theorem merge_pick {h : Heap} {s o s' : HStore} {a b : Map (Option Nat)} {order l : List Bytes} {now : BitVec 64}
    (hs : s.store = some a) (ho : o.store = some b) (he : b.Enumerates order)
    (hm : s.merge h o order now = .ok (s', l)) :
    ∃ a', s'.store = some a' ∧ s'.passphrase = s.passphrase ∧ ∀ q, a' q = pick h (a q) (b q) := by
  unfold HStore.merge at hm
  rw [hs, ho, Res.bind_eq_ok] at hm
  obtain ⟨⟨m1, l1⟩, hl, hm⟩ := hm
  simp only [Res.pure_eq, Res.ok.injEq, Prod.mk.injEq] at hm
  obtain ⟨rfl, rfl⟩ := hm
  have : ∃ a', m1 = some a' := by
    have gen : ∀ (ks : List Bytes) (a : Map (Option Nat)) (l : List Bytes) st,
        hmergeLoop h b (some a, l) ks = .ok st → ∃ a', st.1 = some a' := by
      intro ks
      induction ks with
      | nil => intro a l st h; cases h; exact ⟨a, rfl⟩
      | cons k ks ih =>
        intro a l st hh
        rw [hmergeLoop, Res.bind_eq_ok] at hh
        obtain ⟨⟨m2, l2⟩, e1, e2⟩ := hh
        obtain ⟨a2, ha2⟩ := mergeStep_some e1
        simp only at ha2
        subst ha2
        exact ih a2 l2 st e2
    exact gen _ _ _ _ hl
  obtain ⟨a', rfl⟩ := this
  refine ⟨a', rfl, rfl, fun q => ?_⟩
  rw [mergeLoop_pick order he.1 (fun k hk => (he.2 k).mp hk) hl q]
  split
  · rfl
  · rename_i hq
    have hb : b q = none := Decidable.not_not.mp (fun h => hq ((he.2 q).mpr h))
    rw [hb]
    cases a q <;> rfl

end Verif.Proofs.SecretHeap
