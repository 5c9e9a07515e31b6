import Verif.Proofs.SecretHeap
import Verif.Props.SecretStore
/-! Property C53: who shares memory with a secret store (common/store/secretstore.go). -/

namespace Verif.Props.SecretHeap
open Verif Verif.Go Verif.Model.SecretStore Verif.Model.SecretHeap Verif.Spec.SecretStore
open Verif.Proofs.SecretHeap Verif.Proofs.SecretStore

/-! ### The memory model and the value model agree -/

/-- Merging, wiping and adding do in memory what the value model says (C46, C48, C51 speak of
the same program). -/
theorem C53_refines (h : Heap) (s : HStore) :
    (∀ o order now, (h.view s).merge (h.view o) order now = match s.merge h o order now with
      | .panic => .panic
      | .ok (s', l) => .ok (h.view s', l)) ∧
    (∀ keys order, (∀ m, s.store = some m → m.Enumerates keys) → (∀ m, (h.maps m).Enumerates (order m)) →
      (h.zeroStore s keys order).view s = (h.view s).zero) ∧
    (∀ name secret md now, (∀ m k a, s.store = some m → m k = some (some a) → a < h.next) →
      ∃ h' s' b, s.addRecord h name secret md now = (h', s', b) ∧
        (h.view s).addRecord name (h.bufs secret) (md.map (fun m k => (h.maps m k).map h.bufs)) now =
          (h'.view s', b)) := by
  refine ⟨fun o order now => merge_view h s o order now, fun keys order => zeroStore_view h s keys order, ?_⟩
  intro name secret md now hlt
  have hval : (h.view s).valid = s.valid := by
    unfold SecretStore.valid HStore.valid Heap.view
    simp only [Option.isNone_map]
  cases hv : s.valid with
  | false =>
    refine ⟨h, s, false, by simp [HStore.addRecord, hv], ?_⟩
    simp [SecretStore.addRecord, hval, hv]
  | true =>
    cases hm : s.store with
    | none => simp [HStore.valid, hm] at hv
    | some m =>
      have hvs : (h.view s).store = some (viewMap h m) := view_store hm
      have hhas : (h.view s).has name = m.has name := by
        simp [SecretStore.has, hvs, Map.has, viewMap]
      cases hn : m.has name with
      | true =>
        refine ⟨h, s, false, by simp [HStore.addRecord, hv, hm, hn], ?_⟩
        simp [SecretStore.addRecord, hval, hv, hhas, hn]
      | false =>
        refine ⟨_, _, true, by simp only [HStore.addRecord, hv, hm, hn]; rfl, ?_⟩
        simp only [SecretStore.addRecord, hval, hv, hhas, hn, hvs, Bool.not_true, Bool.false_eq_true,
          if_false, Bool.not_false, if_true, Prod.mk.injEq, and_true]
        unfold Heap.view
        simp only [SecretStore.mk.injEq, Fields.mk.injEq, true_and, Option.map_some, Option.some.injEq]
        refine ⟨?_, trivial⟩
        funext q
        by_cases hq : q = name
        · subst hq; simp [Heap.record]
        · rw [Map.set_other _ _ hq, Map.set_other _ _ hq]
          unfold viewMap
          cases hmq : m q with
          | none => rfl
          | some v =>
            cases v with
            | none => rfl
            | some a =>
              have := hlt m q a hm hmq
              simp only [Option.map_some, Option.some.injEq]
              unfold Heap.record
              simp [Nat.ne_of_lt this]

/-! ### What is shared -/

/-- After `a.Merge(b)`, wiping `b` wipes in `a` every record taken from `b`. -/
theorem C53_merge_violated (h : Heap) (s o s' : HStore) (a b : Map (Option Nat)) (order l : List Bytes)
    (mdOrder : Nat → List Bytes) (now : BitVec 64) (k : Bytes) (y : Nat)
    (hs : s.store = some a) (ho : o.store = some b) (he : b.Enumerates order)
    (hmd : ∀ m, (h.maps m).Enumerates (mdOrder m))
    (hm : s.merge h o order now = .ok (s', l)) (hk : b k = some (some y))
    (hnew : ∀ x, a k = some (some x) → (h.recs x).timestamp.toInt < (h.recs y).timestamp.toInt) :
    lookup (h.view s') k = some (h.record y) ∧
    lookup ((h.zeroStore o order mdOrder).view s') k = some (h.record y).zero := by
  obtain ⟨a', h1, -, h3⟩ := merge_pick hs ho he hm
  have e : ∃ x, a k = some none ∧ x = 0 ∨ a' k = some (some y) := by
    refine ⟨0, ?_⟩
    rw [h3 k, hk]
    cases hak : a k with
    | none => right; rfl
    | some v =>
      cases v with
      | none => left; exact ⟨rfl, rfl⟩
      | some x =>
        right
        simp only [pick]
        rw [if_neg (by have := hnew x hak; omega)]
  have hnil : a k ≠ some none := by
    intro hn
    -- the merge would have panicked
    have hv := merge_view h s o order now
    rw [hm] at hv
    have : ∀ (ks : List Bytes), k ∈ ks → (∀ q ∈ ks, b q ≠ none) → ks.Nodup → ∀ (a0 : Map (Option Nat)) l0,
        a0 k = some none → hmergeLoop h b (some a0, l0) ks = .panic := by
      intro ks
      induction ks with
      | nil => intro hk; simp at hk
      | cons q ks ih =>
        intro hmem hb hnd a0 l0 ha0
        rw [hmergeLoop]
        by_cases hq : q = k
        · subst hq
          have : hmergeStep h b (some a0, l0) q = .panic := by simp [hmergeStep, hk, ha0]
          rw [this]; rfl
        · cases hst : hmergeStep h b (some a0, l0) q with
          | panic => rfl
          | ok st =>
            obtain ⟨m1, l1⟩ := st
            obtain ⟨a1, ha1⟩ := mergeStep_some hst
            simp only at ha1
            subst ha1
            have := (mergeStep_pick hst (hb q List.mem_cons_self)).2 k (Ne.symm hq)
            rw [Res.ok_bind]
            refine ih ?_ (fun r hr => hb r (List.mem_cons_of_mem _ hr)) (List.nodup_cons.mp hnd).2 a1 l1 (by rw [this, ha0])
            rcases List.mem_cons.mp hmem with rfl | hh
            · exact absurd rfl hq
            · exact hh
    have hp := this order ((he.2 k).mpr (by simp [hk])) (fun q hq => (he.2 q).mp hq) he.1 a [] hn
    unfold HStore.merge at hm
    rw [hs, ho, Option.getD_some, hp] at hm
    simp at hm
  have hak' : a' k = some (some y) := by
    obtain ⟨x, ⟨h1, -⟩ | h1⟩ := e
    · exact absurd h1 hnil
    · exact h1
  have hl : ∀ g : Heap, lookup (g.view s') k = some (g.record y) := by
    intro g
    have : (g.view s').store = some (viewMap g a') := view_store h1
    rw [lookup_eq this, viewMap, hak']
    rfl
  refine ⟨hl h, ?_⟩
  rw [hl, record_zero (wiped_store h o order mdOrder (fun m hm => by rw [ho] at hm; cases hm; exact he) hmd) y
    (fun c hc => Or.inr ⟨b, k, y, ho, hk, hc⟩)]

/-- A memory with one store ("a" ↦ the bytes 1 2 3, passphrase "pw"), and an empty one. -/
def exHeap : Heap :=
  { bufs := fun q => if q = 0 then [1, 2, 3] else [112, 119], maps := fun _ => Map.empty
    recs := fun _ => ⟨[97], 9, 0, none⟩, next := 1, nextBuf := 3 }
def exOther : HStore := ⟨1, 5, some (Map.empty.set [97] (some 0)), some 1⟩
def exMine : HStore := ⟨1, 5, some Map.empty, some 2⟩

example : ∃ s', exMine.merge exHeap exOther [[97]] 11 = .ok (s', [[97]]) ∧
    secretOf (exHeap.view s') [97] = some [1, 2, 3] ∧
    secretOf ((exHeap.zeroStore exOther [[97]] (fun _ => [])).view s') [97] = some [0, 0, 0] := by
  obtain ⟨s', h⟩ : ∃ s', exMine.merge exHeap exOther [[97]] 11 = .ok (s', [[97]]) := ⟨_, rfl⟩
  obtain ⟨h1, h2⟩ := C53_merge_violated exHeap exMine exOther s' Map.empty _ [[97]] _ (fun _ => []) 11 [97] 0 rfl rfl
    (SecretStore.exEnumerates _ _) (fun m => ⟨List.nodup_nil, fun k => by simp [exHeap, Map.empty]⟩) h rfl
    (by simp [Map.empty])
  exact ⟨s', h, by simp only [secretOf, h1]; rfl, by simp only [secretOf, h2]; rfl⟩

/-- AddRecord keeps the caller's buffer and map: writing to them afterwards changes the store. -/
theorem C53_add_violated (h : Heap) (s : HStore) (m : Map (Option Nat)) (name : Bytes) (secret md : Nat)
    (now : BitVec 64) (hv : s.valid = true) (hm : s.store = some m) (hn : m name = none) (x : Bytes) (y : Map Nat) :
    ∃ h' s', s.addRecord h name secret (some md) now = (h', s', true) ∧
      secretOf ({ h' with bufs := fun q => if q = secret then x else h'.bufs q }.view s') name = some x ∧
      (lookup ({ h' with maps := fun q => if q = md then y else h'.maps q }.view s') name).map (·.metadata) =
        some (some (fun k => (y k).map h'.bufs)) := by
  refine ⟨{ h with
      recs := fun q => if q = h.next then ⟨name, now, secret, some md⟩ else h.recs q, next := h.next + 1 },
    { s with store := some (m.set name (some h.next)) }, by simp [HStore.addRecord, hv, hm, Map.has, hn], ?_, ?_⟩
  · simp [secretOf, lookup, Heap.view, Heap.record]
  · simp [lookup, Heap.view, Heap.record]

example : ∃ h' s', exMine.addRecord exHeap [98] 0 (some 7) 10 = (h', s', true) ∧
    secretOf ({ h' with bufs := fun q => if q = 0 then [0, 0, 0] else h'.bufs q }.view s') [98] = some [0, 0, 0] := by
  obtain ⟨h', s', h1, h2, -⟩ := C53_add_violated exHeap exMine Map.empty [98] 0 7 10 rfl rfl rfl [0, 0, 0] Map.empty
  exact ⟨h', s', h1, h2⟩

/-- Two stores that share a record after a merge: updating the secret in one changes the other. -/
theorem C53_update_violated (h : Heap) (s o : HStore) (a b : Map (Option Nat)) (k : Bytes) (y : Nat)
    (hs : s.store = some a) (ho : o.store = some b) (ha : a k = some (some y)) (hb : b k = some (some y))
    (secret : Nat) (now : BitVec 64) :
    ∃ h', s.updateSecret h k secret now = .ok (h', true) ∧ secretOf (h'.view o) k = some (h.bufs secret) := by
  refine ⟨{ h with recs := fun q =>
    if q = y then { h.recs y with secret := secret, timestamp := now } else h.recs q },
    by simp [HStore.updateSecret, hs, ha], ?_⟩
  simp [secretOf, lookup, Heap.view, ho, hb, Heap.record]

/-- What holds: if the two stores held different memory before the merge, then wiping the other
store leaves the passphrase and every record that was not taken from it as they were. -/
theorem C53_kept_partial (h : Heap) (s o s' : HStore) (a b : Map (Option Nat)) (order l : List Bytes)
    (mdOrder : Nat → List Bytes) (now : BitVec 64) (hs : s.store = some a) (ho : o.store = some b)
    (he : b.Enumerates order) (hmd : ∀ m, (h.maps m).Enumerates (mdOrder m))
    (hsep : ∀ c, h.Holds s c → ¬h.Holds o c) (hm : s.merge h o order now = .ok (s', l)) :
    ((h.zeroStore o order mdOrder).view s').passphrase = (h.view s).passphrase ∧
    ∀ k x, a k = some (some x) →
      (∀ y, b k = some (some y) → (h.recs y).timestamp.toInt ≤ (h.recs x).timestamp.toInt) →
      lookup ((h.zeroStore o order mdOrder).view s') k = lookup (h.view s) k := by
  have w := wiped_store h o order mdOrder (fun m hm => by rw [ho] at hm; cases hm; exact he) hmd
  obtain ⟨a', h1, h2, h3⟩ := merge_pick hs ho he hm
  constructor
  · simp only [Heap.view, h2]
    cases hp : s.passphrase with
    | none => rfl
    | some p =>
      simp only [Option.map_some, Option.some.injEq]
      exact w.out p (hsep p (Or.inl hp))
  · intro k x hx hold
    have hk : a' k = some (some x) := by
      rw [h3, hx]
      cases hb : b k with
      | none => rfl
      | some v =>
        cases v with
        | none => rfl
        | some y => simp only [pick]; rw [if_pos (hold y hb)]
    have e1 : ((h.zeroStore o order mdOrder).view s').store = some (viewMap (h.zeroStore o order mdOrder) a') := view_store h1
    have e2 : (h.view s).store = some (viewMap h a) := view_store hs
    rw [lookup_eq e1, lookup_eq e2]
    simp only [viewMap, hk, hx, Option.map_some, Option.join_some]
    rw [record_out w x (fun c hc => hsep c (Or.inr ⟨a, k, x, hs, hx, hc⟩))]

/-- The passphrase is copied on creation and on change: what the caller later does to any buffer
that existed before the call does not reach the store's passphrase. -/
theorem C53_passphrase_partial (h : Heap) (s : HStore) (p : Nat) (now : BitVec 64) (hp : p < h.nextBuf)
    (hs : ∀ c, s.passphrase = some c → c ≠ p) :
    ((newHStore h p now).1.view (newHStore h p now).2).passphrase = some (h.bufs p) ∧
    ((s.changePassword h p).1.view (s.changePassword h p).2).passphrase = some (h.bufs p) ∧
    ∀ c, c < h.nextBuf → (newHStore h p now).2.passphrase ≠ some c ∧ (s.changePassword h p).2.passphrase ≠ some c := by
  refine ⟨?_, ?_, ?_⟩
  · simp [newHStore, Heap.alloc, Heap.view]
  · cases hc : s.passphrase with
    | none => simp [HStore.changePassword, Heap.alloc, Heap.view, hc]
    | some c =>
      have := hs c hc
      simp [HStore.changePassword, Heap.alloc, Heap.view, hc, Heap.zeroBuf, Ne.symm this]
  · intro c hc
    constructor
    · simp only [newHStore, Heap.alloc, ne_eq, Option.some.injEq]; omega
    · cases hq : s.passphrase <;>
        simp only [HStore.changePassword, Heap.alloc, Heap.zeroBuf, hq, ne_eq, Option.some.injEq] <;> omega

example : ((exMine.changePassword exHeap 1).1.view (exMine.changePassword exHeap 1).2).passphrase = some [112, 119] :=
  (C53_passphrase_partial exHeap exMine 1 0 (by decide) (by rintro c ⟨⟩; decide)).2.1

end Verif.Props.SecretHeap
