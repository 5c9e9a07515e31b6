import Verif.Go.Strings
import Verif.Props.KeyTrust
/-! Properties C58-C61, C67, C91, C92: termination, imports and exports of the key store. -/

namespace Verif.Props.KeyImport
open Verif Verif.Go Verif.Model.Util Verif.Model.Public Verif.Model.KeyStore Verif.Spec.Public Verif.Spec.KeyStore
open Verif.Proofs.Public Verif.Proofs.KeyStore Verif.Props.KeyTrust

variable (C : Crypto) (A : Asn1) (P : Pem)

/-! ### C58: termination -/

/-- In a store that satisfies the invariant and holds no key twice, VerifyChain and KeyAudit
return true, whatever the iteration orders. -/
theorem chain_terminates {s : KeyStore} {owner : Bytes} {m : Keys} (h : Sound C s owner m) (hd : Distinct m) :
    (∀ l, m l ≠ none → ∃ n, ∀ orders, (∀ i, m.Enumerates (orders i)) →
      s.verifyChain C orders n l = some (.ok true)) ∧
    (∀ order, m.Enumerates order → ∃ n, ∀ orders, (∀ l i, m.Enumerates (orders l i)) →
      s.keyAudit C order orders n = some (.ok true)) := by
  have h1 : ∀ l, m l ≠ none → ∃ n, ∀ k orders, (∀ i, m.Enumerates (orders i)) →
      s.verifyChain C orders (n + k) l = some (.ok true) := by
    intro l hl
    cases hml : m l with
    | none => exact absurd hml hl
    | some v =>
      cases v with
      | none => exact absurd hml (h.noNil l)
      | some r =>
        have hls : l ≠ self := by rintro rfl; rw [h.noSelf] at hml; cases hml
        obtain ⟨n, hn⟩ := chainLoop_trust C h.quick h.keys (sound_pub C h) h.noNil h.labelled h.noSelf hd (h.trust l r hml)
        refine ⟨n, fun k orders ho => ?_⟩
        unfold KeyFields.verifyChain
        rw [h.quick, (has_iff h.quick h.keys l).mpr (.inr hl)]
        simp only [Bool.not_true, Bool.or_false, Bool.false_eq_true, if_false, hls]
        exact chainLoop_mono C orders n k 0 l _ (hn orders 0 ho)
  refine ⟨fun l hl => ?_, fun order he => ?_⟩
  · obtain ⟨n, hn⟩ := h1 l hl
    exact ⟨n, fun orders ho => hn 0 orders ho⟩
  · have h2 : ∃ n, ∀ k orders, (∀ l i, m.Enumerates (orders l i)) → s.auditLoop C orders (n + k) order = some (.ok true) := by
      have hall : ∀ l ∈ order, m l ≠ none := fun l hl => (he.2 l).mp hl
      clear he
      induction order with
      | nil => exact ⟨0, fun _ _ _ => rfl⟩
      | cons l ls ih =>
        obtain ⟨a, ha⟩ := ih (fun l hl => hall l (List.mem_cons_of_mem _ hl))
        obtain ⟨b, hb⟩ := h1 l (hall l List.mem_cons_self)
        refine ⟨a + b, fun k orders ho => ?_⟩
        rw [KeyFields.auditLoop]
        have e1 : a + b + k = b + (a + k) := by omega
        have e2 : a + b + k = a + (b + k) := by omega
        have := hb (a + k) (orders l) (ho l)
        rw [← e1] at this
        rw [this]
        have := ha (b + k) orders ho
        rw [← e2] at this
        exact this
    obtain ⟨n, hn⟩ := h2
    refine ⟨n, fun orders ho => ?_⟩
    unfold KeyFields.keyAudit
    rw [h.quick]
    exact hn 0 orders ho

/-- After any history of calls on a new store, if no key is stored under two labels then
VerifyChain returns true for every label and KeyAudit returns true, whatever the iteration
orders. Missing from the property: stores that hold a key twice, and loaded stores; for both it
is false. -/
theorem C58_terminates_partial (k : PrivateKey) (hw : k.WT) (t1 t2 : BitVec 64) (ht : t2 ≠ 0) (s s' : KeyStore)
    (ops : List (Op × Bool)) (hn : newPrivateKeyStore C A P (some k) t1 t2 = .ok (some s))
    (hh : History C A P s ops s') (m : Keys) (hm : s'.keys = some m) (hd : Distinct m) :
    (∀ l, m l ≠ none → ∃ n, ∀ orders, (∀ i, m.Enumerates (orders i)) →
      s'.verifyChain C orders n l = some (.ok true)) ∧
    (∀ order, m.Enumerates order → ∃ n, ∀ orders, (∀ l i, m.Enumerates (orders l i)) →
      s'.keyAudit C order orders n = some (.ok true)) := by
  obtain ⟨owner, h, -⟩ := sound_new C hw ht hn
  obtain ⟨m', h'⟩ := sound_history C h hh
  have := h'.keys
  rw [hm] at this
  cases this
  exact chain_terminates C h' hd

/-- The store a file with one key, signed by itself, describes. -/
def selfSigned (owner : Bytes) (v : VerifiedKey) (locked : Bytes) : KeyFields :=
  { version := 1, timestamp := 5, keys := some (Map.empty.set [120] (some (recordFor [120] v)))
    lockedKey := some locked, publicKey := some owner, exportKey := none }

/-- C58 is false for loaded stores: with a stored key that is signed by itself VerifyChain and
KeyAudit run for ever, whatever the iteration orders. -/
theorem C58_self_signed_violated (J : KeyJson) (owner d seed locked : Bytes) (t : BitVec 64)
    (hseed : seed.length = 32) (ho : owner ≠ ownerOf C d seed) :
    let f := selfSigned owner (statement C d seed (ownerOf C d seed) t) locked
    ∃ s, loadData J (J.enc f) = some s ∧
      (∀ orders fuel, (∀ i, ∃ m, s.keys = some m ∧ m.Enumerates (orders i)) →
        s.verifyChain C orders fuel [120] = none) ∧
      (∀ orders fuel, (∀ l i, ∃ m, s.keys = some m ∧ m.Enumerates (orders l i)) →
        s.keyAudit C [[120]] orders fuel = none) := by
  intro f
  have hq : f.validQuick = true := (quick_iff _).mpr ⟨rfl, by simp [f, selfSigned], _, rfl⟩
  let s : KeyStore := { f with privateKey := none, locked := true }
  have hsq : s.validQuick = true := hq
  obtain ⟨m, hm⟩ : ∃ m, f.keys = some m := ⟨_, rfl⟩
  have hm' := hm
  simp only [f, selfSigned, Option.some.injEq] at hm'
  have hmx : m [120] = some (some (recordFor [120] (statement C d seed (ownerOf C d seed) t))) := by
    rw [← hm']; simp
  have hone : ∀ l v, m l = some v → l = [120] ∧ v = some (recordFor [120] (statement C d seed (ownerOf C d seed) t)) := by
    intro l v hl
    rw [← hm'] at hl
    exact SecretStore.exMap_get hl
  have hnn : NoNil m := fun l hl => by cases (hone l _ hl).2
  have hvks : ∀ o, m.Enumerates o → s.verifyKeySignature C [120] o = .ok (some [120]) := by
    intro o hen
    have hne : ¬ (recordFor [120] (statement C d seed (ownerOf C d seed) t)).keySigner = s.pubBytes := Ne.symm ho
    have hfind : s.findPublic (recordFor [120] (statement C d seed (ownerOf C d seed) t)).keySigner o = .ok (some [120]) := by
      unfold KeyFields.findPublic
      rw [if_neg hne]
      show findLoop (f.keys.getD Map.empty) (ownerOf C d seed) o = _
      rw [hm]
      simp only [Option.getD_some]
      cases hl : findLoop m (ownerOf C d seed) o with
      | panic => exact absurd hl (findLoop_no_panic hnn _ _)
      | ok x =>
        cases x with
        | none => exact absurd rfl (findLoop_none hl [120] ((hen.2 _).mpr (by simp [hmx])) _ hmx)
        | some l =>
          obtain ⟨k, r, -, e1, -, e3⟩ := findLoop_some hl
          obtain ⟨-, e4⟩ := hone k _ e1
          simp only [Option.some.injEq] at e4
          rw [← e3, e4]; rfl
    refine vks_other C hsq (by decide) ((get_some hm).mpr hmx) hne hfind ((get_some hm).mpr hmx) ?_
    exact statement_signed C d seed _ t hseed
  have hvc : ∀ orders fuel, (∀ i, m.Enumerates (orders i)) → s.verifyChain C orders fuel [120] = none := by
    intro orders fuel hor
    have hh : s.has [120] = true := (has_iff hsq hm _).mpr (.inr (by simp [hmx]))
    have hloop : ∀ i, s.chainLoop C orders fuel i [120] = none := by
      induction fuel with
      | zero => intro i; rfl
      | succ n ih =>
        intro i
        rw [KeyFields.chainLoop, hvks _ (hor i)]
        simp only
        rw [if_neg (by decide)]
        exact ih (i + 1)
    unfold KeyFields.verifyChain
    rw [hsq, hh]
    simp [hloop]
  have hor' : ∀ o, (∃ m, s.keys = some m ∧ m.Enumerates o) → m.Enumerates o := by
    rintro o ⟨m', e1, e2⟩
    have : f.keys = some m' := e1
    rw [hm] at this
    cases this
    exact e2
  refine ⟨s, ?_, fun orders fuel h => hvc orders fuel (fun i => hor' _ (h i)), fun orders fuel h => ?_⟩
  · unfold loadData
    rw [J.dec_enc f]
    · simp only
      rw [if_neg (by simp only [Bool.not_eq_true', Bool.not_eq_false]; exact hq)]
      rfl
    · intro m2 h2
      rw [hm] at h2; cases h2
      refine ⟨⟨[[120]], fun k hk => ?_⟩, ?_⟩
      · cases hmk : m k with
        | none => exact absurd hmk hk
        | some v => simp [(hone k v hmk).1]
      · intro k r md hk hmd
        obtain ⟨-, e⟩ := hone k _ hk
        cases e
        cases hmd
    · intro m2 h2 k v hk
      rw [hm] at h2; cases h2
      obtain ⟨rfl, rfl⟩ := hone k _ hk
      refine ⟨by decide, ?_⟩
      intro r hr; cases hr
      exact ⟨show ValidUtf8 [120] by decide, fun md j x h => by cases h⟩
  · unfold KeyFields.keyAudit
    rw [hsq]
    simp [KeyFields.auditLoop, hvc _ fuel (fun i => hor' _ (h _ i))]

example : ownerOf Toy.crypto (List.replicate 32 1) (List.replicate 32 2) ≠
    ownerOf Toy.crypto (List.replicate 32 3) (List.replicate 32 4) := by decide

/-- C58 is false for stores built with the package: add A's key as "a", import B's key signed by A
as "b" and A's key signed by B as "c"; then there are iteration orders for which VerifyChain("c")
never returns. (With Go's random orders it returns with probability one, but no bound on the
number of turns holds.) -/
theorem C58_duplicate_key_violated (d seed dA seedA dB seedB : Bytes) (h1 : d.length = 32) (h2 : seed.length = 32)
    (hA : seedA.length = 32) (hB : seedB.length = 32)
    (n1 : ownerOf C dA seedA ≠ ownerOf C d seed) (n2 : ownerOf C dB seedB ≠ ownerOf C d seed)
    (n3 : ownerOf C dA seedA ≠ ownerOf C dB seedB) :
    ∃ s' m order, History C A P (fresh C A P d seed 1 2)
      [(.addKey [97] (ownerOf C dA seedA) none 3 4, true),
       (.importVerified [98] (A.enc (statement C dA seedA (ownerOf C dB seedB) 5)) [[97]] [[97]] 6, true),
       (.importVerified [99] (A.enc (statement C dB seedB (ownerOf C dA seedA) 7)) [[98], [97]] [[98], [97]] 8, true)] s' ∧
      s'.keys = some m ∧ m.Enumerates order ∧
      ∀ fuel, s'.verifyChain C (fun _ => order) fuel [99] = none := by
  have hs := fresh_sound C A P d seed 1 2 h1 h2 (by decide)
  have hown : Owned C d seed (fresh C A P d seed 1 2) := ⟨rfl, rfl, rfl, hs.quick⟩
  have ha := addKey_owned C hown rfl h2 (label := [97]) (by decide) rfl (ownerOf_length C dA seedA) none 3 4
  obtain ⟨m1, hm1⟩ := sound_addKey C hs ha
  have hk1 := hm1.keys
  simp only [Option.some.injEq] at hk1
  have en1 : m1.Enumerates [[97]] := hk1 ▸ enum_set enum_empty rfl _
  have g1 : ∃ r, m1 [97] = some (some r) ∧ r.keyBytes = ownerOf C dA seedA := ⟨_, by rw [← hk1]; exact Map.set_same _ _ _, rfl⟩
  have z1 : ∀ l, l ≠ [97] → m1 l = none := by intro l hl; rw [← hk1, Map.set_other _ _ hl]; rfl
  obtain ⟨ra, ga, gak⟩ := g1
  have hb := import_complete C (A := A) hm1 (z1 _ (by decide)) (label := [98])
    (blob := A.enc (statement C dA seedA (ownerOf C dB seedB) 5))
    (o1 := [[97]]) (o2 := [[97]]) en1 en1 (A.dec_enc _) (by decide) (z1 _ (by decide))
    (statement_signed C dA seedA _ 5 hA) (.inr ⟨[97], _, ga, gak⟩) 6
  obtain ⟨m2, hm2⟩ := sound_import C hm1 hb
  have hk2 := hm2.keys
  simp only [Option.some.injEq] at hk2
  have en2 : m2.Enumerates [[98], [97]] := hk2 ▸ enum_set en1 (z1 _ (by decide)) _
  have z2 : ∀ l, l ≠ [97] → l ≠ [98] → m2 l = none := by
    intro l hl hl'; rw [← hk2, Map.set_other _ _ hl', z1 l hl]
  have gb : ∃ r, m2 [98] = some (some r) ∧ r.keyBytes = ownerOf C dB seedB ∧ r.label = [98] ∧
      r.keySigner = ownerOf C dA seedA ∧ SignedRec C (ownerOf C dA seedA) r :=
    ⟨_, by rw [← hk2]; exact Map.set_same _ _ _, rfl, rfl, rfl,
      by exact statement_signed C dA seedA (ownerOf C dB seedB) 5 hA⟩
  have ga2 : m2 [97] = some (some ra) := by rw [← hk2, Map.set_other _ _ (by decide)]; exact ga
  obtain ⟨rb, gb, gbk, gbl, gbs, gbv⟩ := gb
  have hc := import_complete C (A := A) hm2 (z2 _ (by decide) (by decide)) (label := [99])
    (blob := A.enc (statement C dB seedB (ownerOf C dA seedA) 7))
    (o1 := [[98], [97]]) (o2 := [[98], [97]]) en2 en2 (A.dec_enc _) (by decide) (z2 _ (by decide) (by decide))
    (statement_signed C dB seedB _ 7 hB) (.inr ⟨[98], _, gb, gbk⟩) 8
  obtain ⟨m3, hm3⟩ := sound_import C hm2 hc
  have hk3 := hm3.keys
  simp only [Option.some.injEq] at hk3
  have en3 : m3.Enumerates [[99], [98], [97]] := hk3 ▸ enum_set en2 (z2 _ (by decide) (by decide)) _
  have gc : ∃ r, m3 [99] = some (some r) ∧ r.keyBytes = ownerOf C dA seedA ∧ r.label = [99] ∧
      r.keySigner = ownerOf C dB seedB ∧ SignedRec C (ownerOf C dB seedB) r :=
    ⟨_, by rw [← hk3]; exact Map.set_same _ _ _, rfl, rfl, rfl,
      by exact statement_signed C dB seedB (ownerOf C dA seedA) 7 hB⟩
  have gb3 : m3 [98] = some (some rb) := by rw [← hk3, Map.set_other _ _ (by decide)]; exact gb
  obtain ⟨rc, gc, gck, gcl, gcs, gcv⟩ := gc
  refine ⟨_, m3, [[99], [98], [97]], .cons trivial trivial ha (.cons ?_ trivial hb (.cons ?_ trivial hc (.nil _))),
    hm3.keys, en3, ?_⟩
  · intro m hm; rw [hm1.keys] at hm; cases hm; exact ⟨en1, en1⟩
  · intro m hm; rw [hm2.keys] at hm; cases hm; exact ⟨en2, en2⟩
  · suffices key : ∀ s3 : KeyStore, Sound C s3 (ownerOf C d seed) m3 →
        ∀ fuel, s3.verifyChain C (fun _ => [[99], [98], [97]]) fuel [99] = none from key _ hm3
    clear hm3
    intro s3 hm3
    have hp := sound_pub C hm3
    have v99 : s3.verifyKeySignature C [99] [[99], [98], [97]] = .ok (some [98]) := by
      refine vks_other C hm3.quick (by decide) ((get_some hm3.keys).mpr gc) (by rw [hp, gcs]; exact n2) ?_
        ((get_some hm3.keys).mpr gb3) (by rw [gbk]; exact gcv)
      unfold KeyFields.findPublic
      rw [if_neg (by rw [hp, gcs]; exact n2), hm3.keys]
      simp [findLoop, gc, gb3, gck, gbk, gcs, gbl, Ne.symm n3]
    have v98 : s3.verifyKeySignature C [98] [[99], [98], [97]] = .ok (some [99]) := by
      refine vks_other C hm3.quick (by decide) ((get_some hm3.keys).mpr gb3) (by rw [hp, gbs]; exact n1) ?_
        ((get_some hm3.keys).mpr gc) (by rw [gck]; exact gbv)
      unfold KeyFields.findPublic
      rw [if_neg (by rw [hp, gbs]; exact n1), hm3.keys]
      simp [findLoop, gc, gck, gbs, gcl]
    intro fuel
    have hh := (has_iff hm3.quick hm3.keys [99]).mpr (.inr (by simp [gc]))
    have hloop : ∀ i, s3.chainLoop C (fun _ => [[99], [98], [97]]) fuel i [99] = none ∧
        s3.chainLoop C (fun _ => [[99], [98], [97]]) fuel i [98] = none := by
      induction fuel with
      | zero => intro i; exact ⟨rfl, rfl⟩
      | succ n ih =>
        intro i
        rw [KeyFields.chainLoop, KeyFields.chainLoop, v99, v98]
        simp only
        rw [if_neg (by decide), if_neg (by decide)]
        exact ⟨(ih (i + 1)).2, (ih (i + 1)).1⟩
    unfold KeyFields.verifyChain
    rw [hm3.quick, hh]
    simp [(hloop 0).1]

example : let o := fun a b : UInt8 => ownerOf Toy.crypto (List.replicate 32 a) (List.replicate 32 b)
    o 3 4 ≠ o 1 2 ∧ o 5 6 ≠ o 1 2 ∧ o 3 4 ≠ o 5 6 := by decide

/-! ### C59: imports are signature checked -/

/-- In every store whose records carry the label they are stored under, ImportVerified either
fails and changes nothing, or the label is new, the blob parses to a key whose signer is the owner
or a stored key, the signature verifies under that signer, and exactly that record is added.
Missing from the property: stores (from files) whose labels disagree, for which it is false. -/
theorem C59_import_checked_partial (s s' : KeyStore) (m : Keys) (hm : s.keys = some m) (hlab : Labelled m)
    (label blob : Bytes) (o1 o2 : List Bytes) (now : BitVec 64) (b : Bool)
    (h : s.importVerified C A label blob o1 o2 now = .ok (s', b)) :
    (b = false ∧ s' = s) ∨ (b = true ∧ label ≠ self ∧ m label = none ∧ ∃ v, A.dec blob = some v ∧
      (v.signer = s.pubBytes ∨ ∃ l r, m l = some (some r) ∧ r.keyBytes = v.signer) ∧
      Signed C v.signer v.pub v.signature v.timestamp ∧
      s' = { s with keys := some (m.set label (some {
        label := label, version := 1, timestamp := now, keys := some v.pub, keySignature := v.signature
        keySigner := v.signer, signatureTime := v.timestamp, metadata := none })) }) := by
  rcases import_true C h with h | ⟨hb, m', v, sl, pk, hq, hm', hh, hd, hsig, -, -, hpl, hsl, hv, rfl⟩
  · exact .inl h
  rw [hm] at hm'; cases hm'
  obtain ⟨e1, e2⟩ := (has_false hq hm label).mp hh
  refine .inr ⟨hb, e1, e2, v, hd, ?_⟩
  rcases hsig with ⟨h1, -, rfl⟩ | ⟨-, h2, r, h3, rfl⟩
  · rw [← h1] at hpl hv ⊢
    exact ⟨.inl rfl, ⟨hpl, hsl, hv⟩, rfl⟩
  · obtain ⟨k, r', -, f1, f2, f3⟩ := findLoop_some h2
    rw [hlab k r' f1] at f3
    subst f3
    rw [f1] at h3; cases h3
    rw [f2] at hpl hv ⊢
    exact ⟨.inr ⟨k, _, f1, f2⟩, ⟨hpl, hsl, hv⟩, rfl⟩

/-- In a store that satisfies the invariant of C56 and has no empty label the conditions are also
sufficient. -/
theorem C59_import_exact_partial (s : KeyStore) (owner : Bytes) (m : Keys) (h : Sound C s owner m) (he : m [] = none)
    (label blob : Bytes) (o1 o2 : List Bytes) (h1 : m.Enumerates o1) (h2 : m.Enumerates o2) (now : BitVec 64) :
    ∃ s' b, s.importVerified C A label blob o1 o2 now = .ok (s', b) ∧
      (b = true ↔ label ≠ self ∧ m label = none ∧ ∃ v, A.dec blob = some v ∧
        (v.signer = owner ∨ ∃ l r, m l = some (some r) ∧ r.keyBytes = v.signer) ∧
        Signed C v.signer v.pub v.signature v.timestamp) := by
  by_cases hc : label ≠ self ∧ m label = none ∧ ∃ v, A.dec blob = some v ∧
        (v.signer = owner ∨ ∃ l r, m l = some (some r) ∧ r.keyBytes = v.signer) ∧
        Signed C v.signer v.pub v.signature v.timestamp
  · obtain ⟨c1, c2, v, c3, c4, c5⟩ := hc
    exact ⟨_, _, import_complete C h he h1 h2 c3 c1 c2 c5 c4 now, by simp [c1, c2, c3, c4, c5]⟩
  · have hnp : s.importVerified C A label blob o1 o2 now ≠ .panic := import_no_panic C h.keys h.noNil h.labelled
    cases hr : s.importVerified C A label blob o1 o2 now with
    | panic => exact absurd hr hnp
    | ok p =>
      obtain ⟨s', b⟩ := p
      refine ⟨s', b, rfl, ⟨fun hb => ?_, fun h => absurd h hc⟩⟩
      rcases C59_import_checked_partial C A s s' m h.keys h.labelled label blob o1 o2 now b hr with ⟨e, -⟩ | ⟨-, c1, c2, v, c3, c4, c5, -⟩
      · rw [hb] at e; cases e
      · rw [sound_pub C h] at c4
        exact absurd ⟨c1, c2, v, c3, c4, c5⟩ hc

/-- ImportVerifiedKey hands on exactly the bodies of PEM blocks labelled as verified keys, and
fails for every other text without changing anything. -/
theorem C59_armour (P : Pem) (s : KeyStore) (label text : Bytes) (o1 o2 : List Bytes) (now : BitVec 64) :
    (∀ body, P.dec text = some (ascii "CRYPTUTIL VERIFIED KEY", body) →
      s.importVerifiedKey C A P label text o1 o2 now = s.importVerified C A label body o1 o2 now) ∧
    ((¬ ∃ body, P.dec text = some (ascii "CRYPTUTIL VERIFIED KEY", body)) →
      s.importVerifiedKey C A P label text o1 o2 now = .ok (s, false)) := by
  have hc : verifiedKeyType = ascii "CRYPTUTIL VERIFIED KEY" := by decide
  unfold KeyStore.importVerifiedKey
  constructor
  · intro body h
    rw [h]
    simp [hc]
  · intro h
    cases hd : P.dec text with
    | none => rfl
    | some tb =>
      obtain ⟨typ, body⟩ := tb
      simp only
      rw [if_pos]
      intro ht
      exact h ⟨body, by rw [hd, ht, hc]⟩

/-- A block labelled "A" is refused. -/
example (s : KeyStore) (label body : Bytes) (hb : body ≠ []) (o1 o2 : List Bytes) (now : BitVec 64) :
    s.importVerifiedKey C A Pem.toy label (Pem.toy.enc [65] body) o1 o2 now = .ok (s, false) :=
  (C59_armour C A Pem.toy s label _ o1 o2 now).2 (by rintro ⟨b, h⟩; rw [Pem.toy.dec_enc [65] _ (by decide) hb] at h; cases h)

/-- C59 is false for a store in which a record is stored under a label that is not its own: a key
whose statement names the signer A, but that A never signed, is accepted on a signature by B. -/
theorem C59_wrong_label_violated (d seed dB seedB a x : Bytes) (t : BitVec 64) (hs : seed.length = 32)
    (hB : seedB.length = 32) (n1 : a ≠ ownerOf C d seed) (n2 : ownerOf C dB seedB ≠ a)
    (nf : ¬ Signed C a x (C.sign (seedB ++ C.edPub seedB) (x ++ a ++ be 8 t.toNat)) t) :
    ∃ (s s' : KeyStore) (m : Keys) (v : VerifiedKey), s.keys = some m ∧ s.validQuick = true ∧ NoNil m ∧
      ¬ Signed C v.signer v.pub v.signature v.timestamp ∧
      ∀ o1 o2, m.Enumerates o1 → m.Enumerates o2 →
        s.importVerified C A [120] (A.enc v) o1 o2 9 = .ok (s', true) := by
  let b := ownerOf C dB seedB
  let rB := recordFor [98] (statement C d seed b 3)
  let rA : PublicKeyRecord := { recordFor [98] (statement C d seed b 3) with keys := some a }
  let m : Keys := (Map.empty.set [98] (some rB)).set [97] (some rA)
  let v : VerifiedKey := ⟨x, a, t, C.sign (seedB ++ C.edPub seedB) (x ++ a ++ be 8 t.toNat)⟩
  let s : KeyStore := { version := 1, timestamp := 5, keys := some m, lockedKey := some [], publicKey := some (ownerOf C d seed)
                        exportKey := none, privateKey := none, locked := true }
  have ga : m [97] = some (some rA) := Map.set_same _ _ _
  have gb : m [98] = some (some rB) := by
    show ((Map.empty.set [98] (some rB)).set [97] (some rA)) [98] = _
    rw [Map.set_other _ _ (by decide)]; exact Map.set_same _ _ _
  have hall : ∀ l y, m l = some y → (l = [97] ∧ y = some rA) ∨ (l = [98] ∧ y = some rB) := by
    intro l y hl
    by_cases h : l = [97]
    · subst h; rw [ga] at hl; cases hl; exact .inl ⟨rfl, rfl⟩
    · right
      have : ((Map.empty.set [98] (some rB)).set [97] (some rA)) l = some y := hl
      rw [Map.set_other _ _ h] at this
      exact SecretStore.exMap_get this
  have hnn : NoNil m := by
    intro l hl
    rcases hall l _ hl with ⟨-, h⟩ | ⟨-, h⟩ <;> cases h
  have hq : s.validQuick = true := (quick_iff _).mpr ⟨rfl, show (5 : BitVec 64) ≠ 0 by decide, _, rfl⟩
  have hk : s.keys = some m := rfl
  let r : PublicKeyRecord := { label := [120], version := 1, timestamp := 9, keys := some x, keySignature := v.signature
                               keySigner := b, signatureTime := t, metadata := none }
  refine ⟨s, { s with keys := some (m.set [120] (some r)) }, m, v, rfl, hq, hnn, nf, fun o1 o2 e1 e2 => ?_⟩
  have hh : s.has [120] = false := (has_false hq hk _).mpr ⟨by decide, rfl⟩
  have hfind : s.findPublic v.signer o1 = .ok (some [98]) := by
    unfold KeyFields.findPublic
    rw [if_neg (show ¬ v.signer = s.pubBytes from n1)]
    show findLoop m a o1 = _
    cases hf : findLoop m a o1 with
    | panic => exact absurd hf (findLoop_no_panic hnn _ _)
    | ok o =>
      cases o with
      | none => exact absurd rfl (findLoop_none hf [97] ((e1.2 _).mpr (by simp [ga])) rA ga)
      | some l =>
        obtain ⟨k, r, -, f1, f2, f3⟩ := findLoop_some hf
        rcases hall k _ f1 with ⟨-, h⟩ | ⟨-, h⟩
        · cases h; rw [← f3]; rfl
        · cases h; exact absurd f2 n2
  have hg : s.get [98] = some rB := (get_some hk).mpr gb
  have hvs : s.verifyKeySignature C [98] o2 = .ok (some self) :=
    vks_owner C hq (by decide) hg rfl (statement_signed C d seed b 3 hs)
  have hver : verify C (some ⟨some (b.take 32), some (b.drop 32)⟩) v.signatureData v.signature = .ok true := by
    rw [verify_mk, if_pos (C.sign_length _ _), ownerOf_drop]
    exact congrArg Res.ok (C.verify_sign _ _ hB)
  unfold KeyStore.importVerified
  rw [if_neg (show ¬ (!s.validQuick || s.has [120]) = true by simp [hq, hh]), A.dec_enc]
  simp only
  rw [if_neg (show ¬ v.signer = s.pubBytes from n1), hfind]
  simp only [Res.ok_bind, hg, deref, Res.pure_eq]
  rw [if_neg (show ¬ (([98] : Bytes) = [] ∨ rB.keys = none) by rintro (h | h) <;> cases h), hvs]
  simp only [Res.ok_bind]
  rw [show unmarshalPublic (rB.keys.getD []) = _ from unmarshalPublic_of_length (ownerOf_length C dB seedB)]
  simp only
  rw [show verify C (some ⟨some ((rB.keys.getD []).take 32), some ((rB.keys.getD []).drop 32)⟩) v.signatureData v.signature = _ from hver]
  simp only [Res.ok_bind, Bool.not_true, Bool.false_eq_true, if_false]
  rw [hk]
  rfl

example : let o := fun a b : UInt8 => ownerOf Toy.crypto (List.replicate 32 a) (List.replicate 32 b)
    o 3 4 ≠ o 1 2 ∧ o 5 6 ≠ o 3 4 ∧
    ¬ Signed Toy.crypto (o 3 4) [9] (Toy.crypto.sign (List.replicate 32 6 ++ Toy.crypto.edPub (List.replicate 32 6))
      ([9] ++ o 3 4 ++ be 8 (5 : BitVec 64).toNat)) 5 := by
  refine ⟨by decide, by decide, ?_⟩
  rintro ⟨-, -, h⟩
  revert h
  decide

/-! ### C60: stored keys are usable -/

/-- A key added with AddKey is a 64-byte public key; EncryptTo then encrypts to it and Verify
checks signatures with it. Missing from the property: imported keys, for which it is false. -/
theorem C60_added_usable_partial (s s' : KeyStore) (label peer : Bytes) (md : Option (Map Bytes)) (t1 t2 : BitVec 64)
    (h : s.addKey C label peer md t1 t2 = .ok (s', true)) :
    peer.length = 64 ∧
    (∀ msg rng, 56 ≤ rng.length → ∃ ct, s'.encryptTo C label msg rng = .ok (some ct, rng.drop 56)) ∧
    (∀ msg sig, ∃ b, s'.verify C label msg sig = .ok b ∧
      (b = true ↔ sig.length = 64 ∧ C.verify (peer.drop 32) msg sig = true)) := by
  rcases addKey_true C h with ⟨h, -⟩ | ⟨-, m, sig, k, hq, hm, hh, hl, hp, hk, -, hv, rfl⟩
  · cases h
  obtain ⟨e1, e2⟩ := (has_false hq hm label).mp hh
  let s1 : KeyStore := { s with keys := some (m.set label (some {
        label := label, version := 0, timestamp := t2, keys := some peer, keySignature := sig
        keySigner := s.pubBytes, signatureTime := t1, metadata := some (md.getD Map.empty) })) }
  show _ ∧ (∀ msg rng, 56 ≤ rng.length → ∃ ct, s1.encryptTo C label msg rng = .ok (some ct, rng.drop 56)) ∧
    (∀ msg sig, ∃ b, s1.verify C label msg sig = .ok b ∧ _)
  have hq1 : s1.validQuick = true := by
    obtain ⟨q1, q2, -⟩ := (quick_iff _).mp hq
    exact (quick_iff _).mpr ⟨q1, q2, _, rfl⟩
  have hh1 : s1.has label = true := (has_iff hq1 rfl label).mpr (.inr (by rw [Map.set_same]; simp))
  have hg1 : ∃ r, s1.get label = some r ∧ r.keyBytes = peer := ⟨_, (get_some rfl).mpr (Map.set_same _ _ _), rfl⟩
  obtain ⟨r, hg1, hr⟩ := hg1
  have hu := unmarshalPublic_of_length hp
  refine ⟨hp, fun msg rng hr56 => ?_, fun msg sg => ?_⟩
  · unfold KeyStore.encryptTo
    simp only [hq1, hh1, e1, hg1, deref, hr, hu, Bool.not_true, Bool.or_false, Bool.false_eq_true, if_false,
      Res.ok_bind, Res.pure_eq]
    rw [encrypt_eq_raw, encryptRaw_eq, if_neg (by omega), if_neg (by omega)]
    exact ⟨_, rfl⟩
  · unfold KeyStore.verify KeyStore.getPublic
    simp only [hq1, hh1, e1, hg1, deref, hr, hu, Bool.not_true, Bool.false_eq_true, if_false,
      Res.ok_bind, Res.pure_eq, verify_mk]
    refine ⟨_, rfl, ?_⟩
    by_cases h64 : sg.length = 64 <;> simp [h64]

example : ∃ s', (fresh Toy.crypto Proofs.ToyJson.asn1 Pem.toy (List.replicate 32 1) (List.replicate 32 2) 1 2).addKey
    Toy.crypto [97] (List.replicate 64 7) none 3 4 = .ok (s', true) :=
  ⟨_, addKey_owned Toy.crypto ⟨rfl, rfl, rfl, by decide⟩ rfl (by decide) (by decide) rfl (by decide) none 3 4⟩

/-- C60 is false: whatever bytes a trusted key signs are imported as a key; unless they happen to
be 64 bytes EncryptTo and Verify then fail for that label. -/
theorem C60_imported_junk_violated (s : KeyStore) (owner : Bytes) (m : Keys) (h : Sound C s owner m) (he : m [] = none)
    (label junk sig signer : Bytes) (t : BitVec 64) (hl : label ≠ self) (hf : m label = none)
    (hk : signer = owner ∨ ∃ l r, m l = some (some r) ∧ r.keyBytes = signer)
    (hs : Signed C signer junk sig t) (hj : junk.length ≠ 64) (o1 o2 : List Bytes) (h1 : m.Enumerates o1)
    (h2 : m.Enumerates o2) (now : BitVec 64) :
    ∃ s', s.importVerified C A label (A.enc ⟨junk, signer, t, sig⟩) o1 o2 now = .ok (s', true) ∧
      (∀ msg rng, s'.encryptTo C label msg rng = .ok (none, rng)) ∧
      (∀ msg sg, s'.verify C label msg sg = .ok false) := by
  have hi := import_complete C (A := A) h he h1 h2 (A.dec_enc ⟨junk, signer, t, sig⟩) hl hf hs hk now
  obtain ⟨m', h'⟩ := sound_import C h hi
  have hk' := h'.keys
  simp only [Option.some.injEq] at hk'
  have hg : ∃ r, m' label = some (some r) ∧ r.keyBytes = junk := ⟨_, by rw [← hk']; exact Map.set_same _ _ _, rfl⟩
  obtain ⟨r, hg, hr⟩ := hg
  refine ⟨_, hi, ?_⟩
  generalize ({ s with keys := _ } : KeyStore) = s1 at h'
  have hh1 : s1.has label = true := (has_iff h'.quick h'.keys label).mpr (.inr (by rw [hg]; simp))
  have hg1 : s1.get label = some r := (get_some h'.keys).mpr hg
  have hu : unmarshalPublic junk = none := by unfold unmarshalPublic; rw [if_pos hj]
  constructor
  · intro msg rng
    unfold KeyStore.encryptTo
    simp [h'.quick, hh1, hl, hg1, deref, hr, hu]
  · intro msg sg
    unfold KeyStore.verify KeyStore.getPublic
    simp [h'.quick, hh1, hl, hg1, deref, hr, hu]

example : Sound Toy.crypto (fresh Toy.crypto Proofs.ToyJson.asn1 Pem.toy (List.replicate 32 1) (List.replicate 32 2) 1 2)
    (ownerOf Toy.crypto (List.replicate 32 1) (List.replicate 32 2)) Map.empty ∧
    Signed Toy.crypto (ownerOf Toy.crypto (List.replicate 32 1) (List.replicate 32 2)) [9]
      (statement Toy.crypto (List.replicate 32 1) (List.replicate 32 2) [9] 5).signature 5 :=
  ⟨fresh_sound _ _ _ _ _ _ _ (by decide) (by decide) (by decide), statement_signed _ _ _ _ _ (by decide)⟩

/-! ### C61: statements are unambiguous -/

/-- With signers of 64 bytes the signed bytes determine key, signer and time; every signature that
the key store accepts is by such a signer. Missing from the property: other signers. -/
theorem C61_unambiguous_partial (v w : VerifiedKey) (hv : v.signer.length = 64) (hw : w.signer.length = 64)
    (h : v.signatureData = w.signatureData) : v.pub = w.pub ∧ v.signer = w.signer ∧ v.timestamp = w.timestamp := by
  unfold VerifiedKey.signatureData at h
  obtain ⟨h1, h2⟩ := List.append_inj' h (by rw [be_length, be_length])
  obtain ⟨h3, h4⟩ := List.append_inj' h1 (by rw [hv, hw])
  refine ⟨h3, h4, ?_⟩
  have := be_inj (by have := v.timestamp.isLt; omega) (by have := w.timestamp.isLt; omega) h2
  exact BitVec.eq_of_toNat_eq this

example : ∃ v w : VerifiedKey, v.signer.length = 64 ∧ w.signer.length = 64 ∧ v.signatureData = w.signatureData :=
  ⟨⟨[1], List.replicate 64 2, 3, [4]⟩, ⟨[1], List.replicate 64 2, 3, [5]⟩, by decide, by decide, by decide⟩

/-- C61 is false in general: bytes can be moved between the key and the signer. -/
theorem C61_shifted_violated (a b c : Bytes) (t : BitVec 64) :
    (⟨a ++ b, c, t, []⟩ : VerifiedKey).signatureData = (⟨a, b ++ c, t, []⟩ : VerifiedKey).signatureData := by
  simp [VerifiedKey.signatureData]

/-! ### C67: export and import -/

/-- What ExportVerified returns for a key that is not the owner's, or when no self-signed key is
kept. -/
theorem export_some {s : KeyStore} {d seed : Bytes} (h : Owned C d seed s) {label pem : Bytes} {orders : Nat → List Bytes}
    {fuel : Nat} {now : BitVec 64} (he : s.exportVerified C A P label orders fuel now = some (.ok (some pem))) :
    (label = self ∧ s.exportKey = some pem) ∨
    ∃ pk, pem = (statement C d seed pk now).serialise A P ∧
      ((label = self ∧ pk = ownerOf C d seed) ∨ ∃ r, s.get label = some r ∧ pk = r.keyBytes) := by
  obtain ⟨h1, h2, h3, h4⟩ := h
  have hpb : s.pubBytes = ownerOf C d seed := by simp [KeyFields.pubBytes, h3]
  unfold KeyStore.exportVerified at he
  split at he
  · simp at he
  have he : s.exportBody C A P label now = .ok (some pem) := by
    split at he
    · simp at he
    · simp at he
    · simp at he
    · simpa using he
  unfold KeyStore.exportBody at he
  split at he
  · rename_i hs; simp at he; exact .inl ⟨hs.1, he⟩
  right
  have key : ∀ pk, (do
      let vkey : VerifiedKey := { pub := pk, signer := s.pubBytes, timestamp := now, signature := [] }
      match ← Model.Public.sign C s.privateKey vkey.signatureData with
      | none => Pure.pure none
      | some sig => Pure.pure (some ({ vkey with signature := sig }.serialise A P))) = Res.ok (some pem) →
      pem = (statement C d seed pk now).serialise A P := by
    intro pk hk
    dsimp only at hk
    rw [h2, pairOf_eq, sign_mk, hpb] at hk
    simp only [Res.ok_bind, Res.pure_eq, Res.ok.injEq, Option.some.injEq] at hk
    exact hk.symm
  by_cases hl : label = self
  · simp only [hl, if_true, Res.pure_eq, Res.ok_bind] at he
    exact ⟨_, by rw [← hpb]; exact (key _ he), .inl ⟨hl, rfl⟩⟩
  · simp only [hl, if_false] at he
    cases hg : s.get label with
    | none => simp [hg, deref] at he
    | some r =>
      simp only [hg, deref, Res.ok_bind, Res.pure_eq] at he
      exact ⟨_, key _ he, .inr ⟨r, rfl, rfl⟩⟩

/-- Importing a signed statement in PEM. -/
theorem import_pem {s : KeyStore} {owner : Bytes} {m : Keys} (h : Sound C s owner m) (he : m [] = none)
    (d seed pk : Bytes) (t : BitVec 64) (hs : seed.length = 32)
    (hk : ownerOf C d seed = owner ∨ ∃ l r, m l = some (some r) ∧ r.keyBytes = ownerOf C d seed)
    {label : Bytes} (hl : label ≠ self) (hf : m label = none) {o1 o2 : List Bytes} (h1 : m.Enumerates o1)
    (h2 : m.Enumerates o2) (now : BitVec 64) :
    ∃ s' r, s.importVerifiedKey C A P label ((statement C d seed pk t).serialise A P) o1 o2 now = .ok (s', true) ∧
      s'.keys = some (m.set label (some r)) ∧ r.keys = some pk ∧ r.keySigner = ownerOf C d seed := by
  have hi := import_complete C (A := A) h he h1 h2 (A.dec_enc (statement C d seed pk t)) hl hf
    (statement_signed C d seed pk t hs) hk now
  refine ⟨_, _, Eq.trans ?_ hi, rfl, rfl, rfl⟩
  unfold KeyStore.importVerifiedKey VerifiedKey.serialise
  rw [P.dec_enc _ _ (by decide) (A.enc_ne _)]
  simp only [ne_eq, not_true_eq_false, if_false]

/-- A key exported by ExportVerified from a store with a genuine key pair (the owner's own key if
no self-signed statement is kept, see the next theorem) is accepted under any new label by every
store that satisfies the invariant of C56, holds the exporter's key and has no empty label, and is
stored with the same bytes. Missing from the property: stores with the exporter's key under the
empty label, for which it is false. -/
theorem C67_export_import_partial (s1 s2 : KeyStore) (d seed : Bytes) (hs : seed.length = 32) (h1 : Owned C d seed s1)
    (label pem : Bytes) (orders : Nat → List Bytes) (fuel : Nat) (t : BitVec 64)
    (hx : label ≠ self ∨ s1.exportKey = none)
    (he : s1.exportVerified C A P label orders fuel t = some (.ok (some pem)))
    (owner : Bytes) (m : Keys) (h2 : Sound C s2 owner m) (hz : m [] = none)
    (hk : ownerOf C d seed = owner ∨ ∃ l r, m l = some (some r) ∧ r.keyBytes = ownerOf C d seed)
    (label2 : Bytes) (hl : label2 ≠ self) (hf : m label2 = none) (o1 o2 : List Bytes) (e1 : m.Enumerates o1)
    (e2 : m.Enumerates o2) (now : BitVec 64) :
    ∃ s' r pk, s2.importVerifiedKey C A P label2 pem o1 o2 now = .ok (s', true) ∧
      s'.keys = some (m.set label2 (some r)) ∧ r.keys = some pk ∧ r.keySigner = ownerOf C d seed ∧
      ((label = self ∧ pk = ownerOf C d seed) ∨ ∃ q, s1.get label = some q ∧ pk = q.keyBytes) := by
  rcases export_some C A P h1 he with ⟨q1, q2⟩ | ⟨pk, rfl, hpk⟩
  · rcases hx with hx | hx
    · exact absurd q1 hx
    · rw [hx] at q2; cases q2
  · obtain ⟨s', r, i1, i2, i3, i4⟩ := import_pem C A P h2 hz d seed pk t hs hk hl hf e1 e2 now
    exact ⟨s', r, pk, i1, i2, i3, i4, hpk⟩

/-- The same for the self-signed key of a new store. -/
theorem C67_self_export_partial (s2 : KeyStore) (d seed : Bytes) (hs : seed.length = 32) (t1 t2 t : BitVec 64)
    (s1 : KeyStore) (hn : newPrivateKeyStore C A P (some (pairOf C d seed)) t1 t2 = .ok (some s1)) (ht : t2 ≠ 0)
    (orders : Nat → List Bytes) (fuel : Nat)
    (owner : Bytes) (m : Keys) (h2 : Sound C s2 owner m) (hz : m [] = none)
    (hk : ownerOf C d seed = owner ∨ ∃ l r, m l = some (some r) ∧ r.keyBytes = ownerOf C d seed)
    (label2 : Bytes) (hl : label2 ≠ self) (hf : m label2 = none) (o1 o2 : List Bytes) (e1 : m.Enumerates o1)
    (e2 : m.Enumerates o2) (now : BitVec 64) :
    ∃ pem s' r, s1.exportVerified C A P self orders fuel t = some (.ok (some pem)) ∧
      s2.importVerifiedKey C A P label2 pem o1 o2 now = .ok (s', true) ∧
      s'.keys = some (m.set label2 (some r)) ∧ r.keys = some (ownerOf C d seed) := by
  rw [fresh_eq] at hn
  cases hn
  obtain ⟨s', r, i1, i2, i3, -⟩ := import_pem C A P h2 hz d seed (ownerOf C d seed) t1 hs hk hl hf e1 e2 now
  refine ⟨_, s', r, ?_, i1, i2, i3⟩
  have hq : (fresh C A P d seed t1 t2).validQuick = true := (quick_iff _).mpr ⟨rfl, ht, _, rfl⟩
  have hh := (has_iff hq rfl self).mpr (.inl rfl)
  have hl : (fresh C A P d seed t1 t2).locked = false := rfl
  have hx : (fresh C A P d seed t1 t2).exportKey = some ((statement C d seed (ownerOf C d seed) t1).serialise A P) := rfl
  unfold KeyStore.exportVerified KeyFields.verifyChain KeyStore.exportBody
  simp [hq, hh, hl, hx]

/-- C67 is false: a store that holds the exporter's key under the empty label (AddKey allows it)
refuses everything the exporter signed. -/
theorem C67_empty_label_violated (d seed dB seedB : Bytes) (h1 : d.length = 32) (h2 : seed.length = 32)
    (hB : seedB.length = 32) (n : ownerOf C dB seedB ≠ ownerOf C d seed) :
    ∃ s m, (fresh C A P d seed 1 2).addKey C [] (ownerOf C dB seedB) none 3 4 = .ok (s, true) ∧ s.keys = some m ∧
      ∀ pk t label o1 o2 now, m.Enumerates o1 →
        Signed C (ownerOf C dB seedB) pk (statement C dB seedB pk t).signature t ∧
        s.importVerifiedKey C A P label ((statement C dB seedB pk t).serialise A P) o1 o2 now = .ok (s, false) := by
  have hs := fresh_sound C A P d seed 1 2 h1 h2 (by decide)
  have hown : Owned C d seed (fresh C A P d seed 1 2) := ⟨rfl, rfl, rfl, hs.quick⟩
  have ha := addKey_owned C hown rfl h2 (label := []) (by decide) rfl (ownerOf_length C dB seedB) none 3 4
  obtain ⟨m1, hm1⟩ := sound_addKey C hs ha
  have hk1 := hm1.keys
  simp only [Option.some.injEq] at hk1
  have hone : ∀ l v, m1 l = some v → l = [] := by
    intro l v hl; rw [← hk1] at hl; exact (SecretStore.exMap_get hl).1
  have hg : ∃ r, m1 [] = some (some r) ∧ r.keyBytes = ownerOf C dB seedB ∧ r.label = [] :=
    ⟨_, by rw [← hk1]; exact Map.set_same _ _ _, rfl, rfl⟩
  obtain ⟨r, hg, hr, hrl⟩ := hg
  refine ⟨_, m1, ha, hm1.keys, ?_⟩
  generalize ({ (fresh C A P d seed 1 2) with keys := _ } : KeyStore) = s1 at hm1
  intro pk t label o1 o2 now e1
  refine ⟨statement_signed C dB seedB pk t hB, ?_⟩
  have hne : (statement C dB seedB pk t).signer ≠ s1.pubBytes := by rw [sound_pub C hm1]; exact n
  have hfind : s1.findPublic (statement C dB seedB pk t).signer o1 = .ok (some []) := by
    unfold KeyFields.findPublic
    rw [if_neg hne, hm1.keys]
    simp only [Option.getD_some]
    cases hf : findLoop m1 (statement C dB seedB pk t).signer o1 with
    | panic => exact absurd hf (findLoop_no_panic hm1.noNil _ _)
    | ok o =>
      cases o with
      | none => exact absurd hr (findLoop_none hf [] ((e1.2 _).mpr (by simp [hg])) r hg)
      | some l =>
        obtain ⟨k, r', -, f1, f2, f3⟩ := findLoop_some hf
        rw [hm1.labelled k r' f1] at f3
        rw [← f3, hone k _ f1]
  unfold KeyStore.importVerifiedKey VerifiedKey.serialise
  rw [P.dec_enc _ _ (by decide) (A.enc_ne _)]
  simp only [ne_eq, not_true_eq_false, if_false]
  unfold KeyStore.importVerified
  split
  · rfl
  rw [A.dec_enc]
  simp only
  rw [if_neg hne, hfind]
  simp [(get_some hm1.keys).mpr hg, deref]

/-! ### C91: key statements and messages are kept apart -/

/-- C91 is false: a signature that the owner makes with Sign, on a message anybody can compose, is
accepted as the owner vouching for a key. -/
theorem C91_sign_forges_violated (s : KeyStore) (m : Keys) (d seed : Bytes) (hs : seed.length = 32)
    (h : Sound C s (ownerOf C d seed) m) (ho : Owned C d seed s) (he : m [] = none) (pk : Bytes) (t : BitVec 64)
    (label : Bytes) (hl : label ≠ self) (hf : m label = none) (o1 o2 : List Bytes) (h1 : m.Enumerates o1)
    (h2 : m.Enumerates o2) (now : BitVec 64) :
    ∃ sig s' r, s.sign C (pk ++ ownerOf C d seed ++ be 8 t.toNat) = .ok (some sig) ∧
      s.importVerified C A label (A.enc ⟨pk, ownerOf C d seed, t, sig⟩) o1 o2 now = .ok (s', true) ∧
      s'.keys = some (m.set label (some r)) ∧ r.keys = some pk := by
  have hi := import_complete C (A := A) h he h1 h2 (A.dec_enc (statement C d seed pk t)) hl hf
    (statement_signed C d seed pk t hs) (.inl rfl) now
  refine ⟨_, _, _, ?_, hi, rfl, rfl⟩
  unfold KeyStore.sign
  rw [sound_valid C h]
  simp only [Res.ok_bind, ho.1, Bool.not_true, Bool.or_false, Bool.false_eq_true, if_false]
  rw [ho.2.1, pairOf_eq, sign_mk]

/-- Messages that are not of the form key, owner, time are no key statements by the owner: signing
them does not vouch for any key. -/
theorem C91_other_messages_partial (owner msg : Bytes) (h : owner.length = 64)
    (hm : msg.length < 72 ∨ (msg.drop (msg.length - 72)).take 64 ≠ owner) (v : VerifiedKey) (hv : v.signer = owner) :
    v.signatureData ≠ msg := by
  rintro rfl
  have hl : v.signatureData.length = v.pub.length + 72 := by
    simp [VerifiedKey.signatureData, hv, h, be_length]
  rcases hm with hm | hm
  · omega
  · apply hm
    rw [hl, Nat.add_sub_cancel, VerifiedKey.signatureData, List.append_assoc, List.drop_left, hv, List.take_left' h]

example : Sound Toy.crypto (fresh Toy.crypto Proofs.ToyJson.asn1 Pem.toy (List.replicate 32 1) (List.replicate 32 2) 1 2)
    (ownerOf Toy.crypto (List.replicate 32 1) (List.replicate 32 2)) Map.empty ∧
    Owned Toy.crypto (List.replicate 32 1) (List.replicate 32 2)
      (fresh Toy.crypto Proofs.ToyJson.asn1 Pem.toy (List.replicate 32 1) (List.replicate 32 2) 1 2) ∧
    (Map.empty : Keys).Enumerates [] :=
  ⟨fresh_sound _ _ _ _ _ _ _ (by decide) (by decide) (by decide), ⟨rfl, rfl, rfl, by decide⟩, enum_empty⟩

/-! ### C92: FindPublic -/

/-- In a store without nil records whose labels are in place FindPublic finds a label whose key is
the one asked for, and fails only if there is none. -/
theorem C92_find_exact_partial (s : KeyFields) (m : Keys) (hm : s.keys = some m) (hn : NoNil m) (hlab : Labelled m)
    (pub : Bytes) (order : List Bytes) (he : m.Enumerates order) :
    (∃ l, s.findPublic pub order = .ok (some l) ∧
      ((pub = s.pubBytes ∧ l = self) ∨ (pub ≠ s.pubBytes ∧ ∃ r, m l = some (some r) ∧ r.keyBytes = pub))) ∨
    (s.findPublic pub order = .ok none ∧ pub ≠ s.pubBytes ∧ ∀ l r, m l = some (some r) → r.keyBytes ≠ pub) := by
  unfold KeyFields.findPublic
  by_cases hp : pub = s.pubBytes
  · rw [if_pos hp]; exact .inl ⟨_, rfl, .inl ⟨hp, rfl⟩⟩
  · rw [if_neg hp, hm]
    simp only [Option.getD_some]
    cases hf : findLoop m pub order with
    | panic => exact absurd hf (findLoop_no_panic hn _ _)
    | ok o =>
      cases o with
      | none => exact .inr ⟨rfl, hp, fun l r hr => findLoop_none hf l ((he.2 l).mpr (by simp [hr])) r hr⟩
      | some l =>
        obtain ⟨k, r, -, f1, f2, f3⟩ := findLoop_some hf
        rw [hlab k r f1] at f3
        subst f3
        exact .inl ⟨k, rfl, .inr ⟨hp, r, f1, f2⟩⟩

/-- C92 is false for a loaded store with a nil record, on which FindPublic panics, and for one
whose record is stored under a label that is not its own, for which it returns that label. -/
theorem C92_find_violated (owner pub : Bytes) (h : pub ≠ owner) :
    (∃ s : KeyFields, s.validQuick = true ∧ s.pubBytes = owner ∧ s.findPublic pub [[97]] = .panic) ∧
    (∃ s : KeyFields, s.validQuick = true ∧ s.pubBytes = owner ∧ s.findPublic pub [[97]] = .ok (some [98]) ∧
      s.get [98] = none) := by
  constructor
  · refine ⟨⟨1, 5, some (Map.empty.set [97] none), none, some owner, none⟩, rfl, rfl, ?_⟩
    simp [KeyFields.findPublic, KeyFields.pubBytes, h, findLoop]
  · refine ⟨⟨1, 5, some (Map.empty.set [97] (some ⟨[98], 1, 5, some pub, [], [], 0, none⟩)), none, some owner, none⟩,
      rfl, rfl, ?_, rfl⟩
    simp [KeyFields.findPublic, KeyFields.pubBytes, h, findLoop, PublicKeyRecord.keyBytes]

example : ∃ m : Keys, NoNil m ∧ Labelled m ∧ m.Enumerates [[97]] := by
  refine ⟨Map.empty.set [97] (some ⟨[97], 1, 5, some [1], [], [], 0, none⟩), ?_, ?_, enum_set enum_empty rfl _⟩
  · intro l h; cases (SecretStore.exMap_get h).2
  · intro l r h
    obtain ⟨rfl, h⟩ := SecretStore.exMap_get h
    cases h; rfl

end Verif.Props.KeyImport
