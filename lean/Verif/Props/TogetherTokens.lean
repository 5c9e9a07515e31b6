import Verif.Props.TogetherStores
import Verif.Spec.TogetherTokens
/-! C236: the counter of a token in two copies of a store. -/

namespace Verif.Props.TogetherTokens
open Verif Verif.Go Verif.Model.Util Verif.Model.SecretStore Verif.Model.Otpc
open Verif.Model.Secrets (World dash)
open Verif.Spec.SecretStore Verif.Spec.Secrets Verif.Spec.Otpc Verif.Spec.TogetherTokens
open Verif.Proofs.SecretStore Verif.Proofs.Secrets Verif.Proofs.Otpc
open Verif.Props.SecretStore
open Verif.Props.TogetherStores (opens_at)
open Verif.Props.Together (exTwo exMerge)

variable (C : Crypto) (J : Json) (T : TwoFactor) (U : Case)

theorem tokenAt_at {fs fs' : Fs} {a b pass label key : Bytes} {mode d : Int} {c t : BitVec 64} (h : TokenAt C J T fs a pass mode label key c d t)
    (e : fs' b = fs a) : TokenAt C J T fs' b pass mode label key c d t := by
  obtain ⟨s, r, md, ⟨x, hx, hu⟩, h2⟩ := h
  exact ⟨s, r, md, ⟨x, by rw [e]; exact hx, hu⟩, h2⟩

theorem saved_at {fs : Fs} {s : SecretStore} {m : Map (Option SecretRecord)} {label pass out path key : Bytes} {mode d : Int}
    {c t t' : BitVec 64} {r : SecretRecord} {md : Map Bytes} (hf : s.toFields.Finite) (hu : s.toFields.Utf8) (hnn : NoNil s)
    (hm : s.store = some m) (hl : ValidUtf8 label) (hr : r.label = label) (hmd : r.metadata = some md)
    (hk : md.Finite ∧ ∀ j x, md j = some x → ValidUtf8 j) (ht : md kType = some (ascii "HOTP")) (ho : r.secret = T.url (.hotp key c d) label)
    (htt : r.timestamp = t') (hfile : IsFile C out pass mode (J.enc { s.toFields with store := some (m.set label (some r)), timestamp := t })) :
    TokenAt C J T (fs.set path out) path pass mode label key c d t' := by
  have e := saved_exact C J (finite_set hf hm label r (by intro x hx; rw [hmd] at hx; cases hx; exact hk.1) t)
    (utf8_set (r := r) hu hm hl (by rw [hr]; exact hl) (by intro x j y hx hy; rw [hmd] at hx; cases hx; exact hk.2 j y hy) t) hfile
  refine ⟨_, r, md, ⟨out, Fs.set_same _ _ _, e⟩, ?_, ?_, hr, hmd, ht, ho, htt⟩
  · intro m2 k h2 hk2
    cases h2
    by_cases e : k = label
    · subst e; rw [Map.set_same] at hk2; cases hk2
    · rw [Map.set_other _ _ e] at hk2
      exact hnn m k hm hk2
  · rw [lookup_eq (m := m.set label (some r)) rfl, Map.set_same]
    rfl

/-- One run. -/
theorem show_at {f : Flags} (hf : Showing f) {w w' : World} {path pass label key : Bytes} {rest : List (Option Bytes)} {c t : BitVec 64} {d : Int}
    {codes : List Bytes} (hd : path ≠ dash) (hpl : Plain label) (hus : (Otp.hotp key c d).Usual)
    (hh : TokenAt C J T w.fs path pass f.mode label key c d t) (ha : w.term.answers = some pass :: rest)
    (h : main C J T U f [label] path w = .ok (.exit 0 codes, w')) :
    ∃ code, codes = [code] ∧ T.hcode key c d = .ok code ∧ TokenAt C J T w'.fs path pass f.mode label key (c + 1) d (w.term.clock 0) := by
  obtain ⟨s, r, md, ho, hnn, hl, hrl, hmd, ht, hsec, -⟩ := hh
  obtain ⟨b, hb, hu⟩ := ho
  obtain ⟨hfin, hutf, hp⟩ := opens_fields C J hu
  obtain ⟨code, hc⟩ := T.hcode_ok key c d hus
  obtain ⟨m, hm, hk⟩ := lookup_get hl
  have hfrom := T.fromURL_url _ _ hus hpl.1 hpl.2
  rw [main_show C J T U hf hd ha ⟨b, hb, hu⟩, show_hotp T hm hl hmd ht (by decide) (by rw [hsec]; exact hfrom) hc] at h
  have hset : ∀ r' : SecretRecord, (m.set label (some r')).set label (some r') = m.set label (some r') := fun r' =>
    Map.set_self _ (Map.set_same _ _ _)
  rw [hset] at h
  simp only [Res.bind, showEnd] at h
  rcases save_some C J hd h with ⟨q1, p, out, q2, -, -, -, q6, q7⟩ | ⟨q1, q2⟩
  · simp only at q2
    rw [hp] at q2
    cases q2
    cases q1
    refine ⟨code, rfl, hc, ?_⟩
    rw [q7]
    have hmfin : md.Finite := record_finite hfin hl md hmd
    have hmutf : ∀ j x, md j = some x → ValidUtf8 j := fun j x hj => (record_utf8 hutf hl).2.2 md j x hmd hj
    exact saved_at C J T (r := { r with secret := T.url (.hotp key (c + 1) d) label, timestamp := w.term.clock 0 }) hfin hutf hnn hm (plain_utf8 hpl) hrl hmd
      ⟨hmfin, hmutf⟩ ht rfl rfl q6
  · cases q1

theorem head_cons {α : Type} {l : List α} {a : α} (h : l.head? = some a) : ∃ r, l = a :: r := by
  cases l with
  | nil => cases h
  | cons b r => cases h; exact ⟨r, rfl⟩

/-- Any number of runs: the codes are those of successive counters. -/
theorem shows_at {f : Flags} (hf : Showing f) {path pass label key : Bytes} {d : Int} (hd : path ≠ dash) (hpl : Plain label)
    {fs fs' : Fs} {l : List Bytes} {t' : BitVec 64} (hS : Shows C J T U f path pass label fs l fs' t') : ∀ (c t : BitVec 64),
    (Otp.hotp key c d).Usual → TokenAt C J T fs path pass f.mode label key c d t →
    TokenAt C J T fs' path pass f.mode label key (c + BitVec.ofNat 64 l.length) d t' ∧
      ∀ i x, l[i]? = some x → T.hcode key (c + BitVec.ofNat 64 i) d = .ok x := by
  induction hS with
  | one h1 h2 =>
    intro c t hus hT
    obtain ⟨rest, ha⟩ := head_cons h1
    obtain ⟨code, rfl, hc, hT'⟩ := show_at C J T U hf hd hpl hus hT ha h2
    refine ⟨hT', fun i x hi => ?_⟩
    cases i with
    | zero =>
      cases hi
      rw [show c + BitVec.ofNat 64 0 = c from by simp]
      exact hc
    | succ i => cases hi
  | more h1 h2 h3 ih =>
    intro c t hus hT
    obtain ⟨rest, ha⟩ := head_cons h1
    obtain ⟨code, rfl, hc, hT'⟩ := show_at C J T U hf hd hpl hus hT ha h2
    obtain ⟨g1, g2⟩ := ih (c + 1) _ hus hT'
    have step : ∀ n : Nat, c + 1 + BitVec.ofNat 64 n = c + BitVec.ofNat 64 (n + 1) := by
      intro n
      rw [BitVec.add_assoc]
      congr 1
      rw [Nat.add_comm n 1, BitVec.ofNat_add]
      rfl
    refine ⟨?_, fun i x hi => ?_⟩
    · rw [step] at g1
      exact g1
    · cases i with
      | zero =>
        cases hi
        rw [show c + BitVec.ofNat 64 0 = c from by simp]
        exact hc
      | succ i =>
        rw [← step]
        exact g2 i x hi

variable (P : Pem) (ord : Map (Option SecretRecord) → List Bytes) (fuel : Nat)

/-- Merging: the token stored last is kept. -/
theorem merge_at (f : Model.Secrets.Flags) (a b p q : Bytes) (args : List Bytes) (w w' : World) (rest : List (Option Bytes)) (ha : a ≠ dash) (hb : b ≠ dash)
    (hf : f.action = .cmd .merge) (hord : ∀ m : Map (Option SecretRecord), m.Finite → m.Enumerates (ord m))
    (hw : w.term.answers = some p :: some q :: rest) (h : Model.Secrets.main C J P ord fuel f (b :: args) a w = some (.ok (0, w')))
    {label key : Bytes} {c c' t t' : BitVec 64} {d : Int} (h1 : TokenAt C J T w.fs a p f.mode label key c d t)
    (h2 : TokenAt C J T w.fs b q f.mode label key c' d t') :
    TokenAt C J T w'.fs a p f.mode label key (if t'.toInt ≤ t.toInt then c else c') d (if t'.toInt ≤ t.toInt then t else t') := by
  obtain ⟨p2, q2, r', s, o, s', e2, hs, ho, hs', hn, -⟩ := Secrets.C95_merge C J P ord fuel f (b :: args) a w w' ha hf hb hord h
  simp only [List.headD_cons] at ho
  rw [hw] at e2
  simp only [List.cons.injEq, Option.some.injEq] at e2
  obtain ⟨rfl, rfl, -⟩ := e2
  obtain ⟨s1, r1, m1, g1, g2, g3, g4, g5, g6, g7, rfl⟩ := h1
  obtain ⟨s2, r2, m2, k1, k2, k3, k4, k5, k6, k7, rfl⟩ := h2
  have q1 := opens_at C J g1 hs rfl
  have q2 := opens_at C J k1 ho rfl
  subst q1 q2
  obtain ⟨n1, n2⟩ := hn g2 k2
  have nl := n2 label
  rw [g3, k3] at nl
  unfold newest at nl
  simp only at nl
  by_cases hq : r2.timestamp.toInt ≤ r1.timestamp.toInt
  · rw [if_pos hq] at nl
    rw [if_pos hq, if_pos hq]
    exact ⟨s', r1, m1, hs', n1, nl, g4, g5, g6, g7, rfl⟩
  · rw [if_neg hq] at nl
    rw [if_neg hq, if_neg hq]
    exact ⟨s', r2, m2, hs', n1, nl, k4, k5, k6, k7, rfl⟩

/-- Of two equal copies of a store with a token one is used, and then merged into the other with `secrets -merge`: from then on the other displays the
codes that follow. Missing from the property: that both copies are used before, for which it is false, and a clock that was behind. -/
theorem C236_followed_partial (f g : Flags) (f2 : Model.Secrets.Flags) (a b p label key : Bytes) (args : List Bytes) (c t t1 t2 : BitVec 64) (d : Int)
    (fs fs1 fs4 fs5 : Fs) (l l' : List Bytes) (w w' : World) (rest : List (Option Bytes)) (ha : a ≠ dash) (hb : b ≠ dash)
    (hf : f.init = false ∧ f.store = false ∧ f.qr = false) (hg : g.init = false ∧ g.store = false ∧ g.qr = false) (hpl : Plain label) (hkey : key ≠ []) (hdig : d = 6 ∨ d = 8)
    (hf2 : f2.action = .cmd .merge) (hm : f2.mode = f.mode) (hmg : g.mode = f.mode) (hord : ∀ m : Map (Option SecretRecord), m.Finite → m.Enumerates (ord m))
    (hT : TokenAt C J T fs b p f.mode label key c d t)
    (hS : Shows C J T U f b p label fs l fs1 t1) (ht : t.toInt < t1.toInt)
    (hb2 : w.fs b = fs1 b) (ha2 : w.fs a = fs b) (hw : w.term.answers = some p :: some p :: rest)
    (h : Model.Secrets.main C J P ord fuel f2 (b :: args) a w = some (.ok (0, w')))
    (h4 : fs4 a = w'.fs a) (hS' : Shows C J T U g a p label fs4 l' fs5 t2) :
    ∀ i x, (l ++ l')[i]? = some x → T.hcode key (c + BitVec.ofNat 64 i) d = .ok x := by
  have hus : ∀ c, (Otp.hotp key c d).Usual := fun _ => ⟨hkey, hdig⟩
  obtain ⟨g1, g2⟩ := shows_at C J T U hf hb hpl hS c t (hus c) hT
  have k1 := merge_at C J T P ord fuel f2 a b p p args w w' rest ha hb hf2 hord hw h (c := c) (t := t)
    (by rw [hm]; exact tokenAt_at C J T hT ha2) (by rw [hm]; exact tokenAt_at C J T g1 hb2)
  rw [if_neg (by omega), if_neg (by omega), hm, ← hmg] at k1
  obtain ⟨-, k2⟩ := shows_at C J T U hg ha hpl hS' _ _ (hus _) (tokenAt_at C J T k1 h4)
  intro i x hi
  by_cases hq : i < l.length
  · rw [List.getElem?_append_left hq] at hi
    exact g2 i x hi
  · rw [List.getElem?_append_right (by omega)] at hi
    have := k2 _ x hi
    rw [BitVec.add_assoc, ← BitVec.ofNat_add, Nat.add_sub_cancel' (by omega)] at this
    exact this

/-- C236 is false when both copies are used before they are merged: after the one that was used less, but last, has taken over what is newer in the
other, it displays codes that the other has displayed before. -/
theorem C236_both_violated (f : Flags) (f2 : Model.Secrets.Flags) (a b p label key : Bytes) (args : List Bytes) (c t t1 t2 t3 : BitVec 64) (d : Int)
    (fs fs1 fs2 fs3 fs4 fs5 : Fs) (l l' : List Bytes) (x : Bytes) (w w' : World) (rest : List (Option Bytes)) (ha : a ≠ dash) (hb : b ≠ dash)
    (hf : f.init = false ∧ f.store = false ∧ f.qr = false) (hpl : Plain label) (hkey : key ≠ []) (hdig : d = 6 ∨ d = 8)
    (hf2 : f2.action = .cmd .merge) (hm : f2.mode = f.mode) (hord : ∀ m : Map (Option SecretRecord), m.Finite → m.Enumerates (ord m))
    (hT : TokenAt C J T fs b p f.mode label key c d t)
    (hS : Shows C J T U f b p label fs l fs1 t1) (hcopy : fs2 a = fs b) (hS2 : Shows C J T U f a p label fs2 l' fs3 t2)
    (hlen : l'.length < l.length) (ht : t1.toInt ≤ t2.toInt)
    (hb2 : w.fs b = fs1 b) (ha2 : w.fs a = fs3 a) (hw : w.term.answers = some p :: some p :: rest)
    (h : Model.Secrets.main C J P ord fuel f2 (b :: args) a w = some (.ok (0, w')))
    (h4 : fs4 a = w'.fs a) (hS' : Shows C J T U f a p label fs4 [x] fs5 t3) : x ∈ l := by
  have hus : ∀ c, (Otp.hotp key c d).Usual := fun _ => ⟨hkey, hdig⟩
  obtain ⟨g1, g2⟩ := shows_at C J T U hf hb hpl hS c t (hus c) hT
  obtain ⟨k1, -⟩ := shows_at C J T U hf ha hpl hS2 c t (hus c) (tokenAt_at C J T hT hcopy)
  have r1 := merge_at C J T P ord fuel f2 a b p p args w w' rest ha hb hf2 hord hw h
    (by rw [hm]; exact tokenAt_at C J T k1 ha2) (by rw [hm]; exact tokenAt_at C J T g1 hb2)
  rw [if_pos ht, if_pos ht, hm] at r1
  obtain ⟨-, r2⟩ := shows_at C J T U hf ha hpl hS' _ _ (hus _) (tokenAt_at C J T r1 h4)
  have r3 := r2 0 x rfl
  rw [show c + BitVec.ofNat 64 l'.length + BitVec.ofNat 64 0 = c + BitVec.ofNat 64 l'.length from by simp] at r3
  have r4 := g2 l'.length l[l'.length] (List.getElem?_eq_getElem hlen)
  rw [r3] at r4
  cases r4
  exact List.getElem_mem hlen

/-- Both copies are used, and the one that was used last at least as often as the other. Then one is merged into the other, which from then on displays
codes of counters that neither has used: those that follow the last one used. -/
theorem C236_both_partial (f g : Flags) (f2 : Model.Secrets.Flags) (a b p label key : Bytes) (args : List Bytes) (c t t1 t2 t3 : BitVec 64) (d : Int)
    (fs fs1 fs2 fs3 fs4 fs5 : Fs) (l l' l2 : List Bytes) (w w' : World) (rest : List (Option Bytes)) (ha : a ≠ dash) (hb : b ≠ dash)
    (hf : f.init = false ∧ f.store = false ∧ f.qr = false) (hg : g.init = false ∧ g.store = false ∧ g.qr = false) (hpl : Plain label) (hkey : key ≠ []) (hdig : d = 6 ∨ d = 8)
    (hf2 : f2.action = .cmd .merge) (hm : f2.mode = f.mode) (hmg : g.mode = f.mode) (hord : ∀ m : Map (Option SecretRecord), m.Finite → m.Enumerates (ord m))
    (hT : TokenAt C J T fs b p f.mode label key c d t)
    (hS : Shows C J T U f b p label fs l fs1 t1) (hcopy : fs2 a = fs b) (hS2 : Shows C J T U f a p label fs2 l' fs3 t2)
    (hlast : t1.toInt ≤ t2.toInt → l.length ≤ l'.length) (hlast2 : t2.toInt < t1.toInt → l'.length ≤ l.length)
    (hb2 : w.fs b = fs1 b) (ha2 : w.fs a = fs3 a) (hw : w.term.answers = some p :: some p :: rest)
    (h : Model.Secrets.main C J P ord fuel f2 (b :: args) a w = some (.ok (0, w')))
    (h4 : fs4 a = w'.fs a) (hS' : Shows C J T U g a p label fs4 l2 fs5 t3) :
    (∀ i x, l[i]? = some x → T.hcode key (c + BitVec.ofNat 64 i) d = .ok x) ∧ (∀ i x, l'[i]? = some x → T.hcode key (c + BitVec.ofNat 64 i) d = .ok x) ∧
      ∀ i x, l2[i]? = some x → T.hcode key (c + BitVec.ofNat 64 (max l.length l'.length + i)) d = .ok x := by
  have hus : ∀ c, (Otp.hotp key c d).Usual := fun _ => ⟨hkey, hdig⟩
  obtain ⟨g1, g2⟩ := shows_at C J T U hf hb hpl hS c t (hus c) hT
  obtain ⟨k1, k2⟩ := shows_at C J T U hf ha hpl hS2 c t (hus c) (tokenAt_at C J T hT hcopy)
  have r1 := merge_at C J T P ord fuel f2 a b p p args w w' rest ha hb hf2 hord hw h
    (by rw [hm]; exact tokenAt_at C J T k1 ha2) (by rw [hm]; exact tokenAt_at C J T g1 hb2)
  refine ⟨g2, k2, fun i x hi => ?_⟩
  have e : (if t1.toInt ≤ t2.toInt then c + BitVec.ofNat 64 l'.length else c + BitVec.ofNat 64 l.length) = c + BitVec.ofNat 64 (max l.length l'.length) := by
    split
    · rename_i hq
      rw [Nat.max_eq_right (hlast hq)]
    · rename_i hq
      rw [Nat.max_eq_left (hlast2 (by omega))]
  rw [e, hm, ← hmg] at r1
  obtain ⟨-, r2⟩ := shows_at C J T U hg ha hpl hS' _ _ (hus _) (tokenAt_at C J T r1 h4)
  have := r2 i x hi
  rw [BitVec.add_assoc, ← BitVec.ofNat_add] at this
  exact this

/-! Examples. -/

theorem exToken (U : Case) : ∃ fs, Holds C J T fs [102] [112, 119] 0 (ascii "mail") (ascii "HOTP") (.hotp (ascii "foobar") 42 6) ∧
    TokenAt C J T fs [102] [112, 119] 0 (ascii "mail") (ascii "foobar") 42 6 1000 := by
  obtain ⟨b, hb⟩ := Props.Secrets.exFile C J 0 (Or.inl rfl)
  obtain ⟨code0, hc0⟩ := T.hcode_ok (ascii "foobar") 41 6 ⟨by decide, Or.inl rfl⟩
  have hr := addHotp_eq T (w := Props.Secrets.exWorld b [some (ascii "41"), some []]) (label := ascii "mail") (key := ascii "foobar") (code := code0)
    (rest := []) (c := 41) (d := 6) rfl (Or.inl ⟨by decide, by decide⟩) (Or.inr ⟨rfl, rfl⟩) hc0
  obtain ⟨out, w', e1, e2, e3⟩ := main_store C J T U (f := { store := true, kind := ascii "hotp" }) rfl rfl (label := ascii "mail") (path := [102])
    (pass := [112, 119]) (secret := ascii "mzxw 6ytb oi") (w := Props.Secrets.exWorld b [some [112, 119], some (ascii "mzxw 6ytb oi"), some (ascii "41"), some []])
    (rest := [some (ascii "41"), some []]) (s := exStore [1, 2, 3] 7) (code := code0) (t := ⟨[], fun n => 1000 + BitVec.ofNat 64 (n + 1)⟩)
    (by decide) rfl ⟨b, by simp [Props.Secrets.exWorld], hb⟩ rfl (Props.Secrets.exMap_other (by decide) _ _)
    (by rw [typed_b32 _ Props.Otpc.exTyped]; exact hr) rfl (Props.Otpc.exRng _ _) rfl (Props.Secrets.exClock 1 (by decide))
  refine ⟨w'.fs, ?_, ?_⟩
  · rw [e2]
    exact saved_holds C J T (exStore_finite _ _) (exStore_clean _ _) rfl rfl (by decide) rfl rfl
      (meta_keys (by decide) (meta_keys (by decide) (meta_keys (by decide) meta_empty))) (hotpMeta_type _ _) rfl e3
  · rw [e2]
    exact saved_at C J T (exStore_finite _ _) (exStore_clean _ _) (exStore_noNil _ _) rfl (by decide) rfl rfl
      (meta_keys (by decide) (meta_keys (by decide) (meta_keys (by decide) meta_empty))) (hotpMeta_type _ _) rfl rfl e3

/-- A world at a later time. -/
def exLater (fs : Fs) (answers : List (Option Bytes)) : World :=
  { exTwo fs answers with term := { answers := answers, clock := fun n => 2000 + BitVec.ofNat 64 n } }

theorem exShow {fs : Fs} {path : Bytes} (hd : path ≠ dash) {c t : BitVec 64}
    (h1 : Holds C J T fs path [112, 119] 0 (ascii "mail") (ascii "HOTP") (.hotp (ascii "foobar") c 6))
    (h2 : TokenAt C J T fs path [112, 119] 0 (ascii "mail") (ascii "foobar") c 6 t) :
    ∃ code w', main C J T U {} [ascii "mail"] path (exLater fs [some [112, 119]]) = .ok (.exit 0 [code], w') ∧
      Holds C J T w'.fs path [112, 119] 0 (ascii "mail") (ascii "HOTP") (.hotp (ascii "foobar") (c + 1) 6) ∧
      TokenAt C J T w'.fs path [112, 119] 0 (ascii "mail") (ascii "foobar") (c + 1) 6 2000 := by
  have hpl : Plain (ascii "mail") := ⟨by decide, by decide⟩
  have hus : ∀ c, (Otp.hotp (ascii "foobar") c 6).Usual := fun _ => ⟨by decide, Or.inl rfl⟩
  obtain ⟨code, w', c1, m1⟩ := show_works C J T U (f := {}) ⟨rfl, rfl, rfl⟩
    (w := exLater fs [some [112, 119]]) (path := path) (pass := [112, 119]) (rest := [])
    hd hpl (hus c) h1 rfl rfl (by show 56 ≤ (List.replicate 200 _).length; rw [List.length_replicate]; decide) (by show (2000 + BitVec.ofNat 64 1 : BitVec 64) ≠ 0; decide)
  obtain ⟨c', -, q⟩ := show_holds C J T U (f := {}) ⟨rfl, rfl, rfl⟩
    (w := exLater fs [some [112, 119]]) (path := path) (pass := [112, 119]) (rest := []) hd hpl (hus c) h1 rfl m1
  obtain ⟨c'', -, -, q2⟩ := show_at C J T U (f := {}) ⟨rfl, rfl, rfl⟩
    (w := exLater fs [some [112, 119]]) (path := path) (pass := [112, 119]) (rest := []) hd hpl (hus c) h2 rfl m1
  rcases q with ⟨-, q⟩ | ⟨q, -⟩
  · exact ⟨code, w', m1, q, q2⟩
  · cases q

theorem holds_at {fs fs' : Fs} {a b pass label type : Bytes} {mode : Int} {o : Otp} (h : Holds C J T fs a pass mode label type o)
    (e : fs' b = fs a) : Holds C J T fs' b pass mode label type o := by
  obtain ⟨s, r, md, ⟨x, hx, hu⟩, h2⟩ := h
  exact ⟨s, r, md, ⟨x, by rw [e]; exact hx, hu⟩, h2⟩

theorem exMerged {fs : Fs} {a b : Bytes} (ha : a ≠ dash) (hb : b ≠ dash) (hord : ∀ m : Map (Option SecretRecord), m.Finite → m.Enumerates (ord m))
    {c c' t t' : BitVec 64}
    (h1 : Holds C J T fs a [112, 119] 0 (ascii "mail") (ascii "HOTP") (.hotp (ascii "foobar") c 6))
    (h2 : TokenAt C J T fs a [112, 119] 0 (ascii "mail") (ascii "foobar") c 6 t)
    (h3 : TokenAt C J T fs b [112, 119] 0 (ascii "mail") (ascii "foobar") c' 6 t') :
    ∃ w', Model.Secrets.main C J P ord fuel { merge := true } [b] a (exTwo fs [some [112, 119], some [112, 119]]) = some (.ok (0, w')) ∧
      Holds C J T w'.fs a [112, 119] 0 (ascii "mail") (ascii "HOTP") (.hotp (ascii "foobar") (if t'.toInt ≤ t.toInt then c else c') 6) ∧
      TokenAt C J T w'.fs a [112, 119] 0 (ascii "mail") (ascii "foobar") (if t'.toInt ≤ t.toInt then c else c') 6 (if t'.toInt ≤ t.toInt then t else t') := by
  obtain ⟨s, r, md, ho, hv, -⟩ := h1
  obtain ⟨s', r', md', ho', hnn', hl', -⟩ := id h2
  have := opens_at C J ho ho' rfl
  subst this
  obtain ⟨o, r2, md2, ho2, hnn2, hl2, -⟩ := id h3
  obtain ⟨ms, hms, -⟩ := lookup_get hl'
  obtain ⟨mo, hmo, -⟩ := lookup_get hl2
  obtain ⟨w', s3, ms3, d1, d2, d3, d4, d5, d6⟩ := exMerge C J P ord fuel ha hb hord ho ho2 hv hms hmo hnn' hnn2
  have hT := merge_at C J T P ord fuel { merge := true } a b [112, 119] [112, 119] [] _ w' [] ha hb rfl hord rfl d1 h2 h3
  refine ⟨w', d1, ?_, hT⟩
  obtain ⟨s4, r4, md4, k1, k2, k3, k4, k5, k6, k7, -⟩ := hT
  have := opens_at C J d2 k1 rfl
  subst this
  exact ⟨s3, r4, md4, d2, d6, k3, k4, k5, k6, k7⟩

/-- Two codes are displayed from one copy and one from the other, later; then the first is merged into the second. -/
example (hord : ∀ m : Map (Option SecretRecord), m.Finite → m.Enumerates (ord m)) :
    ∃ (fs fs1 fs2 fs3 fs5 : Fs) (x1 x2 y z : Bytes) (w w' : World), TokenAt C J T fs [102] [112, 119] 0 (ascii "mail") (ascii "foobar") 42 6 1000 ∧
      Shows C J T U {} [102] [112, 119] (ascii "mail") fs [x1, x2] fs1 2000 ∧ fs2 [103] = fs [102] ∧
      Shows C J T U {} [103] [112, 119] (ascii "mail") fs2 [y] fs3 2000 ∧ w.fs [102] = fs1 [102] ∧ w.fs [103] = fs3 [103] ∧
      w.term.answers = [some [112, 119], some [112, 119]] ∧ Model.Secrets.main C J P ord fuel { merge := true } [[102]] [103] w = some (.ok (0, w')) ∧
      Shows C J T U {} [103] [112, 119] (ascii "mail") w'.fs [z] fs5 2000 := by
  obtain ⟨fs, h1, h2⟩ := exToken C J T U
  obtain ⟨x1, w1, a1, a2, a3⟩ := exShow C J T U (by decide) h1 h2
  obtain ⟨x2, w2, b1, b2, b3⟩ := exShow C J T U (by decide) a2 a3
  obtain ⟨y, w3, c1, c2, c3⟩ := exShow C J T U (path := [103]) (fs := fs.set [103] ((fs [102]).getD [])) (by decide)
    (holds_at C J T h1 (by
      obtain ⟨s, r, md, ⟨x, hx, -⟩, -⟩ := h1
      rw [Fs.set_same, hx]
      rfl))
    (tokenAt_at C J T h2 (by
      obtain ⟨s, r, md, ⟨x, hx, -⟩, -⟩ := h1
      rw [Fs.set_same, hx]
      rfl))
  let both : Fs := fun q => if q = [102] then w2.fs [102] else w3.fs q
  have e1 : both [103] = w3.fs [103] := if_neg (by decide)
  have e2 : both [102] = w2.fs [102] := if_pos rfl
  obtain ⟨w', d1, d2, d3⟩ := exMerged C J T P ord fuel (fs := both) (a := [103]) (b := [102]) (by decide) (by decide) hord
    (holds_at C J T c2 e1) (tokenAt_at C J T c3 e1) (tokenAt_at C J T b3 e2)
  obtain ⟨z, w5, k1, -⟩ := exShow C J T U (by decide) d2 d3
  have s1 : Shows C J T U {} [102] [112, 119] (ascii "mail") w1.fs [x2] w2.fs 2000 :=
    Shows.one (w := exLater w1.fs [some [112, 119]]) rfl b1
  have s2 : Shows C J T U {} [102] [112, 119] (ascii "mail") fs ([x1] ++ [x2]) w2.fs 2000 :=
    Shows.more (w := exLater fs [some [112, 119]]) rfl a1 s1
  have s3 : Shows C J T U {} [103] [112, 119] (ascii "mail") (fs.set [103] ((fs [102]).getD [])) [y] w3.fs 2000 :=
    Shows.one (w := exLater _ [some [112, 119]]) rfl c1
  have s4 : Shows C J T U {} [103] [112, 119] (ascii "mail") w'.fs [z] w5.fs 2000 :=
    Shows.one (w := exLater _ [some [112, 119]]) rfl k1
  refine ⟨fs, w2.fs, _, w3.fs, w5.fs, x1, x2, y, z, exTwo both [some [112, 119], some [112, 119]], w', h2, s2, ?_, s3, e2, e1, rfl, d1, s4⟩
  obtain ⟨s, r, md, ⟨x, hx, -⟩, -⟩ := h1
  rw [Fs.set_same, hx]
  rfl

/-- A code is displayed from one copy, which is then merged into the other. -/
example (hord : ∀ m : Map (Option SecretRecord), m.Finite → m.Enumerates (ord m)) :
    ∃ (fs fs1 fs5 : Fs) (x z : Bytes) (w w' : World), TokenAt C J T fs [102] [112, 119] 0 (ascii "mail") (ascii "foobar") 42 6 1000 ∧
      Shows C J T U {} [102] [112, 119] (ascii "mail") fs [x] fs1 2000 ∧ (1000 : BitVec 64).toInt < (2000 : BitVec 64).toInt ∧ w.fs [102] = fs1 [102] ∧
      w.fs [103] = fs [102] ∧ w.term.answers = [some [112, 119], some [112, 119]] ∧
      Model.Secrets.main C J P ord fuel { merge := true } [[102]] [103] w = some (.ok (0, w')) ∧
      Shows C J T U {} [103] [112, 119] (ascii "mail") w'.fs [z] fs5 2000 := by
  obtain ⟨fs, h1, h2⟩ := exToken C J T U
  obtain ⟨x, w1, a1, a2, a3⟩ := exShow C J T U (by decide) h1 h2
  let both : Fs := fun q => if q = [102] then w1.fs [102] else fs [102]
  have e1 : both [103] = fs [102] := if_neg (by decide)
  have e2 : both [102] = w1.fs [102] := if_pos rfl
  obtain ⟨w', d1, d2, d3⟩ := exMerged C J T P ord fuel (fs := both) (a := [103]) (b := [102]) (by decide) (by decide) hord
    (holds_at C J T h1 e1) (tokenAt_at C J T h2 e1) (tokenAt_at C J T a3 e2)
  obtain ⟨z, w5, k1, -⟩ := exShow C J T U (by decide) d2 d3
  exact ⟨fs, w1.fs, w5.fs, x, z, exTwo both [some [112, 119], some [112, 119]], w', h2, Shows.one (w := exLater fs [some [112, 119]]) rfl a1, by decide, e2, e1, rfl, d1,
    Shows.one (w := exLater _ [some [112, 119]]) rfl k1⟩

/-- One code is displayed from each copy, and then one is merged into the other. -/
example (hord : ∀ m : Map (Option SecretRecord), m.Finite → m.Enumerates (ord m)) :
    ∃ (fs fs1 fs2 fs3 fs5 : Fs) (x y z : Bytes) (w w' : World), TokenAt C J T fs [102] [112, 119] 0 (ascii "mail") (ascii "foobar") 42 6 1000 ∧
      Shows C J T U {} [102] [112, 119] (ascii "mail") fs [x] fs1 2000 ∧ fs2 [103] = fs [102] ∧
      Shows C J T U {} [103] [112, 119] (ascii "mail") fs2 [y] fs3 2000 ∧ w.fs [102] = fs1 [102] ∧ w.fs [103] = fs3 [103] ∧
      w.term.answers = [some [112, 119], some [112, 119]] ∧ Model.Secrets.main C J P ord fuel { merge := true } [[102]] [103] w = some (.ok (0, w')) ∧
      Shows C J T U {} [103] [112, 119] (ascii "mail") w'.fs [z] fs5 2000 := by
  obtain ⟨fs, h1, h2⟩ := exToken C J T U
  have ec : fs.set [103] ((fs [102]).getD []) [103] = fs [102] := by
    obtain ⟨s, r, md, ⟨x, hx, -⟩, -⟩ := h1
    rw [Fs.set_same, hx]
    rfl
  obtain ⟨x, w1, a1, a2, a3⟩ := exShow C J T U (by decide) h1 h2
  obtain ⟨y, w3, c1, c2, c3⟩ := exShow C J T U (path := [103]) (fs := fs.set [103] ((fs [102]).getD [])) (by decide)
    (holds_at C J T h1 ec) (tokenAt_at C J T h2 ec)
  let both : Fs := fun q => if q = [102] then w1.fs [102] else w3.fs q
  have e1 : both [103] = w3.fs [103] := if_neg (by decide)
  have e2 : both [102] = w1.fs [102] := if_pos rfl
  obtain ⟨w', d1, d2, d3⟩ := exMerged C J T P ord fuel (fs := both) (a := [103]) (b := [102]) (by decide) (by decide) hord
    (holds_at C J T c2 e1) (tokenAt_at C J T c3 e1) (tokenAt_at C J T a3 e2)
  obtain ⟨z, w5, k1, -⟩ := exShow C J T U (by decide) d2 d3
  exact ⟨fs, w1.fs, _, w3.fs, w5.fs, x, y, z, exTwo both [some [112, 119], some [112, 119]], w', h2, Shows.one (w := exLater fs [some [112, 119]]) rfl a1, ec,
    Shows.one (w := exLater _ [some [112, 119]]) rfl c1, e2, e1, rfl, d1, Shows.one (w := exLater _ [some [112, 119]]) rfl k1⟩

end Verif.Props.TogetherTokens
