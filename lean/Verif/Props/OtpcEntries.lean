import Verif.Props.Otpc
/-! C239: what otpc does to the other entries of its store. -/

namespace Verif.Props.OtpcEntries
open Verif Verif.Go Verif.Model.Util Verif.Model.SecretStore Verif.Model.Otpc
open Verif.Model.Secrets (World dash assign fetch)
open Verif.Spec.SecretStore Verif.Spec.Secrets Verif.Spec.Otpc
open Verif.Proofs.SecretStore Verif.Proofs.Secrets Verif.Proofs.Otpc
open Verif.Props.SecretStore
open Verif.Props.Secrets (exWorld exFile exClock exMap_other)
open Verif.Props.Otpc (exRng exTyped)

variable (C : Crypto) (J : Json) (T : TwoFactor) (U : Case)

/-- After `otpc -s` of a label in UTF-8 with status 0 the store holds a new entry under the label, and the others are what they were. -/
theorem C239_stored (f : Flags) (label : Bytes) (args : List Bytes) (path : Bytes) (w w' : World) (codes : List Bytes)
    (hd : path ≠ dash) (hi : f.init = false) (hs : f.store = true) (hl : ValidUtf8 label)
    (h : main C J T U f (label :: args) path w = .ok (.exit 0 codes, w')) :
    ∃ pass rest s s' r, w.term.answers = some pass :: rest ∧ Opens C J w.fs path pass f.mode s ∧ Opens C J w'.fs path pass f.mode s' ∧
      s.has label = false ∧ lookup s' label = some r ∧ r.label = label ∧
      (∀ k, k ≠ label → lookup s' k = lookup s k ∧ s'.has k = s.has k) ∧ ∀ q, q ≠ path → w'.fs q = w.fs q := by
  obtain ⟨pass, secret, rest, s, m, r, code, w2, out, q1, q2, q3, q4, -, q5, q6, q7⟩ := store_exit C J T U hd hi hs h
  simp only [List.headD_cons] at q3 q5 q6
  obtain ⟨b, hb, hu⟩ := id q2
  obtain ⟨hfin, hutf, hp⟩ := opens_fields C J hu
  have hmade := makeRecord_some T q5
  obtain ⟨md, g1, g2, -⟩ := hmade.md
  have hex := saved_exact C J (finite_set hfin q4 label r (by intro x hx; rw [g1] at hx; cases hx; exact g2.1) _)
    (utf8_set (r := r) hutf q4 hl (by rw [hmade.label_eq]; exact hl) (by intro x j y hx hy; rw [g1] at hx; cases hx; exact g2.2 j y hy) _) q6
  refine ⟨pass, _, s, _, r, q1, q2, ⟨out, by rw [q7, Fs.set_same], hex⟩, q3, ?_, hmade.label_eq, fun k hk => ⟨?_, ?_⟩, fun q hq => by rw [q7, Fs.set_other _ _ hq]⟩
  · rw [lookup_eq (m := m.set label (some r)) rfl, Map.set_same]
    rfl
  · rw [lookup_eq (m := m.set label (some r)) rfl, lookup_eq q4, Map.set_other _ _ hk]
  · simp only [SecretStore.has, q4, Map.has, Map.set_other _ _ hk]

/-- A run to which the theorem applies, on a store with one other entry. -/
example : ∃ b code w', main C J T U { store := true, kind := ascii "hotp" } [ascii "mail"] [102]
    (exWorld b [some [112, 119], some (ascii "mzxw 6ytb oi"), some (ascii "41"), some []]) = .ok (.exit 0 [code], w') := by
  obtain ⟨b, hb⟩ := exFile C J 0 (Or.inl rfl)
  obtain ⟨code0, hc0⟩ := T.hcode_ok (ascii "foobar") 41 6 ⟨by decide, Or.inl rfl⟩
  have hr := addHotp_eq T (w := exWorld b [some (ascii "41"), some []]) (label := ascii "mail") (key := ascii "foobar") (code := code0)
    (rest := []) (c := 41) (d := 6) rfl (Or.inl ⟨by decide, by decide⟩) (Or.inr ⟨rfl, rfl⟩) hc0
  obtain ⟨out, w1', e1, -, -⟩ := main_store C J T U (f := { store := true, kind := ascii "hotp" }) rfl rfl (label := ascii "mail") (path := [102])
    (pass := [112, 119]) (secret := ascii "mzxw 6ytb oi") (w := exWorld b [some [112, 119], some (ascii "mzxw 6ytb oi"), some (ascii "41"), some []])
    (rest := [some (ascii "41"), some []]) (s := exStore [1, 2, 3] 7) (code := code0) (t := ⟨[], fun n => 1000 + BitVec.ofNat 64 (n + 1)⟩)
    (by decide) rfl ⟨b, by simp [exWorld], hb⟩ rfl (exMap_other (by decide) _ _)
    (by rw [typed_b32 _ exTyped]; exact hr) rfl (exRng _ _) rfl (exClock 1 (by decide))
  exact ⟨b, code0, w1', e1⟩

/-- What displaying a code once does to the store. -/
theorem show_once {w w1 : World} {s s' : SecretStore} {label code : Bytes} (h : showSecret T w s label = .ok (.once code, s', w1)) :
    ∃ r o o' l' m t, lookup s label = some r ∧ T.fromURL r.secret = some (o, l') ∧ s.store = some m ∧ w1 = { w with term := t } ∧
      s' = { s with store := some ((m.set label (some { r with secret := T.url o' l', timestamp := w.term.clock 0 })).set l'
        (some { r with secret := T.url o' l', timestamp := w.term.clock 0 })) } := by
  unfold showSecret at h
  split at h
  · cases h
  · obtain ⟨r, hr, h⟩ := Res.bind_eq_ok.mp h
    split at h
    · cases h
    · rename_i o l' hu
      split at h
      · cases h
      · cases o with
        | totp key st d =>
          obtain ⟨⟨c, o', w2⟩, h1, h⟩ := Res.bind_eq_ok.mp h
          unfold otp at h1
          obtain ⟨code', -, h1⟩ := Res.bind_eq_ok.mp h1
          cases h1
          cases h
        | hotp key c d =>
          obtain ⟨⟨c', o', w2⟩, h1, h⟩ := Res.bind_eq_ok.mp h
          unfold otp at h1
          obtain ⟨code', -, h1⟩ := Res.bind_eq_ok.mp h1
          cases h1
          dsimp only at h
          obtain ⟨s1, g1, h⟩ := Res.bind_eq_ok.mp h
          obtain ⟨s2, g2, h⟩ := Res.bind_eq_ok.mp h
          obtain ⟨m, k1, rfl⟩ := assign_eq.mp g1
          obtain ⟨m2, k2, rfl⟩ := assign_eq.mp g2
          cases k2
          cases h
          exact ⟨r, .hotp key c d, .hotp key (c + 1) d, l', m, _, fetch_eq.mp hr, hu, k1, rfl, rfl⟩
      · obtain ⟨⟨c, o', w2⟩, -, h⟩ := Res.bind_eq_ok.mp h
        cases h
      · obtain ⟨⟨c, o', w2⟩, -, h⟩ := Res.bind_eq_ok.mp h
        cases h

theorem shown_term {w w1 : World} {ps ps' : SecretStore} {l : Bytes} {o : Shown}
    (h : showSecret T w ps l = .ok (o, ps', w1)) : ∃ t, w1 = { w with term := t } := by
  cases o with
  | once code =>
    obtain ⟨-, -, -, -, -, t, -, -, -, rfl, -⟩ := show_once T h
    exact ⟨t, rfl⟩
  | failed =>
    unfold showSecret at h
    split at h
    · cases h; exact ⟨w.term, rfl⟩
    · obtain ⟨r, -, h⟩ := Res.bind_eq_ok.mp h
      split at h
      · cases h; exact ⟨w.term, rfl⟩
      · split at h
        · cases h; exact ⟨w.term, rfl⟩
        · obtain ⟨⟨c, o', w2⟩, h1, h⟩ := Res.bind_eq_ok.mp h
          dsimp only at h
          split at h
          · cases h
          · obtain ⟨p1, -, h⟩ := Res.bind_eq_ok.mp h
            obtain ⟨p2, -, h⟩ := Res.bind_eq_ok.mp h
            cases h
        · obtain ⟨⟨c, o', w2⟩, h1, h⟩ := Res.bind_eq_ok.mp h
          cases h
        · obtain ⟨⟨c, o', w2⟩, h1, h⟩ := Res.bind_eq_ok.mp h
          cases h
  | forever b =>
    unfold showSecret at h
    split at h
    · cases h
    · obtain ⟨r, -, h⟩ := Res.bind_eq_ok.mp h
      split at h
      · cases h
      · split at h
        · cases h
        · obtain ⟨⟨c, o', w2⟩, h1, h⟩ := Res.bind_eq_ok.mp h
          dsimp only at h
          split at h
          · cases h
          · obtain ⟨p1, -, h⟩ := Res.bind_eq_ok.mp h
            obtain ⟨p2, -, h⟩ := Res.bind_eq_ok.mp h
            cases h
        · obtain ⟨⟨c, o', w2⟩, h1, h⟩ := Res.bind_eq_ok.mp h
          obtain ⟨t, rfl⟩ := otp_term T h1
          cases h
          exact ⟨t, rfl⟩
        · obtain ⟨⟨c, o', w2⟩, h1, h⟩ := Res.bind_eq_ok.mp h
          obtain ⟨t, rfl⟩ := otp_term T h1
          cases h
          exact ⟨t, rfl⟩

/-- `otpc label` of a token whose URL, if it is one, carries this label: of the entries at most that one is changed, in its secret and time only, and
no other file. Missing from the property: URLs with another label, for which it is false. -/
theorem C239_shown_partial (f : Flags) (label path pass : Bytes) (rest : List (Option Bytes)) (w w' : World) (o : Outcome) (s : SecretStore)
    (hd : path ≠ dash) (hf : f.init = false ∧ f.store = false ∧ f.qr = false) (ha : w.term.answers = some pass :: rest) (ho : Opens C J w.fs path pass f.mode s)
    (hw : ∀ k, w.write ≠ .failsAfter k) (hown : ∀ r t l, lookup s label = some r → T.fromURL r.secret = some (t, l) → l = label)
    (h : main C J T U f [label] path w = .ok (o, w')) :
    w'.fs = w.fs ∨ ∃ s' r x now, Opens C J w'.fs path pass f.mode s' ∧ lookup s label = some r ∧
      lookup s' label = some { r with secret := x, timestamp := now } ∧
      (∀ k, k ≠ label → lookup s' k = lookup s k ∧ s'.has k = s.has k) ∧ ∀ q, q ≠ path → w'.fs q = w.fs q := by
  rw [main_show C J T U hf hd ha ho] at h
  obtain ⟨⟨sh, s1, w1⟩, h1, h2⟩ := Res.bind_eq_ok.mp h
  obtain ⟨b, hb, hu⟩ := id ho
  obtain ⟨hfin, hutf, hp⟩ := opens_fields C J hu
  cases sh with
  | failed =>
    obtain ⟨t, rfl⟩ := shown_term T h1
    cases h2
    exact Or.inl rfl
  | forever b =>
    obtain ⟨t, rfl⟩ := shown_term T h1
    cases h2
    exact Or.inl rfl
  | once code =>
    obtain ⟨r, t, o', l', m, tm, g1, g2, g3, rfl, rfl⟩ := show_once T h1
    cases hown r t l' g1 g2
    rw [Map.set_self _ (Map.set_same _ _ _)] at h2
    simp only [showEnd] at h2
    rcases save_some C J hd h2 with ⟨-, p, out, k1, -, -, -, k5, k6⟩ | ⟨-, k⟩
    · right
      simp only at k1
      rw [hp] at k1
      cases k1
      obtain ⟨u1, u2, u3⟩ := record_utf8 hutf g1
      have hex := saved_exact C J (finite_set hfin g3 label { r with secret := T.url o' label, timestamp := w.term.clock 0 } (fun md h => record_finite hfin g1 md h) _)
        (utf8_set hutf g3 (r := { r with secret := T.url o' label, timestamp := w.term.clock 0 }) u1 u2 u3 _) k5
      refine ⟨_, r, T.url o' label, w.term.clock 0, ⟨out, by rw [k6, Fs.set_same], hex⟩, g1, ?_, fun k hk => ⟨?_, ?_⟩,
        fun q hq => by rw [k6, Fs.set_other _ _ hq]⟩
      · rw [lookup_eq (m := m.set label (some { r with secret := T.url o' label, timestamp := w.term.clock 0 })) rfl, Map.set_same]
        rfl
      · rw [lookup_eq (m := m.set label (some { r with secret := T.url o' label, timestamp := w.term.clock 0 })) rfl, lookup_eq g3, Map.set_other _ _ hk]
      · simp only [SecretStore.has, g3, Map.has, Map.set_other _ _ hk]
    · left
      exact k hw

/-- A store with two entries: under "a" the URL of a token, as `secrets -s a` would store it, in which the label is "b", and under "b" a password. -/
def urlStore : SecretStore :=
  { version := 1, timestamp := 5,
    store := some ((Map.empty.set [98] (some ⟨[98], 7, [1, 2, 3], none⟩)).set [97] (some ⟨[97], 7, T.url (.hotp (ascii "foobar") 41 6) [98], none⟩)),
    passphrase := some [112, 119] }

/-- The same, with the label "a" in the URL. -/
def ownStore : SecretStore :=
  { urlStore T with store := some ((Map.empty.set [98] (some ⟨[98], 7, [1, 2, 3], none⟩)).set [97] (some ⟨[97], 7, T.url (.hotp (ascii "foobar") 41 6) [97], none⟩)) }

theorem two_get {V : Type} {x y : V} {q : Bytes} {v : V} (h : ((Map.empty.set [98] x).set [97] y : Map V) q = some v) :
    (q = [97] ∧ v = y) ∨ (q = [98] ∧ v = x) := by
  by_cases hq : q = [97]
  · subst hq
    rw [Map.set_same] at h
    cases h
    exact Or.inl ⟨rfl, rfl⟩
  · rw [Map.set_other _ _ hq] at h
    exact Or.inr (exMap_get h)

theorem two_file {s : SecretStore} {x y : Bytes} (h1 : s.version = 1) (h2 : s.timestamp = 5) (h3 : s.passphrase = some [112, 119])
    (h4 : s.store = some ((Map.empty.set [98] (some ⟨[98], 7, x, none⟩)).set [97] (some ⟨[97], 7, y, none⟩))) :
    ∃ b, unmarshalSecretStore C J b [112, 119] 0 = .ok (some s) := by
  refine file_exists C J (Or.inl rfl) ((valid_iff _).mpr ⟨h1, by rw [h2]; decide, ⟨_, h4⟩, _, h3⟩) h3 ?_ ?_
  · intro m hm
    have hm : s.store = some m := hm
    rw [h4] at hm
    cases hm
    refine ⟨(Map.finite_empty.set _ _).set _ _, ?_⟩
    intro k r md hk hmd
    rcases two_get hk with ⟨-, q⟩ | ⟨-, q⟩ <;> (cases q; cases hmd)
  · intro m hm k v hk
    have hm : s.store = some m := hm
    rw [h4] at hm
    cases hm
    rcases two_get hk with ⟨rfl, rfl⟩ | ⟨rfl, rfl⟩
    · refine ⟨by decide, fun r hr => ?_⟩
      cases hr
      exact ⟨show ValidUtf8 [97] by decide, fun md j x hmd => by cases hmd⟩
    · refine ⟨by decide, fun r hr => ?_⟩
      cases hr
      exact ⟨show ValidUtf8 [98] by decide, fun md j x hmd => by cases hmd⟩

/-- Displaying a code of an entry without metadata. -/
theorem show_plain {w : World} {s : SecretStore} {m : Map (Option SecretRecord)} {label l' key code : Bytes} {t : BitVec 64} {x : Bytes}
    {c : BitVec 64} {d : Int} (hs : s.store = some m) (hl : lookup s label = some ⟨label, t, x, none⟩)
    (hu : T.fromURL x = some (.hotp key c d, l')) (hc : T.hcode key c d = .ok code) :
    showSecret T w s label = .ok (.once code,
      { s with store := some ((m.set label (some ⟨label, w.term.clock 0, T.url (.hotp key (c + 1) d) l', none⟩)).set l'
        (some ⟨label, w.term.clock 0, T.url (.hotp key (c + 1) d) l', none⟩)) },
      { w with term := ⟨w.term.answers, fun n => w.term.clock (n + 1)⟩ }) := by
  unfold showSecret
  rw [has_of_lookup hl, fetch_eq.mpr hl]
  simp only [Bool.not_true, Bool.false_eq_true, if_false, Res.ok_bind, hu, kindOf, Option.bind_none, Otp.kind]
  simp only [otp, Term.now, hc, Res.ok_bind, Res.pure_eq, assign, hs]

theorem run_plain {b : Bytes} {s : SecretStore} {m : Map (Option SecretRecord)} {label l' key code : Bytes} {t : BitVec 64} {x : Bytes}
    {c : BitVec 64} {d : Int} (hop : Opens C J (exWorld b []).fs [102] [112, 119] 0 s) (hv : s.version = 1) (hs : s.store = some m)
    (hl : lookup s label = some ⟨label, t, x, none⟩) (hu : T.fromURL x = some (.hotp key c d, l')) (hc : T.hcode key c d = .ok code) :
    ∃ w' out, main C J T U {} [label] [102] (exWorld b [some [112, 119]]) = .ok (.exit 0 [code], w') ∧ w'.fs = (exWorld b []).fs.set [102] out ∧
      IsFile C out [112, 119] 0 (J.enc { s.toFields with store := some ((m.set label (some ⟨label, 1000, T.url (.hotp key (c + 1) d) l', none⟩)).set l'
        (some ⟨label, 1000, T.url (.hotp key (c + 1) d) l', none⟩)), timestamp := 1000 + BitVec.ofNat 64 1 }) := by
  obtain ⟨b', hb', hu'⟩ := id hop
  obtain ⟨-, -, hp⟩ := opens_fields C J hu'
  have hm := main_show C J T U (f := {}) ⟨rfl, rfl, rfl⟩ (label := label) (path := [102]) (pass := [112, 119]) (w := exWorld b [some [112, 119]]) (rest := [])
    (by decide) rfl hop
  rw [show_plain T hs hl hu hc] at hm
  simp only [Res.bind, showEnd] at hm
  obtain ⟨out, e1, e2⟩ := save_ok C J (w := { exWorld b [] with term := ⟨[], fun n => 1000 + BitVec.ofNat 64 (n + 1)⟩ }) (path := [102]) (mode := 0) (codes := [code])
    (ps := { s with store := some ((m.set label (some ⟨label, 1000, T.url (.hotp key (c + 1) d) l', none⟩)).set l'
        (some ⟨label, 1000, T.url (.hotp key (c + 1) d) l', none⟩)) }) (by decide) (Or.inl rfl) rfl (exRng b []) hv (exClock 1 (by decide)) rfl hp
  exact ⟨_, out, hm.trans e1, rfl, e2⟩

/-- A run to which the theorem applies. -/
example : ∃ b code w', Opens C J (exWorld b []).fs [102] [112, 119] 0 (ownStore T) ∧
    (∀ r t l, lookup (ownStore T) [97] = some r → T.fromURL r.secret = some (t, l) → l = [97]) ∧
    main C J T U {} [[97]] [102] (exWorld b [some [112, 119]]) = .ok (.exit 0 [code], w') := by
  obtain ⟨b, hb⟩ := two_file C J (s := ownStore T) rfl rfl rfl rfl
  have hop : Opens C J (exWorld b []).fs [102] [112, 119] 0 (ownStore T) := ⟨b, by simp [exWorld], hb⟩
  obtain ⟨code, hc⟩ := T.hcode_ok (ascii "foobar") 41 6 ⟨by decide, Or.inl rfl⟩
  have hu := T.fromURL_url (.hotp (ascii "foobar") 41 6) [97] ⟨by decide, Or.inl rfl⟩ (by decide) (by decide)
  have hlk : lookup (ownStore T) [97] = some ⟨[97], 7, T.url (.hotp (ascii "foobar") 41 6) [97], none⟩ := by
    rw [lookup_eq (m := _) rfl, Map.set_same]
    rfl
  obtain ⟨w', out, e1, -, -⟩ := run_plain C J T U hop rfl rfl hlk hu hc
  refine ⟨b, code, _, hop, fun r t l h1 h2 => ?_, e1⟩
  rw [hlk] at h1
  cases h1
  rw [hu] at h2
  cases h2
  rfl

/-- C239 is false: displaying a code of a token whose URL carries another label replaces the entry under that label, here a password. -/
theorem C239_url_violated : ∃ (w w' : World) (code : Bytes) (s s' : SecretStore) (r r' : SecretRecord),
    main C J T U {} [[97]] [102] w = .ok (.exit 0 [code], w') ∧ Opens C J w.fs [102] [112, 119] 0 s ∧ Opens C J w'.fs [102] [112, 119] 0 s' ∧
    lookup s [98] = some r ∧ r.secret = [1, 2, 3] ∧ lookup s' [98] = some r' ∧ r'.label = [97] ∧ r'.secret = T.url (.hotp (ascii "foobar") 42 6) [98] := by
  obtain ⟨b, hb⟩ := two_file C J (s := urlStore T) rfl rfl rfl rfl
  have hop : Opens C J (exWorld b []).fs [102] [112, 119] 0 (urlStore T) := ⟨b, by simp [exWorld], hb⟩
  obtain ⟨hfin, hutf, -⟩ := opens_fields C J hb
  obtain ⟨code, hc⟩ := T.hcode_ok (ascii "foobar") 41 6 ⟨by decide, Or.inl rfl⟩
  have hu := T.fromURL_url (.hotp (ascii "foobar") 41 6) [98] ⟨by decide, Or.inl rfl⟩ (by decide) (by decide)
  have hlk : lookup (urlStore T) [97] = some ⟨[97], 7, T.url (.hotp (ascii "foobar") 41 6) [98], none⟩ := by
    rw [lookup_eq (m := _) rfl, Map.set_same]
    rfl
  obtain ⟨w', out, e1, e2, e3⟩ := run_plain C J T U hop rfl rfl hlk hu hc
  have f1 := finite_set hfin (m := _) rfl [97] ⟨[97], 1000, T.url (.hotp (ascii "foobar") (41 + 1) 6) [98], none⟩ (by intro md hmd; cases hmd) 0
  have f2 := finite_set f1 (m := _) rfl [98] ⟨[97], 1000, T.url (.hotp (ascii "foobar") (41 + 1) 6) [98], none⟩ (by intro md hmd; cases hmd)
    (1000 + BitVec.ofNat 64 1)
  have u1 := utf8_set hutf (m := _) rfl (label := [97]) (r := ⟨[97], 1000, T.url (.hotp (ascii "foobar") (41 + 1) 6) [98], none⟩)
    (by decide) (show ValidUtf8 [97] by decide) (by intro md j x hmd; cases hmd) 0
  have u2 := utf8_set u1 (m := _) rfl (label := [98]) (r := ⟨[97], 1000, T.url (.hotp (ascii "foobar") (41 + 1) 6) [98], none⟩)
    (by decide) (show ValidUtf8 [97] by decide) (by intro md j x hmd; cases hmd) (1000 + BitVec.ofNat 64 1)
  have hex := saved_exact C J f2 u2 e3
  refine ⟨_, _, code, urlStore T, _, ⟨[98], 7, [1, 2, 3], none⟩, ⟨[97], 1000, T.url (.hotp (ascii "foobar") (41 + 1) 6) [98], none⟩, e1, hop, ⟨out, by rw [e2, Fs.set_same], hex⟩, ?_, rfl, ?_, ?_, ?_⟩
  · rw [lookup_eq (m := _) rfl, Map.set_other _ _ (by decide), Map.set_same]
    rfl
  · rw [lookup_eq (m := _) rfl, Map.set_same]
    rfl
  · rfl
  · rfl

end Verif.Props.OtpcEntries
