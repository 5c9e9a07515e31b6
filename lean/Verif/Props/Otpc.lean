import Verif.Proofs.Otpc
import Verif.Props.Secrets
/-! Properties of the program otpc (cmd/otpc/otpc.go). -/

namespace Verif.Props.Otpc
open Verif Verif.Go Verif.Model.Util Verif.Model.SecretStore Verif.Model.Otpc
open Verif.Model.Secrets hiding Config addSecret Flags main showSecret initStore
open Verif.Spec.SecretStore Verif.Spec.Secrets Verif.Spec.Otpc Verif.Proofs.SecretStore Verif.Proofs.Otpc
open Verif.Proofs.Secrets hiding fmode
open Verif.Props.SecretStore
open Verif.Props.Secrets (exWorld exFile exMap_other exClock repl replStore replStore_finite)

variable (C : Crypto) (J : Json) (T : TwoFactor) (U : Case)

/-! ### A two-factor package satisfying the assumptions -/

def toyKey : Bytes → Bytes
  | [] => [0]
  | b :: r => 1 :: b :: toyKey r

def toyUnkey : Nat → Bytes → Option (Bytes × Bytes)
  | 0, _ => none
  | _ + 1, 0 :: r => some ([], r)
  | n + 1, 1 :: b :: r => match toyUnkey n r with
    | some (k, l) => some (b :: k, l)
    | none => none
  | _ + 1, _ => none

theorem toyUnkey_key (key label : Bytes) : ∀ n, key.length < n → toyUnkey n (toyKey key ++ label) = some (key, label) := by
  induction key with
  | nil =>
    intro n hn
    cases n with
    | zero => omega
    | succ n => rfl
  | cons b r ih =>
    intro n hn
    cases n with
    | zero => omega
    | succ n =>
      have := ih n (by simp at hn; omega)
      simp only [toyKey, List.cons_append, toyUnkey, this]

theorem toyKey_length (key : Bytes) : key.length < (toyKey key).length := by
  induction key with
  | nil => decide
  | cons b r ih => simp only [toyKey, List.length_cons]; omega

def toyDigits (d : Int) : UInt8 := if d = 8 then 8 else 6

def toyUrl : Otp → Bytes → Bytes
  | .hotp key c d, label => 0 :: toyDigits d :: (be 8 c.toNat ++ (toyKey key ++ label))
  | .totp key s d, label => 1 :: toyDigits d :: (be 8 s.toNat ++ (toyKey key ++ label))

def toyFromURL : Bytes → Option (Otp × Bytes)
  | k :: d :: r =>
    match toyUnkey r.length (r.drop 8) with
    | some (key, label) =>
      if k = 0 then some (.hotp key (BitVec.ofNat 64 (ofBe (r.take 8))) d.toNat, label)
      else some (.totp key (BitVec.ofNat 64 (ofBe (r.take 8))) d.toNat, label)
    | none => none
  | _ => none

theorem toyUrl_law (t : Otp) (label : Bytes) (h : t.Usual) : toyFromURL (toyUrl t label) = some (t, label) := by
  have hd : ∀ d : Int, d = 6 ∨ d = 8 → ((toyDigits d).toNat : Int) = d := by
    rintro d (rfl | rfl) <;> rfl
  have hb : ∀ c : BitVec 64, BitVec.ofNat 64 (ofBe (be 8 c.toNat)) = c := by
    intro c
    rw [ofBe_be, Nat.mod_eq_of_lt (by have := c.isLt; simpa using this)]
    simp
  have hk : ∀ (c : BitVec 64) (key : Bytes), toyUnkey (be 8 c.toNat ++ (toyKey key ++ label)).length
      ((be 8 c.toNat ++ (toyKey key ++ label)).drop 8) = some (key, label) := by
    intro c key
    rw [show (be 8 c.toNat ++ (toyKey key ++ label)).drop 8 = toyKey key ++ label from by
      rw [List.drop_append_of_le_length (by simp), List.drop_eq_nil_of_le (by simp)]; rfl]
    apply toyUnkey_key
    have := toyKey_length key
    simp only [List.length_append]
    omega
  have ht : ∀ (c : BitVec 64) (x : Bytes), (be 8 c.toNat ++ x).take 8 = be 8 c.toNat := by
    intro c x
    rw [List.take_append_of_le_length (by simp), List.take_of_length_le (by simp)]
  cases t with
  | hotp key c d =>
    simp only [toyUrl, toyFromURL, hk, ht, hb, if_true, hd d h.2]
  | totp key s d =>
    simp only [toyUrl, toyFromURL, hk, ht, hb, hd d h.2.2, if_neg (show ¬ ((1 : UInt8) = 0) by decide)]

/-- Codes that show all they depend on. -/
def toyTwoFactor : TwoFactor where
  hcode key c d := .ok (toyUrl (.hotp key c d) [])
  tcode key s d now := .ok (toyUrl (.totp key (now / s) d) [])
  url := toyUrl
  fromURL := toyFromURL
  google := b32Decode
  qr t label := some (toyUrl t label)
  duration s := if s = ascii "30s" then some (30, s) else none
  hcode_ok _ _ _ _ := ⟨_, rfl⟩
  tcode_ok _ _ _ _ _ := ⟨_, rfl⟩
  google_b32 key _ := b32Decode_encode key
  fromURL_url t label h _ _ := toyUrl_law t label h
  duration_default := ⟨_, rfl⟩

/-! ### C74: a token stored can be displayed -/

/-- No token stored with -t totp can be displayed: the type recorded, "TOTP-SHA1", is not one of
those known. -/
theorem C74_totp_never (f g : Flags) (label path pass : Bytes) (w w' v : World) (codes : List Bytes) (rest : List (Option Bytes))
    (hd : path ≠ dash) (hi : f.init = false) (hs : f.store = true) (hk : f.kind = ascii "totp" ∨ f.kind = ascii "TOTP")
    (h : main C J T U f [label] path w = .ok (.exit 0 codes, w')) (hp : w.term.answers.head? = some (some pass))
    (hg : g.init = false ∧ g.store = false ∧ g.qr = false) (hm : g.interactive = f.interactive)
    (hv : v.term.answers = some pass :: rest) (hfs : v.fs = w'.fs) :
    ∃ v', main C J T U g [label] path v = .ok (.exit 1 [], v') := by
  obtain ⟨p, secret, rest2, s, m, r, code, w2, out, e1, ⟨b, hb, hu⟩, e3, e4, rfl, e6, e7, e8⟩ := store_exit C J T U hd hi hs h
  rw [e1] at hp
  cases hp
  have hk' : parseOTPKind f.kind = .totp := by rcases hk with hk | hk <;> (rw [hk]; decide)
  rw [hk'] at e6
  obtain ⟨-, hl, md, hmd, hmk, hmt⟩ := makeRecord_some T e6
  simp only [List.headD_cons] at *
  obtain ⟨hfin, hutf, -⟩ := opens_fields C J hu
  have hF := finite_set hfin e4 label r (by intro x hx; rw [hmd] at hx; cases hx; exact hmk.1) (w2.term.clock 0)
  obtain ⟨s', k1, k2, -⟩ := saved_opens C J hF e7
  have hmode : f.mode = g.mode := by simp [Model.Otpc.Flags.mode, hm]
  have hop : Opens C J v.fs path pass g.mode s' := ⟨out, by rw [hfs, e8]; exact Fs.set_same _ _ _, by rw [← hmode]; exact k1⟩
  rw [main_show C J T U hg hd hv hop]
  by_cases hval : ValidUtf8 label
  · have hU := utf8_set (r := r) hutf e4 hval (by rw [hl]; exact hval) (by intro x j y hx hy; rw [hmd] at hx; cases hx; exact hmk.2 j y hy)
      (w2.term.clock 0)
    have he := saved_exact C J hF hU e7
    rw [he] at k1
    cases k1
    have hlk : lookup ({ version := s.version, timestamp := w2.term.clock 0, store := some (m.set label (some r)), passphrase := some pass } :
        SecretStore) label = some r := by
      rw [lookup_eq (m := m.set label (some r)) rfl, Map.set_same]
      rfl
    rw [show_unknown T hlk hmd (hmt trivial) (by decide)]
    exact ⟨_, rfl⟩
  · have habs : s'.has label = false := by
      obtain ⟨-, hutf', -⟩ := opens_fields C J k1
      cases hm' : s'.store with
      | none => simp [SecretStore.has, hm']
      | some m' =>
        cases hv' : m' label with
        | none => simp [SecretStore.has, hm', Map.has, hv']
        | some x => exact absurd (hutf' m' hm' label x hv').1 hval
    rw [show_absent T habs]
    exact ⟨_, rfl⟩

/-- Nor can a token of any type whose label is not UTF-8. -/
theorem C74_label_never (f g : Flags) (label path pass : Bytes) (w w' v : World) (codes : List Bytes) (rest : List (Option Bytes))
    (hd : path ≠ dash) (hi : f.init = false) (hs : f.store = true) (hl : ¬ ValidUtf8 label)
    (h : main C J T U f [label] path w = .ok (.exit 0 codes, w')) (hp : w.term.answers.head? = some (some pass))
    (hg : g.init = false ∧ g.store = false ∧ g.qr = false) (hm : g.interactive = f.interactive)
    (hv : v.term.answers = some pass :: rest) (hfs : v.fs = w'.fs) :
    ∃ v', main C J T U g [label] path v = .ok (.exit 1 [], v') := by
  obtain ⟨p, secret, rest2, s, m, r, code, w2, out, e1, ⟨b, hb, hu⟩, e3, e4, rfl, e6, e7, e8⟩ := store_exit C J T U hd hi hs h
  rw [e1] at hp
  cases hp
  obtain ⟨-, -, md, hmd, hmk, -⟩ := makeRecord_some T e6
  simp only [List.headD_cons] at *
  obtain ⟨hfin, hutf, -⟩ := opens_fields C J hu
  have hF := finite_set hfin e4 label r (by intro x hx; rw [hmd] at hx; cases hx; exact hmk.1) (w2.term.clock 0)
  obtain ⟨s', k1, k2, -⟩ := saved_opens C J hF e7
  have hmode : f.mode = g.mode := by simp [Model.Otpc.Flags.mode, hm]
  have hop : Opens C J v.fs path pass g.mode s' := ⟨out, by rw [hfs, e8]; exact Fs.set_same _ _ _, by rw [← hmode]; exact k1⟩
  rw [main_show C J T U hg hd hv hop]
  have habs : s'.has label = false := by
    obtain ⟨-, hutf', -⟩ := opens_fields C J k1
    cases hm' : s'.store with
    | none => simp [SecretStore.has, hm']
    | some m' =>
      cases hv' : m' label with
      | none => simp [SecretStore.has, hm', Map.has, hv']
      | some x => exact absurd (hutf' m' hm' label x hv').1 hl
  rw [show_absent T habs]
  exact ⟨_, rfl⟩

/-- What is typed in the examples: "mzxw 6ytb oi" is the key "foobar". -/
theorem exTyped : Typed (ascii "foobar") (ascii "mzxw 6ytb oi") := Or.inr (by decide)

theorem exRng (b : Bytes) (a : List (Option Bytes)) : 56 ≤ (exWorld b a).rng.length := by
  show 56 ≤ (List.replicate 200 _).length
  rw [List.length_replicate]; decide

/-- A TOTP is stored, all defaults accepted, and status 0 and a code reported; then the token
cannot be displayed. -/
theorem C74_totp_violated : ∃ (w w' v v' : World) (code : Bytes),
    main C J T U { store := true, kind := ascii "totp" } [ascii "mail"] [102] w = .ok (.exit 0 [code], w') ∧
    v.fs = w'.fs ∧ v.term.answers.head? = w.term.answers.head? ∧
    main C J T U {} [ascii "mail"] [102] v = .ok (.exit 1 [], v') := by
  obtain ⟨b, hb⟩ := exFile C J 0 (Or.inl rfl)
  obtain ⟨code, hc⟩ := T.tcode_ok (ascii "foobar") 30 6 1000 ⟨by decide, by decide, Or.inl rfl⟩
  obtain ⟨str, hr⟩ := addTotp_eq T (w := exWorld b [some [], some []]) (label := ascii "mail") (key := ascii "foobar") (code := code) (rest := []) rfl hc
  obtain ⟨out, w', e1, e2, e3⟩ := main_store C J T U (f := { store := true, kind := ascii "totp" }) rfl rfl (label := ascii "mail") (path := [102])
    (pass := [112, 119]) (secret := ascii "mzxw 6ytb oi") (w := exWorld b [some [112, 119], some (ascii "mzxw 6ytb oi"), some [], some []])
    (rest := [some [], some []]) (s := exStore [1, 2, 3] 7) (code := code) (t := ⟨[], fun n => 1000 + BitVec.ofNat 64 (n + 2)⟩)
    (by decide) rfl ⟨b, by simp [exWorld], hb⟩ rfl (exMap_other (by decide) _ _)
    (by rw [typed_b32 U exTyped]; exact hr) rfl (exRng _ _) rfl (exClock 2 (by decide))
  obtain ⟨v', hv'⟩ := C74_totp_never C J T U { store := true, kind := ascii "totp" } {} (ascii "mail") [102] [112, 119] _ w'
    { w' with term := ⟨[some [112, 119]], w'.term.clock⟩ } [code] [] (by decide) rfl rfl (Or.inl rfl) e1 rfl ⟨rfl, rfl, rfl⟩ rfl rfl rfl
  exact ⟨_, w', { w' with term := ⟨[some [112, 119]], w'.term.clock⟩ }, v', code, e1, rfl, rfl, hv'⟩

/-- The same with a Google token and the label "\xff". -/
theorem C74_label_violated : ∃ (w w' v v' : World) (code : Bytes),
    main C J T U { store := true, kind := ascii "google" } [[0xFF]] [102] w = .ok (.exit 0 [code], w') ∧
    v.fs = w'.fs ∧ v.term.answers.head? = w.term.answers.head? ∧
    main C J T U {} [[0xFF]] [102] v = .ok (.exit 1 [], v') := by
  obtain ⟨b, hb⟩ := exFile C J 0 (Or.inl rfl)
  obtain ⟨code, hc⟩ := T.tcode_ok (ascii "foobar") 30 6 1000 ⟨by decide, by decide, Or.inl rfl⟩
  have hr := addGoogle_eq T (w := exWorld b []) (label := [0xFF]) (key := ascii "foobar") (code := code) (by decide) hc
  obtain ⟨out, w', e1, e2, e3⟩ := main_store C J T U (f := { store := true, kind := ascii "google" }) rfl rfl (label := [0xFF]) (path := [102])
    (pass := [112, 119]) (secret := ascii "mzxw 6ytb oi") (w := exWorld b [some [112, 119], some (ascii "mzxw 6ytb oi")])
    (rest := []) (s := exStore [1, 2, 3] 7) (code := code) (t := ⟨[], fun n => 1000 + BitVec.ofNat 64 (n + 2)⟩)
    (by decide) rfl ⟨b, by simp [exWorld], hb⟩ rfl (exMap_other (by decide) _ _)
    (by rw [typed_b32 U exTyped]; exact hr) rfl (exRng _ _) rfl (exClock 2 (by decide))
  obtain ⟨v', hv'⟩ := C74_label_never C J T U { store := true, kind := ascii "google" } {} [0xFF] [102] [112, 119] _ w'
    { w' with term := ⟨[some [112, 119]], w'.term.clock⟩ } [code] [] (by decide) rfl rfl (by decide) e1 rfl ⟨rfl, rfl, rfl⟩ rfl rfl rfl
  exact ⟨_, w', { w' with term := ⟨[some [112, 119]], w'.term.clock⟩ }, v', code, e1, rfl, rfl, hv'⟩

/-- A Google token can be stored under a new label made of letters and digits, and displayed as
often as wanted. Missing from the property: tokens of type TOTP and other labels. -/
theorem C74_google_partial (f g : Flags) (label path pass secret key : Bytes) (w : World) (rest : List (Option Bytes)) (s : SecretStore)
    (hd : path ≠ dash) (hi : f.init = false) (hs : f.store = true) (hk : f.kind = ascii "google" ∨ f.kind = ascii "GOOGLE")
    (hpl : Plain label) (ha : w.term.answers = some pass :: some secret :: rest) (ho : Opens C J w.fs path pass f.mode s)
    (hv : s.version = 1) (hst : s.store ≠ none) (hh : s.has label = false) (hkey : key ≠ []) (ht : Typed key secret)
    (hw : w.write = .done) (hr : 56 ≤ w.rng.length) (hc : w.term.clock 2 ≠ 0)
    (hg : g.init = false ∧ g.store = false ∧ g.qr = false) (hm : g.interactive = f.interactive) :
    ∃ code w', main C J T U f [label] path w = .ok (.exit 0 [code], w') ∧ T.tcode key 30 6 (w.term.clock 0) = .ok code ∧
      ∀ (v : World) (rest2 : List (Option Bytes)), v.fs = w'.fs → v.term.answers = some pass :: rest2 →
        ∃ code2 v', main C J T U g [label] path v = .ok (.forever code2, v') ∧ T.tcode key 30 6 (v.term.clock 1) = .ok code2 ∧ v'.fs = v.fs := by
  obtain ⟨m, hsm⟩ := Option.ne_none_iff_exists'.mp hst
  have hus : (Otp.totp key 30 6).Usual := ⟨hkey, by decide, Or.inl rfl⟩
  obtain ⟨code, hcode⟩ := T.tcode_ok key 30 6 (w.term.clock 0) hus
  have hk' : parseOTPKind f.kind = .google := by rcases hk with hk | hk <;> (rw [hk]; decide)
  have hrec := addGoogle_eq T (w := { w with term := ⟨rest, w.term.clock⟩ }) (label := label) (key := key) (code := code) hkey hcode
  obtain ⟨out, w', e1, e2, e3⟩ := main_store C J T U (code := code) (t := ⟨rest, fun n => w.term.clock (n + 2)⟩) hi hs hd ha ho hsm hh
    (by rw [typed_b32 U ht, hk']; exact hrec) hw hr hv hc
  refine ⟨code, w', e1, hcode, fun v rest2 hfs hva => ?_⟩
  obtain ⟨b, hb, hu⟩ := ho
  obtain ⟨hfin, hutf, -⟩ := opens_fields C J hu
  have hH : Holds C J T w'.fs path pass f.mode label (ascii "TOTP-GOOGLE") (.totp key 30 6) := by
    rw [e2]
    exact saved_holds C J T hfin hutf hv hsm (plain_utf8 hpl) rfl rfl
      (meta_keys (by decide) (meta_keys (by decide) (meta_keys (by decide) (meta_keys (by decide) meta_empty)))) (googleMeta_type _ _) rfl e3
  obtain ⟨s', r, md, hop, -, hl, -, hmd, htt, hsec⟩ := hH
  obtain ⟨code2, hcode2⟩ := T.tcode_ok key 30 6 (v.term.clock 1) hus
  have hmode : f.mode = g.mode := by simp [Model.Otpc.Flags.mode, hm]
  rw [hmode, ← hfs] at hop
  refine ⟨code2, { v with term := ⟨rest2, fun n => v.term.clock (n + 2)⟩ }, ?_, hcode2, ?_⟩
  · rw [main_show C J T U hg hd hva hop, show_google T (w := { v with term := ⟨rest2, v.term.clock⟩ }) hl hmd htt (by decide) (by rw [hsec]; exact T.fromURL_url _ _ hus hpl.1 hpl.2) hcode2]
    rfl
  · rfl

/-- An HOTP token can be stored under a new label made of letters and digits; the code reported is
the one for the initial counter, and each later run displays the next one. -/
theorem C74_hotp_partial (f g : Flags) (label path pass secret key i1 i2 : Bytes) (c d : Nat) (w : World) (rest : List (Option Bytes)) (s : SecretStore)
    (hd : path ≠ dash) (hi : f.init = false) (hs : f.store = true) (hk : f.kind = ascii "hotp" ∨ f.kind = ascii "HOTP")
    (hpl : Plain label) (ha : w.term.answers = some pass :: some secret :: some i1 :: some i2 :: rest) (ho : Opens C J w.fs path pass f.mode s)
    (hv : s.version = 1) (hst : s.store ≠ none) (hh : s.has label = false) (hkey : key ≠ []) (ht : Typed key secret)
    (h1 : Number 0 c i1) (h2 : Number 6 d i2) (hdig : d = 6 ∨ d = 8)
    (hw : w.write = .done) (hr : 56 ≤ w.rng.length) (hc : w.term.clock 1 ≠ 0)
    (hg : g.init = false ∧ g.store = false ∧ g.qr = false) (hm : g.interactive = f.interactive) :
    ∃ code w', main C J T U f [label] path w = .ok (.exit 0 [code], w') ∧ T.hcode key (BitVec.ofNat 64 c) d = .ok code ∧
      ∀ (v : World) (rest2 : List (Option Bytes)), v.fs = w'.fs → v.term.answers = some pass :: rest2 →
        v.write = .done → 56 ≤ v.rng.length → v.term.clock 1 ≠ 0 →
        ∃ code2 v', main C J T U g [label] path v = .ok (.exit 0 [code2], v') ∧ T.hcode key (BitVec.ofNat 64 c + 1) d = .ok code2 := by
  obtain ⟨m, hsm⟩ := Option.ne_none_iff_exists'.mp hst
  have hus : ∀ c, (Otp.hotp key c d).Usual := fun c => ⟨hkey, by rcases hdig with rfl | rfl <;> simp⟩
  obtain ⟨code, hcode⟩ := T.hcode_ok key (BitVec.ofNat 64 c) d (hus _)
  have hk' : parseOTPKind f.kind = .hotp := by rcases hk with hk | hk <;> (rw [hk]; decide)
  have hrec := addHotp_eq T (w := { w with term := ⟨some i1 :: some i2 :: rest, w.term.clock⟩ }) (label := label) (key := key) (code := code)
    rfl h1 h2 hcode
  obtain ⟨out, w', e1, e2, e3⟩ := main_store C J T U (code := code) (t := ⟨rest, fun n => w.term.clock (n + 1)⟩) hi hs hd ha ho hsm hh
    (by rw [typed_b32 U ht, hk']; exact hrec) hw hr hv hc
  refine ⟨code, w', e1, hcode, fun v rest2 hfs hva hvw hvr hvc => ?_⟩
  obtain ⟨b, hb, hu⟩ := ho
  obtain ⟨hfin, hutf, -⟩ := opens_fields C J hu
  have hmode : f.mode = g.mode := by simp [Model.Otpc.Flags.mode, hm]
  have hH : Holds C J T v.fs path pass g.mode label (ascii "HOTP") (.hotp key (BitVec.ofNat 64 c + 1) d) := by
    rw [hfs, e2, ← hmode]
    exact saved_holds C J T hfin hutf hv hsm (plain_utf8 hpl) rfl rfl
      (meta_keys (by decide) (meta_keys (by decide) (meta_keys (by decide) meta_empty))) (hotpMeta_type _ _) rfl e3
  obtain ⟨code2, v', q1, q2⟩ := show_works C J T U hg hd hpl (hus _) hH hva hvw hvr hvc
  exact ⟨code2, v', q2, q1⟩

/-- Worlds in which these theorems apply. -/
example : ∃ b s, Opens C J (exWorld b [some [112, 119], some (ascii "mzxw 6ytb oi"), some (ascii "41"), some []]).fs [102] [112, 119] 0 s ∧
    s.version = 1 ∧ s.store ≠ none ∧ s.has (ascii "mail") = false ∧ Plain (ascii "mail") ∧ Typed (ascii "foobar") (ascii "mzxw 6ytb oi") ∧
    Number 0 41 (ascii "41") ∧ Number 6 6 [] := by
  obtain ⟨b, hb⟩ := exFile C J 0 (Or.inl rfl)
  exact ⟨b, exStore [1, 2, 3] 7, ⟨b, by simp [exWorld], hb⟩, rfl, by simp [exStore], exMap_other (by decide) _ _, ⟨by decide, by decide⟩, exTyped,
    Or.inl ⟨by decide, by decide⟩, Or.inr ⟨rfl, rfl⟩⟩

/-- The whole story with the toy package: counter 41, and then 42. -/
example : ∃ b w' v' out1 out2,
    main C J toyTwoFactor U { store := true, kind := ascii "hotp" } [ascii "mail"] [102]
      (exWorld b [some [112, 119], some (ascii "mzxw 6ytb oi"), some (ascii "41"), some []]) = .ok (.exit 0 [out1], w') ∧
    main C J toyTwoFactor U {} [ascii "mail"] [102]
      { exWorld b [some [112, 119]] with fs := w'.fs } = .ok (.exit 0 [out2], v') ∧
    out1.take 10 = [0, 6, 0, 0, 0, 0, 0, 0, 0, 41] ∧ out2.take 10 = [0, 6, 0, 0, 0, 0, 0, 0, 0, 42] := by
  obtain ⟨b, hb⟩ := exFile C J 0 (Or.inl rfl)
  obtain ⟨code, w', e1, e2, e3⟩ := C74_hotp_partial C J toyTwoFactor U { store := true, kind := ascii "hotp" } {} (ascii "mail") [102] [112, 119]
    (ascii "mzxw 6ytb oi") (ascii "foobar") (ascii "41") [] 41 6 (exWorld b [some [112, 119], some (ascii "mzxw 6ytb oi"), some (ascii "41"), some []])
    [] (exStore [1, 2, 3] 7) (by decide) rfl rfl (Or.inl rfl) ⟨by decide, by decide⟩ rfl ⟨b, by simp [exWorld], hb⟩ rfl (by simp [exStore])
    (exMap_other (by decide) _ _) (by decide) exTyped (Or.inl ⟨by decide, by decide⟩) (Or.inr ⟨rfl, rfl⟩) (Or.inl rfl) rfl (exRng _ _)
    (exClock 1 (by decide)) ⟨rfl, rfl, rfl⟩ rfl
  obtain ⟨code2, v', e4, e5⟩ := e3 { exWorld b [some [112, 119]] with fs := w'.fs } [] rfl rfl rfl (exRng b []) (exClock 1 (by decide))
  refine ⟨b, w', v', code, code2, e1, e4, ?_, ?_⟩
  · cases e2; decide
  · cases e5; decide

/-! ### C107: tokens are not replaced -/

/-- `otpc -s` on a label that is taken fails and changes nothing; when it succeeds every other
token is as before, unless the label is ill-formed and turns into that of another token in the
file. -/
theorem C107_kept_partial (f : Flags) (args : List Bytes) (path : Bytes) (w w' : World) (codes : List Bytes) (hd : path ≠ dash)
    (hi : f.init = false) (hs : f.store = true) (h : main C J T U f args path w = .ok (.exit 0 codes, w')) :
    ∃ pass s s', w.term.answers.head? = some (some pass) ∧ Opens C J w.fs path pass f.mode s ∧ Opens C J w'.fs path pass f.mode s' ∧
      lookup s (args.headD []) = none ∧ (∀ q, q ≠ path → w'.fs q = w.fs q) ∧
      ∀ k r, lookup s k = some r → NoAlias [args.headD []] k → lookup s' k = some r := by
  obtain ⟨p, secret, rest2, s, m, r, code, w2, out, e1, ⟨b, hb, hu⟩, e3, e4, rfl, e6, e7, e8⟩ := store_exit C J T U hd hi hs h
  obtain ⟨-, -, md, hmd, hmk, -⟩ := makeRecord_some T e6
  obtain ⟨hfin, hutf, -⟩ := opens_fields C J hu
  have hF := frame_set e4 (args.headD []) r (by intro _ x hx; rw [hmd] at hx; cases hx; exact hmk.1)
  obtain ⟨s', k1, k2, -⟩ := saved_opens C J (f := { s.toFields with store := some (m.set (args.headD []) (some r)), timestamp := w2.term.clock 0 })
    (finite_time (hF.finite hfin) _) e7
  have hnone : lookup s (args.headD []) = none := by
    cases hl : lookup s (args.headD []) with
    | none => rfl
    | some r => rw [has_of_lookup hl] at e3; cases e3
  refine ⟨p, s, s', by rw [e1]; rfl, ⟨b, hb, hu⟩, ⟨out, by rw [e8]; exact Fs.set_same _ _ _, k1⟩, hnone, ?_, ?_⟩
  · intro q hq
    rw [e8]
    exact Fs.set_other _ _ hq
  · intro k r' hl hna
    refine keep_same hutf hF k2 hl ?_ hna
    rw [lookup_set e4, if_neg, hl]
    rintro rfl
    rw [hnone] at hl
    cases hl

/-- A run to which it applies. -/
example : ∃ b w' code, main C J T U { store := true, kind := ascii "google" } [ascii "mail"] [102]
    (exWorld b [some [112, 119], some (ascii "mzxw 6ytb oi")]) = .ok (.exit 0 [code], w') := by
  obtain ⟨b, hb⟩ := exFile C J 0 (Or.inl rfl)
  obtain ⟨code, w', e1, -⟩ := C74_google_partial C J T U { store := true, kind := ascii "google" } {} (ascii "mail") [102] [112, 119]
    (ascii "mzxw 6ytb oi") (ascii "foobar") (exWorld b [some [112, 119], some (ascii "mzxw 6ytb oi")])
    [] (exStore [1, 2, 3] 7) (by decide) rfl rfl (Or.inl rfl) ⟨by decide, by decide⟩ rfl ⟨b, by simp [exWorld], hb⟩ rfl (by simp [exStore])
    (exMap_other (by decide) _ _) (by decide) exTyped rfl (exRng _ _) (exClock 2 (by decide)) ⟨rfl, rfl, rfl⟩ rfl
  exact ⟨b, w', code, e1⟩

theorem replStore_utf8 : replStore.toFields.Utf8 := by
  intro m hm k v hk
  cases hm
  obtain ⟨rfl, rfl⟩ := exMap_get hk
  refine ⟨by decide, fun r hr => ?_⟩
  cases hr
  exact ⟨show ValidUtf8 repl by decide, fun md j x hmd => by cases hmd⟩

/-- Storing a token under "\xff" replaces the one under U+FFFD. -/
theorem C107_alias_violated : ∃ (w w' : World) (s s' : SecretStore) (code : Bytes),
    main C J T U { store := true, kind := ascii "google" } [[0xFF]] [102] w = .ok (.exit 0 [code], w') ∧
    Opens C J w.fs [102] [112, 119] 0 s ∧ Opens C J w'.fs [102] [112, 119] 0 s' ∧
    secretOf s repl = some [1, 2, 3] ∧ secretOf s' repl = some (T.url (.totp (ascii "foobar") 30 6) [0xFF]) := by
  obtain ⟨b, hb⟩ := file_exists C J (s := replStore) (p := [112, 119]) (mode := 0) (Or.inl rfl)
    ((valid_iff _).mpr ⟨rfl, by simp [replStore], ⟨_, rfl⟩, _, rfl⟩) rfl replStore_finite replStore_utf8
  have hh : replStore.has [0xFF] = false := by
    simp [SecretStore.has, replStore, Map.has, Map.set, Map.empty]
  obtain ⟨code, hc⟩ := T.tcode_ok (ascii "foobar") 30 6 1000 ⟨by decide, by decide, Or.inl rfl⟩
  have hr := addGoogle_eq T (w := exWorld b []) (label := [0xFF]) (key := ascii "foobar") (code := code) (by decide) hc
  obtain ⟨out, w', e1, e2, e3⟩ := main_store C J T U (f := { store := true, kind := ascii "google" }) rfl rfl (label := [0xFF]) (path := [102])
    (pass := [112, 119]) (secret := ascii "mzxw 6ytb oi") (w := exWorld b [some [112, 119], some (ascii "mzxw 6ytb oi")])
    (rest := []) (s := replStore) (code := code) (t := ⟨[], fun n => 1000 + BitVec.ofNat 64 (n + 2)⟩)
    (by decide) rfl ⟨b, by simp [exWorld], hb⟩ rfl hh
    (by rw [typed_b32 U exTyped]; exact hr) rfl (exRng _ _) rfl (exClock 2 (by decide))
  have hF := finite_set replStore_finite (m := Map.empty.set repl (some ⟨repl, 7, [1, 2, 3], none⟩)) rfl [0xFF]
    { label := [0xFF], secret := T.url (.totp (ascii "foobar") 30 6) [0xFF], timestamp := (exWorld b []).term.clock 1
      metadata := some (googleMeta (b32Encode (ascii "foobar")) code) } (by
        intro md hmd
        cases hmd
        exact (meta_keys (by decide) (meta_keys (by decide) (meta_keys (by decide) (meta_keys (by decide) meta_empty)))).1)
    (1000 + BitVec.ofNat 64 2)
  obtain ⟨s', h1, h2, -⟩ := saved_opens C J hF e3
  refine ⟨_, w', replStore, s', code, e1, ⟨b, by simp [exWorld], hb⟩, ⟨out, by rw [e2]; exact Fs.set_same _ _ _, h1⟩, rfl, ?_⟩
  obtain ⟨-, -, h3⟩ := h2
  simp only at h3
  cases hm' : s'.store with
  | none => rw [hm'] at h3; simp [OptRel] at h3
  | some m' =>
    rw [hm'] at h3
    simp only [OptRel] at h3
    obtain ⟨v', e1, e2⟩ := h3.1 [0xFF] _ (Map.set_same _ _ _) (by
      intro k2 hk2 _
      by_cases q1 : k2 = [0xFF]
      · subst q1; exact List.lt_irrefl _
      · by_cases q2 : k2 = repl
        · subst q2; decide
        · rw [Map.set_other _ _ q1, Map.set_other _ _ q2] at hk2
          exact absurd rfl hk2)
    have hs : sanitise [0xFF] = repl := by decide
    rw [hs] at e1
    cases v' with
    | none => simp [OptRel] at e2
    | some r' =>
      simp only [OptRel] at e2
      obtain ⟨-, -, h5, -⟩ := e2
      simp only [secretOf, lookup, hm', e1, Option.map_some, h5]

/-! ### C108: one counter, one code -/

/-- From a file holding the token at counter `c` on, runs that end with status 0 display the codes
of `c`, `c + 1`, … -/
theorem displays_codes {f : Flags} (hf : Showing f) {path pass label key : Bytes} {d : Int} (hd : path ≠ dash) (hpl : Plain label)
    {fs fs' : Fs} {l : List Outcome} (hD : Displays C J T U f path pass label fs l fs') : ∀ (c : BitVec 64), (Otp.hotp key c d).Usual →
    Holds C J T fs path pass f.mode label (ascii "HOTP") (.hotp key c d) → (∀ o ∈ l, ∃ codes, o = .exit 0 codes) →
    ∀ i o, l[i]? = some o → ∃ code, T.hcode key (c + BitVec.ofNat 64 i) d = .ok code ∧ o = .exit 0 [code] := by
  induction hD with
  | nil fs => intro c _ _ _ i o hi; simp at hi
  | cons h1 h2 h3 ih =>
    rename_i w w' o l fs
    intro c hus hH hall i o' hi
    obtain ⟨rest, ha⟩ : ∃ rest, w.term.answers = some pass :: rest := by
      cases hw : w.term.answers with
      | nil => rw [hw] at h1; cases h1
      | cons a r => rw [hw] at h1; cases h1; exact ⟨r, rfl⟩
    obtain ⟨code, hc, hcase⟩ := show_holds C J T U hf hd hpl hus hH ha h2
    obtain ⟨codes, hz⟩ := hall o List.mem_cons_self
    rcases hcase with ⟨ho, hH'⟩ | ⟨ho, -⟩
    · cases i with
      | zero =>
        simp only [List.getElem?_cons_zero, Option.some.injEq] at hi
        subst hi
        refine ⟨code, ?_, ho⟩
        rw [show c + BitVec.ofNat 64 0 = c from by simp]
        exact hc
      | succ i =>
        simp only [List.getElem?_cons_succ] at hi
        obtain ⟨code', hc', ho'⟩ := ih (c + 1) hus hH' (fun o ho => hall o (List.mem_cons_of_mem _ ho)) i o' hi
        refine ⟨code', ?_, ho'⟩
        rw [← hc']
        congr 1
        rw [BitVec.add_assoc]
        congr 1
        rw [Nat.add_comm i 1, BitVec.ofNat_add]
        rfl
    · rw [ho] at hz; cases hz

/-- An HOTP token is stored with counter `c` and then displayed any number of times, each time with
status 0: the codes printed are those of `c`, `c + 1`, …, one each. Missing from the property: runs
that fail to save. -/
theorem C108_counters_partial (f g : Flags) (label path pass secret key i1 i2 : Bytes) (c d : Nat) (w w' : World)
    (rest : List (Option Bytes)) (codes : List Bytes) (l : List Outcome) (fs : Fs)
    (hd : path ≠ dash) (hi : f.init = false) (hs : f.store = true) (hk : f.kind = ascii "hotp" ∨ f.kind = ascii "HOTP")
    (hpl : Plain label) (ha : w.term.answers = some pass :: some secret :: some i1 :: some i2 :: rest)
    (hkey : key ≠ []) (ht : Typed key secret) (h1 : Number 0 c i1) (h2 : Number 6 d i2) (hdig : d = 6 ∨ d = 8)
    (h : main C J T U f [label] path w = .ok (.exit 0 codes, w'))
    (hg : g.init = false ∧ g.store = false ∧ g.qr = false) (hm : g.interactive = f.interactive)
    (hD : Displays C J T U g path pass label w'.fs l fs) (hl : ∀ o ∈ l, ∃ codes, o = .exit 0 codes) :
    (∃ code, codes = [code] ∧ T.hcode key (BitVec.ofNat 64 c) d = .ok code) ∧
    ∀ i o, l[i]? = some o → ∃ code, o = .exit 0 [code] ∧ T.hcode key (BitVec.ofNat 64 (c + 1 + i)) d = .ok code := by
  obtain ⟨p, secret', rest2, s, m, r, code, w2, out, e1, ⟨b, hb, hu⟩, e3, e4, rfl, e6, e7, e8⟩ := store_exit C J T U hd hi hs h
  rw [ha] at e1
  cases e1
  have hus : ∀ c, (Otp.hotp key c d).Usual := fun c => ⟨hkey, by rcases hdig with rfl | rfl <;> simp⟩
  obtain ⟨code', hcode⟩ := T.hcode_ok key (BitVec.ofNat 64 c) d (hus _)
  have hk' : parseOTPKind f.kind = .hotp := by rcases hk with hk | hk <;> (rw [hk]; decide)
  have hrec := addHotp_eq T (w := { w with term := ⟨some i1 :: some i2 :: rest, w.term.clock⟩ }) (label := label) (key := key) (code := code')
    rfl h1 h2 hcode
  rw [typed_b32 U ht, hk'] at e6
  simp only [List.headD_cons] at e6 e7
  rw [show makeRecord T { w with term := ⟨some i1 :: some i2 :: rest, w.term.clock⟩ } .hotp label (b32Encode key) = _ from hrec] at e6
  simp only [Res.ok.injEq, Prod.mk.injEq, Option.some.injEq] at e6
  obtain ⟨⟨rfl, rfl⟩, rfl⟩ := e6
  obtain ⟨hfin, hutf, -⟩ := opens_fields C J hu
  have hmode : f.mode = g.mode := by simp [Model.Otpc.Flags.mode, hm]
  refine ⟨⟨_, rfl, hcode⟩, ?_⟩
  by_cases hl0 : l = []
  · intro i o hi
    rw [hl0] at hi
    simp at hi
  have hv : s.version = 1 := by
    unfold main at h
    rw [hi, hs] at h
    simp only [Bool.false_eq_true, if_false, if_true, List.length_singleton, Nat.lt_irrefl, load_ok C J hd ha ⟨b, hb, hu⟩, Res.ok_bind] at h
    obtain ⟨⟨x, ps, w3⟩, h3, h4⟩ := Res.bind_eq_ok.mp h
    cases x with
    | none => simp at h4
    | some code =>
      obtain ⟨_, _, _, _, -, -, -, -, rfl⟩ := addSecret_some T U rfl h3
      rcases save_some C J hd h4 with ⟨-, _, _, -, -, q, -⟩ | ⟨q1, -⟩
      · exact q
      · cases q1
  have hH : Holds C J T w'.fs path pass g.mode label (ascii "HOTP") (.hotp key (BitVec.ofNat 64 c + 1) d) := by
    rw [e8, ← hmode]
    exact saved_holds C J T hfin hutf hv e4 (plain_utf8 hpl) rfl rfl
      (meta_keys (by decide) (meta_keys (by decide) (meta_keys (by decide) meta_empty))) (hotpMeta_type _ _) rfl e7
  intro i o hio
  obtain ⟨code, q1, q2⟩ := displays_codes C J T U hg hd hpl hD (BitVec.ofNat 64 c + 1) (hus _) hH hl i o hio
  refine ⟨code, q2, ?_⟩
  rw [BitVec.ofNat_add, BitVec.ofNat_add]
  exact q1

/-- Saving fails, so that the next run displays the same code again. -/
theorem C108_repeat_violated : ∃ (fs fs' : Fs) (code : Bytes),
    Holds C J T fs [102] [112, 119] 0 (ascii "mail") (ascii "HOTP") (.hotp (ascii "foobar") 42 6) ∧
    T.hcode (ascii "foobar") 42 6 = .ok code ∧
    Displays C J T U {} [102] [112, 119] (ascii "mail") fs [.exit 1 [code], .exit 0 [code]] fs' := by
  obtain ⟨b, hb⟩ := exFile C J 0 (Or.inl rfl)
  obtain ⟨code0, hc0⟩ := T.hcode_ok (ascii "foobar") 41 6 ⟨by decide, Or.inl rfl⟩
  have hr := addHotp_eq T (w := exWorld b [some (ascii "41"), some []]) (label := ascii "mail") (key := ascii "foobar") (code := code0)
    (rest := []) (c := 41) (d := 6) rfl (Or.inl ⟨by decide, by decide⟩) (Or.inr ⟨rfl, rfl⟩) hc0
  obtain ⟨out, w', e1, e2, e3⟩ := main_store C J T U (f := { store := true, kind := ascii "hotp" }) rfl rfl (label := ascii "mail") (path := [102])
    (pass := [112, 119]) (secret := ascii "mzxw 6ytb oi") (w := exWorld b [some [112, 119], some (ascii "mzxw 6ytb oi"), some (ascii "41"), some []])
    (rest := [some (ascii "41"), some []]) (s := exStore [1, 2, 3] 7) (code := code0) (t := ⟨[], fun n => 1000 + BitVec.ofNat 64 (n + 1)⟩)
    (by decide) rfl ⟨b, by simp [exWorld], hb⟩ rfl (exMap_other (by decide) _ _)
    (by rw [typed_b32 U exTyped]; exact hr) rfl (exRng _ _) rfl (exClock 1 (by decide))
  have hH : Holds C J T w'.fs [102] [112, 119] 0 (ascii "mail") (ascii "HOTP") (.hotp (ascii "foobar") 42 6) := by
    rw [e2]
    exact saved_holds C J T (exStore_finite _ _) (exStore_clean _ _) rfl rfl (by decide) rfl rfl
      (meta_keys (by decide) (meta_keys (by decide) (meta_keys (by decide) meta_empty))) (hotpMeta_type _ _) rfl e3
  have hpl : Plain (ascii "mail") := ⟨by decide, by decide⟩
  have hus : (Otp.hotp (ascii "foobar") 42 6).Usual := ⟨by decide, Or.inl rfl⟩
  obtain ⟨code, v1, c1, m1, f1⟩ := show_unsaved C J T U (f := {}) ⟨rfl, rfl, rfl⟩
    (w := { exWorld b [some [112, 119]] with fs := w'.fs, write := .openFails }) (path := [102]) (pass := [112, 119]) (rest := [])
    (by decide) hpl hus hH rfl rfl
  obtain ⟨code', v2, c2, m2⟩ := show_works C J T U (f := {}) ⟨rfl, rfl, rfl⟩
    (w := { exWorld b [some [112, 119]] with fs := v1.fs }) (path := [102]) (pass := [112, 119]) (rest := [])
    (by decide) hpl hus (by rw [f1]; exact hH) rfl rfl (exRng b []) (exClock 1 (by decide))
  rw [c1] at c2
  cases c2
  refine ⟨w'.fs, v2.fs, code, hH, c1, ?_⟩
  have d1 := Displays.cons (C := C) (J := J) (T := T) (U := U) (f := {}) (path := [102]) (pass := [112, 119]) (label := ascii "mail")
    (w := { exWorld b [some [112, 119]] with fs := v1.fs }) rfl m2 (.nil _)
  exact Displays.cons (w := { exWorld b [some [112, 119]] with fs := w'.fs, write := .openFails }) rfl m1 d1

/-- Storing and two displays to which `C108_counters_partial` applies. -/
example : ∃ (w w' : World) (code0 code1 code2 : Bytes) (fs : Fs), main C J T U { store := true, kind := ascii "hotp" } [ascii "mail"] [102] w = .ok (.exit 0 [code0], w') ∧
    w.term.answers = [some [112, 119], some (ascii "mzxw 6ytb oi"), some (ascii "41"), some []] ∧
    Displays C J T U {} [102] [112, 119] (ascii "mail") w'.fs [.exit 0 [code1], .exit 0 [code2]] fs := by
  obtain ⟨b, hb⟩ := exFile C J 0 (Or.inl rfl)
  obtain ⟨code0, hc0⟩ := T.hcode_ok (ascii "foobar") 41 6 ⟨by decide, Or.inl rfl⟩
  have hr := addHotp_eq T (w := exWorld b [some (ascii "41"), some []]) (label := ascii "mail") (key := ascii "foobar") (code := code0)
    (rest := []) (c := 41) (d := 6) rfl (Or.inl ⟨by decide, by decide⟩) (Or.inr ⟨rfl, rfl⟩) hc0
  obtain ⟨out, w', e1, e2, e3⟩ := main_store C J T U (f := { store := true, kind := ascii "hotp" }) rfl rfl (label := ascii "mail") (path := [102])
    (pass := [112, 119]) (secret := ascii "mzxw 6ytb oi") (w := exWorld b [some [112, 119], some (ascii "mzxw 6ytb oi"), some (ascii "41"), some []])
    (rest := [some (ascii "41"), some []]) (s := exStore [1, 2, 3] 7) (code := code0) (t := ⟨[], fun n => 1000 + BitVec.ofNat 64 (n + 1)⟩)
    (by decide) rfl ⟨b, by simp [exWorld], hb⟩ rfl (exMap_other (by decide) _ _)
    (by rw [typed_b32 U exTyped]; exact hr) rfl (exRng _ _) rfl (exClock 1 (by decide))
  have hH : Holds C J T w'.fs [102] [112, 119] 0 (ascii "mail") (ascii "HOTP") (.hotp (ascii "foobar") 42 6) := by
    rw [e2]
    exact saved_holds C J T (exStore_finite _ _) (exStore_clean _ _) rfl rfl (by decide) rfl rfl
      (meta_keys (by decide) (meta_keys (by decide) (meta_keys (by decide) meta_empty))) (hotpMeta_type _ _) rfl e3
  have hpl : Plain (ascii "mail") := ⟨by decide, by decide⟩
  have hus : ∀ c, (Otp.hotp (ascii "foobar") c 6).Usual := fun _ => ⟨by decide, Or.inl rfl⟩
  obtain ⟨code1, v1, c1, m1⟩ := show_works C J T U (f := {}) ⟨rfl, rfl, rfl⟩
    (w := { exWorld b [some [112, 119]] with fs := w'.fs }) (path := [102]) (pass := [112, 119]) (rest := [])
    (by decide) hpl (hus _) hH rfl rfl (exRng b []) (exClock 1 (by decide))
  obtain ⟨c, -, q⟩ := show_holds C J T U (f := {}) ⟨rfl, rfl, rfl⟩
    (w := { exWorld b [some [112, 119]] with fs := w'.fs }) (path := [102]) (pass := [112, 119]) (rest := [])
    (by decide) hpl (hus _) hH rfl m1
  rcases q with ⟨-, hH2⟩ | ⟨q, -⟩
  · obtain ⟨code2, v2, c2, m2⟩ := show_works C J T U (f := {}) ⟨rfl, rfl, rfl⟩
      (w := { exWorld b [some [112, 119]] with fs := v1.fs }) (path := [102]) (pass := [112, 119]) (rest := [])
      (by decide) hpl (hus _) hH2 rfl rfl (exRng b []) (exClock 1 (by decide))
    have d1 := Displays.cons (C := C) (J := J) (T := T) (U := U) (f := {}) (path := [102]) (pass := [112, 119]) (label := ascii "mail")
      (w := { exWorld b [some [112, 119]] with fs := v1.fs }) rfl m2 (.nil _)
    exact ⟨_, w', code0, code1, code2, v2.fs, e1, rfl, Displays.cons (w := { exWorld b [some [112, 119]] with fs := w'.fs }) rfl m1 d1⟩
  · cases q

/-! ### C109: a new store -/

/-- Creating a store works. -/
theorem init_works {w : World} {path pass : Bytes} {mode : Int} {rest : List (Option Bytes)} (hd : path ≠ dash) (hm : mode = 0 ∨ mode = 1)
    (ha : w.term.answers = some pass :: rest) (hw : w.write = .done) (hr : 56 ≤ w.rng.length) (hc : w.term.clock 0 ≠ 0) :
    ∃ out w', initStore C J w path mode = .ok (true, w') ∧ w'.fs = w.fs.set path out ∧
      unmarshalSecretStore C J out pass mode = .ok (some (newSecretStore pass (w.term.clock 0))) := by
  have hv : (newSecretStore pass (w.term.clock 0)).valid = true :=
    (valid_iff _).mpr ⟨rfl, hc, ⟨_, rfl⟩, _, rfl⟩
  obtain ⟨out, hout⟩ := marshal_ok C J hv hm (rng := w.rng) hr
  obtain ⟨-, -, q, hq, hfile⟩ := marshal_some C J hout
  cases hq
  have hu := saved_exact C J (new_finite _ _) (new_utf8 _ _) hfile
  refine ⟨out, { w with term := ⟨rest, fun n => w.term.clock (n + 1)⟩, rng := w.rng.drop 56, fs := w.fs.set path out }, ?_, rfl, hu⟩
  unfold initStore Term.read
  simp only [ha, Term.now, hout, Res.ok_bind, World.writeFile, hd, if_false, Go.writeFile, hw, Bool.not_true, Bool.false_eq_true]
  rw [hu]
  rfl

/-- What a successful creation leaves. -/
theorem init_true {w w' : World} {path : Bytes} {mode : Int} (hd : path ≠ dash) (h1 : initStore C J w path mode = .ok (true, w')) :
    ∃ pass s', w.term.answers.head? = some (some pass) ∧ Opens C J w'.fs path pass mode s' ∧
      (∀ k, lookup s' k = none) ∧ ∀ q, q ≠ path → w'.fs q = w.fs q := by
  unfold initStore Term.read Term.now at h1
  cases ha : w.term.answers with
  | nil => simp [ha] at h1
  | cons a rest =>
    cases a with
    | none => simp [ha] at h1
    | some pass =>
      simp only [ha] at h1
      obtain ⟨⟨out, s2, rng⟩, h3, h4⟩ := Res.bind_eq_ok.mp h1
      cases out with
      | none => simp at h4
      | some out =>
        simp only [World.writeFile, hd, if_false] at h4
        unfold Go.writeFile at h4
        cases hwr : w.write with
        | openFails => simp [hwr] at h4
        | failsAfter k => simp [hwr] at h4
        | done =>
          simp only [hwr, Bool.not_true, Bool.false_eq_true, if_false] at h4
          obtain ⟨o, h5, h6⟩ := Res.bind_eq_ok.mp h4
          simp only [Res.pure_eq, Res.ok.injEq, Prod.mk.injEq] at h6
          obtain ⟨-, -, q, hq, hfile⟩ := marshal_some C J h3
          have hq : pass = q := by simpa [newSecretStore] using hq
          subst hq
          have hu := saved_exact C J (new_finite _ _) (new_utf8 _ _) hfile
          refine ⟨pass, _, rfl, ⟨out, by rw [← h6.2]; simp, hu⟩, fun k => rfl, ?_⟩
          intro q hq
          rw [← h6.2]
          exact Fs.set_other _ _ hq

/-- `otpc -init` on the path of an existing store replaces it by an empty one, without being asked
to; and the empty passphrase is as good as any. -/
theorem C109_init_violated : ∃ (w w' : World) (s s' : SecretStore),
    main C J T U { init := true } [] [102] w = .ok (.exit 0 [], w') ∧
    Opens C J w.fs [102] [112, 119] 0 s ∧ secretOf s [97] = some [1, 2, 3] ∧
    Opens C J w'.fs [102] [] 0 s' ∧ ∀ k, lookup s' k = none := by
  obtain ⟨b, hb⟩ := exFile C J 0 (Or.inl rfl)
  obtain ⟨out, w', h1, h2, h3⟩ := init_works C J (w := exWorld b [some []]) (path := [102]) (pass := []) (mode := 0) (rest := [])
    (by decide) (Or.inl rfl) rfl rfl (exRng _ _) (exClock 0 (by decide))
  refine ⟨exWorld b [some []], w', exStore [1, 2, 3] 7, _, ?_, ⟨b, by simp [exWorld], hb⟩, rfl, ⟨out, by rw [h2]; simp, h3⟩, fun k => rfl⟩
  show (initStore C J (exWorld b [some []]) [102] 0 >>= _) = _
  rw [h1]
  rfl

/-- `otpc -init` creates an empty store that opens with the passphrase given, and touches no other
file. Missing from the property: what happens to an existing store, and empty passphrases. -/
theorem C109_init_partial (f : Flags) (args : List Bytes) (path : Bytes) (w w' : World) (codes : List Bytes) (hd : path ≠ dash)
    (hf : f.init = true) (h : main C J T U f args path w = .ok (.exit 0 codes, w')) :
    ∃ pass s', w.term.answers.head? = some (some pass) ∧ Opens C J w'.fs path pass f.mode s' ∧
      (∀ k, lookup s' k = none) ∧ ∀ q, q ≠ path → w'.fs q = w.fs q := by
  unfold main at h
  simp only [hf, if_true] at h
  obtain ⟨⟨ok, w1⟩, h1, h2⟩ := Res.bind_eq_ok.mp h
  simp only [Res.pure_eq, Res.ok.injEq, Prod.mk.injEq, Outcome.exit.injEq] at h2
  obtain ⟨⟨h2, -⟩, rfl⟩ := h2
  cases ok with
  | false => simp at h2
  | true => exact init_true C J hd h1

/-- A run to which the theorem applies, where there was no file. -/
example : ∃ w', main C J T U { init := true } [] [103] (exWorld [] [some [1]]) = .ok (.exit 0 [], w') ∧
    (exWorld [] [some [1]]).fs [103] = none := by
  obtain ⟨out, w', h1, h2, h3⟩ := init_works C J (w := exWorld [] [some [1]]) (path := [103]) (pass := [1]) (mode := 0) (rest := [])
    (by decide) (Or.inl rfl) rfl rfl (exRng _ _) (exClock 0 (by decide))
  refine ⟨w', ?_, rfl⟩
  show (initStore C J (exWorld [] [some [1]]) [103] 0 >>= _) = _
  rw [h1]
  rfl

/-! ### C110: what changes files -/

theorem init_failed {w w' : World} {path : Bytes} {mode : Int} (hw : ∀ k, w.write ≠ .failsAfter k)
    (h : initStore C J w path mode = .ok (false, w')) : w'.fs = w.fs := by
  unfold initStore Term.read Term.now at h
  cases ha : w.term.answers with
  | nil => simp only [ha, Res.ok.injEq, Prod.mk.injEq, true_and] at h; rw [← h]
  | cons a rest =>
    cases a with
    | none => simp only [ha, Res.ok.injEq, Prod.mk.injEq, true_and] at h; rw [← h]
    | some pass =>
      simp only [ha] at h
      obtain ⟨⟨out, s2, rng⟩, h3, h4⟩ := Res.bind_eq_ok.mp h
      cases out with
      | none =>
        simp only [Res.pure_eq, Res.ok.injEq, Prod.mk.injEq, true_and] at h4
        rw [← h4]
      | some out =>
        simp only at h4
        generalize hx : World.writeFile _ path out = x at h4
        obtain ⟨w1, ok⟩ := x
        cases ok with
        | false =>
          simp only [Bool.not_false, if_true, Res.pure_eq, Res.ok.injEq, Prod.mk.injEq, true_and] at h4
          rw [← h4]
          have := writeFile_failed hx hw
          exact this
        | true =>
          simp only [Bool.not_true, Bool.false_eq_true, if_false] at h4
          obtain ⟨o, h5, h6⟩ := Res.bind_eq_ok.mp h4
          obtain ⟨-, -, q, hq, hfile⟩ := marshal_some C J h3
          have hq : pass = q := by simpa [newSecretStore] using hq
          subst hq
          have hu := saved_exact C J (new_finite _ _) (new_utf8 _ _) hfile
          rw [hu] at h5
          simp only [Res.ok.injEq] at h5
          rw [← h5] at h6
          simp at h6

theorem shown_term {w w2 : World} {ps ps' : SecretStore} {label : Bytes} {x : Shown}
    (h : showSecret T w ps label = .ok (x, ps', w2)) : ∃ t, w2 = { w with term := t } := by
  unfold showSecret at h
  split at h
  · simp only [Res.ok.injEq, Prod.mk.injEq] at h
    exact ⟨w.term, h.2.2.symm⟩
  · obtain ⟨r, -, h⟩ := Res.bind_eq_ok.mp h
    split at h
    · simp only [Res.pure_eq, Res.ok.injEq, Prod.mk.injEq] at h
      exact ⟨w.term, h.2.2.symm⟩
    · split at h
      · simp only [Res.pure_eq, Res.ok.injEq, Prod.mk.injEq] at h
        exact ⟨w.term, h.2.2.symm⟩
      · obtain ⟨⟨code, o, w3⟩, h1, h2⟩ := Res.bind_eq_ok.mp h
        obtain ⟨t, rfl⟩ := otp_term T h1
        cases o with
        | totp => simp at h2
        | hotp key c d =>
          simp only at h2
          obtain ⟨ps1, -, h2⟩ := Res.bind_eq_ok.mp h2
          obtain ⟨ps2, -, h2⟩ := Res.bind_eq_ok.mp h2
          simp only [Res.pure_eq, Res.ok.injEq, Prod.mk.injEq] at h2
          exact ⟨_, h2.2.2.symm⟩
      · obtain ⟨⟨code, o, w3⟩, h1, h2⟩ := Res.bind_eq_ok.mp h
        obtain ⟨t, rfl⟩ := otp_term T h1
        simp only [Res.pure_eq, Res.ok.injEq, Prod.mk.injEq] at h2
        exact ⟨_, h2.2.2.symm⟩
      · obtain ⟨⟨code, o, w3⟩, h1, h2⟩ := Res.bind_eq_ok.mp h
        obtain ⟨t, rfl⟩ := otp_term T h1
        simp only [Res.pure_eq, Res.ok.injEq, Prod.mk.injEq] at h2
        exact ⟨_, h2.2.2.symm⟩

theorem qr_some {w w2 : World} {ps : SecretStore} {label filename : Bytes} {ok : Bool}
    (h : showQR T w ps label filename = .ok (ok, w2)) :
    (ok = true → ∃ r o label' png, lookup ps label = some r ∧ T.fromURL r.secret = some (o, label') ∧ T.qr o label' = some png ∧
      w2.fs = w.fs.set filename png) ∧
    (ok = false → (∀ k, w.write ≠ .failsAfter k) → w2.fs = w.fs) ∧ ∀ q, q ≠ filename → w2.fs q = w.fs q := by
  unfold showQR at h
  split at h
  · simp only [Res.ok.injEq, Prod.mk.injEq] at h
    obtain ⟨rfl, rfl⟩ := h
    simp
  · obtain ⟨r, hr, h⟩ := Res.bind_eq_ok.mp h
    split at h
    · simp only [Res.pure_eq, Res.ok.injEq, Prod.mk.injEq] at h
      obtain ⟨rfl, rfl⟩ := h
      simp
    · rename_i o label' hu
      split at h
      · simp only [Res.pure_eq, Res.ok.injEq, Prod.mk.injEq] at h
        obtain ⟨rfl, rfl⟩ := h
        simp
      · rename_i png hq
        simp only [Res.pure_eq, Res.ok.injEq, Prod.mk.injEq] at h
        obtain ⟨rfl, rfl⟩ := h
        unfold Go.writeFile
        cases w.write with
        | done =>
          refine ⟨fun _ => ⟨r, o, label', png, fetch_eq.mp hr, hu, hq, rfl⟩, by simp, fun q hq => Fs.set_other _ _ hq⟩
        | openFails => simp
        | failsAfter k => exact ⟨by simp, fun _ h => absurd rfl (h k), fun q hq => Fs.set_other _ _ hq⟩

/-- However a run ends, unless it was by status 0, every file is as before; provided the operating
system did not stop in the middle of writing one (see C14). -/
theorem C110_failed_unchanged (f : Flags) (args : List Bytes) (path : Bytes) (w w' : World) (o : Outcome) (hw : ∀ k, w.write ≠ .failsAfter k)
    (h : main C J T U f args path w = .ok (o, w')) (ho : ∀ codes, o ≠ .exit 0 codes) : w'.fs = w.fs := by
  have hsave : ∀ (t : Term) (ps : SecretStore) (codes : List Bytes),
      save C J { w with term := t } ps path f.mode codes = .ok (o, w') → w'.fs = w.fs := by
    intro t ps codes h
    unfold save at h
    simp only [Term.now] at h
    obtain ⟨⟨w3, ok⟩, h1, h2⟩ := Res.bind_eq_ok.mp h
    simp only [Res.pure_eq, Res.ok.injEq, Prod.mk.injEq] at h2
    obtain ⟨rfl, rfl⟩ := h2
    cases ok with
    | true => exact absurd rfl (ho codes)
    | false =>
      have := writeStore_failed C J h1 hw
      exact this
  unfold main at h
  split at h
  · obtain ⟨⟨ok, w1⟩, h1, h2⟩ := Res.bind_eq_ok.mp h
    simp only [Res.pure_eq, Res.ok.injEq, Prod.mk.injEq] at h2
    obtain ⟨rfl, rfl⟩ := h2
    cases ok with
    | true => exact absurd rfl (ho [])
    | false => exact init_failed C J hw h1
  · by_cases hlen : args.length < (if f.store = true then 1 else if f.qr = true then 2 else 1)
    · rw [if_pos hlen] at h
      simp only [Res.ok.injEq, Prod.mk.injEq] at h
      rw [← h.2]
    · rw [if_neg hlen] at h
      obtain ⟨⟨x, w1⟩, h1, h2⟩ := Res.bind_eq_ok.mp h
      obtain ⟨t, rfl⟩ := loadStore_world C J h1
      cases x with
      | none =>
        simp only [Res.pure_eq, Res.ok.injEq, Prod.mk.injEq] at h2
        rw [← h2.2]
      | some s =>
        simp only at h2
        split at h2
        · obtain ⟨⟨x, ps, w2⟩, h3, h4⟩ := Res.bind_eq_ok.mp h2
          cases x with
          | none =>
            obtain ⟨t2, rfl⟩ := addSecret_none T U h3
            simp only [Res.pure_eq, Res.ok.injEq, Prod.mk.injEq] at h4
            rw [← h4.2]
          | some code =>
            obtain ⟨_, _, _, _, -, -, -, hr, -⟩ := addSecret_some T U rfl h3
            obtain ⟨t2, rfl⟩ := (makeRecord_some T hr).world
            exact hsave _ _ _ h4
        · split at h2
          · obtain ⟨⟨ok, w2⟩, h3, h4⟩ := Res.bind_eq_ok.mp h2
            simp only [Res.pure_eq, Res.ok.injEq, Prod.mk.injEq] at h4
            obtain ⟨rfl, rfl⟩ := h4
            cases ok with
            | true => exact absurd rfl (ho [])
            | false => exact (qr_some T h3).2.1 rfl hw
          · obtain ⟨⟨x, ps, w2⟩, h3, h4⟩ := Res.bind_eq_ok.mp h2
            obtain ⟨t2, rfl⟩ := shown_term T h3
            cases x with
            | failed =>
              simp only [Res.pure_eq, Res.ok.injEq, Prod.mk.injEq] at h4
              rw [← h4.2]
            | forever c =>
              simp only [Res.pure_eq, Res.ok.injEq, Prod.mk.injEq] at h4
              rw [← h4.2]
            | once c => exact hsave _ _ _ h4

/-- Runs to which it applies are those of `C74_totp_violated` and `C108_repeat_violated`; here is
one that fails at once. -/
example : ∃ w', main C J T U { store := true } [] [102] (exWorld [] []) = .ok (.exit 1 [], w') := ⟨_, rfl⟩

/-- `otpc -qr label file` changes no file but the one named, and on success that one holds the QR
code of the token. -/
theorem C110_qr (f : Flags) (label filename path : Bytes) (w w' : World) (o : Outcome) (hd : path ≠ dash)
    (hf : f.init = false ∧ f.store = false ∧ f.qr = true) (h : main C J T U f [label, filename] path w = .ok (o, w')) :
    (∀ q, q ≠ filename → w'.fs q = w.fs q) ∧
    ∀ codes, o = .exit 0 codes → ∃ pass s r t label' png, w.term.answers.head? = some (some pass) ∧ Opens C J w.fs path pass f.mode s ∧
      lookup s label = some r ∧ T.fromURL r.secret = some (t, label') ∧ T.qr t label' = some png ∧ w'.fs filename = some png := by
  obtain ⟨h1, h2, h3⟩ := hf
  unfold main at h
  rw [h1, h2, h3] at h
  simp only [Bool.false_eq_true, if_false, if_true, List.length_cons, List.length_nil, Nat.lt_irrefl] at h
  obtain ⟨⟨x, w1⟩, e1, e2⟩ := Res.bind_eq_ok.mp h
  cases x with
  | none =>
    obtain ⟨t, rfl⟩ := loadStore_world C J e1
    simp only [Res.pure_eq, Res.ok.injEq, Prod.mk.injEq] at e2
    obtain ⟨rfl, rfl⟩ := e2
    exact ⟨fun _ _ => rfl, fun codes hc => by cases hc⟩
  | some s =>
    obtain ⟨pass, rest, ha, hop, rfl⟩ := load_some C J hd e1
    simp only at e2
    obtain ⟨⟨ok, w2⟩, e3, e4⟩ := Res.bind_eq_ok.mp e2
    simp only [Res.pure_eq, Res.ok.injEq, Prod.mk.injEq] at e4
    obtain ⟨rfl, rfl⟩ := e4
    obtain ⟨q1, -, q3⟩ := qr_some T e3
    refine ⟨q3, fun codes hc => ?_⟩
    cases ok with
    | false => cases hc
    | true =>
      obtain ⟨r, t, label', png, k1, k2, k3, k4⟩ := q1 rfl
      exact ⟨pass, s, r, t, label', png, by rw [ha]; rfl, hop, k1, k2, k3, by rw [k4]; exact Fs.set_same _ _ _⟩

/-- A run with the toy package that writes the QR code of a token. -/
example : ∃ b w', main C J toyTwoFactor U { qr := true } [[97], [103]] [102] (exWorld b [some [112, 119]]) = .ok (.exit 0 [], w') ∧
    w'.fs [103] = some (toyUrl (.hotp [1, 2] 41 6) [97]) ∧ w'.fs [102] = some b := by
  obtain ⟨b, hb⟩ := file_exists C J (s := exStore (toyUrl (.hotp [1, 2] 41 6) [97]) 7) (p := [112, 119]) (mode := 0) (Or.inl rfl) (exStore_valid _ _) rfl
    (exStore_finite _ _) (exStore_clean _ _)
  refine ⟨b, { exWorld b [] with fs := (exWorld b []).fs.set [103] (toyUrl (.hotp [1, 2] 41 6) [97]) }, ?_, by simp, by simp [exWorld, Fs.set]⟩
  unfold main
  simp only [Bool.false_eq_true, if_false, if_true, List.length_cons, List.length_nil, Nat.lt_irrefl]
  rw [load_ok C J (w := exWorld b [some [112, 119]]) (path := [102]) (mode := ({ qr := true } : Flags).mode) (by decide) (rest := []) (pass := [112, 119]) rfl ⟨b, by simp [exWorld], hb⟩]
  have hl : lookup (exStore (toyUrl (.hotp [1, 2] 41 6) [97]) 7) [97] = some (exRecord [97] (toyUrl (.hotp [1, 2] 41 6) [97]) 7) := exStore_lookup _ _
  simp only [Res.ok_bind, showQR, List.headD_cons, List.tail_cons, has_of_lookup hl, fetch_eq.mpr hl]
  rfl

end Verif.Props.Otpc
