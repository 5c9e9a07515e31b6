import Verif.Props.Together
import Verif.Props.Otpc
import Verif.Props.OtpcErrors
import Verif.Props.JournalOutput
/-! C231 to C233: what secrets makes of the stores of otpc and journal. -/

namespace Verif.Props.TogetherStores
open Verif Verif.Go Verif.Model.Util Verif.Model.SecretStore
open Verif.Model.Secrets (World dash)
open Verif.Model.SecretsOutput (mainText)
open Verif.Spec.SecretStore Verif.Spec.Secrets Verif.Spec.SecretsOutput Verif.Spec.Together
open Verif.Spec.Otpc (Typed)
open Verif.Spec.Journal (Edited)
open Verif.Proofs.SecretStore Verif.Proofs.Secrets
open Verif.Props.SecretStore
open Verif.Props.Together (opens_same exTwo exMerge)

variable (C : Crypto) (J : Json) (P : Pem) (ord : Map (Option SecretRecord) → List Bytes) (fuel : Nat)

/-! ### C231: tokens -/

section
variable (T : Model.Otpc.TwoFactor) (U : Model.Otpc.Case) (E : Model.OtpcErrors.Texts)
open Verif.Model.Otpc (parseOTPKind kKey kType kStep kConf makeRecord addHotp addTotp addGoogle)
open Verif.Proofs.Otpc (decodeString_b32 store_exit typed_b32)

theorem items4 {key type step code : Bytes} (j x : Bytes) :
    ((((Map.empty.set kKey (b32Encode key)).set kType type).set kStep step).set kConf code) j = some x ↔
      (j, x) ∈ tokenItems key type (some step) code := by
  have n1 : kKey ≠ kType := by decide
  have n2 : kKey ≠ kStep := by decide
  have n3 : kKey ≠ kConf := by decide
  have n4 : kType ≠ kStep := by decide
  have n5 : kType ≠ kConf := by decide
  have n6 : kStep ≠ kConf := by decide
  have e : tokenItems key type (some step) code = [(kKey, b32Encode key), (kType, type), (kConf, code), (kStep, step)] := rfl
  rw [e]
  generalize kKey = a at *
  generalize kType = b at *
  generalize kStep = c at *
  generalize kConf = d at *
  simp only [List.mem_cons, Prod.mk.injEq, List.not_mem_nil, or_false]
  by_cases h1 : j = d
  · subst h1
    rw [Map.set_same]
    simp [n3.symm, n5.symm, n6.symm, eq_comm]
  rw [Map.set_other _ _ h1]
  by_cases h2 : j = c
  · subst h2
    rw [Map.set_same]
    simp [n2.symm, n4.symm, h1, eq_comm]
  rw [Map.set_other _ _ h2]
  by_cases h3 : j = b
  · subst h3
    rw [Map.set_same]
    simp [n1.symm, h1, h2, eq_comm]
  rw [Map.set_other _ _ h3]
  by_cases h4 : j = a
  · subst h4
    rw [Map.set_same]
    simp [h1, h2, h3, eq_comm]
  rw [Map.set_other _ _ h4]
  simp [h1, h2, h3, h4, Map.empty]

theorem items3 {key type code : Bytes} (j x : Bytes) :
    (((Map.empty.set kKey (b32Encode key)).set kType type).set kConf code) j = some x ↔ (j, x) ∈ tokenItems key type none code := by
  have n1 : kKey ≠ kType := by decide
  have n3 : kKey ≠ kConf := by decide
  have n5 : kType ≠ kConf := by decide
  have e : tokenItems key type none code = [(kKey, b32Encode key), (kType, type), (kConf, code)] := rfl
  rw [e]
  generalize kKey = a at *
  generalize kType = b at *
  generalize kConf = d at *
  simp only [List.mem_cons, Prod.mk.injEq, List.not_mem_nil, or_false]
  by_cases h1 : j = d
  · subst h1
    rw [Map.set_same]
    simp [n3.symm, n5.symm, eq_comm]
  rw [Map.set_other _ _ h1]
  by_cases h3 : j = b
  · subst h3
    rw [Map.set_same]
    simp [n1.symm, h1, eq_comm]
  rw [Map.set_other _ _ h3]
  by_cases h4 : j = a
  · subst h4
    rw [Map.set_same]
    simp [h1, h3, eq_comm]
  rw [Map.set_other _ _ h4]
  simp [h1, h3, h4, Map.empty]

/-- What a successful `otpc -s` stores. -/
theorem made {w w2 : World} {k : Model.Otpc.Kind} {label key code : Bytes} {r : SecretRecord} (hk : key ≠ [])
    (h : makeRecord T w k label (b32Encode key) = .ok (some (r, code), w2)) :
    ∃ o type step md, r.label = label ∧ r.secret = T.url o label ∧ r.metadata = some md ∧ keyOf o = key ∧
      (∀ j x, md j = some x ↔ (j, x) ∈ tokenItems key type step code) ∧
      ((k = .hotp ∧ type = ascii "HOTP" ∧ step = none ∧ o.kind = .hotp) ∨
       (k = .totp ∧ type = ascii "TOTP-SHA1" ∧ step ≠ none ∧ o.kind = .totp) ∨
       (k = .google ∧ type = ascii "TOTP-GOOGLE" ∧ step = some (ascii "30s") ∧ o = .totp key 30 6)) := by
  cases k with
  | unknown => simp [makeRecord] at h
  | hotp =>
    unfold makeRecord at h
    simp only at h
    unfold addHotp at h
    simp only [decodeString_b32, Model.Otpc.otp] at h
    split at h
    · simp at h
    split at h
    · simp at h
    split at h
    · simp at h
    split at h
    · simp at h
    obtain ⟨⟨c, o, w3⟩, h1, h2⟩ := Res.bind_eq_ok.mp h
    obtain ⟨c', h3, h4⟩ := Res.bind_eq_ok.mp h1
    simp only [Res.pure_eq, Res.ok.injEq, Prod.mk.injEq, Option.some.injEq] at h2 h4
    obtain ⟨rfl, rfl, rfl⟩ := h4
    obtain ⟨⟨rfl, rfl⟩, rfl⟩ := h2
    refine ⟨_, _, _, _, rfl, rfl, rfl, rfl, ?_, Or.inl ⟨rfl, rfl, rfl, rfl⟩⟩
    intro j x
    exact items3 j x
  | totp =>
    unfold makeRecord at h
    simp only at h
    unfold addTotp at h
    simp only [decodeString_b32, Model.Otpc.otp] at h
    split at h
    · simp at h
    split at h
    · simp at h
    split at h
    · simp at h
    split at h
    · simp at h
    obtain ⟨⟨c, o, w3⟩, h1, h2⟩ := Res.bind_eq_ok.mp h
    obtain ⟨c', h3, h4⟩ := Res.bind_eq_ok.mp h1
    simp only [Res.pure_eq, Res.ok.injEq, Prod.mk.injEq, Option.some.injEq] at h2 h4
    obtain ⟨rfl, rfl, rfl⟩ := h4
    obtain ⟨⟨rfl, rfl⟩, rfl⟩ := h2
    exact ⟨_, _, some _, _, rfl, rfl, rfl, rfl, fun j x => items4 j x, Or.inr (Or.inl ⟨rfl, rfl, by simp, rfl⟩)⟩
  | google =>
    unfold makeRecord at h
    simp only at h
    unfold addGoogle at h
    simp only [T.google_b32 key hk, Model.Otpc.otp] at h
    obtain ⟨⟨c, o, w3⟩, h1, h2⟩ := Res.bind_eq_ok.mp h
    obtain ⟨c', h3, h4⟩ := Res.bind_eq_ok.mp h1
    simp only [Res.pure_eq, Res.ok.injEq, Prod.mk.injEq, Option.some.injEq] at h2 h4
    obtain ⟨rfl, rfl, rfl⟩ := h4
    obtain ⟨⟨rfl, rfl⟩, rfl⟩ := h2
    exact ⟨_, _, some _, _, rfl, rfl, rfl, rfl, fun j x => items4 j x, Or.inr (Or.inr ⟨rfl, rfl, rfl, rfl⟩)⟩

theorem items_nodup (key type : Bytes) (step : Option Bytes) (code : Bytes) : (tokenItems key type step code).Nodup := by
  refine List.Nodup.of_map (·.1) ?_
  cases step with
  | none =>
    show [ascii "key", ascii "type", ascii "confirmation"].Nodup
    decide
  | some x =>
    show [ascii "key", ascii "type", ascii "confirmation", ascii "step"].Nodup
    decide

/-- A token that was stored with `otpc -s` is shown by `secrets -m`: its URL, the time, and in some order its key as base 32,
its type, the code that was printed when it was stored, and, if the code depends on the time, the step. -/
theorem C231_viewed (f : Model.Otpc.Flags) (label path pass text key : Bytes) (args : List Bytes) (w w' : World) (rest : List (Option Bytes)) (codes : List Bytes)
    (hd : path ≠ dash) (hi : f.init = false) (hs : f.store = true) (hl : ValidUtf8 label) (hk : key ≠ []) (ht : Typed key text)
    (ha : w.term.answers = some pass :: some text :: rest)
    (h : Model.Otpc.main C J T U f (label :: args) path w = .ok (.exit 0 codes, w')) :
    ∃ o type step code time, codes = [code] ∧ keyOf o = key ∧
      ((lower f.kind = ascii "hotp" ∧ type = ascii "HOTP" ∧ step = none ∧ o.kind = .hotp) ∨
       (lower f.kind = ascii "totp" ∧ type = ascii "TOTP-SHA1" ∧ step ≠ none ∧ o.kind = .totp) ∨
       ((lower f.kind = ascii "google" ∨ lower f.kind = ascii "totp-google") ∧ type = ascii "TOTP-GOOGLE" ∧ step = some (ascii "30s") ∧ o = .totp key 30 6)) ∧
      ∀ (e : Model.SecretsOutput.Env) (v : World) (rest' : List (Option Bytes)) (more : List Bytes), (∀ md : Map Bytes, md.Finite → md.Enumerates (e.metaOrder md)) →
        v.fs path = w'.fs path → v.term.answers = some pass :: rest' →
        ∃ items : List (Bytes × Bytes), items.Perm (tokenItems key type step code) ∧
          mainText C J ord e fuel { withMeta := true, interactive := f.interactive } (label :: more) path v =
            line (ascii "Secret: " ++ T.url o label) ++
            line (ascii "Timestamp: " ++ Model.Secretscli.signed time ++ ascii " (" ++ e.date time ++ ascii ")") ++
            indented (items.map (fun x => x.1 ++ ascii ": " ++ x.2)) := by
  obtain ⟨p', text', rest2, s, m, r, code, w2, out, ha', ho, -, hm, rfl, hmk, hfile, hfs⟩ := store_exit C J T U hd hi hs h
  rw [ha] at ha'
  simp only [List.cons.injEq, Option.some.injEq] at ha'
  obtain ⟨rfl, rfl, rfl⟩ := ha'
  simp only [List.headD_cons] at hmk hfile
  rw [typed_b32 U ht] at hmk
  have hmade := Proofs.Otpc.makeRecord_some T hmk
  obtain ⟨o, type, step, md, e1, e2, e3, e4, e5, e6⟩ := made T hk hmk
  obtain ⟨b, hb, hu⟩ := id ho
  obtain ⟨hfin, hutf, -⟩ := opens_fields C J hu
  obtain ⟨md', e3', hmd, -⟩ := hmade.md
  rw [e3] at e3'
  cases e3'
  have hex := saved_exact C J (finite_set hfin hm label r (by intro x hx; rw [e3] at hx; cases hx; exact hmd.1) (w2.term.clock 0))
    (utf8_set (r := r) hutf hm hl (by rw [e1]; exact hl) (by intro x j y hx hy; rw [e3] at hx; cases hx; exact hmd.2 j y hy) (w2.term.clock 0)) hfile
  refine ⟨o, type, step, code, r.timestamp, rfl, e4, ?_, ?_⟩
  · unfold parseOTPKind at e6
    simp only at e6
    by_cases k1 : lower f.kind = ascii "totp"
    · simp only [k1, if_true, reduceCtorEq, false_and, true_and, false_or, or_false] at e6
      exact Or.inr (Or.inl ⟨k1, e6⟩)
    · by_cases k2 : lower f.kind = ascii "google" ∨ lower f.kind = ascii "totp-google"
      · simp only [k1, k2, if_true, if_false, reduceCtorEq, false_and, true_and, false_or] at e6
        exact Or.inr (Or.inr ⟨k2, e6⟩)
      · by_cases k3 : lower f.kind = ascii "hotp"
        · rw [if_neg k1, if_neg k2, if_pos k3] at e6
          simp only [reduceCtorEq, false_and, true_and, or_false] at e6
          exact Or.inl ⟨k3, e6⟩
        · rw [if_neg k1, if_neg k2, if_neg k3] at e6
          simp only [reduceCtorEq, false_and, or_false] at e6
  · intro e v rest' more he hv hva
    have hop : Opens C J v.fs path pass (if f.interactive then 1 else 0) _ := ⟨out, by rw [hv, hfs]; simp, hex⟩
    obtain ⟨-, -, -, h5⟩ := SecretsOutput.C169_shown C J Pem.toy ord e fuel (clip := false) (m := true) (ow := false) (more := more) (l := label)
      (i := f.interactive) (r := r) hd hva hop (by rw [lookup_eq (m := m.set label (some r)) rfl, Map.set_same]; rfl) he
    obtain ⟨items, i1, i2, i3⟩ := h5 rfl rfl
    refine ⟨items, ?_, ?_⟩
    · refine (List.perm_ext_iff_of_nodup (List.Nodup.of_map _ i1) (items_nodup _ _ _ _)).mpr ?_
      rintro ⟨j, x⟩
      rw [i2, ← e5]
      constructor
      · rintro ⟨md2, g1, g2⟩
        rw [e3] at g1
        cases g1
        exact g2
      · exact fun g => ⟨md, e3, g⟩
    · rw [i3, e2]

/-- A token that was removed with `secrets -r` is not there for otpc any more, and the other tokens are as they were. -/
theorem C231_removed (f : Model.Secrets.Flags) (g : Model.Otpc.Flags) (label path : Bytes) (args more : List Bytes) (w w' : World)
    (hd : path ≠ dash) (hf : f.action = .cmd .remove) (hm : f.withMeta = false) (hg : g.init = false ∧ g.store = false) (hmode : g.mode = f.mode)
    (hq : g.qr = true → more ≠ []) (h : Model.Secrets.main C J P ord fuel f (label :: args) path w = some (.ok (0, w'))) :
    ∃ pass s s', w.term.answers.head? = some (some pass) ∧ Opens C J w.fs path pass g.mode s ∧ Opens C J w'.fs path pass g.mode s' ∧
      s.has label = true ∧ (∀ k, k ≠ label → lookup s' k = lookup s k) ∧
      ∀ (v : World) (rest : List (Option Bytes)), v.fs path = w'.fs path → v.term.answers = some pass :: rest →
        Model.Otpc.main C J T U g (label :: more) path v = .ok (.exit 1 [], { v with term := ⟨rest, v.term.clock⟩ }) ∧
        Model.OtpcErrors.mainErr E C J T U g (label :: more) path v = [Spec.SecretsErrors.report (ascii "Failed: no token found under label")] := by
  obtain ⟨pass, s, s', h1, h2, h3, h4, h5, h6⟩ := Secrets.C95_remove C J P ord fuel f (label :: args) path w w' hd hf hm h
  simp only [List.headD_cons] at h4 h5 h6
  rw [← hmode] at h2 h3
  refine ⟨pass, s, s', h1, h2, h3, h4, h6, fun v rest hv ha => ?_⟩
  obtain ⟨b, hb, hu⟩ := h3
  exact OtpcErrors.C216_absent E C J T U hd hg hq ha ⟨b, hv.trans hb, hu⟩ h5

/-- A Google token "mail" is stored with otpc; secrets shows it, and removes it, and otpc does not find it any more. -/
example (e : Model.SecretsOutput.Env) (he : ∀ md : Map Bytes, md.Finite → md.Enumerates (e.metaOrder md)) : ∃ b w' code w2 v2,
    Model.Otpc.main C J T U { store := true, kind := ascii "google" } [ascii "mail"] [102]
      (Secrets.exWorld b [some [112, 119], some (ascii "mzxw 6ytb oi")]) = .ok (.exit 0 [code], w') ∧
    (∃ (time : BitVec 64) (items : List (Bytes × Bytes)), items.Perm [(ascii "key", ascii "MZXW6YTBOI======"), (ascii "type", ascii "TOTP-GOOGLE"), (ascii "confirmation", code), (ascii "step", ascii "30s")] ∧
      mainText C J ord e fuel { withMeta := true } [ascii "mail"] [102] (exTwo w'.fs [some [112, 119]]) =
        line (ascii "Secret: " ++ T.url (.totp (ascii "foobar") 30 6) (ascii "mail")) ++
        line (ascii "Timestamp: " ++ Model.Secretscli.signed time ++ ascii " (" ++ e.date time ++ ascii ")") ++
        indented (items.map (fun x => x.1 ++ ascii ": " ++ x.2))) ∧
    Model.Secrets.main C J P ord fuel { remove := true } [ascii "mail"] [102] (exTwo w'.fs [some [112, 119]]) = some (.ok (0, w2)) ∧
    Model.Otpc.main C J T U {} [ascii "mail"] [102] (exTwo w2.fs [some [112, 119]]) = .ok (.exit 1 [], v2) := by
  obtain ⟨b, hb⟩ := Secrets.exFile C J 0 (Or.inl rfl)
  obtain ⟨code, hc⟩ := T.tcode_ok (ascii "foobar") 30 6 (1000 + BitVec.ofNat 64 0) ⟨by decide, by decide, Or.inl rfl⟩
  have hr := Proofs.Otpc.addGoogle_eq T (w := Secrets.exWorld b []) (label := ascii "mail") (key := ascii "foobar") (code := code) (by decide) hc
  obtain ⟨out, w', e1, e2, e3⟩ := Proofs.Otpc.main_store C J T U (f := { store := true, kind := ascii "google" }) rfl rfl (label := ascii "mail") (path := [102])
    (pass := [112, 119]) (secret := ascii "mzxw 6ytb oi") (w := Secrets.exWorld b [some [112, 119], some (ascii "mzxw 6ytb oi")])
    (rest := []) (s := exStore [1, 2, 3] 7) (code := code) (t := ⟨[], fun n => 1000 + BitVec.ofNat 64 (n + 2)⟩)
    (by decide) rfl ⟨b, by simp [Secrets.exWorld], hb⟩ rfl (Secrets.exMap_other (by decide) _ _)
    (by rw [typed_b32 U Otpc.exTyped]; exact hr) rfl (Otpc.exRng _ _) rfl (Secrets.exClock 2 (by decide))
  obtain ⟨o, type, step, code', time, c1, c2, c3, c4⟩ := C231_viewed C J ord fuel T U { store := true, kind := ascii "google" } (ascii "mail") [102] [112, 119] (ascii "mzxw 6ytb oi")
    (ascii "foobar") [] _ w' [] _ (by decide) rfl rfl (by decide) (by decide) Otpc.exTyped rfl e1
  cases c1
  rcases c3 with ⟨k, -⟩ | ⟨k, -⟩ | ⟨-, rfl, rfl, rfl⟩
  · exact absurd k (by decide)
  · exact absurd k (by decide)
  obtain ⟨items, i1, i2⟩ := c4 e (exTwo w'.fs [some [112, 119]]) [] [] he rfl rfl
  have hmd := (Proofs.Otpc.makeRecord_some T (k := .google) hr).md
  obtain ⟨md, m1, m2, -⟩ := hmd
  cases m1
  have hex := saved_exact C J (finite_set (exStore_finite [1, 2, 3] 7) rfl (ascii "mail") _ (by intro x hx; cases hx; exact m2.1) _)
    (utf8_set (exStore_clean [1, 2, 3] 7) rfl (by decide) (show ValidUtf8 (ascii "mail") by decide) (by intro x j y hx hy; cases hx; exact m2.2 j y hy) _) e3
  obtain ⟨w2, out2, d1, -⟩ := runCmd_ok C J (ord := ord) (fuel := fuel) (c := .remove) (w := exTwo w'.fs [some [112, 119]])
    (cfg := { args := [ascii "mail"], clip := false, overwrite := false, withMeta := false }) (mode := 0) (path := [102])
    (pass := [112, 119]) (rest := []) (t := ⟨[], fun n => 1000 + BitVec.ofNat 64 n⟩) (by decide) (Or.inl rfl) (by decide) rfl
    ⟨out, by show w'.fs [102] = _; rw [e2]; simp, hex⟩
    (by
      simp only [Model.Secrets.Cmd.run, Model.Secrets.remove, SecretStore.has, Map.has, List.headD_cons, Map.set_same, Option.isSome_some, Bool.not_true,
        Bool.false_eq_true, if_false]
      rfl) rfl (by show 56 ≤ (List.replicate 200 _).length; rw [List.length_replicate]; decide) rfl rfl (Secrets.exClock 0 (by decide)) rfl rfl
  have d2 : Model.Secrets.main C J P ord fuel { remove := true } [ascii "mail"] [102] (exTwo w'.fs [some [112, 119]]) = some (.ok (0, w2)) := d1
  obtain ⟨pass, s, s', g1, -, -, -, -, g2⟩ := C231_removed C J P ord fuel T U E { remove := true } {} (ascii "mail") [102] [] [] _ w2 (by decide) rfl rfl ⟨rfl, rfl⟩ rfl
    (by intro h; cases h) d2
  cases g1
  have hb32 : ascii "MZXW6YTBOI======" = b32Encode (ascii "foobar") := by decide
  rw [hb32]
  exact ⟨b, w', code, w2, _, e1, ⟨time, items, i1, i2⟩, d2, (g2 (exTwo w2.fs [some [112, 119]]) [] rfl rfl).1⟩
end

/-! ### C232: entries of a journal -/

/-- The store after `journal -e`. -/
theorem edit_opens {fs fs' : Fs} {path pass title text out : Bytes} {mode : Int} {s : SecretStore} {r : SecretRecord} {m : Map (Option SecretRecord)} {t : BitVec 64}
    (ho : Opens C J fs path pass mode s) (hl : lookup s title = some r) (hm : s.store = some m) (hout : fs' path = some out)
    (hfile : IsFile C out pass mode (J.enc { s.toFields with store := some (m.set title (some { r with secret := text })), timestamp := t })) :
    ∃ s', Opens C J fs' path pass mode s' ∧ lookup s' title = some { r with secret := text } ∧ (∀ k, k ≠ title → lookup s' k = lookup s k) ∧
      (NoNil s → NoNil s') ∧ s'.store ≠ none := by
  obtain ⟨b, hb, hus⟩ := ho
  obtain ⟨hfin, hutf, -⟩ := opens_fields C J hus
  obtain ⟨m', hm1, hm2⟩ := lookup_get hl
  rw [hm] at hm1
  cases hm1
  have hcl := hutf m hm title (some r) hm2
  have hex := saved_exact C J (finite_set hfin hm title { r with secret := text } (fun md hmd => (hfin m hm).2 title r md hm2 hmd) t)
    (utf8_set hutf hm (r := { r with secret := text }) hcl.1 (hcl.2 r rfl).1 (fun md j x hmd hj => (hcl.2 r rfl).2 md j x hmd hj) t) hfile
  refine ⟨_, ⟨out, hout, hex⟩, by rw [lookup_eq rfl, Map.set_same]; rfl, fun k hk => ?_, fun hn => ?_, by simp⟩
  · rw [lookup_eq rfl, Map.set_other _ _ hk, lookup_eq hm]
  · intro m2 k h2 hk
    cases h2
    by_cases e : k = title
    · subst e; rw [Map.set_same] at hk; cases hk
    · rw [Map.set_other _ _ e] at hk
      exact hn m k hm hk

/-- What is written with `journal -w` under a new title is what `secrets` shows under that title. -/
theorem C232_written (e : Model.Journal.Env) (e2 : Model.SecretsOutput.Env) (f : Model.Journal.Flags) (title path pass : Bytes) (more : List Bytes)
    (w w' v : World) (o : Model.Journal.Output) (rest rest' : List (Option Bytes))
    (hd : path ≠ dash) (hf : f.init = false ∧ f.edit = false ∧ f.list = false ∧ f.write = true) (htr : trimSpace title = title) (hu : ValidUtf8 title)
    (ha : w.term.answers = some pass :: rest) (hnew : ∀ s, Opens C J w.fs path pass f.mode s → s.has title = false)
    (he : ∀ md : Map Bytes, md.Finite → md.Enumerates (e2.metaOrder md))
    (h : Model.Journal.main C J ord e f [title] path w = .ok (0, o, w')) (hv : v.term.answers = some pass :: rest') (hvf : v.fs path = w'.fs path) :
    ∃ text, Edited e (title ++ [10] ++ e.date (w.term.clock 0) ++ [10, 10, 45, 45, 45, 45, 45, 10]) text ∧
      mainText C J ord e2 fuel { interactive := f.interactive } (title :: more) path v = line (ascii "Secret: " ++ text) ∧
      Model.Secrets.main C J P ord fuel { interactive := f.interactive } (title :: more) path v =
        some (.ok (0, { v with term := { v.term with answers := rest' } })) := by
  obtain ⟨pass', rest2, s, m, t2, r, out, t, ha2, ho, hm, hout, hfile, -, hcase⟩ := Proofs.Journal.write_exit C J ord hd hf h
  rw [ha] at ha2
  cases ha2
  have hh := hnew s ho
  rw [htr] at hcase
  rcases hcase with ⟨hc, -⟩ | ⟨text, hed, rfl, ⟨hc, -⟩ | ⟨-, rfl⟩⟩
  · rw [hh] at hc; cases hc
  · rw [hh] at hc; cases hc
  · obtain ⟨b, hb, hus⟩ := id ho
    obtain ⟨hfin, hutf, hp⟩ := opens_fields C J hus
    have hex := saved_exact C J (finite_set hfin hm t2 _ (fun md h => by cases h) t)
      (utf8_set hutf hm (r := ⟨t2, w.term.clock 1, text, none⟩) hu hu (fun md j x h => by cases h) t) hfile
    have hop : Opens C J v.fs path pass (if f.interactive then 1 else 0) _ := ⟨out, by rw [hvf, hout], hex⟩
    obtain ⟨h1, -, h3, -⟩ := SecretsOutput.C169_shown C J P ord e2 fuel (clip := false) (m := false) (ow := false) (more := more) (l := t2)
      (i := f.interactive) (r := ⟨t2, w.term.clock 1, text, none⟩) hd hv hop (by rw [lookup_eq rfl, Map.set_same]; rfl) he
    refine ⟨text, ?_, h3 rfl rfl, h1⟩
    have e1 : ascii "-----" = [45, 45, 45, 45, 45] := by decide
    unfold Model.Journal.header at hed
    rw [e1] at hed
    simpa using hed

/-- What `journal -e` makes of an entry is what `secrets` shows under its title. -/
theorem C232_edited (e : Model.Journal.Env) (e2 : Model.SecretsOutput.Env) (f : Model.Journal.Flags) (title path : Bytes) (more : List Bytes)
    (w w' : World) (o : Model.Journal.Output) (hd : path ≠ dash) (hf : f.init = false ∧ f.edit = true)
    (he : ∀ md : Map Bytes, md.Finite → md.Enumerates (e2.metaOrder md))
    (h : Model.Journal.main C J ord e f [title] path w = .ok (0, o, w')) :
    ∃ pass rest s r text, w.term.answers = some pass :: rest ∧ Opens C J w.fs path pass f.mode s ∧ lookup s title = some r ∧ Edited e r.secret text ∧
      ∀ (v : World) (rest' : List (Option Bytes)), v.term.answers = some pass :: rest' → v.fs path = w'.fs path →
        mainText C J ord e2 fuel { interactive := f.interactive } (title :: more) path v = line (ascii "Secret: " ++ text) := by
  obtain ⟨pass, rest, s, r, m, text, out, ha, ho, hl, hm, hed, hout, hfile⟩ := Proofs.Journal.edit_exit C J ord hd hf.1 hf.2 h
  obtain ⟨s', hs', g1, -⟩ := edit_opens C J ho hl hm hout hfile
  refine ⟨pass, rest, s, r, text, ha, ho, hl, hed, fun v rest' hv hvf => ?_⟩
  obtain ⟨b, hb, hu⟩ := hs'
  exact (SecretsOutput.C169_shown C J Pem.toy ord e2 fuel (clip := false) (m := false) (ow := false) (more := more) (l := title)
    (i := f.interactive) hd hv ⟨b, hvf.trans hb, hu⟩ g1 he).2.2.1 rfl rfl

/-- What was stored with `secrets -s` is what `journal` shows under that label. -/
theorem C232_stored (e : Model.Journal.Env) (M : Model.JournalOutput.Messages) (f : Model.Secrets.Flags) (g : Model.Journal.Flags) (label path : Bytes)
    (args : List Bytes) (w w' : World) (hd : path ≠ dash) (hf : f.action = .cmd .store) (hm : f.withMeta = false) (hl : ValidUtf8 label)
    (hg : g.init = false ∧ g.edit = false ∧ g.list = false ∧ g.write = false) (hmode : g.mode = f.mode)
    (h : Model.Secrets.main C J P ord fuel f (label :: args) path w = some (.ok (0, w'))) :
    ∃ pass pw rest, w.term.answers = some pass :: some pw :: rest ∧ ∀ (v : World) (rest' : List (Option Bytes)),
      v.fs path = w'.fs path → v.term.answers = some pass :: rest' → Model.JournalOutput.mainText C J ord e M g [label] path v = line pw := by
  obtain ⟨pass, pw, rest, s, s', r', ha, -, -, ⟨b, hb, hu⟩, -, -, hr, rfl, -⟩ := Secrets.C95_store C J P ord fuel f (label :: args) path w w' hd hf hm hl h
  simp only [List.headD_cons] at hr
  refine ⟨pass, _, rest, ha, fun v rest' hv hva => ?_⟩
  exact (JournalOutput.C181_shown C J ord e M g label path pass v rest' s' hd hg hva ⟨b, hv.trans hb, by rw [hmode]; exact hu⟩).1 r' hr

/-- An entry that was removed with `secrets -r` is not shown by journal any more. -/
theorem C232_removed (e : Model.Journal.Env) (M : Model.JournalOutput.Messages) (f : Model.Secrets.Flags) (g : Model.Journal.Flags) (label path : Bytes)
    (args : List Bytes) (w w' : World) (hd : path ≠ dash) (hf : f.action = .cmd .remove) (hm : f.withMeta = false)
    (hg : g.init = false ∧ g.edit = false ∧ g.list = false ∧ g.write = false) (hmode : g.mode = f.mode)
    (h : Model.Secrets.main C J P ord fuel f (label :: args) path w = some (.ok (0, w'))) :
    ∃ pass, w.term.answers.head? = some (some pass) ∧ ∀ (v : World) (rest' : List (Option Bytes)),
      v.fs path = w'.fs path → v.term.answers = some pass :: rest' → Model.JournalOutput.mainText C J ord e M g [label] path v = [] ∧
        ∃ v', Model.Journal.main C J ord e g [label] path v = .ok (1, .nothing, v') := by
  obtain ⟨pass, s, s', h1, -, ⟨b, hb, hu⟩, -, h5, -⟩ := Secrets.C95_remove C J P ord fuel f (label :: args) path w w' hd hf hm h
  simp only [List.headD_cons] at h5
  refine ⟨pass, h1, fun v rest' hv hva => ?_⟩
  have ho : Opens C J v.fs path pass g.mode s' := ⟨b, hv.trans hb, by rw [hmode]; exact hu⟩
  exact ⟨(JournalOutput.C181_shown C J ord e M g label path pass v rest' s' hd hg hva ho).2 h5, _,
    Journal.show_missing C J ord hg hd hva ho h5⟩

/-- A journal that was exported and imported again with secrets shows the entries that it showed before. -/
theorem C232_moved (e : Model.Journal.Env) (M : Model.JournalOutput.Messages) (f f2 : Model.Secrets.Flags) (g : Model.Journal.Flags) (title path out path2 pass : Bytes)
    (w w1 v v' u1 u2 : World) (r1 r2 : List (Option Bytes)) (s : SecretStore) (r : SecretRecord) (st : Nat)
    (hf : f.action = .doExport) (hf2 : f2.action = .doImport) (h1 : path ≠ dash) (h2 : out ≠ dash) (h3 : path2 ≠ dash)
    (hg : g.init = false ∧ g.edit = false ∧ g.list = false ∧ g.write = false)
    (ho : Opens C J w.fs path pass g.mode s) (hr : lookup s title = some r)
    (he : Model.Secrets.main C J P ord fuel f [out] path w = some (.ok (0, w1))) (hv : v.fs out = w1.fs out) (hw : v.write = .done)
    (hi : Model.Secrets.main C J P ord fuel f2 [out] path2 v = some (.ok (st, v')))
    (hu1 : u1.fs path = w.fs path) (ha1 : u1.term.answers = some pass :: r1) (hu2 : u2.fs path2 = v'.fs path2) (ha2 : u2.term.answers = some pass :: r2) :
    Model.JournalOutput.mainText C J ord e M g [title] path u1 = line r.secret ∧
    Model.JournalOutput.mainText C J ord e M g [title] path2 u2 = line r.secret := by
  obtain ⟨b, hb, hu⟩ := ho
  have hne : b ≠ [] := by
    rintro rfl
    obtain ⟨data, ⟨salt, nonce, key, hs, -, -, hx⟩, -⟩ := (unmarshal_iff C J _ pass g.mode s).mp hu
    have := congrArg List.length hx
    simp [hs] at this
    omega
  obtain ⟨-, hc, -⟩ := Secrets.C80_roundtrip C J P ord fuel f f2 path out path2 b w w1 v v' st hf hf2 h1 h2 h3 hb hne he hv hw hi
  exact ⟨(JournalOutput.C181_shown C J ord e M g title path pass u1 r1 s h1 hg ha1 ⟨b, hu1.trans hb, hu⟩).1 r hr,
    (JournalOutput.C181_shown C J ord e M g title path2 pass u2 r2 s h3 hg ha2 ⟨b, hu2.trans hc, hu⟩).1 r hr⟩

/-- The entry "b" is written in a journal and shown by secrets. -/
example (e2 : Model.SecretsOutput.Env) (he : ∀ md : Map Bytes, md.Finite → md.Enumerates (e2.metaOrder md)) : ∃ b w',
    Model.Journal.main C J ord Journal.exEnv { write := true } [[98]] [102] (Secrets.exWorld b [some [112, 119]]) = .ok (0, .nothing, w') ∧
    mainText C J ord e2 fuel {} [[98]] [102] (exTwo w'.fs [some [112, 119]]) = ascii "Secret: b\n0\n\n-----\n!\n" := by
  obtain ⟨b, hb⟩ := Secrets.exFile C J 0 (Or.inl rfl)
  have htr : trimSpace [98] = [98] := by decide
  obtain ⟨w', h⟩ := Journal.write_works C J ord (e := Journal.exEnv) (f := { write := true }) (arg := [98]) (path := [102])
    (w := Secrets.exWorld b [some [112, 119]]) (by decide) ⟨rfl, rfl, rfl, rfl⟩ rfl ⟨b, by simp [Secrets.exWorld], hb⟩ rfl
    (by rw [htr]; exact Secrets.exMap_other (by decide) _ _) rfl (Journal.exEdited _) rfl (Otpc.exRng _ _) rfl (Secrets.exClock 2 (by decide))
  obtain ⟨text, h1, h2, -⟩ := C232_written C J Pem.toy ord fuel Journal.exEnv e2 { write := true } [98] [102] [112, 119] [] _ w' (exTwo w'.fs [some [112, 119]]) _ [] []
    (by decide) ⟨rfl, rfl, rfl, rfl⟩ htr (by decide) rfl
    (fun s hs => by
      have := opens_same C J (show Opens C J (Secrets.exWorld b [some [112, 119]]).fs [102] [112, 119] 0 _ from ⟨b, by simp [Secrets.exWorld], hb⟩) hs rfl
      subst this; exact Secrets.exMap_other (by decide) _ _) he h rfl rfl
  have : text = ascii "b\n0\n\n-----\n!" := by
    obtain ⟨seen, hg, hed2⟩ := h1
    obtain ⟨seen', hg', hed'⟩ := Journal.exEdited (ascii "b\n0\n\n-----\n")
    have e0 : ([98] ++ [10] ++ Journal.exEnv.date ((Secrets.exWorld b [some [112, 119]]).term.clock 0) ++ [10, 10, 45, 45, 45, 45, 45, 10] : Bytes) = ascii "b\n0\n\n-----\n" := by
      show ([98] ++ [10] ++ [48] ++ [10, 10, 45, 45, 45, 45, 45, 10] : Bytes) = _
      decide
    rw [e0] at hg
    rw [Proofs.Journal.given_unique hg hg', hed'] at hed2
    simp only [Prod.mk.injEq, Option.some.injEq, and_true] at hed2
    rw [← hed2]
    decide
  subst this
  exact ⟨b, w', h, h2.trans (by unfold line; decide)⟩

/-- The entry "a" is edited in a journal and shown by secrets. -/
example (e2 : Model.SecretsOutput.Env) (he : ∀ md : Map Bytes, md.Finite → md.Enumerates (e2.metaOrder md)) : ∃ b w',
    Model.Journal.main C J ord Journal.exEnv { edit := true } [[97]] [102] (Secrets.exWorld b [some [112, 119]]) = .ok (0, .nothing, w') ∧
    mainText C J ord e2 fuel {} [[97]] [102] (exTwo w'.fs [some [112, 119]]) = line (ascii "Secret: " ++ [1, 2, 3, 33]) := by
  obtain ⟨b, hb⟩ := Secrets.exFile C J 0 (Or.inl rfl)
  have hop : Opens C J (Secrets.exWorld b [some [112, 119]]).fs [102] [112, 119] 0 _ := ⟨b, by simp [Secrets.exWorld], hb⟩
  obtain ⟨w', h⟩ := Journal.edit_works C J ord (e := Journal.exEnv) (f := { edit := true }) (title := [97]) (path := [102])
    (w := Secrets.exWorld b [some [112, 119]]) (by decide) ⟨rfl, rfl⟩ rfl hop rfl
    (exStore_lookup _ _) rfl (Journal.exEdited _) rfl (Otpc.exRng _ _) rfl (Secrets.exClock 0 (by decide))
  obtain ⟨pass, rest, s, r, text, h1, h2, h3, ⟨seen, hg, hed⟩, h4⟩ := C232_edited C J ord fuel Journal.exEnv e2 { edit := true } [97] [102] [] _ w' _ (by decide) ⟨rfl, rfl⟩ he h
  cases h1
  have q := opens_same C J hop h2 rfl
  subst q
  cases (exStore_lookup _ _).symm.trans h3
  obtain ⟨seen', hg', hed'⟩ := Journal.exEdited [1, 2, 3]
  have : text = [1, 2, 3, 33] := by
    rw [Proofs.Journal.given_unique hg hg', hed'] at hed
    simpa using hed.symm
  subst this
  exact ⟨b, w', h, h4 (exTwo w'.fs [some [112, 119]]) [] rfl rfl⟩

/-- The entry "a" is removed with secrets and not shown by journal. -/
example (e : Model.Journal.Env) (M : Model.JournalOutput.Messages) : ∃ b w', Model.Secrets.main C J P ord fuel { remove := true } [[97]] [102]
      (Secrets.exWorld b [some [112, 119]]) = some (.ok (0, w')) ∧
    Model.JournalOutput.mainText C J ord e M {} [[97]] [102] (exTwo w'.fs [some [112, 119]]) = [] := by
  obtain ⟨b, hb⟩ := Secrets.exFile C J 0 (Or.inl rfl)
  obtain ⟨w', out, h, -⟩ := Secrets.exRun C J P ord fuel (f := { remove := true }) (c := .remove) (args := [[97]]) (rest := [])
    (b := b) (t := ⟨[], fun n => 1000 + BitVec.ofNat 64 n⟩) rfl hb rfl (by decide) rfl rfl (Secrets.exClock 0 (by decide)) rfl rfl
  obtain ⟨pass, ha, hx⟩ := C232_removed C J P ord fuel e M { remove := true } {} [97] [102] [] _ w' (by decide) rfl rfl ⟨rfl, rfl, rfl, rfl⟩ rfl h
  simp only [Secrets.exWorld, List.head?_cons, Option.some.injEq] at ha
  subst ha
  exact ⟨b, w', h, (hx (exTwo w'.fs [some [112, 119]]) [] rfl rfl).1⟩

/-- "bank" is stored with secrets and shown by journal. -/
example (e : Model.Journal.Env) (M : Model.JournalOutput.Messages) : ∃ b w', Model.Secrets.main C J P ord fuel { store := true } [ascii "bank"] [102]
      (Secrets.exWorld b [some [112, 119], some [9]]) = some (.ok (0, w')) ∧
    Model.JournalOutput.mainText C J ord e M {} [ascii "bank"] [102] (exTwo w'.fs [some [112, 119]]) = [9, 10] := by
  obtain ⟨b, w', h⟩ := Together.exStored C J P ord fuel (l := ascii "bank") (by decide)
  obtain ⟨pass, pw, rest, ha, hx⟩ := C232_stored C J P ord fuel e M { store := true } {} (ascii "bank") [102] [] _ w' (by decide) rfl rfl (by decide) ⟨rfl, rfl, rfl, rfl⟩ rfl h
  simp only [Secrets.exWorld, List.cons.injEq, Option.some.injEq] at ha
  obtain ⟨rfl, rfl, -⟩ := ha
  exact ⟨b, w', h, hx (exTwo w'.fs [some [112, 119]]) [] rfl rfl⟩

/-- The journal with the entry "a" is exported and imported as another file. -/
example (e : Model.Journal.Env) (M : Model.JournalOutput.Messages) : ∃ b w1 v',
    Model.Secrets.main C J P ord fuel { «export» := true } [[111]] [102] (Secrets.exWorld b []) = some (.ok (0, w1)) ∧
    Model.Secrets.main C J P ord fuel { «import» := true } [[111]] [103] (exTwo w1.fs []) = some (.ok (0, v')) ∧
    Model.JournalOutput.mainText C J ord e M {} [[97]] [103] (exTwo v'.fs [some [112, 119]]) = [1, 2, 3, 10] := by
  obtain ⟨b, hb⟩ := Secrets.exFile C J 0 (Or.inl rfl)
  have hne : b ≠ [] := by
    rintro rfl
    obtain ⟨data, ⟨salt, nonce, key, hs, -, -, hx⟩, -⟩ := (unmarshal_iff C J _ _ _ _).mp hb
    have := congrArg List.length hx
    simp [hs] at this
    omega
  have he : Model.Secrets.main C J P ord fuel { «export» := true } [[111]] [102] (Secrets.exWorld b []) =
      some (.ok (0, { Secrets.exWorld b [] with fs := (Secrets.exWorld b []).fs.set [111] (P.enc Model.Secrets.pemType b) })) := rfl
  have hi : Model.Secrets.main C J P ord fuel { «import» := true } [[111]] [103] (exTwo ((Secrets.exWorld b []).fs.set [111] (P.enc Model.Secrets.pemType b)) []) =
      some (.ok (0, { exTwo ((Secrets.exWorld b []).fs.set [111] (P.enc Model.Secrets.pemType b)) [] with
        fs := ((Secrets.exWorld b []).fs.set [111] (P.enc Model.Secrets.pemType b)).set [103] b })) := by
    unfold Model.Secrets.main
    simp [Model.Secrets.Flags.action, Model.Secrets.importStore, World.readFile, P.dec_enc Model.Secrets.pemType b (by decide) hne, World.writeFile, Go.writeFile, exTwo, dash]
  refine ⟨b, _, _, he, hi, ?_⟩
  exact (C232_moved C J P ord fuel e M { «export» := true } { «import» := true } {} [97] [102] [111] [103] [112, 119] _ _ _ _ (Secrets.exWorld b [some [112, 119]])
    (exTwo (((Secrets.exWorld b []).fs.set [111] (P.enc Model.Secrets.pemType b)).set [103] b) [some [112, 119]]) [] []
    (exStore [1, 2, 3] 7) (exRecord [97] [1, 2, 3] 7) 0 rfl rfl (by decide) (by decide) (by decide) ⟨rfl, rfl, rfl, rfl⟩
    ⟨b, by simp [Secrets.exWorld], hb⟩ (exStore_lookup _ _) he rfl rfl hi rfl rfl rfl rfl).2

/-! ### C233: edits and copies -/

theorem opens_at {fs fs' : Fs} {a b p : Bytes} {mode : Int} {s s' : SecretStore} (h : Opens C J fs a p mode s) (h' : Opens C J fs' b p mode s')
    (e : fs' b = fs a) : s = s' := by
  obtain ⟨x, hx, hu⟩ := h
  obtain ⟨y, hy, hu'⟩ := h'
  rw [e, hx] at hy
  cases hy
  rw [hu] at hu'
  simpa using hu'

/-- An entry written with `journal -w` in one copy is in the other after `secrets -merge`. Missing from the property: entries changed with
`journal -e`, for which it is false. -/
theorem C233_written_partial (e : Model.Journal.Env) (f : Model.Journal.Flags) (f2 : Model.Secrets.Flags) (title a b p : Bytes) (args : List Bytes)
    (w w1 w2 w3 : World) (o : Model.Journal.Output) (r1 r2 : List (Option Bytes))
    (ha : a ≠ dash) (hb : b ≠ dash) (hf : f.init = false ∧ f.edit = false ∧ f.list = false ∧ f.write = true) (htr : trimSpace title = title) (hu : ValidUtf8 title)
    (hf2 : f2.action = .cmd .merge) (hm : f2.mode = f.mode) (hord : ∀ m : Map (Option SecretRecord), m.Finite → m.Enumerates (ord m))
    (hw : w.term.answers = some p :: r1) (hnew : ∀ s, Opens C J w.fs b p f.mode s → s.has title = false)
    (hnn : ∀ s, Opens C J w.fs b p f.mode s → NoNil s)
    (h1 : Model.Journal.main C J ord e f [title] b w = .ok (0, o, w1))
    (hfs : w2.fs b = w1.fs b) (hcopy : w2.fs a = w.fs b) (hw2 : w2.term.answers = some p :: some p :: r2)
    (h2 : Model.Secrets.main C J P ord fuel f2 (b :: args) a w2 = some (.ok (0, w3))) :
    ∃ text s', Edited e (title ++ [10] ++ e.date (w.term.clock 0) ++ [10, 10, 45, 45, 45, 45, 45, 10]) text ∧
      Opens C J w3.fs a p f.mode s' ∧ secretOf s' title = some text := by
  obtain ⟨p1, rest2, s, m, t2, r, out, t, ha2, ho, hms, hout, hfile, -, hcase⟩ := Proofs.Journal.write_exit C J ord hb hf h1
  rw [hw] at ha2
  cases ha2
  have hh := hnew s ho
  have ns := hnn s ho
  rw [htr] at hcase
  rcases hcase with ⟨hc, -⟩ | ⟨text, hed, rfl, ⟨hc, -⟩ | ⟨-, rfl⟩⟩
  · rw [hh] at hc; cases hc
  · rw [hh] at hc; cases hc
  obtain ⟨bs, hbs, hus⟩ := id ho
  obtain ⟨hfin, hutf, -⟩ := opens_fields C J hus
  have hex := saved_exact C J (finite_set hfin hms t2 _ (fun md h => by cases h) t)
    (utf8_set hutf hms (r := ⟨t2, w.term.clock 1, text, none⟩) hu hu (fun md j x h => by cases h) t) hfile
  obtain ⟨p2, q2, r', s2, o2, s', e2, hs2, ho2, hs', hn, -⟩ := Secrets.C95_merge C J P ord fuel f2 (b :: args) a w2 w3 ha hf2 hb hord h2
  simp only [List.headD_cons] at ho2
  rw [hw2] at e2
  simp only [List.cons.injEq, Option.some.injEq] at e2
  obtain ⟨rfl, rfl, -⟩ := e2
  rw [hm] at hs2 ho2 hs'
  have q1 : s = s2 := opens_at C J ho hs2 hcopy
  have q2 := opens_at C J ⟨out, hout, hex⟩ ho2 hfs
  subst q1 q2
  have hno : lookup s t2 = none := by
    cases hl : lookup s t2 with
    | none => rfl
    | some r => rw [Proofs.SecretsOutput.has_of_lookup hl] at hh; cases hh
  have ns2 : NoNil { toFields := { s.toFields with store := some (m.set t2 (some ⟨t2, w.term.clock 1, text, none⟩)), timestamp := t }, passphrase := some p } := by
    intro m2 k h2 hk
    cases h2
    by_cases e : k = t2
    · subst e; rw [Map.set_same] at hk; cases hk
    · rw [Map.set_other _ _ e] at hk
      exact ns m k hms hk
  have hl2 : lookup { toFields := { s.toFields with store := some (m.set t2 (some ⟨t2, w.term.clock 1, text, none⟩)), timestamp := t }, passphrase := some p } t2 =
      some ⟨t2, w.term.clock 1, text, none⟩ := by
    rw [lookup_eq rfl, Map.set_same]; rfl
  have hnk := (hn ns ns2).2 t2
  rw [hno, hl2] at hnk
  refine ⟨text, s', ?_, hs', by rw [secretOf, hnk]; rfl⟩
  have e1 : ascii "-----" = [45, 45, 45, 45, 45] := by decide
  unfold Model.Journal.header at hed
  rw [e1] at hed
  simpa using hed

/-- C233 is false of entries changed with `journal -e`: after the other copy took over what is newer in this one, it still has the text from
before the change. -/
theorem C233_edited_violated (e : Model.Journal.Env) (f : Model.Journal.Flags) (f2 : Model.Secrets.Flags) (title a b p : Bytes) (args : List Bytes)
    (w w1 w2 w3 : World) (o : Model.Journal.Output) (r1 r2 : List (Option Bytes))
    (ha : a ≠ dash) (hb : b ≠ dash) (hf : f.init = false ∧ f.edit = true)
    (hf2 : f2.action = .cmd .merge) (hm : f2.mode = f.mode) (hord : ∀ m : Map (Option SecretRecord), m.Finite → m.Enumerates (ord m))
    (hw : w.term.answers = some p :: r1) (hnn : ∀ s, Opens C J w.fs b p f.mode s → NoNil s)
    (h1 : Model.Journal.main C J ord e f [title] b w = .ok (0, o, w1))
    (hfs : w2.fs b = w1.fs b) (hcopy : w2.fs a = w.fs b) (hw2 : w2.term.answers = some p :: some p :: r2)
    (h2 : Model.Secrets.main C J P ord fuel f2 (b :: args) a w2 = some (.ok (0, w3))) :
    ∃ text s s1 s', Opens C J w.fs b p f.mode s ∧ Opens C J w1.fs b p f.mode s1 ∧ Opens C J w3.fs a p f.mode s' ∧
      secretOf s1 title = some text ∧ (∃ old, secretOf s title = some old ∧ Edited e old text ∧ secretOf s' title = some old) := by
  obtain ⟨p1, rest2, s, r, m, text, out, ha2, ho, hl, hms, hed, hout, hfile⟩ := Proofs.Journal.edit_exit C J ord hb hf.1 hf.2 h1
  rw [hw] at ha2
  cases ha2
  have ns := hnn s ho
  obtain ⟨s1, hs1, g1, -, g3, -⟩ := edit_opens C J ho hl hms hout hfile
  obtain ⟨p2, q2, r', s2, o2, s', e2, hs2, ho2, hs', hn, -⟩ := Secrets.C95_merge C J P ord fuel f2 (b :: args) a w2 w3 ha hf2 hb hord h2
  simp only [List.headD_cons] at ho2
  rw [hw2] at e2
  simp only [List.cons.injEq, Option.some.injEq] at e2
  obtain ⟨rfl, rfl, -⟩ := e2
  rw [hm] at hs2 ho2 hs'
  have q1 : s = s2 := opens_at C J ho hs2 hcopy
  have q2 : s1 = o2 := opens_at C J hs1 ho2 hfs
  subst q1 q2
  have hnk := (hn ns (g3 ns)).2 title
  rw [hl, g1] at hnk
  refine ⟨text, s, s1, s', ho, hs1, hs', by rw [secretOf, g1]; rfl, r.secret, by rw [secretOf, hl]; rfl, hed, ?_⟩
  rw [secretOf, hnk]
  simp [newest]

/-- The entry "b" is written in a journal, and taken over by a copy of it on another machine. -/
example (hord : ∀ m : Map (Option SecretRecord), m.Finite → m.Enumerates (ord m)) : ∃ x w1 w3 s',
    Opens C J (Fs.set (fun _ => none) [102] x) [102] [112, 119] 0 (exStore [1, 2, 3] 7) ∧
    Model.Journal.main C J ord Journal.exEnv { write := true } [[98]] [102] (exTwo (Fs.set (fun _ => none) [102] x) [some [112, 119]]) = .ok (0, .nothing, w1) ∧
    Model.Secrets.main C J P ord fuel { merge := true } [[102]] [103] (exTwo (w1.fs.set [103] x) [some [112, 119], some [112, 119]]) = some (.ok (0, w3)) ∧
    Opens C J w3.fs [103] [112, 119] 0 s' ∧ (secretOf s' [98]).isSome = true := by
  obtain ⟨x, hx⟩ := Secrets.exFile C J 0 (Or.inl rfl)
  have htr : trimSpace [98] = [98] := by decide
  have h1 : Opens C J (Fs.set (fun _ => none) [102] x) [102] [112, 119] 0 (exStore [1, 2, 3] 7) := ⟨x, by simp, hx⟩
  obtain ⟨w1, e1⟩ := Journal.write_works C J ord (e := Journal.exEnv) (f := { write := true }) (arg := [98]) (path := [102])
    (w := exTwo (Fs.set (fun _ => none) [102] x) [some [112, 119]]) (by decide) ⟨rfl, rfl, rfl, rfl⟩ rfl h1 rfl
    (by rw [htr]; exact Secrets.exMap_other (by decide) _ _) rfl (Journal.exEdited _) rfl
    (by show 56 ≤ (List.replicate 200 _).length; rw [List.length_replicate]; decide) rfl (Secrets.exClock 2 (by decide))
  obtain ⟨p1, rest2, s, m, t2, r, out, t, ha2, ho, hms, hout, hfile, -, hcase⟩ := Proofs.Journal.write_exit C J ord (by decide) ⟨rfl, rfl, rfl, rfl⟩ e1
  cases ha2
  have q1 := opens_same C J h1 ho rfl
  subst q1
  rw [htr] at hcase
  have hh : (exStore [1, 2, 3] 7).has [98] = false := Secrets.exMap_other (by decide) _ _
  rcases hcase with ⟨hc, -⟩ | ⟨text, hed, rfl, ⟨hc, -⟩ | ⟨-, rfl⟩⟩
  · rw [hh] at hc; cases hc
  · rw [hh] at hc; cases hc
  have hex := saved_exact C J (finite_set (exStore_finite [1, 2, 3] 7) hms [98] _ (fun md h => by cases h) t)
    (utf8_set (exStore_clean [1, 2, 3] 7) hms (by decide) (show ValidUtf8 [98] by decide) (fun md j x h => by cases h) t) hfile
  have h2 : Opens C J (w1.fs.set [103] x) [103] [112, 119] 0 (exStore [1, 2, 3] 7) := ⟨x, by simp, hx⟩
  have h3 : Opens C J (w1.fs.set [103] x) [102] [112, 119] 0 _ := ⟨out, by rw [Fs.set_other _ _ (by decide)]; exact hout, hex⟩
  obtain ⟨w3, -, -, d1, -⟩ := exMerge C J P ord fuel (by decide) (by decide) hord h2 h3 rfl rfl rfl (exStore_noNil _ _) (by
    intro m2 k h2 hk
    cases h2
    by_cases e : k = [98]
    · subst e; rw [Map.set_same] at hk; cases hk
    · rw [Map.set_other _ _ e] at hk
      exact exStore_noNil [1, 2, 3] 7 m k hms hk)
  obtain ⟨text, s', -, v1, v2⟩ := C233_written_partial C J P ord fuel Journal.exEnv { write := true } { merge := true } [98] [103] [102] [112, 119] []
    _ w1 (exTwo (w1.fs.set [103] x) [some [112, 119], some [112, 119]]) w3 _ [] [] (by decide) (by decide) ⟨rfl, rfl, rfl, rfl⟩ htr (by decide) rfl rfl hord rfl
    (fun s hs => by have := opens_same C J h1 hs rfl; subst this; exact hh)
    (fun s hs => by have := opens_same C J h1 hs rfl; subst this; exact exStore_noNil _ _) e1
    (by show (w1.fs.set [103] x) [102] = _; exact Fs.set_other _ _ (by decide)) (by show (w1.fs.set [103] x) [103] = Fs.set (fun _ => none) [102] x [102]; simp) rfl d1
  exact ⟨x, w1, w3, s', h1, e1, d1, v1, by rw [v2]; rfl⟩

/-- A journal and a copy of it; the entry "a" is changed in the first one, and the second one, on another machine, takes over what is newer. -/
example (hord : ∀ m : Map (Option SecretRecord), m.Finite → m.Enumerates (ord m)) : ∃ x w1 w3 s1 s',
    Opens C J (Fs.set (fun _ => none) [102] x) [102] [112, 119] 0 (exStore [1, 2, 3] 7) ∧
    Model.Journal.main C J ord Journal.exEnv { edit := true } [[97]] [102] (exTwo (Fs.set (fun _ => none) [102] x) [some [112, 119]]) = .ok (0, .nothing, w1) ∧
    Model.Secrets.main C J P ord fuel { merge := true } [[102]] [103] (exTwo (w1.fs.set [103] x) [some [112, 119], some [112, 119]]) = some (.ok (0, w3)) ∧
    Opens C J w1.fs [102] [112, 119] 0 s1 ∧ secretOf s1 [97] = some [1, 2, 3, 33] ∧
    Opens C J w3.fs [103] [112, 119] 0 s' ∧ secretOf s' [97] = some [1, 2, 3] := by
  obtain ⟨x, hx⟩ := Secrets.exFile C J 0 (Or.inl rfl)
  have h1 : Opens C J (Fs.set (fun _ => none) [102] x) [102] [112, 119] 0 (exStore [1, 2, 3] 7) :=
    ⟨x, by simp, hx⟩
  obtain ⟨w1, e1⟩ := Journal.edit_works C J ord (e := Journal.exEnv) (f := { edit := true }) (title := [97]) (path := [102])
    (w := exTwo (Fs.set (fun _ => none) [102] x) [some [112, 119]]) (by decide) ⟨rfl, rfl⟩ rfl h1 rfl (exStore_lookup _ _) rfl
    (Journal.exEdited _) rfl (by show 56 ≤ (List.replicate 200 _).length; rw [List.length_replicate]; decide) rfl (Secrets.exClock 0 (by decide))
  obtain ⟨p1, rest2, s, r, m, text, out, ha2, ho, hl, hms, hed, hout, hfile⟩ := Proofs.Journal.edit_exit C J ord (by decide) rfl rfl e1
  cases ha2
  have q1 := opens_same C J h1 ho rfl
  subst q1
  obtain ⟨s1, hs1, -, -, g3, g4⟩ := edit_opens C J ho hl hms hout hfile
  have h2 : Opens C J (w1.fs.set [103] x) [103] [112, 119] 0 (exStore [1, 2, 3] 7) := ⟨x, by simp, hx⟩
  have h3 : Opens C J (w1.fs.set [103] x) [102] [112, 119] 0 s1 := by
    obtain ⟨y, hy, hu⟩ := hs1
    exact ⟨y, by rw [Fs.set_other _ _ (by decide)]; exact hy, hu⟩
  obtain ⟨ms, hms1⟩ := Option.ne_none_iff_exists'.mp g4
  obtain ⟨w3, -, -, d1, -⟩ := exMerge C J P ord fuel (by decide) (by decide) hord h2 h3 rfl rfl hms1 (exStore_noNil _ _) (g3 (exStore_noNil _ _))
  obtain ⟨text', s0, s1', s', v1, v2, v3, v4, old, v5, v6, v7⟩ := C233_edited_violated C J P ord fuel Journal.exEnv { edit := true } { merge := true } [97] [103] [102] [112, 119] []
    _ w1 (exTwo (w1.fs.set [103] x) [some [112, 119], some [112, 119]]) w3 _ [] [] (by decide) (by decide) ⟨rfl, rfl⟩ rfl rfl hord rfl
    (fun s hs => by have := opens_same C J h1 hs rfl; subst this; exact exStore_noNil _ _) e1
    (by show (w1.fs.set [103] x) [102] = _; exact Fs.set_other _ _ (by decide)) (by show (w1.fs.set [103] x) [103] = Fs.set (fun _ => none) [102] x [102]; simp) rfl d1
  have q0 := opens_same C J h1 v1 rfl
  subst q0
  cases v5
  have : text' = [1, 2, 3, 33] := by
    obtain ⟨seen, hg, hed2⟩ := v6
    obtain ⟨seen', hg', hed'⟩ := Journal.exEdited [1, 2, 3]
    rw [Proofs.Journal.given_unique hg hg', hed'] at hed2
    simpa using hed2.symm
  subst this
  exact ⟨x, w1, w3, s1', s', h1, e1, d1, v2, v4, v3, v7⟩

end Verif.Props.TogetherStores
