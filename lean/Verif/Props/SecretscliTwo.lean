import Verif.Props.SecretscliMore
import Verif.Proofs.SecretscliTwo
/-! Property C155: two sessions of secretscli that work on the same file (cmd/secretscli). -/

namespace Verif.Props.SecretscliTwo
open Verif Verif.Go Verif.Model.SecretStore Verif.Model.Secretscli
open Verif.Model.Secrets (World dash)
open Verif.Spec.SecretStore Verif.Spec.Secrets Verif.Spec.Secretscli
open Verif.Proofs.Secrets hiding fmode
open Verif.Proofs.SecretStore Verif.Proofs.Secretscli Verif.Props.SecretStore Verif.Props.Secretscli
open Verif.Props.Secrets (exWorld exFile exMap_other exClock)

variable (C : Crypto) (J : Json)

theorem start_file {w : World} {writes : Nat → WriteOutcome} {path : Path} {mode : Int} {st : St} (h : start C J w writes path mode = .ok (some st)) :
    st.sess.path = path ∧ st.w.fs = w.fs := by
  unfold start at h
  generalize w.term.read = x at h
  obtain ⟨pass, t⟩ := x
  dsimp only at h
  cases pass with
  | none => cases h
  | some pass =>
    dsimp only at h
    cases hd : w.fs path with
    | none => rw [hd] at h; cases h
    | some data =>
      rw [hd] at h
      dsimp only at h
      cases hu : unmarshalSecretStore C J data pass mode with
      | panic => rw [hu] at h; cases h
      | ok r =>
        rw [hu] at h
        cases r with
        | none => cases h
        | some s => cases h; exact ⟨rfl, rfl⟩

/-- Two sessions are begun on the same file, and then the two processes go on in any order, with any
input and at any time. The file is then exactly as one of the two would have left it, had the other
never been there; no other file has changed; and what each of them does, but for that file, is what
it would have done alone. -/
theorem C155_partial {e : Env} {wa wb : World} {outA outB : Nat → WriteOutcome} {path : Path} {modeA modeB : Int} {a b : St}
    {evs : List (Event ⊕ Event)} {t : Two} (hsa : start C J wa outA path modeA = .ok (some a)) (hsb : start C J wb outB path modeB = .ok (some b))
    (hfs : wa.fs = wb.fs) (hr : Two.Run C J e ⟨Sys.init a, Sys.init b⟩ evs t) :
    ∃ a' b', Run C J e (Sys.init a) (lefts evs) a' ∧ Run C J e (Sys.init b) (rights evs) b' ∧
      t.a = a'.sees t.a.st.w.fs ∧ t.b = b'.sees t.b.st.w.fs ∧ t.a.st.w.fs = t.b.st.w.fs ∧
      (t.a.st.w.fs path = a'.st.w.fs path ∨ t.a.st.w.fs path = b'.st.w.fs path) ∧
      ∀ q, q ≠ path → t.a.st.w.fs q = wa.fs q := by
  obtain ⟨pa, fa⟩ := start_file C J hsa
  obtain ⟨pb, fb⟩ := start_file C J hsb
  have h0 : Apart path wa.fs ⟨Sys.init a, Sys.init b⟩ (Sys.init a) (Sys.init b) := by
    refine ⟨rfl, ?_, pa, pb, .inl rfl, fun q _ => congrFun fa q⟩
    show Sys.init b = (Sys.init b).sees a.w.fs
    rw [fa, hfs, ← fb]
    rfl
  obtain ⟨a', b', r1, r2, h⟩ := apart_run C J hr h0
  have hb : t.b.st.w.fs = t.a.st.w.fs := by rw [h.right]; rfl
  exact ⟨a', b', r1, r2, h.left, by rw [hb]; exact h.right, hb.symm, h.file, h.rest⟩

/-- A session on the example file in which a secret is stored under a new label. -/
theorem exSession (e : Env) (b : Bytes) (mode : Int) (hm : mode = 0 ∨ mode = 1) {line l pw : Bytes} (hf : fields line = [ascii "store", l])
    (hl : l ≠ [97]) (hu : ValidUtf8 l) (hp : pw ≠ []) : ∃ evs s s', Run C J e (Sys.init (exSt b mode [some line, some pw, some (ascii "quit")])) evs s ∧
      .timeout ∉ evs ∧ s.main = .exited ∧ Opens C J s.st.w.fs [102] (ascii "pw") mode s' ∧
      ∀ k, secretOf s' k = if k = l then some pw else if k = [97] then some [1, 2, 3] else none := by
  obtain ⟨b1, t1, s1, w1, ws1⟩ := turns_store C J (e := e) (st := exSt b mode [some line, some pw, some (ascii "quit")]) (.nil _)
    (as := [some (ascii "quit")]) (m := Map.empty.set [97] (some (exRecord [97] [1, 2, 3] 7))) rfl hf rfl (by rw [Map.set_other _ _ hl]; rfl) hp
  have hg : Sound (exStore [1, 2, 3] 7) := sound_of_good exGood
  have hr : 56 ≤ (exSt b mode [some line, some pw, some (ascii "quit")]).w.rng.length := by
    show 56 ≤ (List.replicate 200 _).length
    rw [List.length_replicate]
    decide
  obtain ⟨evs, s, out, r1, r2, r3, -, -, r4⟩ := quit_saves C J t1 (z := [112, 119]) (as := []) (by rw [w1]) (by rw [s1]; exact (show ([102] : Bytes) ≠ dash by decide))
    (by rw [s1]; exact hm) (by rw [s1]) (by rw [s1]; exact sound_set hg rfl l _ (show (1000 + BitVec.ofNat 64 0 : BitVec 64) ≠ 0 by decide)) (by rw [s1]; rfl)
    (by rw [s1]; exact finite_set (exStore_finite [1, 2, 3] 7) rfl l _ (fun md (h : none = some md) => nomatch h) _)
    (by rw [s1]; exact utf8_set (exStore_clean [1, 2, 3] 7) rfl hu (show ValidUtf8 [] by decide) (fun md _ _ (h : none = some md) => nomatch h) _)
    (by rw [ws1]; rfl) (by rw [w1]; exact hr)
  rw [s1] at r4
  have hpw : ascii "pw" = [112, 119] := by decide
  rw [hpw]
  refine ⟨evs, s, _, r1, r2, r3, r4, fun k => ?_⟩
  simp only [secretOf, lookup]
  by_cases hk : k = l
  · simp [hk]
  · by_cases hk2 : k = [97]
    · subst hk2
      rw [Map.set_other _ _ hk, Map.set_same, if_neg hk, if_pos rfl]
      rfl
    · rw [Map.set_other _ _ hk, Map.set_other _ _ hk2, if_neg hk, if_neg hk2]
      rfl

/-- A file with one secret is opened in two sessions. In the first "b" is stored, it is ended with
quit, and nothing goes wrong; then "c" is stored in the other, which is ended with quit as well. The
file can then be opened with the passphrase, and "b" is not in it. -/
theorem C155_violated (e : Env) (mode : Int) (hm : mode = 0 ∨ mode = 1) : ∃ x a b, ∃ evsA evsB : List Event, ∃ t s,
    start C J (exWorld x [some (ascii "pw"), some (ascii "store b"), some [120], some (ascii "quit")]) (fun _ => .done) [102] mode = .ok (some a) ∧
    start C J (exWorld x [some (ascii "pw"), some (ascii "store c"), some [121], some (ascii "quit")]) (fun _ => .done) [102] mode = .ok (some b) ∧
    Two.Run C J e ⟨Sys.init a, Sys.init b⟩ (evsA.map .inl ++ evsB.map .inr) t ∧ .timeout ∉ evsA ∧ .timeout ∉ evsB ∧
    t.a.main = .exited ∧ t.b.main = .exited ∧
    Opens C J t.a.st.w.fs [102] (ascii "pw") mode s ∧ secretOf s [97] = some [1, 2, 3] ∧ secretOf s [98] = none ∧ secretOf s [99] = some [121] := by
  obtain ⟨x, hx⟩ := exFile C J mode hm
  have hpw : ascii "pw" = [112, 119] := by decide
  obtain ⟨evsA, a', sA, ra, na, ea, -⟩ := exSession C J e x mode hm (line := ascii "store b") (l := [98]) (pw := [120]) (by decide) (by decide) (by decide) (by decide)
  obtain ⟨evsB, b', sB, rb, nb, eb, ob, kb⟩ := exSession C J e x mode hm (line := ascii "store c") (l := [99]) (pw := [121]) (by decide) (by decide) (by decide) (by decide)
  obtain ⟨f, pf, hf, hrun⟩ := run_blind C J rb
  have h1 := run_left C J ra (Sys.init (exSt x mode [some (ascii "store c"), some [121], some (ascii "quit")]))
  have h2 := run_right C J (hrun a'.st.w.fs) a'
  have h3 := two_append C J h1 h2
  have ho : Opens C J (f a'.st.w.fs) [102] (ascii "pw") mode sB := by
    have pf : Puts [102] f := pf
    rcases pf with pf | pf
    · obtain ⟨y, hy, hu⟩ := ob
      rw [hf, pf] at hy
      have hxy : some x = some y := by rw [← hy]; simp [Sys.init, exSt, exWorld]
      cases hxy
      rw [hpw, hx] at hu
      cases hu
      exact absurd (kb [99]) (by decide)
    · obtain ⟨y, hy, hu⟩ := ob
      exact ⟨y, by rw [← hy, hf]; exact pf _ _, hu⟩
  rw [hpw]
  rw [hpw] at ho
  exact ⟨x, _, _, evsA, evsB, _, sB, exStart C J hx _ _, exStart C J hx _ _, h3, na, nb, ea, eb, ho, by rw [kb]; rfl, by rw [kb]; rfl, by rw [kb]; rfl⟩

/-- `C155_partial` applies to those sessions. -/
example (e : Env) : ∃ x a b evs t a' b',
    start C J (exWorld x [some (ascii "pw"), some (ascii "store b"), some [120], some (ascii "quit")]) (fun _ => .done) [102] 0 = .ok (some a) ∧
    start C J (exWorld x [some (ascii "pw"), some (ascii "store c"), some [121], some (ascii "quit")]) (fun _ => .done) [102] 0 = .ok (some b) ∧
    Two.Run C J e ⟨Sys.init a, Sys.init b⟩ evs t ∧ t.a.main = .exited ∧ t.b.main = .exited ∧
    Run C J e (Sys.init a) (lefts evs) a' ∧ Run C J e (Sys.init b) (rights evs) b' ∧
    (t.a.st.w.fs [102] = a'.st.w.fs [102] ∨ t.a.st.w.fs [102] = b'.st.w.fs [102]) := by
  obtain ⟨x, a, b, evsA, evsB, t, s, h1, h2, h3, -, -, h4, h5, -⟩ := C155_violated C J e 0 (Or.inl rfl)
  obtain ⟨a', b', r1, r2, -, -, -, h6, -⟩ := C155_partial C J h1 h2 (by simp only [exWorld]) h3
  exact ⟨x, a, b, _, t, a', b', h1, h2, h3, h4, h5, r1, r2, h6⟩

end Verif.Props.SecretscliTwo
