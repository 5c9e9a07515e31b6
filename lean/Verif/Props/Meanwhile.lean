import Verif.Proofs.Meanwhile
import Verif.Spec.Meanwhile
import Verif.Props.TogetherTokens
import Verif.Props.JournalEntries
/-! C237 and C238: programs that use one store at the same time. -/

namespace Verif.Props.Meanwhile
open Verif Verif.Go Verif.Model.Util Verif.Model.SecretStore Verif.Model.Meanwhile
open Verif.Model.Secrets (World loadStore dash)
open Verif.Model.Journal (put)
open Verif.Spec.SecretStore Verif.Spec.Secrets Verif.Spec.Meanwhile
open Verif.Proofs.Meanwhile Verif.Proofs.Secrets
open Verif.Props.SecretStore
open Verif.Props.Secrets (exWorld exFile exRun exClock exMap_other)
open Verif.Props.Together (opens_same exTwo)
open Verif.Props.TogetherStores (opens_at)

variable (C : Crypto) (J : Json) (P : Pem) (ord : Map (Option SecretRecord) → List Bytes) (fuel : Nat)

theorem opens_put {fs : Fs} {path pass : Bytes} {mode : Int} {s : SecretStore} {w : World}
    (h : Opens C J (put fs path (w.fs path)) path pass mode s) : Opens C J w.fs path pass mode s := by
  obtain ⟨b, hb, hu⟩ := h
  exact ⟨b, by rw [← hb, put_same], hu⟩

theorem spared_put {path : Path} {before after fs : Fs} (h : Spared path before after fs) : fs = put after path (before path) := by
  funext q
  by_cases hq : q = path
  · subst hq; rw [put_same, h.1]
  · rw [put_other _ _ hq, h.2 q hq]

/-- The two worlds that are compared: the same but for the file of the store. -/
theorem worlds {w w1 : World} {path : Path} {other : Fs → Fs} {fs : Fs} {t : Term} (hw1 : w1 = { w with term := t }) (h : Spared path w.fs (other w.fs) fs) :
    change other w1 = hide path (other w.fs path) { w1 with fs := fs } ∧ ({ w1 with fs := fs } : World) = hide path (w.fs path) (change other w1) := by
  have := spared_put h
  subst hw1 this
  unfold change hide
  dsimp only
  rw [put_put, put_self]
  exact ⟨rfl, rfl⟩

/-! ### secrets -/

theorem secrets_main {c : Model.Secrets.Cmd} {f : Model.Secrets.Flags} {args : List Bytes} {path : Path} {w w1 : World} {s : SecretStore}
    (hf : f.action = .cmd c) (ha : c.requiredArgc ≤ args.length) (hl : loadStore C J w path f.mode = .ok (some s, w1)) :
    Model.Secrets.main C J P ord fuel f args path w = secretsRest C J ord fuel c { args := args, clip := f.clip, overwrite := f.overwrite, withMeta := f.withMeta } f.mode path s w1 := by
  unfold Model.Secrets.main
  rw [hf]
  dsimp only
  unfold Model.Secrets.runCmd secretsRest
  rw [if_neg (by dsimp only; omega), hl]
  dsimp only
  cases Model.Secrets.Cmd.run C J ord fuel c w1 s { args := args, clip := f.clip, overwrite := f.overwrite, withMeta := f.withMeta } f.mode with
  | none => rfl
  | some r =>
    cases r with
    | panic => rfl
    | ok r =>
      obtain ⟨b, ps, w2⟩ := r
      cases b <;> rfl

theorem secrets_cases {other : Fs → Fs} {c : Model.Secrets.Cmd} {f : Model.Secrets.Flags} {args : List Bytes} {path : Path} {w : World}
    (hf : f.action = .cmd c) (ha : c.requiredArgc ≤ args.length) {fs : Fs} (hfs : fs path = w.fs path) :
    (∃ s t, secrets C J ord fuel other c f args path w = secretsRest C J ord fuel c { args := args, clip := f.clip, overwrite := f.overwrite, withMeta := f.withMeta } f.mode path s (change other { w with term := t }) ∧
      Model.Secrets.main C J P ord fuel f args path { w with fs := fs } = secretsRest C J ord fuel c { args := args, clip := f.clip, overwrite := f.overwrite, withMeta := f.withMeta } f.mode path s { w with term := t, fs := fs }) ∨
    (∃ t, secrets C J ord fuel other c f args path w = some (.ok (1, change other { w with term := t })) ∧
      Model.Secrets.main C J P ord fuel f args path { w with fs := fs } = some (.ok (1, { w with term := t, fs := fs }))) ∨
    (secrets C J ord fuel other c f args path w = some .panic ∧ Model.Secrets.main C J P ord fuel f args path { w with fs := fs } = some .panic) := by
  have hlt : ¬ args.length < c.requiredArgc := by omega
  have hfr := load_frame C J (w := w) (mode := f.mode) hfs
  cases hl : loadStore C J w path f.mode with
  | panic =>
    rw [hl] at hfr
    right; right
    unfold secrets Model.Secrets.main
    rw [if_neg hlt, hl, hf]
    dsimp only
    unfold Model.Secrets.runCmd
    rw [if_neg hlt, hfr]
    exact ⟨rfl, rfl⟩
  | ok r =>
    obtain ⟨o, w1⟩ := r
    obtain ⟨t, rfl⟩ := loadStore_world C J hl
    rw [hl] at hfr
    cases o with
    | none =>
      right; left
      refine ⟨t, ?_, ?_⟩
      · unfold secrets
        rw [if_neg hlt, hl]
      · unfold Model.Secrets.main
        rw [hf]
        dsimp only
        unfold Model.Secrets.runCmd
        rw [if_neg hlt, hfr]
        rfl
    | some s =>
      left
      refine ⟨s, t, ?_, ?_⟩
      · unfold secrets
        rw [if_neg hlt, hl]
      · exact secrets_main C J P ord fuel hf ha hfr

/-- A run of `secrets` that changes the store does not notice what others do to the store while it runs: it ends with status 0 if and only if it would
have if the store had not been touched, and with the same files. -/
theorem C237_secrets_unnoticed (other : Fs → Fs) (c : Model.Secrets.Cmd) (f : Model.Secrets.Flags) (args : List Bytes) (path : Path) (w w' : World)
    (hd : path ≠ dash) (hf : f.action = .cmd c) (hc : c.shouldWrite = true) (ha : c.requiredArgc ≤ args.length)
    (hm : c = .merge → args.headD [] ≠ path) (fs : Fs) (hfs : Spared path w.fs (other w.fs) fs) :
    secrets C J ord fuel other c f args path w = some (.ok (0, w')) ↔
    Model.Secrets.main C J P ord fuel f args path { w with fs := fs } = some (.ok (0, w')) := by
  rcases secrets_cases C J P ord fuel (other := other) hf ha hfs.1 with ⟨s, t, e1, e2⟩ | ⟨t, e1, e2⟩ | ⟨e1, e2⟩
  · rw [e1, e2]
    obtain ⟨q1, q2⟩ := worlds (w := w) (t := t) rfl hfs
    constructor
    · intro h
      rw [q1] at h
      rcases secrets_frame C J hd hm h with ⟨-, q⟩ | ⟨w0, -, -, q⟩ | ⟨q, -⟩
      · exact q
      · exact absurd (q rfl) (by rw [hc]; simp)
      · cases q
    · intro h
      rw [show ({ w with term := t, fs := fs } : World) = hide path (w.fs path) (change other { w with term := t }) from q2] at h
      rcases secrets_frame C J hd hm h with ⟨-, q⟩ | ⟨w0, -, -, q⟩ | ⟨q, -⟩
      · exact q
      · exact absurd (q rfl) (by rw [hc]; simp)
      · cases q
  · rw [e1, e2]
    constructor <;> (intro h; cases h)
  · rw [e1, e2]

/-- What others do meanwhile stays if the run fails, or is one that only reads. -/
theorem C237_secrets_kept_partial (other : Fs → Fs) (c : Model.Secrets.Cmd) (f : Model.Secrets.Flags) (args : List Bytes) (path : Path) (w w' : World)
    (n : Nat) (ha : c.requiredArgc ≤ args.length) (hw : ∀ k, w.write ≠ .failsAfter k)
    (h : secrets C J ord fuel other c f args path w = some (.ok (n, w'))) (hn : n ≠ 0 ∨ c.shouldWrite = false) : w'.fs = other w.fs := by
  unfold secrets at h
  rw [if_neg (by omega)] at h
  cases hl : loadStore C J w path f.mode with
  | panic => rw [hl] at h; cases h
  | ok r =>
    obtain ⟨o, w1⟩ := r
    obtain ⟨t, rfl⟩ := loadStore_world C J hl
    rw [hl] at h
    cases o with
    | none => cases h; rfl
    | some s =>
      simp only at h
      unfold secretsRest at h
      split at h
      · cases h
      · cases h
      · rename_i hr
        cases h
        obtain ⟨t2, rfl⟩ := run_world C J hr
        rfl
      · rename_i ps w2 hr
        obtain ⟨t2, rfl⟩ := run_world C J hr
        split at h
        · rename_i hc
          have hn' : n ≠ 0 := hn.resolve_right (by rw [hc]; simp)
          simp only [Option.some.injEq] at h
          obtain ⟨⟨w3, ok⟩, q1, q2⟩ := Res.bind_eq_ok.mp h
          cases ok with
          | true => cases q2; exact absurd rfl hn'
          | false =>
            cases q2
            exact writeStore_failed C J q1 hw
        · cases h; rfl

/-- A run that fails, since the label is taken, while another program replaces the file. -/
example : ∃ b w', secrets C J ord fuel (fun fs => fs.set [102] [1]) .store { store := true } [[97]] [102] (exWorld b [some [112, 119], some [1]]) =
    some (.ok (1, w')) ∧ w'.fs [102] = some [1] := by
  obtain ⟨b, hb⟩ := exFile C J 0 (Or.inl rfl)
  have hh : (exStore [1, 2, 3] 7).has [97] = true := rfl
  refine ⟨b, _, by
    unfold secrets secretsRest
    simp [Model.Secrets.Flags.mode, Model.Secrets.Cmd.requiredArgc, loadStore, Term.read, exWorld, World.exist, World.readFile, hb, Model.Secrets.Cmd.run,
      Model.Secrets.addSecret, Model.Secrets.addPlain, hh, change, Model.Secrets.dash]
    rfl, ?_⟩
  simp [Fs.set_same]

/-- A run of `secrets` during which the store stays as it is does what it does after the others. -/
theorem C237_secrets_apart_partial (other : Fs → Fs) (c : Model.Secrets.Cmd) (f : Model.Secrets.Flags) (args : List Bytes) (path : Path) (w : World)
    (hf : f.action = .cmd c) (ha : c.requiredArgc ≤ args.length) (ho : other w.fs path = w.fs path) :
    secrets C J ord fuel other c f args path w = Model.Secrets.main C J P ord fuel f args path { w with fs := other w.fs } := by
  rcases secrets_cases C J P ord fuel (other := other) hf ha ho with ⟨s, t, e1, e2⟩ | ⟨t, e1, e2⟩ | ⟨e1, e2⟩
  · rw [e1, e2]; rfl
  · rw [e1, e2]; rfl
  · rw [e1, e2]


/-- A run of `secrets -l` while another file is written. -/
example (b : Bytes) : (fun fs => Fs.set fs [103] [1]) (exWorld b []).fs [102] = (exWorld b []).fs [102] :=
  Fs.set_other _ _ (by decide)

/-- Whatever others have saved under other labels meanwhile, after `secrets -s label` the store has under them what it had when the run began. -/
theorem C237_secrets_lost (other : Fs → Fs) (f : Model.Secrets.Flags) (l : Bytes) (args : List Bytes) (path : Path) (w w' : World)
    (hd : path ≠ dash) (hf : f.action = .cmd .store) (hm : f.withMeta = false) (hl : ValidUtf8 l)
    (h : secrets C J ord fuel other .store f (l :: args) path w = some (.ok (0, w'))) :
    ∃ pass pw rest s s' r, w.term.answers = some pass :: some pw :: rest ∧ Opens C J w.fs path pass f.mode s ∧ Opens C J w'.fs path pass f.mode s' ∧
      lookup s' l = some r ∧ r.secret = pw ∧ ∀ k, k ≠ l → lookup s' k = lookup s k := by
  have hs : Spared path w.fs (other w.fs) (put (other w.fs) path (w.fs path)) := ⟨put_same _ _ _, fun q hq => put_other _ _ hq⟩
  have h2 := (C237_secrets_unnoticed C J Pem.toy ord fuel other .store f (l :: args) path w w' hd hf rfl (by simp [Model.Secrets.Cmd.requiredArgc])
    (fun h => by cases h) _ hs).mp h
  obtain ⟨pass, pw, rest, s, s', r', q1, -, q2, q3, -, q4, q5, q6, -⟩ := Secrets.C95_store C J Pem.toy ord fuel f (l :: args) path _ w' hd hf hm hl h2
  exact ⟨pass, pw, rest, s, s', r', q1, opens_put C J q2, q3, q5, q6, q4⟩

theorem change_self {path : Path} {fs fs' : Fs} (h : ∀ q, q ≠ path → fs' q = fs q) : Spared path fs fs' fs := ⟨rfl, fun q hq => (h q hq).symm⟩

/-- A run of `secrets -s` of a new label on a file with one entry. -/
theorem exStoring {b l x : Bytes} (hb : unmarshalSecretStore C J b [112, 119] 0 = .ok (some (exStore [1, 2, 3] 7))) (hl : l ≠ [97]) (hx : x ≠ []) :
    ∃ w' out, Model.Secrets.main C J P ord fuel { store := true } [l] [102] (exWorld b [some [112, 119], some x]) = some (.ok (0, w')) ∧
      w'.fs = (exWorld b []).fs.set [102] out := by
  have hh : (exStore [1, 2, 3] 7).has l = false := exMap_other hl _ _
  obtain ⟨w', _, h, -⟩ := exRun C J P ord fuel (f := { store := true }) (c := .store) (args := [l]) (rest := [some x])
    (b := b) (t := ⟨[], fun n => 1000 + BitVec.ofNat 64 (n + 1)⟩) rfl hb rfl (by simp [Model.Secrets.Cmd.requiredArgc])
    (by
      simp only [Model.Secrets.Cmd.run, Model.Secrets.addSecret, Model.Secrets.addPlain, List.headD_cons, hh, Bool.false_eq_true, if_false,
        Bool.false_and, Term.read, exWorld, List.length_eq_zero_iff, hx]
      rfl) rfl (exClock 1 (by decide)) rfl rfl
  obtain ⟨-, _, _, _, _, _, -, -, -, -, q⟩ := runCmd_zero C J (by decide) (show Model.Secrets.runCmd C J ord fuel .store _ _ [102] _ = _ from h)
  obtain ⟨_, out, -, -, -, -, -, q⟩ := q rfl
  exact ⟨w', out, h, q⟩

/-- C237 is false: two runs of `secrets -s` with different labels both end with status 0, the second beginning and ending while the first is asking for the
password; what the second has saved, and what could be read from the store after it, is gone after the first. -/
theorem C237_secrets_violated : ∃ (w1 w2 w1' w2' : World) (s2 s1 : SecretStore) (r : SecretRecord),
    w1.fs = w2.fs ∧ Model.Secrets.main C J P ord fuel { store := true } [[99]] [102] w2 = some (.ok (0, w2')) ∧
    secrets C J ord fuel (fun _ => w2'.fs) .store { store := true } [[98]] [102] w1 = some (.ok (0, w1')) ∧
    Opens C J w2'.fs [102] [112, 119] 0 s2 ∧ lookup s2 [99] = some r ∧ r.secret = [8] ∧
    Opens C J w1'.fs [102] [112, 119] 0 s1 ∧ lookup s1 [99] = none := by
  obtain ⟨b, hb⟩ := exFile C J 0 (Or.inl rfl)
  obtain ⟨w1', out1, a1, a2⟩ := exStoring C J P ord fuel (l := [98]) (x := [9]) hb (by decide) (by decide)
  obtain ⟨w2', out2, b1, b2⟩ := exStoring C J P ord fuel (l := [99]) (x := [8]) hb (by decide) (by decide)
  have hrun : secrets C J ord fuel (fun _ => w2'.fs) .store { store := true } [[98]] [102] (exWorld b [some [112, 119], some [9]]) = some (.ok (0, w1')) := by
    refine (C237_secrets_unnoticed C J P ord fuel _ .store { store := true } [[98]] [102] _ w1' (by decide) rfl rfl (by decide) (fun h => by cases h)
      (exWorld b []).fs ?_).mpr a1
    refine change_self fun q hq => ?_
    show w2'.fs q = _
    rw [b2, Fs.set_other _ _ hq]
    rfl
  obtain ⟨pass, pw, rest, s, s2, r, q1, -, -, q2, -, -, q3, q4, -⟩ := Secrets.C95_store C J P ord fuel { store := true } [[99]] [102] _ w2' (by decide) rfl rfl (by decide) b1
  cases q1
  obtain ⟨pass, pw, rest, s, s1, r1, p1, p2, p3, -, -, p6⟩ := C237_secrets_lost C J ord fuel _ { store := true } [98] [] [102] _ w1' (by decide) rfl rfl (by decide) hrun
  cases p1
  have he : exStore [1, 2, 3] 7 = s := opens_at C J (fs := (exWorld b []).fs) (a := [102]) ⟨b, by simp [exWorld], hb⟩ p2 rfl
  subst he
  refine ⟨exWorld b [some [112, 119], some [9]], exWorld b [some [112, 119], some [8]], w1', w2', s2, s1, r, rfl, b1, hrun, q2, q3, q4, p3, ?_⟩
  rw [p6 _ (by decide), Proofs.SecretStore.lookup_eq (m := _) rfl]
  rfl

/-! ### otpc -/

section otpc
open Verif.Model.Otpc
variable (T : TwoFactor) (U : Case)

theorem otpc_cases {other : Fs → Fs} {f : Flags} {args : List Bytes} {path : Path} {w : World} (hi : f.init = false)
    (ha : (if f.store then 1 else if f.qr then 2 else 1) ≤ args.length) {fs : Fs} (hfs : fs path = w.fs path) :
    (∃ s t, otpc C J T U other f args path w = otpcRest C J T U f args path s (change other { w with term := t }) ∧
      Model.Otpc.main C J T U f args path { w with fs := fs } = otpcRest C J T U f args path s { w with term := t, fs := fs }) ∨
    (∃ t, otpc C J T U other f args path w = .ok (.exit 1 [], change other { w with term := t }) ∧
      Model.Otpc.main C J T U f args path { w with fs := fs } = .ok (.exit 1 [], { w with term := t, fs := fs })) ∨
    (otpc C J T U other f args path w = .panic ∧ Model.Otpc.main C J T U f args path { w with fs := fs } = .panic) := by
  have hlt : ¬ args.length < (if f.store then 1 else if f.qr then 2 else 1) := by omega
  have hfr := load_frame C J (w := w) (mode := f.mode) hfs
  unfold otpc Model.Otpc.main
  rw [hi, if_neg hlt, if_neg (by simp), if_neg hlt]
  cases hl : loadStore C J w path f.mode with
  | panic =>
    rw [hl] at hfr
    right; right
    rw [hfr]
    exact ⟨rfl, rfl⟩
  | ok r =>
    obtain ⟨o, w1⟩ := r
    obtain ⟨t, rfl⟩ := loadStore_world C J hl
    rw [hl] at hfr
    rw [hfr]
    cases o with
    | none => exact Or.inr (Or.inl ⟨t, rfl, rfl⟩)
    | some s => exact Or.inl ⟨s, t, rfl, rfl⟩

/-- The same of otpc, for `otpc -s` and for displaying a code: the run ends with status 0, with the same codes and the same files, if and only if it would
have if the store had not been touched. -/
theorem C237_otpc_unnoticed (other : Fs → Fs) (f : Flags) (args : List Bytes) (path : Path) (w w' : World) (codes : List Bytes) (hd : path ≠ dash)
    (hi : f.init = false) (hq : f.store = true ∨ f.qr = false) (ha : args ≠ []) (fs : Fs) (hfs : Spared path w.fs (other w.fs) fs) :
    otpc C J T U other f args path w = .ok (.exit 0 codes, w') ↔
    Model.Otpc.main C J T U f args path { w with fs := fs } = .ok (.exit 0 codes, w') := by
  have hlen : (if f.store then 1 else if f.qr then 2 else 1) ≤ args.length := by
    have := List.length_pos_of_ne_nil ha
    rcases hq with hq | hq
    · rw [if_pos hq]; omega
    · rw [hq]; simp; omega
  rcases otpc_cases C J T U (other := other) hi hlen hfs.1 with ⟨s, t, e1, e2⟩ | ⟨t, e1, e2⟩ | ⟨e1, e2⟩
  · rw [e1, e2]
    obtain ⟨q1, q2⟩ := worlds (w := w) (t := t) rfl hfs
    constructor
    · intro h
      rw [q1] at h
      rcases otpc_frame C J T U hd hq h with ⟨_, -, -, q⟩ | ⟨w0, -, -, q⟩ | ⟨⟨_, q⟩, -⟩
      · exact q
      · exact absurd rfl (q codes)
      · cases q
    · intro h
      rw [show ({ w with term := t, fs := fs } : World) = hide path (w.fs path) (change other { w with term := t }) from q2] at h
      rcases otpc_frame C J T U hd hq h with ⟨_, -, -, q⟩ | ⟨w0, -, -, q⟩ | ⟨⟨_, q⟩, -⟩
      · exact q
      · exact absurd rfl (q codes)
      · cases q
  · rw [e1, e2]
    constructor <;> (intro h; cases h)
  · rw [e1, e2]

/-- What others do to the store meanwhile stays if the run fails, or goes on displaying codes. -/
theorem C237_otpc_kept_partial (other : Fs → Fs) (f : Flags) (args : List Bytes) (path : Path) (w w' : World) (o : Outcome) (hd : path ≠ dash)
    (hi : f.init = false) (hq : f.store = true ∨ f.qr = false) (ha : args ≠ []) (hw : ∀ k, w.write ≠ .failsAfter k)
    (h : otpc C J T U other f args path w = .ok (o, w')) (ho : ∀ codes, o ≠ .exit 0 codes) : w'.fs path = other w.fs path := by
  have hlen : (if f.store then 1 else if f.qr then 2 else 1) ≤ args.length := by
    have := List.length_pos_of_ne_nil ha
    rcases hq with hq | hq
    · rw [if_pos hq]; omega
    · rw [hq]; simp; omega
  rcases otpc_cases C J T U (other := other) hi hlen (fs := w.fs) rfl with ⟨s, t, e1, -⟩ | ⟨t, e1, -⟩ | ⟨e1, -⟩
  · rw [e1, show change other { w with term := t } = hide path (other w.fs path) (change other { w with term := t }) by
      unfold hide change; dsimp only; rw [put_self]] at h
    rcases otpc_frame C J T U hd hq h with ⟨codes, -, q, -⟩ | ⟨w0, -, rfl, -⟩ | ⟨-, k, q⟩
    · exact absurd q (ho codes)
    · exact put_same _ _ _
    · exact absurd q (hw k)
  · rw [e1] at h
    cases h
    rfl
  · rw [e1] at h
    cases h

/-- A run that fails, since there is no such token, while another program replaces the store. -/
example : ∃ b w', otpc C J T U (fun fs => fs.set [102] [1]) {} [[98]] [102] (exWorld b [some [112, 119]]) = .ok (.exit 1 [], w') ∧ w'.fs [102] = some [1] := by
  obtain ⟨b, hb⟩ := exFile C J 0 (Or.inl rfl)
  have hh : (exStore [1, 2, 3] 7).has [98] = false := exMap_other (by decide) _ _
  refine ⟨b, change (fun fs => fs.set [102] [1]) (exWorld b []), ?_, Fs.set_same (exWorld b []).fs [102] [1]⟩
  unfold otpc
  rw [if_neg (by decide), show ({} : Flags).mode = 0 from rfl, Proofs.Otpc.load_ok C J (pass := [112, 119]) (rest := []) (s := exStore [1, 2, 3] 7) (by decide) rfl ⟨b, by simp [exWorld], hb⟩]
  simp only [Res.ok_bind, otpcRest, Bool.false_eq_true, if_false, List.headD_cons, showSecret, hh, Bool.not_false, if_true]
  rfl

/-- A run of otpc during which the store stays as it is does what it does after the others. -/
theorem C237_otpc_apart_partial (other : Fs → Fs) (f : Flags) (args : List Bytes) (path : Path) (w : World) (hi : f.init = false)
    (ha : (if f.store then 1 else if f.qr then 2 else 1) ≤ args.length) (ho : other w.fs path = w.fs path) :
    otpc C J T U other f args path w = Model.Otpc.main C J T U f args path { w with fs := other w.fs } := by
  rcases otpc_cases C J T U (other := other) hi ha ho with ⟨s, t, e1, e2⟩ | ⟨t, e1, e2⟩ | ⟨e1, e2⟩
  · rw [e1, e2]; rfl
  · rw [e1, e2]; rfl
  · rw [e1, e2]

/-- Whatever others have saved under other labels meanwhile, after `otpc -s label` the store has under them what it had when the run began. -/
theorem C237_otpc_lost (other : Fs → Fs) (f : Flags) (label : Bytes) (args : List Bytes) (path : Path) (w w' : World) (codes : List Bytes)
    (hd : path ≠ dash) (hi : f.init = false) (hs : f.store = true) (hl : ValidUtf8 label)
    (h : otpc C J T U other f (label :: args) path w = .ok (.exit 0 codes, w')) :
    ∃ pass rest s s' r, w.term.answers = some pass :: rest ∧ Opens C J w.fs path pass f.mode s ∧ Opens C J w'.fs path pass f.mode s' ∧
      s.has label = false ∧ lookup s' label = some r ∧ ∀ k, k ≠ label → lookup s' k = lookup s k := by
  have hsp : Spared path w.fs (other w.fs) (put (other w.fs) path (w.fs path)) := ⟨put_same _ _ _, fun q hq => put_other _ _ hq⟩
  have h2 := (C237_otpc_unnoticed C J T U other f (label :: args) path w w' codes hd hi (Or.inl hs) (by simp) _ hsp).mp h
  obtain ⟨pass, secret, rest, s, m, r, code, w2, out, q1, q2, q3, q4, -, q5, q6, q7⟩ := Proofs.Otpc.store_exit C J T U hd hi hs h2
  simp only [List.headD_cons] at q3 q5 q6
  obtain ⟨b, hb, hu⟩ := id q2
  obtain ⟨hfin, hutf, hp⟩ := opens_fields C J hu
  have hmade := Proofs.Otpc.makeRecord_some T q5
  obtain ⟨md, g1, g2, -⟩ := hmade.md
  have hex := saved_exact C J (finite_set hfin q4 label r (by intro x hx; rw [g1] at hx; cases hx; exact g2.1) _)
    (utf8_set (r := r) hutf q4 hl (by rw [hmade.label_eq]; exact hl) (by intro x j y hx hy; rw [g1] at hx; cases hx; exact g2.2 j y hy) _) q6
  refine ⟨pass, _, s, _, r, q1, opens_put C J q2, ⟨out, by rw [q7, Fs.set_same], hex⟩, q3, ?_, fun k hk => ?_⟩
  · rw [Proofs.SecretStore.lookup_eq (m := m.set label (some r)) rfl, Map.set_same]
    rfl
  · rw [Proofs.SecretStore.lookup_eq (m := m.set label (some r)) rfl, Proofs.SecretStore.lookup_eq q4, Map.set_other _ _ hk]

/-- C237 is false of otpc: a password is stored with `secrets -s` while `otpc -s` is asking for the key of a token. -/
theorem C237_otpc_violated : ∃ (w1 w2 w1' w2' : World) (code : Bytes) (s2 s1 : SecretStore) (r : SecretRecord),
    w1.fs = w2.fs ∧ Model.Secrets.main C J P ord fuel { store := true } [[99]] [102] w2 = some (.ok (0, w2')) ∧
    otpc C J T U (fun _ => w2'.fs) { store := true, kind := ascii "hotp" } [ascii "mail"] [102] w1 = .ok (.exit 0 [code], w1') ∧
    Opens C J w2'.fs [102] [112, 119] 0 s2 ∧ lookup s2 [99] = some r ∧ r.secret = [8] ∧
    Opens C J w1'.fs [102] [112, 119] 0 s1 ∧ lookup s1 [99] = none := by
  obtain ⟨b, hb⟩ := exFile C J 0 (Or.inl rfl)
  obtain ⟨w2', out2, b1, b2⟩ := exStoring C J P ord fuel (l := [99]) (x := [8]) hb (by decide) (by decide)
  obtain ⟨code0, hc0⟩ := T.hcode_ok (ascii "foobar") 41 6 ⟨by decide, Or.inl rfl⟩
  have hr := Proofs.Otpc.addHotp_eq T (w := exWorld b [some (ascii "41"), some []]) (label := ascii "mail") (key := ascii "foobar") (code := code0)
    (rest := []) (c := 41) (d := 6) rfl (Or.inl ⟨by decide, by decide⟩) (Or.inr ⟨rfl, rfl⟩) hc0
  obtain ⟨out, w1', e1, e2, e3⟩ := Proofs.Otpc.main_store C J T U (f := { store := true, kind := ascii "hotp" }) rfl rfl (label := ascii "mail") (path := [102])
    (pass := [112, 119]) (secret := ascii "mzxw 6ytb oi") (w := exWorld b [some [112, 119], some (ascii "mzxw 6ytb oi"), some (ascii "41"), some []])
    (rest := [some (ascii "41"), some []]) (s := exStore [1, 2, 3] 7) (code := code0) (t := ⟨[], fun n => 1000 + BitVec.ofNat 64 (n + 1)⟩)
    (by decide) rfl ⟨b, by simp [exWorld], hb⟩ rfl (exMap_other (by decide) _ _)
    (by rw [Proofs.Otpc.typed_b32 _ Props.Otpc.exTyped]; exact hr) rfl (Props.Otpc.exRng _ _) rfl (exClock 1 (by decide))
  have hrun : otpc C J T U (fun _ => w2'.fs) { store := true, kind := ascii "hotp" } [ascii "mail"] [102]
      (exWorld b [some [112, 119], some (ascii "mzxw 6ytb oi"), some (ascii "41"), some []]) = .ok (.exit 0 [code0], w1') := by
    refine (C237_otpc_unnoticed C J T U _ _ _ [102] _ w1' _ (by decide) rfl (Or.inl rfl) (by simp) (exWorld b []).fs ?_).mpr e1
    refine change_self fun q hq => ?_
    show w2'.fs q = _
    rw [b2, Fs.set_other _ _ hq]
    rfl
  obtain ⟨pass, pw, rest, s, s2, r, q1, -, -, q2, -, -, q3, q4, -⟩ := Secrets.C95_store C J P ord fuel { store := true } [[99]] [102] _ w2' (by decide) rfl rfl (by decide) b1
  cases q1
  obtain ⟨pass, rest, s, s1, r1, p1, p2, p3, -, -, p6⟩ := C237_otpc_lost C J T U _ { store := true, kind := ascii "hotp" } (ascii "mail") [] [102] _ w1' _ (by decide) rfl rfl (by decide) hrun
  cases p1
  have he : exStore [1, 2, 3] 7 = s := opens_at C J (fs := (exWorld b []).fs) (a := [102]) ⟨b, by simp [exWorld], hb⟩ p2 rfl
  subst he
  refine ⟨_, exWorld b [some [112, 119], some [8]], w1', w2', code0, s2, s1, r, ?_, b1, hrun, q2, q3, q4, p3, ?_⟩
  · rfl
  · rw [p6 _ (by decide), Proofs.SecretStore.lookup_eq (m := _) rfl]
    rfl

/-! ### C238: one token in two runs -/

open Verif.Spec.Otpc Verif.Spec.TogetherTokens

/-- C238 is false: when one run of `otpc label` begins and ends while another on the same store has read it but not written it yet, and both end with
status 0, both display the same code, and the store afterwards has the counter advanced by one only. -/
theorem C238_same_violated (f g : Flags) (path pass label key : Bytes) (c t : BitVec 64) (d : Int) (w1 w2 w1' w2' : World) (codes1 codes2 : List Bytes)
    (rest1 rest2 : List (Option Bytes)) (other : Fs → Fs) (hd : path ≠ dash) (hf : f.init = false ∧ f.store = false ∧ f.qr = false)
    (hg : g.init = false ∧ g.store = false ∧ g.qr = false) (hm : g.mode = f.mode) (hpl : Plain label) (hkey : key ≠ []) (hdig : d = 6 ∨ d = 8)
    (hT : TokenAt C J T w1.fs path pass f.mode label key c d t) (ha1 : w1.term.answers = some pass :: rest1) (ha2 : w2.term.answers = some pass :: rest2)
    (h2 : w2.fs path = w1.fs path) (hB : Model.Otpc.main C J T U g [label] path w2 = .ok (.exit 0 codes2, w2'))
    (ho : other w1.fs path = w2'.fs path) (hA : otpc C J T U other f [label] path w1 = .ok (.exit 0 codes1, w1')) :
    (∃ code, codes1 = [code] ∧ codes2 = [code] ∧ T.hcode key c d = .ok code) ∧
      TokenAt C J T (other w1.fs) path pass f.mode label key (c + 1) d (w2.term.clock 0) ∧
      TokenAt C J T w1'.fs path pass f.mode label key (c + 1) d (w1.term.clock 0) := by
  have hsp : Spared path w1.fs (other w1.fs) (put (other w1.fs) path (w1.fs path)) := ⟨put_same _ _ _, fun q hq => put_other _ _ hq⟩
  have hA2 := (C237_otpc_unnoticed C J T U other f [label] path w1 w1' codes1 hd hf.1 (Or.inr hf.2.2) (by simp) _ hsp).mp hA
  obtain ⟨code, rfl, k1, k2⟩ := Props.TogetherTokens.show_at C J T U (w := { w1 with fs := put (other w1.fs) path (w1.fs path) }) hf hd hpl ⟨hkey, hdig⟩
    (Props.TogetherTokens.tokenAt_at C J T hT (fs' := put (other w1.fs) path (w1.fs path)) (put_same _ _ _)) ha1 hA2
  obtain ⟨code', rfl, l1, l2⟩ := Props.TogetherTokens.show_at C J T U hg hd hpl ⟨hkey, hdig⟩
    (by rw [hm]; exact Props.TogetherTokens.tokenAt_at C J T hT h2) ha2 hB
  rw [k1] at l1
  cases l1
  rw [hm] at l2
  exact ⟨⟨code, rfl, rfl, k1⟩, Props.TogetherTokens.tokenAt_at C J T l2 ho, k2⟩

/-- Two such runs. -/
example : ∃ (w1 w2 w1' w2' : World) (codes1 codes2 : List Bytes),
    TokenAt C J T w1.fs [102] [112, 119] 0 (ascii "mail") (ascii "foobar") 42 6 1000 ∧ w2.fs = w1.fs ∧
    Model.Otpc.main C J T U {} [ascii "mail"] [102] w2 = .ok (.exit 0 codes2, w2') ∧
    otpc C J T U (fun _ => w2'.fs) {} [ascii "mail"] [102] w1 = .ok (.exit 0 codes1, w1') := by
  obtain ⟨fs, h1, h2⟩ := Props.TogetherTokens.exToken C J T U
  obtain ⟨code, w2', m2, -, -⟩ := Props.TogetherTokens.exShow C J T U (by decide) h1 h2
  obtain ⟨code', w1', m1, -, -⟩ := Props.TogetherTokens.exShow C J T U (fs := put w2'.fs [102] (fs [102])) (by decide)
    (Props.TogetherTokens.holds_at C J T h1 (put_same _ _ _)) (Props.TogetherTokens.tokenAt_at C J T h2 (put_same _ _ _))
  refine ⟨Props.TogetherTokens.exLater fs [some [112, 119]], Props.TogetherTokens.exLater fs [some [112, 119]], w1', w2', [code'], [code], h2, rfl, m2, ?_⟩
  exact (C237_otpc_unnoticed C J T U (fun _ => w2'.fs) {} [ascii "mail"] [102] (Props.TogetherTokens.exLater fs [some [112, 119]]) w1' _ (by decide) rfl
    (Or.inr rfl) (by simp) _ ⟨put_same _ _ _, fun q hq => put_other _ _ hq⟩).mpr m1

/-- Runs that do not overlap, or of which the second begins to read after the first has written, display the codes of successive counters. -/
theorem C238_apart_partial (f g : Flags) (path pass label key : Bytes) (c t : BitVec 64) (d : Int) (w1 w2 w1' w2' : World) (codes1 codes2 : List Bytes)
    (rest1 rest2 : List (Option Bytes)) (other : Fs → Fs) (hd : path ≠ dash) (hf : f.init = false ∧ f.store = false ∧ f.qr = false)
    (hg : g.init = false ∧ g.store = false ∧ g.qr = false) (hm : g.mode = f.mode) (hpl : Plain label) (hkey : key ≠ []) (hdig : d = 6 ∨ d = 8)
    (hT : TokenAt C J T w2.fs path pass f.mode label key c d t) (ha1 : w1.term.answers = some pass :: rest1) (ha2 : w2.term.answers = some pass :: rest2)
    (hB : Model.Otpc.main C J T U g [label] path w2 = .ok (.exit 0 codes2, w2')) (h1 : w1.fs path = w2'.fs path)
    (ho : other w1.fs path = w1.fs path) (hA : otpc C J T U other f [label] path w1 = .ok (.exit 0 codes1, w1')) :
    ∃ code1 code2, codes1 = [code1] ∧ codes2 = [code2] ∧ T.hcode key c d = .ok code2 ∧ T.hcode key (c + 1) d = .ok code1 ∧
      TokenAt C J T w1'.fs path pass f.mode label key (c + 2) d (w1.term.clock 0) := by
  rw [C237_otpc_apart_partial C J T U other f [label] path w1 hf.1 (by rw [hf.2.1, hf.2.2]; simp) ho] at hA
  obtain ⟨code2, rfl, l1, l2⟩ := Props.TogetherTokens.show_at C J T U hg hd hpl ⟨hkey, hdig⟩ (by rw [hm]; exact hT) ha2 hB
  rw [hm] at l2
  obtain ⟨code1, rfl, k1, k2⟩ := Props.TogetherTokens.show_at C J T U (w := { w1 with fs := other w1.fs }) hf hd hpl (c := c + 1) ⟨hkey, hdig⟩
    (Props.TogetherTokens.tokenAt_at C J T l2 (fs' := other w1.fs) (ho.trans h1)) ha1 hA
  refine ⟨code1, code2, rfl, rfl, l1, k1, ?_⟩
  rw [BitVec.add_assoc] at k2
  exact k2

/-- Two such runs. -/
example : ∃ (w1 w2 w1' w2' : World) (codes1 codes2 : List Bytes),
    TokenAt C J T w2.fs [102] [112, 119] 0 (ascii "mail") (ascii "foobar") 42 6 1000 ∧ w1.fs = w2'.fs ∧
    Model.Otpc.main C J T U {} [ascii "mail"] [102] w2 = .ok (.exit 0 codes2, w2') ∧
    otpc C J T U (fun fs => fs.set [103] [1]) {} [ascii "mail"] [102] w1 = .ok (.exit 0 codes1, w1') := by
  obtain ⟨fs, h1, h2⟩ := Props.TogetherTokens.exToken C J T U
  obtain ⟨code, w2', m2, h3, h4⟩ := Props.TogetherTokens.exShow C J T U (by decide) h1 h2
  have e : w2'.fs.set [103] [1] [102] = w2'.fs [102] := Fs.set_other _ _ (by decide)
  obtain ⟨code', w1', m1, -, -⟩ := Props.TogetherTokens.exShow C J T U (fs := w2'.fs.set [103] [1]) (by decide)
    (Props.TogetherTokens.holds_at C J T h3 e) (Props.TogetherTokens.tokenAt_at C J T h4 e)
  refine ⟨Props.TogetherTokens.exLater w2'.fs [some [112, 119]], Props.TogetherTokens.exLater fs [some [112, 119]], w1', w2', [code'], [code], h2, rfl, m2, ?_⟩
  rw [C237_otpc_apart_partial C J T U _ _ _ _ _ rfl (by decide) e]
  exact m1

end otpc

/-! ### journal -/

section journal
open Verif.Model.Journal

theorem journal_cases {other : Fs → Fs} {e : Env} {f : Flags} {args : List Bytes} {path : Path} {w : World} (hi : f.init = false)
    (ha : (if f.edit then 1 else if f.list then 0 else 1) ≤ args.length) {fs : Fs} (hfs : fs path = w.fs path) :
    (∃ s t, journal C J ord other e f args path w = run C J ord e f args path (change other { w with term := t }) s ∧
      Model.Journal.main C J ord e f args path { w with fs := fs } = run C J ord e f args path { w with term := t, fs := fs } s) ∨
    (∃ t, journal C J ord other e f args path w = .ok (1, .nothing, change other { w with term := t }) ∧
      Model.Journal.main C J ord e f args path { w with fs := fs } = .ok (1, .nothing, { w with term := t, fs := fs })) ∨
    (journal C J ord other e f args path w = .panic ∧ Model.Journal.main C J ord e f args path { w with fs := fs } = .panic) := by
  have hlt : ¬ args.length < (if f.edit then 1 else if f.list then 0 else 1) := by omega
  have hfr := load_frame C J (w := w) (mode := f.mode) hfs
  unfold journal Model.Journal.main
  rw [hi, if_neg hlt, if_neg (by simp), if_neg hlt]
  cases hl : loadStore C J w path f.mode with
  | panic =>
    rw [hl] at hfr
    right; right
    rw [hfr]
    exact ⟨rfl, rfl⟩
  | ok r =>
    obtain ⟨o, w1⟩ := r
    obtain ⟨t, rfl⟩ := loadStore_world C J hl
    rw [hl] at hfr
    rw [hfr]
    cases o with
    | none => exact Or.inr (Or.inl ⟨t, rfl, rfl⟩)
    | some s => exact Or.inl ⟨s, t, rfl, rfl⟩

/-- The same of journal, for writing and editing entries; the temporary file is not the journal. -/
theorem C237_journal_unnoticed (other : Fs → Fs) (e : Env) (f : Flags) (args : List Bytes) (path : Path) (w w' : World) (o : Output) (hd : path ≠ dash)
    (hi : f.init = false) (hf : f.edit = true ∨ f.list = false ∧ f.write = true) (ha : args ≠ []) (hp : e.temp ≠ some path)
    (fs : Fs) (hfs : Spared path w.fs (other w.fs) fs) :
    journal C J ord other e f args path w = .ok (0, o, w') ↔
    Model.Journal.main C J ord e f args path { w with fs := fs } = .ok (0, o, w') := by
  have hlen : (if f.edit then 1 else if f.list then 0 else 1) ≤ args.length := by
    have := List.length_pos_of_ne_nil ha
    split
    · omega
    · split <;> omega
  have hno : ¬ (f.edit = false ∧ (f.list = true ∨ f.write = false)) := by
    rintro ⟨h1, h2⟩
    rcases hf with hf | ⟨h3, h4⟩
    · rw [hf] at h1; cases h1
    · rcases h2 with h2 | h2
      · rw [h3] at h2; cases h2
      · rw [h4] at h2; cases h2
  rcases journal_cases C J ord (other := other) (e := e) hi hlen hfs.1 with ⟨s, t, e1, e2⟩ | ⟨t, e1, e2⟩ | ⟨e1, e2⟩
  · rw [e1, e2]
    obtain ⟨q1, q2⟩ := worlds (w := w) (t := t) rfl hfs
    constructor
    · intro h
      rw [q1] at h
      rcases journal_frame C J hd hp h with ⟨-, -, q⟩ | ⟨w0, -, -, q⟩ | ⟨q, -⟩
      · exact q
      · exact absurd (q rfl) hno
      · cases q
    · intro h
      rw [show ({ w with term := t, fs := fs } : World) = hide path (w.fs path) (change other { w with term := t }) from q2] at h
      rcases journal_frame C J hd hp h with ⟨-, -, q⟩ | ⟨w0, -, -, q⟩ | ⟨q, -⟩
      · exact q
      · exact absurd (q rfl) hno
      · cases q
  · rw [e1, e2]
    constructor <;> (intro h; cases h)
  · rw [e1, e2]

/-- What others do to the journal meanwhile stays if the run fails, or is one that only reads. -/
theorem C237_journal_kept_partial (other : Fs → Fs) (e : Env) (f : Flags) (args : List Bytes) (path : Path) (w w' : World) (n : Nat) (o : Output)
    (hd : path ≠ dash) (hi : f.init = false) (ha : args ≠ []) (hp : e.temp ≠ some path) (hw : ∀ k, w.write ≠ .failsAfter k)
    (h : journal C J ord other e f args path w = .ok (n, o, w')) (hn : n ≠ 0 ∨ f.edit = false ∧ (f.list = true ∨ f.write = false)) :
    w'.fs path = other w.fs path := by
  have hlen : (if f.edit then 1 else if f.list then 0 else 1) ≤ args.length := by
    have := List.length_pos_of_ne_nil ha
    split
    · omega
    · split <;> omega
  rcases journal_cases C J ord (other := other) (e := e) hi hlen (fs := w.fs) rfl with ⟨s, t, e1, -⟩ | ⟨t, e1, -⟩ | ⟨e1, -⟩
  · rw [e1, show change other { w with term := t } = hide path (other w.fs path) (change other { w with term := t }) by
      unfold hide change; dsimp only; rw [put_self]] at h
    rcases journal_frame C J hd hp h with ⟨q1, q2, -⟩ | ⟨w0, -, rfl, -⟩ | ⟨-, k, q⟩
    · rcases hn with hn | ⟨h1, h2⟩
      · exact absurd q1 hn
      · rcases q2 with q2 | ⟨h3, h4⟩
        · rw [q2] at h1; cases h1
        · rcases h2 with h2 | h2
          · rw [h3] at h2; cases h2
          · rw [h4] at h2; cases h2
    · exact put_same _ _ _
    · exact absurd q (hw k)
  · rw [e1] at h
    cases h
    rfl
  · rw [e1] at h
    cases h

/-- A run that fails, since there is no such entry, while another program replaces the journal. -/
example : ∃ b w', journal C J ord (fun fs => fs.set [102] [1]) Props.Journal.exEnv { edit := true } [[98]] [102] (exWorld b [some [112, 119]]) =
    .ok (1, .nothing, w') ∧ w'.fs [102] = some [1] := by
  obtain ⟨b, hb⟩ := exFile C J 0 (Or.inl rfl)
  have hh : (exStore [1, 2, 3] 7).has [98] = false := exMap_other (by decide) _ _
  refine ⟨b, change (fun fs => fs.set [102] [1]) (exWorld b []), ?_, Fs.set_same (exWorld b []).fs [102] [1]⟩
  unfold journal
  rw [if_neg (by decide), show ({ edit := true } : Flags).mode = 0 from rfl, Proofs.Otpc.load_ok C J (pass := [112, 119]) (rest := []) (s := exStore [1, 2, 3] 7) (by decide) rfl ⟨b, by simp [exWorld], hb⟩]
  simp only [Res.ok_bind, run, if_true, List.headD_cons, editEntry, hh, Bool.not_false]
  rfl

/-- A run of journal during which the journal stays as it is does what it does after the others. -/
theorem C237_journal_apart_partial (other : Fs → Fs) (e : Env) (f : Flags) (args : List Bytes) (path : Path) (w : World) (hi : f.init = false)
    (ha : (if f.edit then 1 else if f.list then 0 else 1) ≤ args.length) (ho : other w.fs path = w.fs path) :
    journal C J ord other e f args path w = Model.Journal.main C J ord e f args path { w with fs := other w.fs } := by
  rcases journal_cases C J ord (other := other) (e := e) hi ha ho with ⟨s, t, e1, e2⟩ | ⟨t, e1, e2⟩ | ⟨e1, e2⟩
  · rw [e1, e2]; rfl
  · rw [e1, e2]; rfl
  · rw [e1, e2]

/-- Such a change: a new file beside the journal. -/
example (b : Bytes) : (fun fs => Fs.set fs [103] [1]) (exWorld b []).fs [102] = (exWorld b []).fs [102] := Fs.set_other _ _ (by decide)

/-- Whatever others have saved meanwhile, after an edit in journal the other entries are what they were when the run began. -/
theorem C237_journal_lost (other : Fs → Fs) (e : Env) (f : Flags) (title path : Bytes) (w w' : World) (o : Output) (hd : path ≠ dash)
    (hf : f.init = false ∧ f.edit = true) (hp : e.temp ≠ some path) (h : journal C J ord other e f [title] path w = .ok (0, o, w')) :
    ∃ pass s s' r text, w.term.answers.head? = some (some pass) ∧ Opens C J w.fs path pass f.mode s ∧ Opens C J w'.fs path pass f.mode s' ∧
      lookup s title = some r ∧ Spec.Journal.Edited e r.secret text ∧ lookup s' title = some { r with secret := text } ∧
      ∀ k, k ≠ title → lookup s' k = lookup s k := by
  have hs : Spared path w.fs (other w.fs) (put (other w.fs) path (w.fs path)) := ⟨put_same _ _ _, fun q hq => put_other _ _ hq⟩
  have h2 := (C237_journal_unnoticed C J ord other e f [title] path w w' o hd hf.1 (Or.inl hf.2) (by simp) hp _ hs).mp h
  obtain ⟨pass, s, s', r, text, q1, q2, q3, q4⟩ := JournalEntries.C114_edit C J ord e f title path _ w' o hd hf h2
  exact ⟨pass, s, s', r, text, q1, opens_put C J q2, q3, q4⟩

/-- C237 is false of journal: a password is stored with `secrets -s` while the editor is open. -/
theorem C237_journal_violated : ∃ (w1 w2 w1' w2' : World) (s2 s1 : SecretStore) (r : SecretRecord),
    w1.fs = w2.fs ∧ Model.Secrets.main C J P ord fuel { store := true } [[99]] [102] w2 = some (.ok (0, w2')) ∧
    journal C J ord (fun _ => w2'.fs) Props.Journal.exEnv { edit := true } [[97]] [102] w1 = .ok (0, .nothing, w1') ∧
    Opens C J w2'.fs [102] [112, 119] 0 s2 ∧ lookup s2 [99] = some r ∧ r.secret = [8] ∧
    Opens C J w1'.fs [102] [112, 119] 0 s1 ∧ lookup s1 [99] = none := by
  obtain ⟨b, hb⟩ := exFile C J 0 (Or.inl rfl)
  obtain ⟨w2', out2, b1, b2⟩ := exStoring C J P ord fuel (l := [99]) (x := [8]) hb (by decide) (by decide)
  obtain ⟨w1', a1⟩ := Props.Journal.edit_works C J ord (e := Props.Journal.exEnv) (f := { edit := true }) (title := [97]) (path := [102])
    (w := exWorld b [some [112, 119]]) (by decide) ⟨rfl, rfl⟩ rfl ⟨b, by simp [exWorld], hb⟩ rfl
    (exStore_lookup _ _) rfl (Props.Journal.exEdited _) rfl (Props.Otpc.exRng _ _) rfl (exClock 0 (by decide))
  have hrun : journal C J ord (fun _ => w2'.fs) Props.Journal.exEnv { edit := true } [[97]] [102] (exWorld b [some [112, 119]]) = .ok (0, .nothing, w1') := by
    refine (C237_journal_unnoticed C J ord _ _ _ _ [102] _ w1' _ (by decide) rfl (Or.inl rfl) (by simp) (by decide) (exWorld b []).fs ?_).mpr a1
    refine change_self fun q hq => ?_
    show w2'.fs q = _
    rw [b2, Fs.set_other _ _ hq]
    rfl
  obtain ⟨pass, pw, rest, s, s2, r, q1, -, -, q2, -, -, q3, q4, -⟩ := Secrets.C95_store C J P ord fuel { store := true } [[99]] [102] _ w2' (by decide) rfl rfl (by decide) b1
  cases q1
  obtain ⟨pass, s, s1, r1, text, p1, p2, p3, -, -, -, p6⟩ := C237_journal_lost C J ord _ _ { edit := true } [97] [102] _ w1' _ (by decide) ⟨rfl, rfl⟩ (by decide) hrun
  cases p1
  have he : exStore [1, 2, 3] 7 = s := opens_at C J (fs := (exWorld b []).fs) (a := [102]) ⟨b, by simp [exWorld], hb⟩ p2 rfl
  subst he
  refine ⟨_, exWorld b [some [112, 119], some [8]], w1', w2', s2, s1, r, ?_, b1, hrun, q2, q3, q4, p3, ?_⟩
  · rfl
  · rw [p6 _ (by decide), Proofs.SecretStore.lookup_eq (m := _) rfl]
    rfl

end journal

end Verif.Props.Meanwhile
