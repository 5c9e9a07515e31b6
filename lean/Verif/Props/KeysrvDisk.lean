import Verif.Props.KeysrvLive
/-!
The key server and its file (C82, C140-C142).
-/

namespace Verif.Props.KeysrvDisk
open Verif Verif.Go Verif.Model.Util Verif.Model.Public Verif.Model.KeyStore Verif.Model.Keysrv
open Verif.Spec.Public Verif.Spec.KeyStore Verif.Spec.Keysrv Verif.Proofs.KeyStore Verif.Proofs.Keysrv
open Verif.Spec.Fcrypt (Keyring Keyfile Opens)
open Verif.Proofs.Fcrypt (loaded opened opened_sound peerKeys exKeyring loadData_some)
open Verif.Props.KeyTrust Verif.Props.KeyImport Verif.Props.Keysrv Verif.Props.KeysrvLive
open Verif.Props.FcryptKeys (Tidy)

variable (C : Crypto) (A : Asn1) (P : Pem) (J : KeyJson) (sha256 : Bytes → Bytes)

/-! ### C82: when the file is written -/

theorem step_deadline {path : Path} {s s' : State} {e : Event} (h : Step C A P J sha256 path s e s') (hd : s.deadline ≤ s.now + 600) :
    s'.deadline ≤ s'.now + 600 := by
  cases h with
  | handle x rest o clock ks resp => cases x <;> exact Nat.le_refl _
  | dump => exact Nat.le_refl _
  | tick d => show s.deadline ≤ s.now + d + 600; omega
  | arrive => exact hd
  | send => exact hd
  | crash => exact hd
  | hang => exact hd
  | wake => exact hd
  | told => exact hd
  | fatal => exact hd

theorem run_deadline {path : Path} {s s' : State} {es : List Event} (h : Run C A P J sha256 path s es s') (hd : s.deadline ≤ s.now + 600) :
    s'.deadline ≤ s'.now + 600 := by
  induction h with
  | nil => exact hd
  | cons h1 _ ih => exact ih (step_deadline C A P J sha256 h1 hd)

theorem run_stopped {path : Path} {s s' : State} {es : List Event} (h : Run C A P J sha256 path s es s') (hp : s'.phase = .running) :
    s.phase = .running := by
  apply Classical.byContradiction
  intro hn
  exact (run_hung C A P J sha256 h hn).1 hp

theorem prompt_dumped {path : Path} {s s' : State} {es : List Event} (h : Prompt C A P J sha256 path s es s') (T : Nat)
    (hp : s'.phase = .running) (hw : ∀ i, s.writes i = .done) (hno : ∀ x resp, .handle x resp ∉ es)
    (h0 : s.fs path = some (s.ks.dump J) ∨ (s.now ≤ s.deadline ∧ s.deadline ≤ T)) :
    s'.ks = s.ks ∧ (s'.fs path = some (s.ks.dump J) ∨ (s'.now ≤ s'.deadline ∧ s'.deadline ≤ T)) := by
  induction h with
  | nil => exact ⟨rfl, h0⟩
  | @cons s0 s1 s2 e es h1 h2 h3 ih =>
    have hr0 := run_stopped C A P J sha256 (.cons h1 (prompt_run C h3)) hp
    have hr1 := run_stopped C A P J sha256 (prompt_run C h3) hp
    have hno' : ∀ x resp, .handle x resp ∉ es := fun x resp hx => hno x resp (List.mem_cons_of_mem _ hx)
    cases h1 with
    | handle x rest o clock ks resp => exact absurd List.mem_cons_self (hno x resp)
    | crash => cases hr1
    | hang => cases hr1
    | fatal => cases hr1
    | arrive => exact ih hp hw hno' h0
    | send => exact ih hp hw hno' h0
    | wake => exact ih hp hw hno' h0
    | told => exact ih hp hw hno' h0
    | dump hr hd =>
      refine ih hp (fun i => hw (i + 1)) hno' (.inl ?_)
      simp only [hw 0, Go.writeFile, Fs.set_same]
    | tick d ha =>
      refine ih hp hw hno' ?_
      rcases h0 with e | ⟨e1, e2⟩
      · exact .inl e
      · refine .inr ⟨?_, e2⟩
        show s0.now + d ≤ s0.deadline
        apply Classical.byContradiction
        intro hlt
        have hi := h2 d rfl (s0.deadline - s0.now) (by omega) _ _
          (.dump { s0 with now := s0.now + (s0.deadline - s0.now) } hr0 (by show s0.deadline ≤ s0.now + (s0.deadline - s0.now); omega))
        rcases hi with ⟨n, r, e⟩ | ⟨d', e⟩ <;> cases e

/-- On a fast machine, if writes succeed: ten minutes after any moment after which the server, while
up, has handled no command, its file holds the store as of that moment, with all keys uploaded
before. Missing from the property: that commands may keep coming. -/
theorem C82_quiet_partial (fs : Fs) (path : Path) (ks : KeyStore) (writes : Nat → WriteOutcome) (hw : ∀ i, writes i = .done)
    (es es' : List Event) (s s' : State) (hr : Prompt C A P J sha256 path (initial ks fs writes) es s)
    (hr' : Prompt C A P J sha256 path s es' s') (hno : ∀ x resp, .handle x resp ∉ es') (hp : s'.phase = .running)
    (ht : s.now + 600 < s'.now) : s'.fs path = some (s.ks.dump J) ∧ s'.ks = s.ks := by
  have hd := run_deadline C A P J sha256 (prompt_run C hr) (by simp [initial])
  have key : ∀ {s s' : State} {es}, Prompt C A P J sha256 path s es s' → s'.phase = .running → (∀ i, s.writes i = .done) →
      s.now ≤ s.deadline → s'.now ≤ s'.deadline ∧ ∀ i, s'.writes i = .done := by
    intro s s' es h
    induction h with
    | nil => exact fun _ hw h => ⟨h, hw⟩
    | @cons s0 s1 s2 e es h1 h2 h3 ih =>
      intro hp hw h0
      have hr0 := run_stopped C A P J sha256 (.cons h1 (prompt_run C h3)) hp
      have hr1 := run_stopped C A P J sha256 (prompt_run C h3) hp
      cases h1 with
      | handle x rest o clock ks resp => cases x <;> exact ih hp hw (Nat.le_add_right _ _)
      | crash => cases hr1
      | hang => cases hr1
      | fatal => cases hr1
      | arrive => exact ih hp hw h0
      | send => exact ih hp hw h0
      | wake => exact ih hp hw h0
      | told => exact ih hp hw h0
      | dump hr hd => exact ih hp (fun i => hw (i + 1)) (Nat.le_add_right _ _)
      | tick d ha =>
        refine ih hp hw ?_
        show s0.now + d ≤ s0.deadline
        apply Classical.byContradiction
        intro hlt
        have hi := h2 d rfl (s0.deadline - s0.now) (by omega) _ _
          (.dump { s0 with now := s0.now + (s0.deadline - s0.now) } hr0 (by show s0.deadline ≤ s0.now + (s0.deadline - s0.now); omega))
        rcases hi with ⟨n, r, e⟩ | ⟨d', e⟩ <;> cases e
  have hps := run_stopped C A P J sha256 (prompt_run C hr') hp
  obtain ⟨k1, k2⟩ := key hr hps hw (by simp [initial])
  obtain ⟨e1, e2⟩ := prompt_dumped C A P J sha256 hr' (s.now + 600) hp k2 hno (.inr ⟨k1, hd⟩)
  refine ⟨?_, e1⟩
  rcases e2 with e | ⟨e2, e3⟩
  · exact e
  · omega

/-- Time passes on a quiet server. -/
theorem tick_step {path : Path} {s : State} (hq : Quiet s) {t d : Nat} (ht : s.nextAudit = some t) (h1 : s.now + d ≤ s.deadline)
    (h2 : s.now + d ≤ t) : Prompt C A P J sha256 path s [.tick d] { s with now := s.now + d } := by
  refine .cons (.tick s d (.inl hq.running)) (fun d' e => ?_) (.nil _)
  cases e
  exact quiet_idle C hq ht h1 h2

theorem dump_step {path : Path} {s : State} (hr : s.phase = .running) (hd : s.deadline ≤ s.now) (hw : s.writes 0 = .done) :
    Prompt C A P J sha256 path s [.dump] { s with
      fs := s.fs.set path (s.ks.dump J), writes := fun n => s.writes (n + 1), deadline := s.now + 600 } := by
  have h : Step C A P J sha256 path s .dump _ := .dump s hr hd
  simp only [hw, Go.writeFile] at h
  exact .cons h (by simp) (.nil _)

/-- Ten minutes pass on a quiet server, and it writes its file. -/
theorem write_round {path : Path} {s : State} (hq : Quiet s) {t : Nat} (ht : s.nextAudit = some t) (h1 : s.deadline = s.now + 600)
    (h2 : s.now + 600 ≤ t) : Prompt C A P J sha256 path s [.tick 600, .dump] { s with
      now := s.now + 600, deadline := s.now + 600 + 600
      fs := (Go.writeFile (s.writes 0) s.fs path (s.ks.dump J)).1, writes := fun n => s.writes (n + 1) } := by
  have p1 := tick_step C A P J sha256 (path := path) hq ht (d := 600) (by rw [h1]) h2
  have st : Step C A P J sha256 path { s with now := s.now + 600 } .dump _ := .dump _ hq.running (by show s.deadline ≤ _; rw [h1])
  exact prompt_append C p1 (.cons st (by simp) (.nil _))

/-- The hypotheses can be met: after the first audit, ten minutes pass. -/
example (d seed dA seedA : Bytes) (hd : d.length = 32) (hs : seed.length = 32) (path : Path) :
    ∃ fs ks es es' s s', Starts C A P J fs path ks fs ∧ Prompt C A P J sha256 path (initial ks fs (fun _ => .done)) es s ∧
      Prompt C A P J sha256 path s es' s' ∧ (∀ x resp, .handle x resp ∉ es') ∧ s'.phase = .running ∧ s.now + 600 < s'.now := by
  obtain ⟨fs, ks, h1, h2, h3, -⟩ := exServer C A P J d seed dA seedA [] [112] hd hs path
  have hdist := peerKeys_distinct C d seed (ownerOf C dA seedA)
  have hen : (peerKeys C d seed [97] (ownerOf C dA seedA)).Enumerates [[97]] := enum_set enum_empty rfl _
  have p1 := audit_round C (A := A) (P := P) (J := J) (sha256 := sha256) (path := path) (s := initial ks fs (fun _ => .done)) ⟨rfl, rfl, rfl, rfl⟩ h3 hdist hen.finite rfl (by simp [initial])
  have p2 := tick_step C A P J sha256 (path := path) (t := (initial ks fs (fun _ => .done)).now + 14400) (d := 600)
    (s := { initial ks fs (fun _ => .done) with deadline := (initial ks fs (fun _ => .done)).now + 600, nextAudit := some ((initial ks fs (fun _ => .done)).now + 14400) })
    ⟨rfl, rfl, rfl, rfl⟩ rfl (by simp [initial]) (by simp [initial])
  have p3 := dump_step C A P J sha256 (path := path)
    (s := { initial ks fs (fun _ => .done) with now := (initial ks fs (fun _ => .done)).now + 600, deadline := (initial ks fs (fun _ => .done)).now + 600, nextAudit := some ((initial ks fs (fun _ => .done)).now + 14400) })
    rfl (by simp [initial]) rfl
  have p4 := tick_step C A P J sha256 (path := path) (t := (initial ks fs (fun _ => .done)).now + 14400) (d := 1)
    (s := { initial ks fs (fun _ => .done) with
      fs := fs.set path (ks.dump J), writes := fun _ => .done
      now := (initial ks fs (fun _ => .done)).now + 600, deadline := (initial ks fs (fun _ => .done)).now + 600 + 600, nextAudit := some ((initial ks fs (fun _ => .done)).now + 14400) })
    ⟨rfl, rfl, rfl, rfl⟩ rfl (by simp [initial]) (by simp [initial])
  exact ⟨fs, ks, _, _, _, _, h1, p1, prompt_append C p2 (prompt_append C p3 p4), by simp, rfl, by simp [initial]⟩

/-- A server that is kept busy. -/
structure Busy (fs : Fs) (ks : KeyStore) (s : State) : Prop where
  quiet : Quiet s
  ks : s.ks = ks
  fs : s.fs = fs
  timer : s.deadline = s.now + 600
  audit : ∃ t, s.nextAudit = some t ∧ s.now ≤ t

theorem busy_round {fs : Fs} {ks : KeyStore} {owner : Bytes} {m : Keys} (hs : Sound C ks owner m) (hd : Distinct m) (hf : m.Finite)
    {path : Path} {s : State} (h : Busy fs ks s) :
    ∃ es s', Prompt C A P J sha256 path s es s' ∧ Busy fs ks s' ∧ s.now < s'.now ∧ .dump ∉ es ∧ s'.replies.take s.replies.length = s.replies := by
  have step : ∀ {s : State}, Busy fs ks s → (∀ t, s.nextAudit = some t → s.now < t) →
      ∃ es s', Prompt C A P J sha256 path s es s' ∧ Busy fs ks s' ∧ s.now < s'.now ∧ .dump ∉ es ∧ s'.replies.take s.replies.length = s.replies := by
    intro s h hlt
    obtain ⟨order, hen⟩ := hf.enumerates
    obtain ⟨t, ht, hle⟩ := h.audit
    have hlt := hlt t ht
    have p1 := tick_step C A P J sha256 (path := path) h.quiet (d := min 300 (t - s.now)) ht (by rw [h.timer]; omega) (by omega)
    have hpr : process C A P sha256 s.ks Request.server.command (steady order 0) 0 =
        some (.ok (s.ks, lookup A P s.ks self)) := rfl
    have p2 := serve C (A := A) (P := P) (J := J) (sha256 := sha256) (path := path)
      (s := { s with now := s.now + min 300 (t - s.now) }) h.quiet.running h.quiet.sending h.quiet.queue 0 .server
      (steady_enumerate (m := m) (by rw [h.ks]; exact hs.keys) hen 0) hpr
    refine ⟨_, _, prompt_append C p1 p2, ⟨⟨h.quiet.running, h.quiet.sending, h.quiet.queue, h.quiet.mailbox⟩, h.ks, h.fs, rfl, t, ht, ?_⟩, ?_, by simp, by simp⟩
    · show s.now + min 300 (t - s.now) ≤ t
      omega
    · show s.now < s.now + min 300 (t - s.now)
      omega
  obtain ⟨t, ht, hle⟩ := h.audit
  by_cases hlt : s.now < t
  · exact step h (fun t' ht' => by rw [ht] at ht'; cases ht'; exact hlt)
  · have p0 := audit_round C (A := A) (P := P) (J := J) (sha256 := sha256) (path := path) h.quiet (by rw [h.ks]; exact hs) hd hf ht (by omega)
    obtain ⟨es, s', p1, b1, l1, n1, r1⟩ := step (s := { s with deadline := s.now + 600, nextAudit := some (s.now + 14400) })
      ⟨⟨h.quiet.running, h.quiet.sending, h.quiet.queue, h.quiet.mailbox⟩, h.ks, h.fs, rfl, _, rfl, Nat.le_add_right _ _⟩
      (fun t' ht' => by cases ht'; show s.now < s.now + 14400; omega)
    exact ⟨_, s', prompt_append C p0 p1, b1, l1, by simp [n1], r1⟩

theorem busy_rounds {fs : Fs} {ks : KeyStore} {owner : Bytes} {m : Keys} (hs : Sound C ks owner m) (hd : Distinct m) (hf : m.Finite)
    {path : Path} (N : Nat) {s : State} (h : Busy fs ks s) :
    ∃ es s', Prompt C A P J sha256 path s es s' ∧ Busy fs ks s' ∧ s.now + N ≤ s'.now ∧ .dump ∉ es ∧ s'.replies.take s.replies.length = s.replies := by
  induction N with
  | zero => exact ⟨[], s, .nil _, h, Nat.le_refl _, by simp, by simp⟩
  | succ N ih =>
    obtain ⟨es, s1, p1, b1, l1, n1, r1⟩ := ih
    obtain ⟨es', s2, p2, b2, l2, n2, r2⟩ := busy_round C A P J sha256 (path := path) hs hd hf b1
    refine ⟨_, s2, prompt_append C p1 p2, b2, by omega, by simp [n1, n2], ?_⟩
    have hl : s.replies.length ≤ s1.replies.length := by
      have := congrArg List.length r1
      simp only [List.length_take] at this
      omega
    rw [← r1]
    conv => rhs; rw [← r2]
    rw [List.take_take]
    simp only [List.length_take]

/-- C82 is false: for any length of time, a server that has accepted a key and is then asked for its
own key every five minutes has not written anything to its file. -/
theorem C82_busy_violated (d seed dA seedA pk : Bytes) (hd : d.length = 32) (hs : seed.length = 32) (hA : seedA.length = 32)
    (hpk : pk ≠ ownerOf C dA seedA) (path : Path) (writes : Nat → WriteOutcome) (N : Nat) :
    ∃ fs ks es s m, Starts C A P J fs path ks fs ∧ Ordered J fs path ∧ Prompt C A P J sha256 path (initial ks fs writes) es s ∧
      s.replies[0]? = some (0, .upload [98] ((statement C dA seedA pk 5).serialise A P), { status := 200, body := ascii "public key added successfully" }) ∧
      s.ks.keys = some m ∧ m [98] ≠ none ∧ s.phase = .running ∧ N ≤ s.now ∧ .dump ∉ es ∧ s.fs = fs := by
  obtain ⟨fs, ks, h1, h2, h3, h4⟩ := exServer C A P J d seed dA seedA pk [112] hd hs path
  have hen : (peerKeys C d seed [97] (ownerOf C dA seedA)).Enumerates [[97]] := enum_set enum_empty rfl _
  have z : ∀ l, l ≠ [97] → peerKeys C d seed [97] (ownerOf C dA seedA) l = none := fun l hl => Map.set_other _ _ hl
  have q1 := process_upload C (sha256 := sha256) h3 (z _ (by decide)) h4 (label := [98]) (by decide) (by decide) (z _ (by decide))
    (statement_signed C dA seedA pk 5 hA) (.inr ⟨[97], _, Map.set_same _ _ _, rfl⟩) (steady_enumerate h3.keys hen 0) 9
  have p1 := serve C (A := A) (P := P) (J := J) (sha256 := sha256) (path := path) (s := initial ks fs writes) rfl rfl rfl 0 _
    (steady_enumerate h3.keys hen 0) q1
  obtain ⟨m1, hm1⟩ := run_sound C (prompt_run C p1) h3
  have k1 := hm1.keys
  simp only [Option.some.injEq] at k1
  have hen1 : m1.Enumerates [[98], [97]] := k1 ▸ enum_set hen (z _ (by decide)) _
  have hdist : Distinct m1 := by
    rw [← k1]
    intro l l' r r' g1 g2 g3
    have key : ∀ l r, (Map.set (peerKeys C d seed [97] (ownerOf C dA seedA)) [98] (some ({
        label := [98], version := 1, timestamp := 9, keys := some (statement C dA seedA pk 5).pub
        keySignature := (statement C dA seedA pk 5).signature, keySigner := (statement C dA seedA pk 5).signer
        signatureTime := (statement C dA seedA pk 5).timestamp, metadata := none } : PublicKeyRecord))) l = some (some r) →
        (l = [98] ∧ r.keyBytes = pk) ∨ (l = [97] ∧ r.keyBytes = ownerOf C dA seedA) := by
      intro l r g
      by_cases hl : l = [98]
      · subst hl
        rw [Map.set_same] at g
        cases g
        exact .inl ⟨rfl, rfl⟩
      · rw [Map.set_other _ _ hl] at g
        by_cases hl' : l = [97]
        · subst hl'
          unfold peerKeys at g
          rw [Map.set_same] at g
          cases g
          exact .inr ⟨rfl, rfl⟩
        · rw [z _ hl'] at g
          cases g
    rcases key l r g1 with ⟨a, b⟩ | ⟨a, b⟩ <;> rcases key l' r' g2 with ⟨a', b'⟩ | ⟨a', b'⟩
    · rw [a, a']
    · rw [b, b'] at g3; exact absurd g3 hpk
    · rw [b, b'] at g3; exact absurd g3.symm hpk
    · rw [a, a']
  obtain ⟨es, s, p2, b2, l2, n2, r2⟩ := busy_rounds C A P J sha256 (path := path) hm1 hdist hen1.finite N (fs := fs)
    (s := _) ⟨⟨rfl, rfl, rfl, rfl⟩, rfl, rfl, rfl, 0, rfl, Nat.le_refl _⟩
  refine ⟨fs, ks, _, s, m1, h1, h2, prompt_append C p1 p2, ?_, by rw [b2.ks]; exact hm1.keys, ?_, b2.quiet.running, by omega, by simp [n2], b2.fs⟩
  · have e : s.replies[0]? = (s.replies.take 1)[0]? := by simp
    rw [e]
    have r2' : s.replies.take 1 = _ := r2
    rw [r2']
    rfl
  · rw [← k1, Map.set_same]
    simp

/-- The hypotheses can be met. -/
example : ∃ d seed dA seedA pk : Bytes, d.length = 32 ∧ seed.length = 32 ∧ seedA.length = 32 ∧ pk ≠ ownerOf Toy.crypto dA seedA :=
  ⟨List.replicate 32 1, List.replicate 32 2, List.replicate 32 3, List.replicate 32 4, [], by decide⟩

/-! ### C140: restarting -/

theorem step_tidy {path : Path} {s s' : State} {e : Event} {m : Keys} (h : Step C A P J sha256 path s e s')
    (hm : s.ks.keys = some m) (ht : Tidy m) : ∃ m', s'.ks.keys = some m' ∧ Tidy m' := by
  rcases step_ks C h with e | ⟨n, l, body, b, o, clock, -, n1, n2, -, -, h1⟩
  · rw [e]; exact ⟨m, hm, ht⟩
  · rcases import_true C h1 with ⟨e, -⟩ | ⟨-, m0, v, sl, pk, hq, hk, hh, -, -, -, -, -, -, -, e⟩
    · cases e
    · rw [hm] at hk
      cases hk
      rw [e]
      refine ⟨_, rfl, ht.1.set _ _, fun k r md h1 h2 => ?_⟩
      by_cases hkl : k = l
      · subst hkl
        rw [Map.set_same] at h1
        cases h1
        cases h2
      · rw [Map.set_other _ _ hkl] at h1
        exact ht.2 k r md h1 h2

theorem run_tidy {path : Path} {s s' : State} {es : List Event} {m : Keys} (h : Run C A P J sha256 path s es s')
    (hm : s.ks.keys = some m) (ht : Tidy m) : ∃ m', s'.ks.keys = some m' ∧ Tidy m' := by
  induction h generalizing m with
  | nil => exact ⟨m, hm, ht⟩
  | cons h1 _ ih =>
    obtain ⟨m1, a, b⟩ := step_tidy C A P J sha256 h1 hm ht
    exact ih a b

/-- A store that was unlocked comes back from its file. -/
theorem reload {s : KeyStore} {owner : Bytes} {m : Keys} (h : Sound C s owner m) (hl : s.locked = false) {box p x : Bytes} {k : PrivateKey}
    (hb : s.lockedKey = some box) (hx : s.exportKey = some x) (hk : s.privateKey = some k) (hu : unlockKey C box p = .ok (some k))
    (hp : marshalPublic k.pub = .ok (some owner)) (hf : s.toKeyFields.Finite) (hc : s.toKeyFields.Clean)
    {fs : Fs} {path : Path} (hfs : fs path = some (s.dump J)) (write : WriteOutcome) (rng : Rng) (t1 t2 t3 : BitVec 64) :
    loadStore C A P J fs path write (some p) rng t1 t2 t3 = .ok (some s, fs) := by
  let s' : KeyStore := { s with privateKey := none, locked := true }
  have hs' : Sound C s' owner m := ⟨h.quick, h.pub, h.len, h.keys, h.noNil, h.labelled, h.noSelf, h.trust, fun e => by cases e⟩
  obtain ⟨-, -, e2⟩ := Props.KeyStore.C93_file_roundtrip_partial C J s' owner m hs' rfl rfl box hb hf hc
  have hun : s'.unlock C A P p t3 = .ok (s, true) := by
    have hq : s'.validQuick = true := h.quick
    unfold KeyStore.unlock
    rw [hq]
    simp only [Bool.not_true, Bool.false_eq_true, if_false, s', hb, Option.getD_some, hu, Res.ok_bind, hp, hx,
      Option.isNone_some, Res.pure_eq]
    have := h.pub
    obtain ⟨⟨a1, a2, a3, a4, a5, a6⟩, a7, a8⟩ := s
    simp only at hk hl hx hb this
    subst hk hl hx hb this
    rfl
  have e2' : loadData J (s.dump J) = some s' := e2
  have hv := sound_valid C hs'
  unfold loadStore
  rw [hfs]
  simp [loadKeyStore, e2', hv, hun]

/-- A server is started with a passphrase and an orderly file, and run; all labels are UTF-8. If the
file holds what it dumped last, then a server started with that file and the same passphrase has the
very same store, and if no key is on record twice, it comes up. -/
theorem C140_restart_partial (fs fs' : Fs) (path : Path) (write : WriteOutcome) (pass : Bytes) (rng : Rng) (t1 t2 t3 : BitVec 64)
    (o : Orders) (ks : KeyStore) (ho : o.Enumerate ks) (hord : Ordered J fs path)
    (hb : boot C A P J fs path write (some pass) rng t1 t2 t3 o = some (.ok (some ks, fs')))
    (writes : Nat → WriteOutcome) (es : List Event) (s : State) (hr : Run C A P J sha256 path (initial ks fs' writes) es s)
    (m : Keys) (hm : s.ks.keys = some m) (hutf : ∀ l, m l ≠ none → ValidUtf8 l)
    (fs2 : Fs) (hfs : fs2 path = some (s.ks.dump J)) (write2 : WriteOutcome) (rng2 : Rng) (u1 u2 u3 : BitVec 64) :
    loadStore C A P J fs2 path write2 (some pass) rng2 u1 u2 u3 = .ok (some s.ks, fs2) ∧
      (Distinct m → ∀ o2 : Orders, o2.Enumerate s.ks →
        ∃ n, boot C A P J fs2 path write2 (some pass) rng2 u1 u2 u3 { o2 with fuel := n } = some (.ok (some s.ks, fs2))) := by
  have hst : Starts C A P J fs path ks fs' := ⟨_, _, _, _, _, _, _, ho, hb⟩
  obtain ⟨owner, m0, hs⟩ := starts_sound C hst hord
  obtain ⟨m1, hs1⟩ := run_sound C hr hs
  have e1 := hs1.keys
  rw [hm] at e1
  cases e1
  obtain ⟨m2, -, -, -, -, g1, g2, g3, g4, -, -, g7⟩ := run_kept C hr hs.keys
  obtain ⟨hl, -⟩ := boot_ok C hb
  obtain ⟨data, f, p, k, pub, x, f1, f2, f3, -, f4, f5, f6, -, -, hq, e⟩ := load_ok C hl
  cases f3
  have k1 : ks.privateKey = some k := by rw [e]
  have k2 : ks.exportKey = some x := by rw [e]
  have k3 : ks.publicKey = some pub := by rw [e]
  have k4 : ks.lockedKey = f.lockedKey := by rw [e]
  have k5 : ks.locked = false := by rw [e]
  have k6 : ks.keys = some (f.keys.getD Map.empty) := by rw [e]
  have hpo : pub = owner := by
    have := hs.pub
    rw [k3] at this
    exact Option.some.inj this
  subst hpo
  obtain ⟨box, hbox⟩ : ∃ box, f.lockedKey = some box := Option.ne_none_iff_exists'.mp f4
  rw [hbox] at f5
  have htidy : Tidy (f.keys.getD Map.empty) := by
    cases hfk : f.keys with
    | none => exact ⟨Map.finite_empty, fun k r md h => by cases h⟩
    | some mf =>
      obtain ⟨a1, a2⟩ := J.dec_finite _ _ f2 mf hfk
      have a3 := J.dec_clean _ _ f2 mf hfk
      exact ⟨a1, fun k r md h1 h2 => ⟨a2 k r md h1 h2, fun j x hj => ((a3 k _ h1).2 r rfl).2 md j x h2 hj⟩⟩
  obtain ⟨m3, k7, ht⟩ := run_tidy C A P J sha256 hr k6 htidy
  rw [hm] at k7
  cases k7
  have hfin : s.ks.toKeyFields.Finite := by
    intro m' hm'
    have hm' : s.ks.keys = some m' := hm'
    rw [hm] at hm'
    cases hm'
    exact ⟨ht.1, fun k r md h1 h2 => (ht.2 k r md h1 h2).1⟩
  have hclean : s.ks.toKeyFields.Clean := by
    intro m' hm' k v hk
    have hm' : s.ks.keys = some m' := hm'
    rw [hm] at hm'
    cases hm'
    have hu := hutf k (by rw [hk]; simp)
    refine ⟨hu, fun r hr => ?_⟩
    subst hr
    exact ⟨by rw [hs1.labelled k r hk]; exact hu, fun md j x h1 h2 => (ht.2 k r md hk h1).2 j x h2⟩
  have hload := reload C A P J hs1 (g7.trans k5) (g3.trans (k4.trans hbox)) (g4.trans k2) (g2.trans k1) f5 f6 hfin hclean hfs write2 rng2 u1 u2 u3
  refine ⟨hload, fun hd o2 ho2 => ?_⟩
  obtain ⟨-, -, o3, o4⟩ := ho2 m hm
  obtain ⟨n, hn⟩ := (chain_terminates C hs1 hd).2 o2.audit o3
  refine ⟨n, ?_⟩
  unfold boot
  rw [hload]
  simp only
  rw [hn o2.walk o4]

/-- The hypotheses can be met, right after the start. -/
example (d seed dA seedA : Bytes) (hd : d.length = 32) (hs : seed.length = 32) (path : Path) :
    ∃ (fs : Fs) (pass : Bytes) (o : Orders) (ks : KeyStore) (m : Keys), o.Enumerate ks ∧ Ordered J fs path ∧
      boot C A P J fs path .done (some pass) [] 1 2 3 o = some (.ok (some ks, fs)) ∧ ks.keys = some m ∧
      m [97] ≠ none ∧ (∀ l, m l ≠ none → ValidUtf8 l) ∧ Distinct m := by
  obtain ⟨f, -, ho, hk⟩ := exKeyring C J d seed [97] (ownerOf C dA seedA) [112] none hd hs (by decide) (by decide)
  have hk := hk (fun _ => none) path
  have hen : (peerKeys C d seed [97] (ownerOf C dA seedA)).Enumerates [[97]] := enum_set enum_empty rfl _
  have hdist := peerKeys_distinct C d seed (ownerOf C dA seedA)
  obtain ⟨n, hn⟩ := boot_complete C (A := A) (P := P) hk ho hdist .done [] 1 2 3 (steady [[97]] 0) hen (fun _ _ => hen)
  refine ⟨_, [112], steady [[97]] n, _, _, steady_enumerate rfl hen n, ?_, hn, rfl, ?_, ?_, hdist⟩
  · intro data g m h1 h2 h3
    obtain ⟨data', e1, e2⟩ := hk.file
    rw [e1] at h1
    cases h1
    rw [e2] at h2
    cases h2
    have := hk.keys
    rw [h3] at this
    simp only [Option.getD_some] at this
    subst this
    exact ⟨hk.noSelf, hk.labelled⟩
  · unfold peerKeys
    rw [Map.set_same]
    simp
  · intro l hl
    by_cases h : l = [97]
    · subst h; decide
    · exact absurd (Map.set_other _ _ h) hl

/-- C140 is false: a key uploaded under a label that is not UTF-8 is accepted and served, the store is
dumped to the file, and no server that is started with the file has the key. -/
theorem C140_not_utf8_violated (d seed dA seedA pk : Bytes) (hd : d.length = 32) (hs : seed.length = 32) (hA : seedA.length = 32)
    (path : Path) (writes : Nat → WriteOutcome) (hw : writes 0 = .done) :
    ∃ fs ks es s, Starts C A P J fs path ks fs ∧ Ordered J fs path ∧ Prompt C A P J sha256 path (initial ks fs writes) es s ∧
      s.replies = [(0, .upload [0xFF] ((statement C dA seedA pk 5).serialise A P), { status := 200, body := ascii "public key added successfully" })] ∧
      s.ks.has [0xFF] = true ∧ s.fs path = some (s.ks.dump J) ∧
      ∀ write pass rng t1 t2 t3 ks2 fs2, loadStore C A P J s.fs path write pass rng t1 t2 t3 = .ok (some ks2, fs2) →
        ks2.has [0xFF] = false := by
  obtain ⟨fs, ks, h1, h2, h3, h4⟩ := exServer C A P J d seed dA seedA pk [112] hd hs path
  have hen : (peerKeys C d seed [97] (ownerOf C dA seedA)).Enumerates [[97]] := enum_set enum_empty rfl _
  have hdist := peerKeys_distinct C d seed (ownerOf C dA seedA)
  have z : ∀ l, l ≠ [97] → peerKeys C d seed [97] (ownerOf C dA seedA) l = none := fun l hl => Map.set_other _ _ hl
  have p0 := audit_round C (A := A) (P := P) (J := J) (sha256 := sha256) (path := path) (s := initial ks fs writes) ⟨rfl, rfl, rfl, rfl⟩ h3 hdist hen.finite rfl (by simp [initial])
  have q1 := process_upload C (sha256 := sha256) h3 (z _ (by decide)) h4 (label := [0xFF]) (by decide) (by decide) (z _ (by decide))
    (statement_signed C dA seedA pk 5 hA) (.inr ⟨[97], _, Map.set_same _ _ _, rfl⟩) (steady_enumerate h3.keys hen 0) 9
  have p1 := serve C (A := A) (P := P) (J := J) (sha256 := sha256) (path := path)
    (s := { initial ks fs writes with deadline := (initial ks fs writes).now + 600, nextAudit := some ((initial ks fs writes).now + 14400) })
    rfl rfl rfl 0 _ (steady_enumerate h3.keys hen 0) q1
  have p01 := prompt_append C p0 p1
  obtain ⟨m1, hm1⟩ := run_sound C (prompt_run C p01) h3
  have k1 := hm1.keys
  simp only [Option.some.injEq] at k1
  have p := prompt_append C p01 (write_round C A P J sha256 (t := (initial ks fs writes).now + 14400) ⟨rfl, rfl, rfl, rfl⟩ rfl rfl (by simp [initial]))
  refine ⟨fs, ks, _, _, h1, h2, p, rfl, ?_, ?_, ?_⟩
  · refine (has_iff hm1.quick hm1.keys _).mpr (.inr ?_)
    rw [← k1, Map.set_same]
    simp
  · show (Go.writeFile (writes 0) fs path _).1 path = _
    rw [hw]
    exact Fs.set_same _ _ _
  · intro write pass rng t1 t2 t3 ks2 fs2 hl
    obtain ⟨data, f, p, k, pub, x, f1, f2, f3, -, f4, f5, f6, -, -, hq, e⟩ := load_ok C hl
    refine (has_false hq (m := f.keys.getD Map.empty) (by rw [e]) _).mpr ⟨by decide, ?_⟩
    cases hfk : f.keys with
    | none => rfl
    | some mf =>
      have a3 := J.dec_clean _ _ f2 mf hfk
      show mf [0xFF] = none
      cases hml : mf [0xFF] with
      | none => rfl
      | some v => exact absurd (a3 _ v hml).1 (by decide)

/-! ### C141: what the file holds -/

/-- The server changes no other file, whatever happens. -/
theorem C141_other_files (path : Path) (s s' : State) (es : List Event) (h : Run C A P J sha256 path s es s') (q : Path) (hq : q ≠ path) :
    s'.fs q = s.fs q := by
  induction h with
  | nil => rfl
  | @cons s0 s1 s2 e es h1 _ ih =>
    rw [ih]
    cases h1 with
    | handle x => cases x <;> rfl
    | dump =>
      show (Go.writeFile (s0.writes 0) s0.fs path (s0.ks.dump J)).1 q = s0.fs q
      cases s0.writes 0 with
      | done => exact Fs.set_other _ _ hq
      | openFails => rfl
      | failsAfter k => exact Fs.set_other _ _ hq
    | arrive => rfl
    | send => rfl
    | crash => rfl
    | hang => rfl
    | wake => rfl
    | told => rfl
    | fatal => rfl
    | tick => rfl

/-- If no write fails half way, the file is at all times what it was at the start or a dump of the
store as it was at some moment. -/
theorem C141_complete_partial (path : Path) (s s' : State) (es : List Event) (h : Run C A P J sha256 path s es s')
    (hw : ∀ i k, s.writes i ≠ .failsAfter k) :
    s'.fs path = s.fs path ∨ ∃ es1 s1 es2, es = es1 ++ .dump :: es2 ∧ Run C A P J sha256 path s es1 s1 ∧
      s'.fs path = some (s1.ks.dump J) := by
  induction h with
  | nil => exact .inl rfl
  | @cons s0 s1 s2 e es h1 h2 ih =>
    have key : (∀ i k, s1.writes i ≠ .failsAfter k) ∧ (s1.fs path = s0.fs path ∨ (e = .dump ∧ s1.fs path = some (s0.ks.dump J))) := by
      cases h1 with
      | handle x => cases x <;> exact ⟨hw, .inl rfl⟩
      | dump =>
        refine ⟨fun i k => hw (i + 1) k, ?_⟩
        show (Go.writeFile (s0.writes 0) s0.fs path (s0.ks.dump J)).1 path = _ ∨ _ ∧ (Go.writeFile (s0.writes 0) s0.fs path (s0.ks.dump J)).1 path = _
        cases ho : s0.writes 0 with
        | done => exact .inr ⟨rfl, Fs.set_same _ _ _⟩
        | openFails => exact .inl rfl
        | failsAfter k => exact absurd ho (hw 0 k)
      | arrive => exact ⟨hw, .inl rfl⟩
      | send => exact ⟨hw, .inl rfl⟩
      | crash => exact ⟨hw, .inl rfl⟩
      | hang => exact ⟨hw, .inl rfl⟩
      | wake => exact ⟨hw, .inl rfl⟩
      | told => exact ⟨hw, .inl rfl⟩
      | fatal => exact ⟨hw, .inl rfl⟩
      | tick => exact ⟨hw, .inl rfl⟩
    obtain ⟨hw1, hfs⟩ := key
    rcases ih hw1 with g | ⟨es1, s3, es2, g1, g2, g3⟩
    · rcases hfs with f | ⟨f1, f2⟩
      · exact .inl (g.trans f)
      · exact .inr ⟨[], s0, es, by rw [f1]; rfl, .nil _, g.trans f2⟩
    · exact .inr ⟨e :: es1, s3, es2, by rw [g1]; rfl, .cons h1 g2, g3⟩

/-- C141 is false: when the disk is full, all that is left is an empty file, with which no server
comes up. (`json.Unmarshal` rejects the empty input.) -/
theorem C141_torn_violated (hJ : J.dec [] = none) (d seed dA seedA : Bytes) (hd : d.length = 32) (hs : seed.length = 32)
    (path : Path) (writes : Nat → WriteOutcome) (hw : writes 0 = .failsAfter 0) :
    ∃ fs ks es s, Starts C A P J fs path ks fs ∧ Ordered J fs path ∧ Prompt C A P J sha256 path (initial ks fs writes) es s ∧
      s.fs path = some [] ∧ ∀ ks2 fs2, ¬ Starts C A P J s.fs path ks2 fs2 := by
  obtain ⟨fs, ks, h1, h2, h3, -⟩ := exServer C A P J d seed dA seedA [] [112] hd hs path
  have hen : (peerKeys C d seed [97] (ownerOf C dA seedA)).Enumerates [[97]] := enum_set enum_empty rfl _
  have hdist := peerKeys_distinct C d seed (ownerOf C dA seedA)
  have p0 := audit_round C (A := A) (P := P) (J := J) (sha256 := sha256) (path := path) (s := initial ks fs writes) ⟨rfl, rfl, rfl, rfl⟩ h3 hdist hen.finite rfl (by simp [initial])
  have p := prompt_append C p0 (write_round C A P J sha256 (t := (initial ks fs writes).now + 14400) ⟨rfl, rfl, rfl, rfl⟩ rfl rfl (by simp [initial]))
  have hfs : ∀ f : Fs, (Go.writeFile (writes 0) f path (ks.dump J)).1 path = some [] := by
    intro f
    rw [hw]
    simp [Go.writeFile]
  refine ⟨fs, ks, _, _, h1, h2, p, hfs fs, ?_⟩
  rintro ks2 fs2 ⟨write, pass, rng, t1, t2, t3, o, -, hb⟩
  obtain ⟨hl, -⟩ := boot_ok C hb
  obtain ⟨data, f, -, -, -, -, f1, f2, -⟩ := load_ok C hl
  have f1 : (Go.writeFile (writes 0) fs path (ks.dump J)).1 path = some data := f1
  rw [hfs fs] at f1
  cases f1
  rw [hJ] at f2
  cases f2

/-- The hypothesis can be met, by any encoder with a byte put in front. -/
example : ∃ J' : KeyJson, J'.dec [] = none :=
  ⟨{ enc := fun f => 0 :: J.enc f
     dec := fun b => match b with | [] => none | _ :: t => J.dec t
     dec_enc := fun f h1 h2 => J.dec_enc f h1 h2
     dec_clean := fun b f h => by cases b with | nil => cases h | cons _ t => exact J.dec_clean t f h
     dec_finite := fun b f h => by cases b with | nil => cases h | cons _ t => exact J.dec_finite t f h }, rfl⟩

/-! ### C142: the first start -/

/-- C142 is false: if there is no file, then whatever the passphrase, the server panics while it
generates its key, or, if randomness runs out, ends with an error. -/
theorem C142_first_start_violated (fs : Fs) (path : Path) (h : fs path = none) (write : WriteOutcome) (pass : Bytes) (rng : Rng)
    (t1 t2 t3 : BitVec 64) (o : Orders) :
    (64 ≤ rng.length → boot C A P J fs path write (some pass) rng t1 t2 t3 o = some .panic) ∧
    (rng.length < 64 → boot C A P J fs path write (some pass) rng t1 t2 t3 o = some (.ok (none, fs))) := by
  unfold boot loadStore
  rw [h]
  refine ⟨fun hr => ?_, fun hr => ?_⟩
  · simp [loadKeyStore, Props.Public.C23_generate_violated C rng hr]
  · simp [loadKeyStore, Props.Public.C23_short_rng_partial C rng hr]

/-- Starting writes nothing, whatever the file and the passphrase. Missing from the property: that a
key store is made, which it is not. -/
theorem C142_nothing_written_partial (fs fs' : Fs) (path : Path) (write : WriteOutcome) (pass : Option Bytes) (rng : Rng)
    (t1 t2 t3 : BitVec 64) (o : Orders) (ks : Option KeyStore)
    (h : boot C A P J fs path write pass rng t1 t2 t3 o = some (.ok (ks, fs'))) : fs' = fs := by
  have key : ∀ ks fs', loadStore C A P J fs path write pass rng t1 t2 t3 = .ok (ks, fs') → fs' = fs := by
    intro ks fs' hl
    cases ks with
    | some ks =>
      obtain ⟨_, _, _, _, _, _, -, -, -, f4, -⟩ := load_ok C hl
      exact f4
    | none =>
      unfold loadStore at hl
      cases pass with
      | none => cases hl; rfl
      | some p =>
        simp only at hl
        cases hf : fs path with
        | none =>
          rw [hf] at hl
          by_cases hr : 64 ≤ rng.length
          · simp [loadKeyStore, Props.Public.C23_generate_violated C rng hr] at hl
          · simp [loadKeyStore, Props.Public.C23_short_rng_partial C rng (by omega)] at hl
            exact hl.symm
        | some data =>
          rw [hf] at hl
          simp only [loadKeyStore, Res.ok_bind, Option.isNone_some, Bool.not_false, if_true] at hl
          cases hd : loadData J data with
          | none => rw [hd] at hl; cases hl; rfl
          | some ks0 =>
            rw [hd] at hl
            simp only at hl
            obtain ⟨v, hv, hl⟩ := Res.bind_eq_ok.mp hl
            cases v with
            | false => cases hl; rfl
            | true =>
              simp only [Bool.not_true, Bool.false_eq_true, if_false] at hl
              obtain ⟨⟨ks1, ok⟩, hu, hl⟩ := Res.bind_eq_ok.mp hl
              cases ok with
              | false => cases hl; rfl
              | true => cases hl
  unfold boot at h
  cases hl : loadStore C A P J fs path write pass rng t1 t2 t3 with
  | panic => rw [hl] at h; cases h
  | ok x =>
    obtain ⟨k, f⟩ := x
    have e := key k f hl
    subst e
    rw [hl] at h
    cases k with
    | none => cases h; rfl
    | some k =>
      simp only at h
      cases ha : k.keyAudit C o.audit o.walk o.fuel with
      | none => rw [ha] at h; cases h
      | some r =>
        rw [ha] at h
        cases r with
        | panic => cases h
        | ok b => cases b <;> cases h <;> rfl

/-- The server does start, with a file; and there are file systems without one. -/
example (d seed dA seedA : Bytes) (hd : d.length = 32) (hs : seed.length = 32) (path : Path) :
    (∃ fs ks, Starts C A P J fs path ks fs) ∧ ∃ fs : Fs, fs path = none := by
  obtain ⟨fs, ks, h1, -⟩ := exServer C A P J d seed dA seedA [] [112] hd hs path
  exact ⟨⟨fs, ks, h1⟩, fun _ => none, rfl⟩

end Verif.Props.KeysrvDisk
