import Verif.Props.Keysrv
/-!
The key server keeps running and answers (C138, C139).
-/

namespace Verif.Props.KeysrvLive
open Verif Verif.Go Verif.Model.Util Verif.Model.Public Verif.Model.KeyStore Verif.Model.Keysrv
open Verif.Spec.Public Verif.Spec.KeyStore Verif.Spec.Keysrv Verif.Proofs.KeyStore Verif.Proofs.Keysrv
open Verif.Spec.Fcrypt (Keyring Keyfile Opens)
open Verif.Proofs.Fcrypt (loaded opened opened_sound peerKeys exKeyring loadData_some)
open Verif.Props.KeyTrust Verif.Props.KeyImport Verif.Props.Keysrv

variable (C : Crypto) (A : Asn1) (P : Pem) (J : KeyJson) (sha256 : Bytes → Bytes)

/-! ### C138: no request stops the server -/

/-- A client's command is processed in any sound store. -/
theorem client_processed {ks : KeyStore} {owner : Bytes} {m : Keys} (h : Sound C ks owner m) (r : Request) (o : Orders) (clock : BitVec 64) :
    ∃ ks' resp, process C A P sha256 ks r.command o clock = some (.ok (ks', resp)) := by
  cases r with
  | server => exact ⟨_, _, rfl⟩
  | pubkey l => exact ⟨_, _, rfl⟩
  | fingerprint l => exact ⟨_, _, rfl⟩
  | upload l body =>
    show ∃ ks' resp, some (checkUpload C A P ks (Request.upload l body).command o clock) = some (.ok (ks', resp))
    unfold checkUpload
    split
    · exact ⟨_, _, rfl⟩
    · cases hi : ks.importVerifiedKey C A P (Request.upload l body).command.label (Request.upload l body).command.pub o.first o.second clock with
      | panic =>
        exfalso
        unfold KeyStore.importVerifiedKey at hi
        split at hi
        · cases hi
        · split at hi
          · cases hi
          · exact import_no_panic C h.keys h.noNil h.labelled hi
      | ok x =>
        obtain ⟨ks', ok⟩ := x
        cases ok
        · exact ⟨_, _, rfl⟩
        · exact ⟨_, _, rfl⟩

/-- An audit of a sound store goes on, or ends well. -/
theorem audit_processed {ks : KeyStore} {owner : Bytes} {m : Keys} (h : Sound C ks owner m) {o : Orders} (ho : o.Enumerate ks) (clock : BitVec 64) :
    process C A P sha256 ks Sender.auditor.command o clock = none ∨
      process C A P sha256 ks Sender.auditor.command o clock = some (.ok (ks, {})) := by
  obtain ⟨-, -, h1, h2⟩ := ho m h.keys
  simp only [process, Sender.command]
  rcases audit_sound_ok C h h1 h2 o.fuel with e | e
  · rw [e]; exact .inl rfl
  · rw [e]; exact .inr rfl

/-- The server is up, and the auditor has no bad news. -/
structure Up (s : State) (owner : Bytes) (m : Keys) : Prop where
  sound : Sound C s.ks owner m
  alive : s.Alive
  news : ∀ resp, s.mailbox = some resp → resp.err = none

theorem step_up {path : Path} {s s' : State} {e : Event} {owner : Bytes} {m : Keys} (h : Step C A P J sha256 path s e s')
    (hu : Up C s owner m) : ∃ m', Up C s' owner m' := by
  obtain ⟨m', hs⟩ := step_sound C h hu.sound
  refine ⟨m', hs, ?_, ?_⟩
  · cases h with
    | handle x rest o clock ks resp hp hq ho hpr =>
      cases x <;> exact .inl hp
    | crash x rest o clock hp hq ho hpr =>
      exfalso
      cases x with
      | client n r =>
        obtain ⟨ks', resp, e⟩ := client_processed C A P sha256 hu.sound r o clock
        have hpr : process C A P sha256 s.ks r.command o clock = some .panic := hpr
        rw [e] at hpr
        cases hpr
      | auditor =>
        rcases audit_processed C A P sha256 hu.sound ho clock with e | e
        · rw [e] at hpr; cases hpr
        · rw [e] at hpr; cases hpr
    | hang => exact .inr rfl
    | fatal resp ha hm he => exact absurd (hu.news resp hm) he
    | arrive _ _ h => exact h
    | send _ _ _ h => exact h
    | dump h => exact .inl h
    | wake _ h => exact h
    | told _ h => exact h
    | tick _ h => exact h
  · cases h with
    | handle x rest o clock ks resp hp hq ho hpr =>
      cases x with
      | client n r => exact hu.news
      | auditor =>
        intro resp' hr
        cases hr
        rcases audit_processed C A P sha256 hu.sound ho clock with e | e
        · rw [e] at hpr; cases hpr
        · rw [e] at hpr; cases hpr; rfl
    | told => intro resp hr; cases hr
    | arrive => exact hu.news
    | send => exact hu.news
    | crash => exact hu.news
    | hang => exact hu.news
    | dump => exact hu.news
    | wake => exact hu.news
    | fatal => exact hu.news
    | tick => exact hu.news

theorem run_up {path : Path} {s s' : State} {es : List Event} {owner : Bytes} {m : Keys} (h : Run C A P J sha256 path s es s')
    (hu : Up C s owner m) : ∃ m', Up C s' owner m' := by
  induction h generalizing m with
  | nil => exact ⟨m, hu⟩
  | cons h1 _ ih =>
    obtain ⟨m1, h2⟩ := step_up C A P J sha256 h1 hu
    exact ih h2

theorem initial_up {ks : KeyStore} {fs : Fs} {writes : Nat → WriteOutcome} {owner : Bytes} {m : Keys} (h : Sound C ks owner m) :
    Up C (initial ks fs writes) owner m :=
  ⟨h, .inl rfl, fun resp h => by cases h⟩

/-- If the server comes up with a file in which no record is called "self" and every record is
stored under its own label, then whatever requests arrive, it does not panic, and its audits do not
stop it. -/
theorem C138_stays_up_partial (fs fs' : Fs) (path : Path) (ks : KeyStore) (h : Starts C A P J fs path ks fs')
    (ho : Ordered J fs path) (writes : Nat → WriteOutcome) (es : List Event) (s : State)
    (hr : Run C A P J sha256 path (initial ks fs' writes) es s) :
    s.phase ≠ .crashed ∧ s.phase ≠ .exited ∧ (∀ x, .crash x ∉ es) ∧ .fatal ∉ es := by
  obtain ⟨owner, m0, hs⟩ := starts_sound C h ho
  have hu := initial_up C (fs := fs') (writes := writes) hs
  have key : ∀ {s0 s1 : State} {es m}, Up C s0 owner m → Run C A P J sha256 path s0 es s1 → (∀ x, .crash x ∉ es) ∧ .fatal ∉ es := by
    intro s0 s1 es m hu hr
    induction hr generalizing m with
    | nil => simp
    | @cons _ _ _ e _ h1 _ ih =>
      obtain ⟨m1, h2⟩ := step_up C A P J sha256 h1 hu
      obtain ⟨i1, i2⟩ := ih h2
      have hne : (∀ x, e ≠ Event.crash x) ∧ e ≠ Event.fatal := by
        refine ⟨fun x e => ?_, fun e => ?_⟩
        · subst e
          cases h1 with
          | crash => rcases h2.alive with e | e <;> cases e
        · subst e
          cases h1 with
          | fatal => rcases h2.alive with e | e <;> cases e
      refine ⟨fun x hx => ?_, fun hx => ?_⟩
      · rcases List.mem_cons.mp hx with e | e
        · exact hne.1 x e.symm
        · exact i1 x e
      · rcases List.mem_cons.mp hx with e | e
        · exact hne.2 e.symm
        · exact i2 e
  obtain ⟨m, h1⟩ := run_up C A P J sha256 hr hu
  obtain ⟨k1, k2⟩ := key hu hr
  refine ⟨?_, ?_, k1, k2⟩
  · rcases h1.alive with e | e <;> rw [e] <;> decide
  · rcases h1.alive with e | e <;> rw [e] <;> decide

/-- The hypotheses can be met. -/
example (d seed dA seedA : Bytes) (hd : d.length = 32) (hs : seed.length = 32) (path : Path) :
    ∃ (fs : Fs) (ks : KeyStore), Starts C A P J fs path ks fs ∧ Ordered J fs path := by
  obtain ⟨fs, ks, h1, h2, -⟩ := exServer C A P J d seed dA seedA [] [112] hd hs path
  exact ⟨fs, ks, h1, h2⟩

/-- A key store with a record stored under "x" that says it is "y". -/
def mislabelled (owner : Bytes) (v : VerifiedKey) (locked : Bytes) : KeyFields :=
  { version := 1, timestamp := 5, keys := some (Map.empty.set [120] (some (recordFor [121] v)))
    lockedKey := some locked, publicKey := some owner, exportKey := none }

theorem mislabelled_dec (owner : Bytes) (v : VerifiedKey) (box : Bytes) :
    J.dec (J.enc (mislabelled owner v box)) = some (mislabelled owner v box) := by
  have key : ∀ k r, (Map.empty.set [120] (some (recordFor [121] v)) : Keys) k = some r → k = [120] ∧ r = some (recordFor [121] v) := by
    intro k r h
    by_cases hk : k = [120]
    · subst hk
      rw [Map.set_same] at h
      cases h
      exact ⟨rfl, rfl⟩
    · rw [Map.set_other _ _ hk] at h
      cases h
  refine J.dec_enc _ ?_ ?_
  · intro m hm
    cases hm
    refine ⟨Map.finite_empty.set _ _, fun k r md h1 h2 => ?_⟩
    cases (key k _ h1).2
    cases h2
  · intro m hm k x hk
    cases hm
    obtain ⟨rfl, rfl⟩ := key k _ hk
    refine ⟨by decide, fun r hr => ?_⟩
    cases hr
    exact ⟨(by decide : ValidUtf8 [121]), fun md j x h => by cases h⟩

theorem upload_panics {ks : KeyStore} {label body l : Bytes} {v : VerifiedKey} {o : Orders} (hn : ¬ (label = self ∨ label = []))
    (hd : P.dec body = some (verifiedKeyType, A.enc v)) (hq : ks.validQuick = true) (hh : ks.has label = false)
    (hs : v.signer ≠ ks.pubBytes) (hf : ks.findPublic v.signer o.first = .ok (some l)) (hg : ks.get l = none) (clock : BitVec 64) :
    process C A P sha256 ks (Request.upload label body).command o clock = some .panic := by
  have h1 : ks.importVerified C A label (A.enc v) o.first o.second clock = .panic := by
    unfold KeyStore.importVerified
    rw [hq, hh, A.dec_enc]
    simp [hs, hf, hg, deref]
  have h2 : ks.importVerifiedKey C A P label body o.first o.second clock = .panic := by
    unfold KeyStore.importVerifiedKey
    rw [hd]
    simp [h1]
  simp only [process, Request.command, checkUpload, hn, if_false, h2]
  rfl

/-- C138 is false of a file with a record stored under a label other than its own: the server comes
up, all keys having chains to its own, and the holder of that key makes it panic with one upload. -/
theorem C138_mislabelled_violated (fs : Fs) (path : Path) (d seed dA seedA pk box pass : Bytes) (hs : seed.length = 32)
    (hne : ownerOf C dA seedA ≠ ownerOf C d seed)
    (hfile : fs path = some (J.enc (mislabelled (ownerOf C d seed) (statement C d seed (ownerOf C dA seedA) 5) box)))
    (hop : Opens C (mislabelled (ownerOf C d seed) (statement C d seed (ownerOf C dA seedA) 5) box) d seed pass)
    (writes : Nat → WriteOutcome) :
    ∃ ks m es s, Starts C A P J fs path ks fs ∧ ks.keys = some m ∧ (∀ l, m l ≠ none → Chain C (ownerOf C d seed) m l) ∧
      Prompt C A P J sha256 path (initial ks fs writes) es s ∧
      es = [.arrive 0 (.upload [122] ((statement C dA seedA pk 7).serialise A P)),
        .send (.client 0 (.upload [122] ((statement C dA seedA pk 7).serialise A P))),
        .crash (.client 0 (.upload [122] ((statement C dA seedA pk 7).serialise A P)))] ∧
      s.phase = .crashed := by
  have hdec := mislabelled_dec J (ownerOf C d seed) (statement C d seed (ownerOf C dA seedA) 5) box
  let m : Keys := Map.empty.set [120] (some (recordFor [121] (statement C d seed (ownerOf C dA seedA) 5)))
  let f := mislabelled (ownerOf C d seed) (statement C d seed (ownerOf C dA seedA) 5) box
  have hk : Keyfile J fs path (ownerOf C d seed) f m :=
    ⟨⟨_, hfile, hdec⟩, rfl, by simp [f, mislabelled], rfl, ownerOf_length C d seed, rfl, by simp [f, mislabelled]⟩
  let x := (statement C d seed (ownerOf C d seed) 3).serialise A P
  let ks := opened C f m d seed x
  have hen : m.Enumerates [[120]] := enum_set enum_empty rfl _
  have hq : ks.validQuick = true := (quick_iff _).mpr ⟨rfl, by simp [ks, opened, f, mislabelled], m, rfl⟩
  have hmx : m [120] = some (some (recordFor [121] (statement C d seed (ownerOf C dA seedA) 5))) := Map.set_same _ _ _
  have hsg : SignedRec C (ownerOf C d seed) (recordFor [121] (statement C d seed (ownerOf C dA seedA) 5)) :=
    statement_signed C d seed _ 5 hs
  have hvks : ∀ o, ks.verifyKeySignature C [120] o = .ok (some self) := fun o =>
    vks_owner C hq (by decide) ((get_some rfl).mpr hmx) rfl hsg
  have haudit : ks.keyAudit C [[120]] (fun _ _ => [[120]]) 1 = some (.ok true) := by
    have hh : ks.has [120] = true := (has_iff hq rfl _).mpr (.inr (by rw [hmx]; simp))
    simp [KeyFields.keyAudit, KeyFields.auditLoop, KeyFields.verifyChain, KeyFields.chainLoop, hq, hh, hvks]
  have hst : Starts C A P J fs path ks fs := by
    refine ⟨.done, some pass, [], 1, 2, 3, steady [[120]] 1, steady_enumerate rfl hen 1, ?_⟩
    unfold boot
    rw [load_complete C hk hop]
    simp only
    have e2 : (opened C f m d seed (f.exportKey.getD x)).keyAudit C (steady [[120]] 1).audit (steady [[120]] 1).walk (steady [[120]] 1).fuel
        = some (.ok true) := haudit
    rw [e2]
    rfl
  have hpanic : process C A P sha256 ks (Request.upload [122] ((statement C dA seedA pk 7).serialise A P)).command (steady [[120]] 1) 0
      = some .panic := by
    have hn : ¬ (([122] : Bytes) = self ∨ ([122] : Bytes) = []) := by decide
    have hh : ks.has [122] = false := (has_false hq rfl _).mpr ⟨by decide, Map.set_other _ _ (by decide)⟩
    have hd : P.dec ((statement C dA seedA pk 7).serialise A P) = some (verifiedKeyType, A.enc (statement C dA seedA pk 7)) :=
      P.dec_enc _ _ (by decide) (A.enc_ne _)
    have hpb : ks.pubBytes = ownerOf C d seed := rfl
    have hsn : (statement C dA seedA pk 7).signer ≠ ownerOf C d seed := hne
    have hfind : ks.findPublic (statement C dA seedA pk 7).signer [[120]] = .ok (some [121]) := by
      unfold KeyFields.findPublic
      rw [hpb, if_neg hsn]
      show findLoop m (ownerOf C dA seedA) [[120]] = _
      simp [findLoop, hmx, recordFor, PublicKeyRecord.keyBytes, statement]
    have hget : ks.get [121] = none := by
      show ((m [121]).join) = none
      rw [show m [121] = none from Map.set_other _ _ (by decide)]
      rfl
    exact upload_panics C A P sha256 hn hd hq hh hsn hfind hget 0
  refine ⟨ks, m, _, { initial ks fs writes with phase := .crashed }, hst, rfl, ?_, ?_, rfl, rfl⟩
  · intro l hl
    by_cases h : l = [120]
    · subst h
      exact .owner hmx hsg
    · exact absurd (Map.set_other _ _ h) hl
  · refine .cons (.arrive _ 0 _ (.inl rfl)) (by simp) ?_
    refine .cons (.send _ [] [] (.client 0 (.upload [122] ((statement C dA seedA pk 7).serialise A P))) (.inl rfl) rfl (by simp [initial])) (by simp) ?_
    refine .cons (.crash _ (.client 0 (.upload [122] ((statement C dA seedA pk 7).serialise A P))) [] (steady [[120]] 1) 0 rfl rfl
      (steady_enumerate rfl hen 1) hpanic) (by simp) ?_
    exact .nil _

/-- The hypotheses can be met. -/
example : ∃ d seed dA seedA box pass : Bytes, seed.length = 32 ∧ ownerOf Toy.crypto dA seedA ≠ ownerOf Toy.crypto d seed ∧
    Opens Toy.crypto (mislabelled (ownerOf Toy.crypto d seed) (statement Toy.crypto d seed (ownerOf Toy.crypto dA seedA) 5) box)
      d seed pass := by
  obtain ⟨box, -, -, hb⟩ := (Props.Public.C24_lock_roundtrip Toy.crypto (pairOf Toy.crypto (List.replicate 32 1) (List.replicate 32 2))
    (pairOf_wt Toy.crypto _ _ (by decide) (by decide)) (pairOf_valid Toy.crypto _ _) [112] (List.replicate 56 7)).2 (by simp)
  exact ⟨List.replicate 32 1, List.replicate 32 2, List.replicate 32 3, List.replicate 32 4, box, [112], by decide, by decide,
    ⟨by decide, by decide, box, rfl, hb⟩⟩

/-! ### C139: every request is answered -/

theorem clients_append (a b : List Sender) : clients (a ++ b) = clients a ++ clients b := by
  induction a with
  | nil => rfl
  | cons x t ih => cases x <;> simp [clients, ih]

theorem arrived_cons (e : Event) (es : List Event) : arrived (e :: es) = arrived [e] ++ arrived es := by
  cases e <;> rfl

/-- The dispatcher takes commands in the order in which they were sent, and none is lost in the
channel: in every execution from every state. -/
theorem C139_order (path : Path) (s s' : State) (es : List Event) (h : Run C A P J sha256 path s es s') :
    taken es ++ s'.queue = s.queue ++ sent es := by
  induction h with
  | nil => simp [taken, sent]
  | @cons s0 s1 s2 e es h1 _ ih =>
    cases h1 with
    | send => simp only [taken, sent, ih, List.append_assoc, List.singleton_append]
    | handle x rest o clock ks resp hp hq ho hpr =>
      have e : (State.deliver { s0 with ks := ks, queue := rest, deadline := s0.now + 600 } x resp).queue = rest := by
        cases x <;> rfl
      rw [e] at ih
      simp [taken, sent, ih, hq]
    | crash x rest o clock hp hq => simp [taken, sent, ih, hq]
    | hang x rest o clock hp hq => simp [taken, sent, ih, hq]
    | arrive => simpa [taken, sent] using ih
    | dump => simpa [taken, sent] using ih
    | wake => simpa [taken, sent] using ih
    | told => simpa [taken, sent] using ih
    | fatal => simpa [taken, sent] using ih
    | tick => simpa [taken, sent] using ih

/-- Only an audit can hang. -/
theorem hang_audit {path : Path} {s s' : State} {x : Sender} {owner : Bytes} {m : Keys} (h : Step C A P J sha256 path s (.hang x) s')
    (hs : Sound C s.ks owner m) : x = .auditor := by
  cases h with
  | hang _ rest o clock hp hq ho hpr =>
    cases x with
    | auditor => rfl
    | client n r =>
      obtain ⟨ks', resp, e⟩ := client_processed C A P sha256 hs r { o with fuel := 0 } clock
      have hpr : process C A P sha256 s.ks r.command { o with fuel := 0 } clock = none := hpr 0
      rw [e] at hpr
      cases hpr

theorem step_account {path : Path} {s s' : State} {e : Event} {owner : Bytes} {m : Keys} (h : Step C A P J sha256 path s e s')
    (hu : Up C s owner m) :
    (answered s' ++ clients (s'.queue ++ s'.sending)).Perm (answered s ++ clients (s.queue ++ s.sending) ++ arrived [e]) ∧
      answered s' = answered s ++ clients (taken [e]) := by
  obtain ⟨m', hu'⟩ := step_up C A P J sha256 h hu
  have h0 := h
  cases h with
  | arrive => simp [answered, arrived, taken, clients, clients_append]
  | send a b x ha hq hl =>
    refine ⟨?_, by simp [answered, taken, clients]⟩
    simp only [arrived, List.append_nil, hq]
    refine List.Perm.append (.refl _) ?_
    simp only [clients_append, List.append_assoc]
    refine List.Perm.append (.refl _) ?_
    cases x with
    | auditor => simp [clients]
    | client n r =>
      simp only [clients, List.singleton_append]
      exact List.perm_middle.symm
  | handle x rest o clock ks resp hp hq ho hpr =>
    cases x <;> simp [answered, arrived, taken, clients, clients_append, State.deliver, hq]
  | crash => rcases hu'.alive with e | e <;> cases e
  | hang x rest o clock hp hq ho hpr =>
    cases hang_audit C A P J sha256 h0 hu.sound
    simp [answered, arrived, taken, clients, hq]
  | dump => simp [answered, arrived, taken, clients]
  | wake => simp [answered, arrived, taken, clients, clients_append]
  | told => simp [answered, arrived, taken, clients]
  | fatal => rcases hu'.alive with e | e <;> cases e
  | tick => simp [answered, arrived, taken, clients]

theorem taken_cons (e : Event) (es : List Event) : taken (e :: es) = taken [e] ++ taken es := by
  cases e <;> rfl

theorem run_account {path : Path} {s s' : State} {es : List Event} {owner : Bytes} {m : Keys} (h : Run C A P J sha256 path s es s')
    (hu : Up C s owner m) :
    (answered s' ++ clients (s'.queue ++ s'.sending)).Perm (answered s ++ clients (s.queue ++ s.sending) ++ arrived es) ∧
      answered s' = answered s ++ clients (taken es) := by
  induction h generalizing m with
  | nil => simp [arrived, taken, clients]
  | @cons s0 s1 _ e es h1 _ ih =>
    obtain ⟨m1, h2⟩ := step_up C A P J sha256 h1 hu
    obtain ⟨i1, i2⟩ := ih h2
    obtain ⟨j1, j2⟩ := step_account C A P J sha256 h1 hu
    rw [arrived_cons, taken_cons]
    refine ⟨i1.trans ?_, ?_⟩
    · rw [← List.append_assoc]
      exact j1.append (.refl _)
    · rw [i2, j2, clients_append, List.append_assoc]

/-- Of a server that comes up with an orderly file: every request that arrives is answered exactly
once or is still waiting, nobody else is answered, and requests are answered in the order in which
their handlers got to send their commands. -/
theorem C139_once_partial (fs fs' : Fs) (path : Path) (ks : KeyStore) (h : Starts C A P J fs path ks fs')
    (ho : Ordered J fs path) (writes : Nat → WriteOutcome) (es : List Event) (s : State)
    (hr : Run C A P J sha256 path (initial ks fs' writes) es s) :
    (answered s ++ clients (s.queue ++ s.sending)).Perm (arrived es) ∧
      answered s ++ clients s.queue = clients (sent es) := by
  obtain ⟨owner, m0, hs⟩ := starts_sound C h ho
  obtain ⟨h1, h2⟩ := run_account C A P J sha256 hr (initial_up C (fs := fs') (writes := writes) hs)
  refine ⟨by simpa [answered, initial, clients] using h1, ?_⟩
  have h3 := C139_order C A P J sha256 path _ _ _ hr
  have h4 : clients (taken es ++ s.queue) = clients (sent es) := by
    rw [h3]
    rfl
  rw [clients_append] at h4
  rw [h2, ← h4]
  simp [answered, initial]

theorem step_hang {path : Path} {s s' : State} {x : Sender} {owner : Bytes} {m : Keys} (h : Step C A P J sha256 path s (.hang x) s')
    (hs : Sound C s.ks owner m) : ¬ Distinct m := by
  intro hd
  have hx := hang_audit C A P J sha256 h hs
  subst hx
  cases h with
  | hang _ rest o clock hp hq ho hpr =>
    obtain ⟨-, -, h1, h2⟩ := ho m hs.keys
    obtain ⟨n, hn⟩ := (chain_terminates C hs hd).2 o.audit h1
    have := hpr n
    simp [process, Sender.command, hn o.walk h2] at this

/-- As long as no key is on record twice, the server is at its work. -/
theorem run_running {path : Path} {s s' : State} {es : List Event} {owner : Bytes} {m m' : Keys} (h : Run C A P J sha256 path s es s')
    (hu : Up C s owner m) (hr : s.phase = .running) (hm' : s'.ks.keys = some m') (hd : Distinct m') : s'.phase = .running := by
  induction h generalizing m with
  | nil => exact hr
  | @cons s0 s1 s2 e es h1 h2 ih =>
    obtain ⟨m1, hu1⟩ := step_up C A P J sha256 h1 hu
    refine ih hu1 ?_ hm'
    have hd0 : Distinct m := by
      obtain ⟨m3, k1, k2, -⟩ := run_kept C (.cons h1 h2) hu.sound.keys
      rw [hm'] at k1
      cases k1
      intro l l' r r' g1 g2 g3
      exact hd l l' r r' ((k2 l (by rw [g1]; simp)).trans g1) ((k2 l' (by rw [g2]; simp)).trans g2) g3
    have ha := hu1.alive
    cases h1 with
    | arrive => exact hr
    | send => exact hr
    | handle x => cases x <;> exact hr
    | crash => rcases ha with e | e <;> cases e
    | hang x rest o clock hp hq ho hpr =>
      exact absurd hd0 (step_hang C A P J sha256 (.hang (path := path) s0 x rest o clock hp hq ho hpr) hu.sound)
    | dump => exact hr
    | wake => exact hr
    | told => exact hr
    | fatal => rcases ha with e | e <;> cases e
    | tick => exact hr

/-- A running server with something to do can do it. -/
theorem busy {path : Path} {s : State} {owner : Bytes} {m : Keys} (hs : Sound C s.ks owner m) (hd : Distinct m) (hfin : m.Finite)
    (hr : s.phase = .running) (hb : s.queue ++ s.sending ≠ []) :
    (∃ x s', Step C A P J sha256 path s (.send x) s') ∨ ∃ x resp s', Step C A P J sha256 path s (.handle x resp) s' := by
  obtain ⟨order, hen⟩ := hfin.enumerates
  cases hq : s.queue with
  | nil =>
    rw [hq] at hb
    cases hsd : s.sending with
    | nil => rw [hsd] at hb; exact absurd rfl hb
    | cons x t => exact .inl ⟨x, _, .send s [] t x (.inl hr) hsd (by simp [hq])⟩
  | cons x rest =>
    refine .inr ⟨x, ?_⟩
    cases x with
    | client n r =>
      obtain ⟨ks', resp, e⟩ := client_processed C A P sha256 hs r (steady order 0) 0
      exact ⟨resp, _, .handle s (.client n r) rest (steady order 0) 0 ks' resp hr hq (steady_enumerate hs.keys hen 0) e⟩
    | auditor =>
      obtain ⟨n, hn⟩ := (chain_terminates C hs hd).2 order hen
      refine ⟨{}, _, .handle s .auditor rest (steady order n) 0 s.ks {} hr hq (steady_enumerate hs.keys hen n) ?_⟩
      simp [process, Sender.command, steady, hn _ (fun _ _ => hen)]

/-- Of a server that comes up with an orderly file, as long as no key has been uploaded under a second
label: it is at its work, and on a fast machine all requests have been answered whenever time passes. -/
theorem C139_answered_partial (fs fs' : Fs) (path : Path) (ks : KeyStore) (h : Starts C A P J fs path ks fs')
    (ho : Ordered J fs path) (writes : Nat → WriteOutcome) (es : List Event) (s : State)
    (hr : Prompt C A P J sha256 path (initial ks fs' writes) es s) (m : Keys) (hm : s.ks.keys = some m) (hd : Distinct m) :
    s.phase = .running ∧ ∀ d, 0 < d → s.Idle C A P J sha256 path d → (answered s).Perm (arrived es) := by
  obtain ⟨owner, m0, hs⟩ := starts_sound C h ho
  have hr' := prompt_run C hr
  have hu := initial_up C (fs := fs') (writes := writes) hs
  have hph := run_running C A P J sha256 hr' hu rfl hm hd
  refine ⟨hph, fun d hd0 hi => ?_⟩
  obtain ⟨m1, hu1⟩ := run_up C A P J sha256 hr' hu
  obtain ⟨m2, e2, hf⟩ := run_finite C hr' (hs.keys) (starts_finite C h hs.keys)
  have e1 := hu1.sound.keys
  rw [hm] at e1 e2
  cases e1
  cases e2
  have hi := hi 0 hd0
  have hempty : s.queue ++ s.sending = [] := by
    apply Classical.byContradiction
    intro hne
    rcases busy C A P J sha256 (path := path) hu1.sound hd hf hph hne with ⟨x, s', hst⟩ | ⟨x, resp, s', hst⟩
    · rcases hi _ _ hst with ⟨n, r, e⟩ | ⟨d', e⟩ <;> cases e
    · rcases hi _ _ hst with ⟨n, r, e⟩ | ⟨d', e⟩ <;> cases e
  have := (C139_once_partial C A P J sha256 fs fs' path ks h ho writes es s hr').1
  rw [hempty] at this
  simpa [clients] using this

/-- From every state such a server can reach in which no audit is pending, all requests can be
answered without waiting, whatever they are. -/
theorem C139_drained_partial (path : Path) (s : State) (owner : Bytes) (m : Keys) (hs : Sound C s.ks owner m) (hf : m.Finite)
    (hr : s.phase = .running) (hn : .auditor ∉ s.queue ++ s.sending) :
    ∃ es s', Run C A P J sha256 path s es s' ∧ s'.queue = [] ∧ s'.sending = [] ∧ s'.now = s.now ∧ s'.phase = .running ∧
      (∀ e ∈ es, (∃ x, e = .send x) ∨ ∃ x resp, e = .handle x resp) ∧
      (answered s').Perm (answered s ++ clients (s.queue ++ s.sending)) := by
  obtain ⟨k, hk⟩ : ∃ k, k = 2 * s.sending.length + s.queue.length := ⟨_, rfl⟩
  induction k using Nat.strongRecOn generalizing s m with
  | ind k ih =>
    cases hq : s.queue with
    | nil =>
      cases hsd : s.sending with
      | nil => exact ⟨[], s, .nil _, hq, hsd, rfl, hr, by simp, by simp [clients]⟩
      | cons x t =>
        have hst : Step C A P J sha256 path s (.send x) { s with sending := [] ++ t, queue := s.queue ++ [x] } :=
          .send s [] t x (.inl hr) hsd (by simp [hq])
        obtain ⟨es, s', h1, h2, h3, h4, h5, h6, h7⟩ := ih (2 * t.length + 1) (by rw [hk, hsd, hq]; simp; omega)
          { s with sending := [] ++ t, queue := s.queue ++ [x] } m hs hf hr (by rw [hsd, hq] at hn; simpa [hq] using hn) (by simp [hq])
        refine ⟨_, s', .cons hst h1, h2, h3, h4, h5, ?_, ?_⟩
        · intro e he
          rcases List.mem_cons.mp he with e1 | e1
          · exact .inl ⟨x, e1⟩
          · exact h6 e e1
        · refine h7.trans ?_
          simp [answered, hq]
    | cons x rest =>
      cases x with
      | auditor => exact absurd (by rw [hq]; simp) hn
      | client n r =>
        obtain ⟨order, hen⟩ := hf.enumerates
        obtain ⟨ks', resp, e⟩ := client_processed C A P sha256 hs r (steady order 0) 0
        have hst : Step C A P J sha256 path s (.handle (.client n r) resp) _ :=
          .handle s (.client n r) rest (steady order 0) 0 ks' resp hr hq (steady_enumerate hs.keys hen 0) e
        obtain ⟨m1, hs1⟩ := step_sound C hst hs
        obtain ⟨m2, e2, hf2⟩ := step_finite C hst hs.keys hf
        have e1 := hs1.keys
        rw [e2] at e1
        cases e1
        obtain ⟨es, s', h1, h2, h3, h4, h5, h6, h7⟩ := ih (2 * s.sending.length + rest.length) (by rw [hk, hq]; simp) _ _ hs1 hf2 hr
          (by rw [hq] at hn; simp at hn; simpa [State.deliver] using hn) rfl
        refine ⟨_, s', .cons hst h1, h2, h3, h4, h5, ?_, ?_⟩
        · intro e he
          rcases List.mem_cons.mp he with e1 | e1
          · exact .inr ⟨_, _, e1⟩
          · exact h6 e e1
        · refine h7.trans ?_
          simp [answered, State.deliver, clients]

/-- The hypotheses can be met, with three requests waiting. -/
example (d seed dA seedA : Bytes) (hd : d.length = 32) (hs : seed.length = 32) (path : Path) :
    ∃ (s : State) (m : Keys), Sound C s.ks (ownerOf C d seed) m ∧ m.Finite ∧ s.phase = .running ∧ .auditor ∉ s.queue ++ s.sending ∧
      clients (s.queue ++ s.sending) = [(0, .server), (1, .upload [98] []), (2, .pubkey [97])] := by
  obtain ⟨fs, ks, h1, -, h3, -⟩ := exServer C A P J d seed dA seedA [] [112] hd hs path
  refine ⟨{ initial ks fs (fun _ => .done) with queue := [.client 0 .server, .client 1 (.upload [98] [])], sending := [.client 2 (.pubkey [97])] },
    _, h3, starts_finite C h1 h3.keys, rfl, by simp, rfl⟩

theorem peerKeys_distinct (d seed pk : Bytes) : Distinct (peerKeys C d seed [97] pk) := by
  intro l l' r r' h1 h2 _
  unfold peerKeys at h1 h2
  by_cases hl : l = [97]
  · by_cases hl' : l' = [97]
    · rw [hl, hl']
    · rw [Map.set_other _ _ hl'] at h2
      cases h2
  · rw [Map.set_other _ _ hl] at h1
    cases h1

/-- The hypotheses can be met: after the first audit and a request, the server is idle. -/
example (d seed dA seedA : Bytes) (hd : d.length = 32) (hs : seed.length = 32) (path : Path) (writes : Nat → WriteOutcome) :
    ∃ fs ks es s m, Starts C A P J fs path ks fs ∧ Ordered J fs path ∧ Prompt C A P J sha256 path (initial ks fs writes) es s ∧
      s.ks.keys = some m ∧ Distinct m ∧ s.Idle C A P J sha256 path 600 ∧ arrived es = [(7, .pubkey [97])] := by
  obtain ⟨fs, ks, h1, h2, h3, -⟩ := exServer C A P J d seed dA seedA [] [112] hd hs path
  have hdist := peerKeys_distinct C d seed (ownerOf C dA seedA)
  have hen : (peerKeys C d seed [97] (ownerOf C dA seedA)).Enumerates [[97]] := enum_set enum_empty rfl _
  have p1 := audit_round C (A := A) (P := P) (J := J) (sha256 := sha256) (path := path) (s := initial ks fs writes) ⟨rfl, rfl, rfl, rfl⟩ h3 hdist hen.finite rfl (by simp [initial])
  obtain ⟨ks', resp, e⟩ := client_processed C A P sha256 h3 (.pubkey [97]) (steady [[97]] 0) 0
  have e' := e
  simp only [process, Request.command, Option.some.injEq, Res.ok.injEq, Prod.mk.injEq] at e'
  have p2 := serve C (A := A) (P := P) (J := J) (sha256 := sha256) (path := path)
    (s := { initial ks fs writes with deadline := (initial ks fs writes).now + 600, nextAudit := some ((initial ks fs writes).now + 14400) })
    rfl rfl rfl 7 (.pubkey [97]) (steady_enumerate h3.keys hen 0) e
  refine ⟨fs, ks, _, _, _, h1, h2, prompt_append C p1 p2, ?_, hdist, ?_, rfl⟩
  · show ks'.keys = _
    rw [← e'.1]
    exact h3.keys
  · exact quiet_idle C (t := (initial ks fs writes).now + 14400) ⟨rfl, rfl, rfl, rfl⟩ rfl (by simp [initial]) (by simp [initial])

/-- A hung server does nothing. -/
theorem run_hung {path : Path} {s s' : State} {es : List Event} (h : Run C A P J sha256 path s es s') (hp : s.phase ≠ .running) :
    s'.phase ≠ .running ∧ s'.replies = s.replies ∧ s'.fs = s.fs ∧ s'.ks = s.ks := by
  induction h with
  | nil => exact ⟨hp, rfl, rfl, rfl⟩
  | cons h1 _ ih =>
    cases h1 with
    | arrive => exact ih hp
    | send => exact ih hp
    | handle _ _ _ _ _ _ hr => exact absurd hr hp
    | crash _ _ _ _ hr => exact absurd hr hp
    | hang _ _ _ _ hr => exact absurd hr hp
    | dump hr => exact absurd hr hp
    | wake => exact ih hp
    | told => exact ih hp
    | fatal => exact ih (by simp)
    | tick => exact ih hp

/-- An audit that does not end. -/
theorem hang_round {path : Path} {s : State} (hq : Quiet s) {t : Nat} (ht : s.nextAudit = some t) (hle : t ≤ s.now)
    {o : Orders} (ho : o.Enumerate s.ks) (hn : ∀ fuel, s.ks.keyAudit C o.audit o.walk fuel = none) :
    Prompt C A P J sha256 path s [.wake, .send .auditor, .hang .auditor] { s with nextAudit := none, phase := .hung } := by
  have hp : ∀ fuel, process C A P sha256 s.ks Sender.auditor.command { o with fuel := fuel } 0 = none := by
    intro fuel
    simp only [process, Sender.command]
    rw [hn fuel]
  obtain ⟨ks0, fs, writes, now, deadline, sending, queue, mailbox, nextAudit, replies, phase⟩ := s
  obtain ⟨g1, g2, g3, g4⟩ := hq
  simp only at g1 g2 g3 g4 ho hp ht hle
  subst g1 g2 g3 g4 ht
  refine .cons (.wake _ t (.inl rfl) rfl hle) (by simp) ?_
  refine .cons (.send _ [] [] .auditor (.inl rfl) rfl (by simp)) (by simp) ?_
  refine .cons (.hang _ .auditor [] o 0 rfl rfl ho hp) (by simp) ?_
  exact .nil _

/-- Two keys that vouch for each other, seen in the wrong order. -/
theorem audit_circle {ks : KeyStore} {m : Keys} {rb rc : PublicKeyRecord} {a b owner : Bytes} (hq : ks.validQuick = true) (hm : ks.keys = some m)
    (hp : ks.pubBytes = owner) (hb : m [98] = some (some rb)) (hc : m [99] = some (some rc)) (na : a ≠ owner) (nb : b ≠ owner) (nab : a ≠ b)
    (b1 : rb.keyBytes = b) (b2 : rb.keySigner = a) (b3 : rb.label = [98]) (b4 : SignedRec C a rb)
    (c1 : rc.keyBytes = a) (c2 : rc.keySigner = b) (c3 : rc.label = [99]) (c4 : SignedRec C b rc) (fuel : Nat) :
    ks.keyAudit C [[99], [98], [97]] (fun _ _ => [[99], [98], [97]]) fuel = none := by
  have f1 : ks.findPublic a [[99], [98], [97]] = .ok (some [99]) := by
    unfold KeyFields.findPublic
    rw [hp, if_neg na, hm]
    simp [findLoop, hc, c1, c3]
  have f2 : ks.findPublic b [[99], [98], [97]] = .ok (some [98]) := by
    unfold KeyFields.findPublic
    rw [hp, if_neg nb, hm]
    simp [findLoop, hb, hc, c1, b1, b3, nab.symm]
  have v1 : ks.verifyKeySignature C [98] [[99], [98], [97]] = .ok (some [99]) :=
    vks_other C hq (by decide) ((get_some hm).mpr hb) (by rw [b2, hp]; exact na) (by rw [b2]; exact f1) ((get_some hm).mpr hc) (by rw [c1]; exact b4)
  have v2 : ks.verifyKeySignature C [99] [[99], [98], [97]] = .ok (some [98]) :=
    vks_other C hq (by decide) ((get_some hm).mpr hc) (by rw [c2, hp]; exact nb) (by rw [c2]; exact f2) ((get_some hm).mpr hb) (by rw [b1]; exact c4)
  have key : ∀ fuel i, ks.chainLoop C (fun _ => [[99], [98], [97]]) fuel i [98] = none ∧
      ks.chainLoop C (fun _ => [[99], [98], [97]]) fuel i [99] = none := by
    intro fuel
    induction fuel with
    | zero => intro i; exact ⟨rfl, rfl⟩
    | succ n ih =>
      intro i
      have n1 : ¬ ([98] : Bytes) = self := by decide
      have n2 : ¬ ([99] : Bytes) = self := by decide
      simp [KeyFields.chainLoop, v1, v2, n1, n2, (ih (i + 1)).1, (ih (i + 1)).2]
  have hh : ks.has [99] = true := (has_iff hq hm _).mpr (.inr (by rw [hc]; simp))
  simp [KeyFields.keyAudit, KeyFields.auditLoop, KeyFields.verifyChain, hq, hh, (key fuel 0).2]

/-- C139 is false: two uploads, of B's key signed by A and of A's key, which is on record already,
signed by B, can make the next audit endless. From then on no request is answered, and nothing
is written to the file. -/
theorem C139_circle_violated (d seed dA seedA dB seedB : Bytes) (hd : d.length = 32) (hs : seed.length = 32) (hA : seedA.length = 32)
    (hB : seedB.length = 32) (na : ownerOf C dA seedA ≠ ownerOf C d seed) (nb : ownerOf C dB seedB ≠ ownerOf C d seed)
    (nab : ownerOf C dA seedA ≠ ownerOf C dB seedB) (path : Path) (writes : Nat → WriteOutcome) :
    ∃ fs ks es s, Starts C A P J fs path ks fs ∧ Ordered J fs path ∧ Prompt C A P J sha256 path (initial ks fs writes) es s ∧
      arrived es = [(0, .upload [98] ((statement C dA seedA (ownerOf C dB seedB) 5).serialise A P)),
        (1, .upload [99] ((statement C dB seedB (ownerOf C dA seedA) 5).serialise A P))] ∧
      s.phase = .hung ∧ s.fs = fs ∧
      ∀ es' s', Run C A P J sha256 path s es' s' → s'.replies = s.replies ∧ s'.fs = fs := by
  obtain ⟨fs, ks, h1, h2, h3, h4⟩ := exServer C A P J d seed dA seedA (ownerOf C dB seedB) [112] hd hs path
  have hen : (peerKeys C d seed [97] (ownerOf C dA seedA)).Enumerates [[97]] := enum_set enum_empty rfl _
  have z : ∀ l, l ≠ [97] → peerKeys C d seed [97] (ownerOf C dA seedA) l = none := fun l hl => Map.set_other _ _ hl
  have q1 := process_upload C (sha256 := sha256) h3 (z _ (by decide)) h4 (label := [98]) (by decide) (by decide) (z _ (by decide))
    (statement_signed C dA seedA (ownerOf C dB seedB) 5 hA) (.inr ⟨[97], _, Map.set_same _ _ _, rfl⟩) (steady_enumerate h3.keys hen 0) 9
  have p1 := serve C (A := A) (P := P) (J := J) (sha256 := sha256) (path := path) (s := initial ks fs writes) rfl rfl rfl 0 _
    (steady_enumerate h3.keys hen 0) q1
  obtain ⟨m1, hm1⟩ := run_sound C (prompt_run C p1) h3
  have k1 := hm1.keys
  simp only [Option.some.injEq] at k1
  have hen1 : m1.Enumerates [[98], [97]] := k1 ▸ enum_set hen (z _ (by decide)) _
  have z1 : ∀ l, l ≠ [97] → l ≠ [98] → m1 l = none := fun l hl hl' => by rw [← k1, Map.set_other _ _ hl']; exact z l hl
  have g1 := Map.set_same (peerKeys C d seed [97] (ownerOf C dA seedA)) [98] (some ({
        label := [98], version := 1, timestamp := 9, keys := some (statement C dA seedA (ownerOf C dB seedB) 5).pub
        keySignature := (statement C dA seedA (ownerOf C dB seedB) 5).signature
        keySigner := (statement C dA seedA (ownerOf C dB seedB) 5).signer
        signatureTime := (statement C dA seedA (ownerOf C dB seedB) 5).timestamp, metadata := none } : PublicKeyRecord))
  rw [k1] at g1
  have h5 : Armoured A P ((statement C dB seedB (ownerOf C dA seedA) 5).serialise A P) (statement C dB seedB (ownerOf C dA seedA) 5) :=
    ⟨_, by rw [← type_eq]; exact P.dec_enc _ _ (by decide) (A.enc_ne _), A.dec_enc _⟩
  have q2 := process_upload C (sha256 := sha256) hm1 (z1 _ (by decide) (by decide)) h5 (label := [99]) (by decide) (by decide) (z1 _ (by decide) (by decide))
    (statement_signed C dB seedB (ownerOf C dA seedA) 5 hB) (.inr ⟨[98], _, g1, rfl⟩) (steady_enumerate hm1.keys hen1 0) 9
  have p2 := serve C (A := A) (P := P) (J := J) (sha256 := sha256) (path := path) rfl rfl rfl 1 _ (steady_enumerate hm1.keys hen1 0) q2
  have p12 := prompt_append C p1 p2
  obtain ⟨m2, hm2⟩ := run_sound C (prompt_run C p12) h3
  have k2 := hm2.keys
  simp only [Option.some.injEq] at k2
  have hen2 : m2.Enumerates [[99], [98], [97]] := k2 ▸ enum_set hen1 (z1 _ (by decide) (by decide)) _
  have hen2' := steady_enumerate hm2.keys hen2 0
  have g2 : m2 [98] = m1 [98] := by rw [← k2]; exact Map.set_other _ _ (by decide)
  rw [g1] at g2
  have g3 := Map.set_same m1 [99] (some ({
        label := [99], version := 1, timestamp := 9, keys := some (statement C dB seedB (ownerOf C dA seedA) 5).pub
        keySignature := (statement C dB seedB (ownerOf C dA seedA) 5).signature
        keySigner := (statement C dB seedB (ownerOf C dA seedA) 5).signer
        signatureTime := (statement C dB seedB (ownerOf C dA seedA) 5).timestamp, metadata := none } : PublicKeyRecord))
  rw [k2] at g3
  have hpub := hm2.pub
  have hnone := fun fuel => audit_circle C hm2.quick hm2.keys (by unfold KeyFields.pubBytes; rw [hpub]; rfl) g2 g3 na nb nab rfl rfl rfl
    (statement_signed C dA seedA (ownerOf C dB seedB) 5 hA) rfl rfl rfl (statement_signed C dB seedB (ownerOf C dA seedA) 5 hB) fuel
  have p3 := hang_round C A P J sha256 (path := path) (t := 0) (o := steady [[99], [98], [97]] 0) ⟨rfl, rfl, rfl, rfl⟩ rfl (Nat.zero_le _) hen2' hnone
  refine ⟨fs, ks, _, _, h1, h2, prompt_append C p12 p3, rfl, rfl, rfl, fun es' s' hr => ?_⟩
  obtain ⟨-, e1, e2, -⟩ := run_hung C A P J sha256 hr (by simp)
  exact ⟨e1, e2⟩

/-- The hypotheses can be met. -/
example : ∃ d seed dA seedA dB seedB : Bytes, d.length = 32 ∧ seed.length = 32 ∧ seedA.length = 32 ∧ seedB.length = 32 ∧
    ownerOf Toy.crypto dA seedA ≠ ownerOf Toy.crypto d seed ∧ ownerOf Toy.crypto dB seedB ≠ ownerOf Toy.crypto d seed ∧
    ownerOf Toy.crypto dA seedA ≠ ownerOf Toy.crypto dB seedB :=
  ⟨List.replicate 32 1, List.replicate 32 2, List.replicate 32 3, List.replicate 32 4, List.replicate 32 5, List.replicate 32 6, by decide⟩

end Verif.Props.KeysrvLive
