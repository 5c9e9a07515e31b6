import Verif.Spec.Fcrypt
import Verif.Proofs.KeyHistory
import Verif.Proofs.ToyKeyJson
import Verif.Props.KeyStore
import Verif.Props.KeyMessages
/-! Lemmas about fcrypt. -/

namespace Verif.Proofs.Fcrypt
open Verif Verif.Go Verif.Model.Util Verif.Model.Public Verif.Model.KeyStore Verif.Model.Fcrypt
open Verif.Spec.Public Verif.Spec.KeyStore Verif.Spec.Fcrypt
open Verif.Proofs.Public Verif.Proofs.KeyStore Verif.Props.KeyTrust

/-- An armour that satisfies the laws. -/
def toyArmour : Armour where
  enc typ body := ascii "-----BEGIN" ++ Pem.toy.enc typ body
  dec b := if b.take 10 = ascii "-----BEGIN" then Pem.toy.dec (b.drop 10) else none
  dec_enc := by
    intro typ body h1 h2
    rw [if_pos (List.take_left' (by decide)), List.drop_left' (by decide)]
    exact Pem.toy.dec_enc typ body h1 h2
  enc_begin := fun typ body => ⟨_, by simp [Pem.toy], rfl⟩

/-- The same world `n` readings of the clock later. -/
def later (w : World) (n : Nat) : World := { w with term := { w.term with clock := fun i => w.term.clock (i + n) } }

/-- The same world with the answers still to come. -/
def rest (w : World) (as : List (Option Bytes)) : World := { w with term := { w.term with answers := as } }

theorem now_eq (w : World) : w.now = (w.term.clock 0, later w 1) := rfl

theorem later_later (w : World) (m n : Nat) : later (later w m) n = later w (n + m) := by
  have : (fun i => w.term.clock (i + n + m)) = (fun i => w.term.clock (i + (n + m))) := by
    funext i
    rw [Nat.add_assoc]
  unfold later
  simp only [this]

theorem read_nil {w : World} (h : w.term.answers = []) : w.read = (none, w) := by
  unfold World.read Term.read
  rw [h]

theorem read_cons {w : World} {a as} (h : w.term.answers = a :: as) : w.read = (a, rest w as) := by
  unfold World.read Term.read rest
  rw [h]

variable (C : Crypto) (A : Asn1) (P : Armour) (J : KeyJson)

/-- Only the terminal differs. -/
structure SameButTerm (w w' : World) : Prop where
  fs : w'.fs = w.fs
  stdout : w'.stdout = w.stdout
  stdin : w'.stdin = w.stdin
  rng : w'.rng = w.rng
  writes : w'.writes = w.writes
  failed : w'.failed = w.failed

theorem SameButTerm.refl (w : World) : SameButTerm w w := ⟨rfl, rfl, rfl, rfl, rfl, rfl⟩

theorem SameButTerm.trans {a b c : World} (h : SameButTerm a b) (h' : SameButTerm b c) : SameButTerm a c :=
  ⟨h'.fs.trans h.fs, h'.stdout.trans h.stdout, h'.stdin.trans h.stdin, h'.rng.trans h.rng, h'.writes.trans h.writes, h'.failed.trans h.failed⟩

/-- Only the terminal differs, and `n` has been printed. -/
structure Noted (w : World) (n : Bytes) (w' : World) : Prop where
  fs : w'.fs = w.fs
  stdout : w'.stdout = w.stdout ++ n
  stdin : w'.stdin = w.stdin
  rng : w'.rng = w.rng
  writes : w'.writes = w.writes
  failed : w'.failed = w.failed

theorem SameButTerm.noted {w w' : World} (h : SameButTerm w w') : Noted w [] w' :=
  ⟨h.fs, h.stdout.trans (List.append_nil _).symm, h.stdin, h.rng, h.writes, h.failed⟩

theorem same_later (w : World) (n : Nat) : SameButTerm w (later w n) := ⟨rfl, rfl, rfl, rfl, rfl, rfl⟩
theorem same_rest (w : World) (as) : SameButTerm w (rest w as) := ⟨rfl, rfl, rfl, rfl, rfl, rfl⟩

theorem print_nil (w : World) : w.print [] = w := by
  unfold World.print
  rw [List.append_nil]

/-- Loading an existing file. -/
theorem load_file {w : World} {path data : Bytes} (h : w.fs path = some data) :
    (∃ n, Notice n ∧ n ≠ [] ∧ loadStore C A P J w path = .ok (none, (later w 2).print n)) ∨
    ∃ ks, loadData J data = some ks ∧ ks.valid = .ok true ∧ loadStore C A P J w path = .ok (some ks, later w 2) := by
  unfold loadStore
  simp only [now_eq, later_later]
  have e : (later w (1 + 1)).fs path = some data := h
  rw [e]
  simp only [loadKeyStore, Res.ok_bind, h, Option.isNone_some, Bool.not_false, if_true]
  cases hl : loadData J data with
  | none => left; exact ⟨_, .inr (.inr (.inl rfl)), by decide, rfl⟩
  | some ks =>
    simp only
    cases hv : ks.valid with
    | panic => exact absurd hv (valid_no_panic ks)
    | ok b =>
      cases b with
      | false => left; exact ⟨_, .inr (.inr (.inr rfl)), by decide, rfl⟩
      | true => right; exact ⟨ks, rfl, hv, rfl⟩

/-- Loading when there is no file. -/
theorem load_missing {w : World} {path : Bytes} (h : w.fs path = none) :
    (64 ≤ w.rng.length → loadStore C A P J w path = .panic) ∧
    (w.rng.length < 64 → ∃ w', loadStore C A P J w path = .ok (none, w') ∧ w'.fs = w.fs ∧
      w'.stdout = w.stdout ++ ascii "error in LoadKeyStore" ∧ w'.writes = w.writes ∧ w'.failed = w.failed) := by
  unfold loadStore
  simp only [now_eq, later_later]
  have e : (later w (1 + 1)).fs path = none := h
  have e' : (later w (1 + 1)).rng = w.rng := rfl
  rw [e, e']
  constructor
  · intro hr
    simp [loadKeyStore, Props.Public.C23_generate_violated C w.rng hr]
  · intro hr
    simp only [loadKeyStore, Props.Public.C23_short_rng_partial C w.rng hr, if_true, Res.ok_bind, Res.pure_eq]
    exact ⟨_, rfl, rfl, rfl, rfl, rfl⟩

theorem lock_no_panic (s : KeyStore) : s.lock ≠ .panic := by
  unfold KeyStore.lock
  cases hv : s.valid with
  | panic => exact absurd hv (valid_no_panic s)
  | ok b =>
    cases b with
    | false => simp
    | true =>
      simp only [Res.ok_bind, Bool.not_true, Bool.false_eq_true, if_false]
      split
      · simp
      · rename_i hl
        simp only [Bool.not_eq_true] at hl
        have : validPriv s.privateKey = true := by
          cases hp : validPriv s.privateKey with
          | true => rfl
          | false =>
            unfold KeyStore.valid at hv
            simp [hl, hp] at hv
        cases hk : s.privateKey with
        | none => rw [hk] at this; simp [validPriv] at this
        | some k =>
          rw [hk] at this
          obtain ⟨k', hz, -⟩ := zeroPriv_valid this
          simp [hz]

/-- What a successful `Unlock` of a locked store does. -/
theorem unlock_true {s s' : KeyStore} {pass : Bytes} {now : BitVec 64} (hl : s.locked = true)
    (h : s.unlock C A P.toPem pass now = .ok (s', true)) :
    ∃ k pub x, unlockKey C (s.lockedKey.getD []) pass = .ok (some k) ∧ marshalPublic k.pub = .ok (some pub) ∧
      (∀ y, s.exportKey = some y → x = y) ∧
      (s.exportKey = none → ∃ sig, Model.Public.sign C (some k) (pub ++ pub ++ be 8 now.toNat) = .ok (some sig) ∧
        x = ({ pub := pub, signer := pub, timestamp := now, signature := sig } : VerifiedKey).serialise A P.toPem) ∧
      s' = { s with privateKey := some k, publicKey := some pub, locked := false, exportKey := some x } :=
  unlock_opens C hl h

/-- When `Unlock` prints. -/
theorem builds_true {s s' : KeyStore} {pass : Bytes} {now : BitVec 64} (hl : s.locked = true)
    (h : s.unlock C A P.toPem pass now = .ok (s', true)) :
    (if s.builds C pass then building else []) = notice s.toKeyFields := by
  obtain ⟨k, pub, x, h1, h2, -⟩ := unlock_true C A P hl h
  have hq : s.validQuick = true := by
    cases hq : s.validQuick with
    | true => rfl
    | false =>
      unfold KeyStore.unlock at h
      rw [hq] at h
      cases h
  unfold KeyStore.builds notice
  rw [hq, hl]
  simp only [Bool.not_true, Bool.false_eq_true, if_false, h1, h2, Option.isNone_iff_eq_none]
  rfl

/-- What unlocking comes to. -/
theorem unlockStore_true {ks ks' : KeyStore} {w w1 : World} (h : unlockStore C A P ks w = .ok (true, ks', w1)) :
    (ks.locked = false ∧ ks' = ks ∧ w1 = w) ∨
      (ks.locked = true ∧ ∃ pass as, w.term.answers = some pass :: as ∧ w1 = (later (rest w as) 1).print (notice ks.toKeyFields) ∧
        ks.unlock C A P.toPem pass (w.term.clock 0) = .ok (ks', true)) := by
  unfold unlockStore at h
  cases hl : ks.locked with
  | false =>
    rw [hl] at h
    simp at h
    obtain ⟨rfl, rfl⟩ := h
    exact Or.inl ⟨rfl, rfl, rfl⟩
  | true =>
    rw [hl] at h
    simp only [Bool.not_true, Bool.false_eq_true, if_false] at h
    cases ha : w.term.answers with
    | nil => rw [read_nil ha] at h; simp at h
    | cons a as =>
      rw [read_cons ha] at h
      cases a with
      | none => simp at h
      | some pass =>
        simp only [now_eq] at h
        obtain ⟨⟨k2, b⟩, h1, h2⟩ := Res.bind_eq_ok.mp h
        simp only [Res.pure_eq, Res.ok.injEq, Prod.mk.injEq] at h2
        obtain ⟨rfl, rfl, rfl⟩ := h2
        refine Or.inr ⟨rfl, pass, as, rfl, ?_, h1⟩
        rw [← builds_true C A P hl h1]
        split
        · rfl
        · rw [print_nil]

theorem unlockStore_false {ks ks' : KeyStore} {w w1 : World} {b : Bool} (h : unlockStore C A P ks w = .ok (b, ks', w1)) :
    ∃ n, Notice n ∧ Noted w n w1 := by
  unfold unlockStore at h
  cases hl : ks.locked with
  | false =>
    rw [hl] at h
    simp at h
    obtain ⟨-, -, rfl⟩ := h
    exact ⟨[], .inl rfl, (SameButTerm.refl w).noted⟩
  | true =>
    rw [hl] at h
    simp only [Bool.not_true, Bool.false_eq_true, if_false] at h
    cases ha : w.term.answers with
    | nil =>
      rw [read_nil ha] at h
      simp at h
      obtain ⟨-, -, rfl⟩ := h
      exact ⟨[], .inl rfl, (SameButTerm.refl w).noted⟩
    | cons a as =>
      rw [read_cons ha] at h
      cases a with
      | none =>
        simp at h
        obtain ⟨-, -, rfl⟩ := h
        exact ⟨[], .inl rfl, (same_rest w as).noted⟩
      | some pass =>
        simp only [now_eq] at h
        obtain ⟨⟨k2, b⟩, h1, h2⟩ := Res.bind_eq_ok.mp h
        simp only [Res.pure_eq, Res.ok.injEq, Prod.mk.injEq] at h2
        obtain ⟨rfl, rfl, rfl⟩ := h2
        cases ks.builds C pass with
        | true => exact ⟨building, .inr (.inl rfl), rfl, rfl, rfl, rfl, rfl, rfl⟩
        | false => exact ⟨[], .inl rfl, ((same_rest w as).trans (same_later _ 1)).noted⟩

/-- The store a command works on, given that there is a file: the one loaded, unlocked if
needed; and the world it works in. -/
inductive Ready (w : World) (path : Bytes) (unlock : Bool) (ks : KeyStore) (w1 : World) : Prop
  | mk {data : Bytes} {ks0 : KeyStore} : w.fs path = some data → loadData J data = some ks0 → ks0.valid = .ok true →
      ((unlock = false ∧ ks = ks0 ∧ w1 = later w 2) ∨ (unlock = true ∧ unlockStore C A P ks0 (later w 2) = .ok (true, ks, w1))) →
      Ready w path unlock ks w1

theorem notice_ok (f : KeyFields) : Notice (notice f) := by
  unfold notice
  split
  · exact .inr (.inl rfl)
  · exact .inl rfl

theorem Noted.early {w w' : World} {n : Bytes} {i : Nat} (h : Noted (later w i) n w') : Noted w n w' :=
  ⟨h.fs, h.stdout, h.stdin, h.rng, h.writes, h.failed⟩

theorem Ready.same {w w1 : World} {path : Bytes} {unlock : Bool} {ks : KeyStore} (h : Ready C A P J w path unlock ks w1) :
    ∃ n, Notice n ∧ Noted w n w1 := by
  obtain ⟨-, -, -, ⟨-, -, h⟩ | ⟨-, h⟩⟩ := h
  · exact ⟨[], .inl rfl, by rw [h]; exact (same_later w 2).noted⟩
  · obtain ⟨n, hn, h⟩ := unlockStore_false C A P h
    exact ⟨n, hn, h.early⟩

theorem Noted.silent {w w' : World} {n : Bytes} (hn : Notice n) (h : Noted w n w') : Silent w w' :=
  ⟨⟨n, hn, h.stdout⟩, h.fs⟩

/-- The end of `main` when nothing is to be written. -/
theorem finish_quiet {f : Flags} {u : Bool} {ks : KeyStore} {w : World} (h : w.fs f.path ≠ none) :
    finish J f false u ks w = (.ok, w) := by
  unfold finish
  have : (w.fs f.path).isNone = false := by
    cases hq : w.fs f.path with
    | none => exact absurd hq h
    | some => rfl
  simp only [this, Bool.or_false, Bool.false_eq_true, if_false]
  cases u with
  | false => rfl
  | true =>
    simp only [if_true]
    cases hl : ks.lock with
    | panic => exact absurd hl (lock_no_panic ks)
    | ok => rfl

/-- What follows a command. -/
def conclude (f : Flags) (sw u : Bool) : Ret × KeyStore × World → Ret × World
  | (.ok, ks, w) => finish J f sw u ks w
  | (r, _, w) => (r, w)

theorem conclude_quiet {f : Flags} {u : Bool} {r : Ret} {ks : KeyStore} {w : World} (h : w.fs f.path ≠ none) :
    conclude J f false u (r, ks, w) = (r, w) := by
  cases r with
  | ok => exact finish_quiet J h
  | _ => rfl

theorem conclude_fail {f : Flags} {sw u : Bool} {r : Ret} {ks : KeyStore} {w : World} (h : r ≠ .ok) :
    conclude J f sw u (r, ks, w) = (r, w) := by
  cases r with
  | ok => exact absurd rfl h
  | _ => rfl

/-- How a run with an existing store goes: it stops before the command, with a failure and nothing
written; or the command runs. -/
theorem main_cases {e : Env} {f : Flags} {args : List Bytes} {w : World} {cmd : Command} {data : Bytes}
    (hs : select C A P e f = some cmd) (hf : w.fs f.path = some data) :
    (∃ r w' n, main C A P J e f args w = (r, w') ∧ r ≠ .ok ∧ Notice n ∧ Noted w n w') ∨
    (cmd.argc ≤ args.length ∧ ∃ ks w1, Ready C A P J w f.path cmd.needsUnlock ks w1 ∧
      ∃ sw, (sw = cmd.shouldWrite ∨ f.check = true) ∧
      main C A P J e f args w =
        conclude J f sw cmd.needsUnlock (cmd.run ks (config f args) w1)) := by
  unfold main
  rw [hs]
  simp only
  split
  · exact Or.inl ⟨_, _, [], rfl, by simp, .inl rfl, (SameButTerm.refl w).noted⟩
  rename_i hc
  rcases load_file C A P J hf with ⟨n, hn, -, hl⟩ | ⟨ks, h1, h2, hl⟩
  · rw [hl]
    exact Or.inl ⟨_, _, n, rfl, by simp, hn, rfl, rfl, rfl, rfl, rfl, rfl⟩
  · rw [hl]
    simp only
    unfold execute
    have hsw : ∀ b, (cmd.shouldWrite || (f.check && b)) = cmd.shouldWrite ∨ f.check = true := by
      intro b
      cases f.check
      · left; simp
      · right; rfl
    cases hu : cmd.needsUnlock with
    | false =>
      simp only [Bool.false_eq_true, if_false]
      exact Or.inr ⟨by omega, ks, _, ⟨hf, h1, h2, Or.inl ⟨rfl, rfl, rfl⟩⟩, _, hsw _, rfl⟩
    | true =>
      simp only [if_true]
      cases hk : unlockStore C A P ks (later w 2) with
      | panic => exact Or.inl ⟨_, _, [], rfl, by simp, .inl rfl, (same_later w 2).noted⟩
      | ok x =>
        obtain ⟨b, ks', w1⟩ := x
        obtain ⟨n, hn, hsame⟩ := unlockStore_false C A P hk
        cases b with
        | false => exact Or.inl ⟨_, _, n, rfl, by simp, hn, hsame.early⟩
        | true => exact Or.inr ⟨by omega, ks', w1, ⟨hf, h1, h2, Or.inr ⟨rfl, hk⟩⟩, _, hsw _, rfl⟩

/-- The store in memory that a file gives. -/
def loaded (f : KeyFields) (m : Keys) : KeyStore := { f with keys := some m, privateKey := none, locked := true }

/-- The store after unlocking. -/
def opened (f : KeyFields) (m : Keys) (d seed x : Bytes) : KeyStore :=
  { f with keys := some m, privateKey := some (pairOf C d seed), locked := false, exportKey := some x }

theorem _root_.Verif.Spec.Fcrypt.Keyring.keyfile {C : Crypto} {J : KeyJson} {fs : Fs} {path owner : Bytes} {f : KeyFields} {m : Keys}
    (h : Keyring C J fs path owner f m) : Keyfile J fs path owner f m :=
  ⟨h.file, h.version, h.time, h.pub, h.len, h.keys, h.locked⟩

theorem keyfile_load {fs : Fs} {path owner : Bytes} {f : KeyFields} {m : Keys} (h : Keyfile J fs path owner f m) :
    ∃ data, fs path = some data ∧ loadData J data = some (loaded f m) ∧ (loaded f m).valid = .ok true := by
  obtain ⟨data, h1, h2⟩ := h.file
  have hq : (loaded f m).validQuick = true := (quick_iff _).mpr ⟨h.version, h.time, m, rfl⟩
  refine ⟨data, h1, ?_, valid_locked hq rfl h.pub h.len⟩
  unfold loadData
  rw [h2]
  simp only
  have hk := h.keys
  have hl : f.lockedKey.isSome = true := by
    cases hx : f.lockedKey with
    | none => exact absurd hx h.locked
    | some => rfl
  unfold loaded at *
  subst hk
  rw [hl, if_neg (by simp only [Bool.not_eq_true', Bool.not_eq_false]; exact hq)]

theorem keyring_load {fs : Fs} {path owner : Bytes} {f : KeyFields} {m : Keys} (h : Keyring C J fs path owner f m) :
    ∃ data, fs path = some data ∧ loadData J data = some (loaded f m) ∧ Sound C (loaded f m) owner m := by
  obtain ⟨data, h1, h2⟩ := h.file
  have hq : (loaded f m).validQuick = true := (quick_iff _).mpr ⟨h.version, h.time, m, rfl⟩
  refine ⟨data, h1, ?_, ?_⟩
  · unfold loadData
    rw [h2]
    simp only
    have hk := h.keys
    have hl : f.lockedKey.isSome = true := by
      cases hx : f.lockedKey with
      | none => exact absurd hx h.locked
      | some => rfl
    unfold loaded at *
    subst hk
    rw [hl, if_neg (by simp only [Bool.not_eq_true', Bool.not_eq_false]; exact hq)]
  · exact ⟨hq, h.pub, h.len, rfl, h.noNil, h.labelled, h.noSelf, h.trust, by intro hl; simp [loaded] at hl⟩

theorem opened_sound {f : KeyFields} {m : Keys} {d seed x pass : Bytes} {fs : Fs} {path : Bytes}
    (h : Keyring C J fs path (ownerOf C d seed) f m) (ho : Opens C f d seed pass) :
    Sound C (opened C f m d seed x) (ownerOf C d seed) m ∧ Owned C d seed (opened C f m d seed x) := by
  have hq : (opened C f m d seed x).validQuick = true := (quick_iff _).mpr ⟨h.version, h.time, m, rfl⟩
  exact ⟨⟨hq, h.pub, h.len, rfl, h.noNil, h.labelled, h.noSelf, h.trust, fun _ => ⟨_, rfl, pairOf_valid C d seed,
    pairOf_wt C d seed ho.dlen ho.slen, pairOf_marshal C d seed⟩⟩, rfl, rfl, h.pub, hq⟩

/-- The public key as others import it, made when it is missing. -/
def exported (f : KeyFields) (d seed : Bytes) (t : BitVec 64) : Bytes :=
  f.exportKey.getD ((statement C d seed (ownerOf C d seed) t).serialise A P.toPem)

theorem keyring_unlock {f : KeyFields} {m : Keys} {d seed pass : Bytes} {fs : Fs} {path : Bytes} {w : World} {as}
    (h : Keyfile J fs path (ownerOf C d seed) f m) (ho : Opens C f d seed pass) (ha : w.term.answers = some pass :: as) :
    unlockStore C A P (loaded f m) w =
      .ok (true, opened C f m d seed (exported C A P f d seed (w.term.clock 0)), (later (rest w as) 1).print (notice f)) := by
  obtain ⟨box, hb, hu⟩ := ho.key
  have hq : (loaded f m).validQuick = true := (quick_iff _).mpr ⟨h.version, h.time, m, rfl⟩
  have key : (loaded f m).unlock C A P.toPem pass (w.term.clock 0) =
      .ok (opened C f m d seed (exported C A P f d seed (w.term.clock 0)), true) := by
    have hl : (loaded f m).locked = true := rfl
    have hk : (loaded f m).lockedKey.getD [] = box := by show f.lockedKey.getD [] = box; rw [hb]; rfl
    unfold KeyStore.unlock
    rw [hq, hl, hk, hu]
    simp only [Bool.not_true, Bool.false_eq_true, if_false, Res.ok_bind, pairOf_marshal]
    have hp := h.pub
    cases hx : f.exportKey with
    | some x =>
      have : (loaded f m).exportKey = some x := hx
      simp only [this, Option.isNone_some, Bool.false_eq_true, if_false, Res.pure_eq]
      unfold opened exported loaded
      rw [hx]
      simp only [Option.getD_some, ← hp, hx]
    | none =>
      have : (loaded f m).exportKey = none := hx
      simp only [this, Option.isNone_none, if_true]
      rw [pairOf_eq, sign_mk]
      simp only [Res.ok_bind, Res.pure_eq]
      unfold opened exported loaded
      rw [hx]
      simp only [Option.getD_none, ← hp, pairOf_eq]
      rw [hp]
      rfl
  unfold unlockStore
  rw [read_cons ha]
  have hl : (loaded f m).locked = true := rfl
  rw [hl]
  simp only [Bool.not_true, Bool.false_eq_true, if_false, now_eq]
  have : (rest w as).term.clock 0 = w.term.clock 0 := rfl
  have hb := builds_true C A P hl key
  have hn : notice (loaded f m).toKeyFields = notice f := rfl
  rw [hn] at hb
  rw [this, key, ← hb]
  simp only [Res.ok_bind, Res.pure_eq]
  split
  · rfl
  · rw [print_nil]

/-- A command that needs no unlocking, with a key store. -/
theorem main_public {e : Env} {fl : Flags} {args : List Bytes} {w : World} {cmd : Command} {owner : Bytes} {f : KeyFields} {m : Keys}
    (hs : select C A P e fl = some cmd) (hk : Keyfile J w.fs fl.path owner f m) (hn : cmd.needsUnlock = false)
    (hc : fl.check = false) (ha : cmd.argc ≤ args.length) :
    main C A P J e fl args w =
      conclude J fl cmd.shouldWrite false (cmd.run (loaded f m) (config fl args) (later w 2)) := by
  obtain ⟨data, h1, h2, h3⟩ := keyfile_load J hk
  unfold main
  rw [hs]
  simp only
  rw [if_neg (by omega)]
  rcases load_file C A P J h1 with ⟨n, -, -, hl⟩ | ⟨ks, h4, h5, hl⟩
  · exfalso
    unfold loadStore at hl
    simp only [now_eq, later_later] at hl
    have e : (later w (1 + 1)).fs fl.path = some data := h1
    rw [e] at hl
    simp [loadKeyStore, h1, h2, h3] at hl
  · rw [hl]
    rw [h2] at h4
    cases h4
    simp only
    unfold execute
    simp only [hn, Bool.false_eq_true, if_false, hc, Bool.false_and, Bool.or_false]
    rfl

/-- A command that needs unlocking, with a key store and its passphrase. -/
theorem main_unlocked {e : Env} {fl : Flags} {args : List Bytes} {w : World} {cmd : Command} {d seed pass : Bytes} {f : KeyFields} {m : Keys}
    {as} (hs : select C A P e fl = some cmd) (hk : Keyfile J w.fs fl.path (ownerOf C d seed) f m) (ho : Opens C f d seed pass)
    (hn : cmd.needsUnlock = true) (ha : cmd.argc ≤ args.length) (hp : w.term.answers = some pass :: as) :
    main C A P J e fl args w =
      conclude J fl (cmd.shouldWrite || (fl.check && f.exportKey.isNone)) true (cmd.run (opened C f m d seed (exported C A P f d seed (w.term.clock 2))) (config fl args) ((later (rest w as) 3).print (notice f))) := by
  obtain ⟨data, h1, h2, h3⟩ := keyfile_load J hk
  unfold main
  rw [hs]
  simp only
  rw [if_neg (by omega)]
  rcases load_file C A P J h1 with ⟨n, -, -, hl⟩ | ⟨ks, h4, h5, hl⟩
  · exfalso
    unfold loadStore at hl
    simp only [now_eq, later_later] at hl
    have e : (later w (1 + 1)).fs fl.path = some data := h1
    rw [e] at hl
    simp [loadKeyStore, h1, h2, h3] at hl
  · rw [hl]
    rw [h2] at h4
    cases h4
    simp only
    unfold execute
    have hu := keyring_unlock C A P J (w := later w 2) (as := as) hk ho hp
    simp only [hn, if_true, hu]
    have e1 : (later w 2).term.clock 0 = w.term.clock 2 := rfl
    have e2 : later (rest (later w 2) as) 1 = later (rest w as) 3 := by
      have : rest (later w 2) as = later (rest w as) 2 := rfl
      rw [this, later_later]
    rw [e1, e2]
    rfl

/-- What loading a valid file tells. -/
theorem loadData_some {data : Bytes} {ks : KeyStore} (h : loadData J data = some ks) :
    ∃ f, J.dec data = some f ∧ ks = { f with keys := some (f.keys.getD Map.empty), privateKey := none, locked := f.lockedKey.isSome } ∧
      ks.validQuick = true := by
  unfold loadData at h
  cases hd : J.dec data with
  | none => rw [hd] at h; simp at h
  | some f =>
    rw [hd] at h
    simp only at h
    split at h
    · simp at h
    · rename_i hq
      simp only [Option.some.injEq] at h
      simp only [Bool.not_eq_true', Bool.not_eq_false] at hq
      exact ⟨f, rfl, h.symm, h ▸ hq⟩

theorem valid_unlocked_priv {s : KeyStore} (h : s.valid = .ok true) (hl : s.locked = false) : validPriv s.privateKey = true := by
  cases hp : validPriv s.privateKey with
  | true => rfl
  | false =>
    unfold KeyStore.valid at h
    simp [hl, hp] at h

/-- A command that needs unlocking runs only after the passphrase of the file was given. -/
theorem ready_unlocked {w w1 : World} {path : Bytes} {ks : KeyStore} (h : Ready C A P J w path true ks w1) :
    ∃ data f pass as k, Noted w (notice f) w1 ∧ w.fs path = some data ∧ J.dec data = some f ∧ w.term.answers = some pass :: as ∧
      f.lockedKey ≠ none ∧ unlockKey C (f.lockedKey.getD []) pass = .ok (some k) ∧ ks.privateKey = some k ∧ ks.locked = false ∧
      ks.keys = some (f.keys.getD Map.empty) ∧ marshalPublic k.pub = .ok (some ks.pubBytes) ∧
      w1 = (later (rest w as) 3).print (notice f) ∧ ks.lockedKey = f.lockedKey := by
  obtain ⟨h1, h2, h3, h5⟩ := h
  rcases h5 with ⟨h5, -⟩ | ⟨-, h5⟩
  · simp at h5
  obtain ⟨f, hf, he, -⟩ := loadData_some J h2
  have h6 := unlockStore_true C A P h5
  rcases h6 with ⟨h6, -⟩ | ⟨h6, pass, as, h7, h8, h9⟩
  · have := valid_unlocked_priv h3 h6
    rw [he] at this
    simp [validPriv] at this
  · obtain ⟨k, pub, x, g1, g2, -, -, g3⟩ := unlock_true C A P h6 h9
    subst he g3
    have hw : w1 = (later (rest w as) 3).print (notice f) := by
      rw [h8]
      have : rest (later w 2) as = later (rest w as) 2 := rfl
      rw [this, later_later]
      rfl
    refine ⟨_, f, pass, as, k, ?_, h1, hf, h7, ?_, g1, rfl, rfl, rfl, g2, hw, rfl⟩
    · rw [hw]; exact ⟨rfl, rfl, rfl, rfl, rfl, rfl⟩
    · intro hn
      simp [hn] at h6

theorem writeFile_cases (w : World) (path data : Bytes) :
    (w.writeFile path data).1 = true ∧ Output w path data (w.writeFile path data).2 ∧ (path ≠ dash → w.writes 0 = .done) ∨
    (w.writeFile path data).1 = false ∧ path ≠ dash ∧ w.writes 0 ≠ .done ∧ (w.writeFile path data).2.stdout = w.stdout ∧
      ((w.writeFile path data).2.fs = w.fs ∨ ∃ n, (w.writeFile path data).2.fs = w.fs.set path (data.take n)) := by
  unfold World.writeFile World.save Output
  by_cases hd : path = dash
  · left
    simp [hd]
  · rw [if_neg hd, if_neg hd]
    cases hw : w.writes 0 with
    | done => left; exact ⟨rfl, ⟨rfl, rfl⟩, fun _ => rfl⟩
    | openFails => right; exact ⟨rfl, hd, by simp, rfl, Or.inl rfl⟩
    | failsAfter k => right; exact ⟨rfl, hd, by simp, rfl, Or.inr ⟨k, rfl⟩⟩

theorem writeFile_exists (w : World) (path data q : Bytes) (h : w.fs q ≠ none) : (w.writeFile path data).2.fs q ≠ none := by
  have hset : ∀ b, w.fs.set path b q ≠ none := by
    intro b
    by_cases hq : q = path
    · subst hq; simp
    · rw [Fs.set_other _ _ hq]; exact h
  rcases writeFile_cases w path data with ⟨-, h1, -⟩ | ⟨-, -, -, -, h1 | ⟨n, h1⟩⟩
  · unfold Output at h1
    split at h1
    · rw [h1.2]; exact h
    · rw [h1.2]; exact hset _
  · rw [h1]; exact h
  · rw [h1]; exact hset _

theorem output_eq (ks : KeyStore) (w : World) (path data : Bytes) :
    output ks w path data = (if (w.writeFile path data).1 then .ok else .err, ks, (w.writeFile path data).2) := by
  unfold output
  rcases w.writeFile path data with ⟨b, w'⟩
  cases b <;> rfl

theorem output_written (ks : KeyStore) (w : World) (path data : Bytes) :
    ∃ r w', output ks w path data = (r, ks, w') ∧ (r = .ok ∨ r = .err) ∧ Written w path data (r == .ok) w' ∧
      (path ≠ dash → (r = .ok ↔ w.writes 0 = .done)) ∧ ∀ q, w.fs q ≠ none → w'.fs q ≠ none := by
  rw [output_eq]
  refine ⟨_, _, rfl, ?_, ?_, ?_, writeFile_exists w path data⟩
  · cases (w.writeFile path data).1
    · exact Or.inr rfl
    · exact Or.inl rfl
  · rcases writeFile_cases w path data with ⟨h0, h1, -⟩ | ⟨h0, h1, h2, h3, h4⟩
    · exact Or.inl h1
    · rw [h0]; exact Or.inr ⟨h1, rfl, h3, h4⟩
  · intro hp
    rcases writeFile_cases w path data with ⟨h0, h1, h2⟩ | ⟨h0, h1, h2, -⟩
    · rw [h0]; simp [h2 hp]
    · rw [h0]; simp [h2]

/-- Writing to a place that can be written to. -/
theorem output_ok (ks : KeyStore) (w : World) (path data : Bytes) (h : path ≠ dash → w.writes 0 = .done) :
    ∃ w', output ks w path data = (.ok, ks, w') ∧ Output w path data w' ∧ (∀ q, w.fs q ≠ none → w'.fs q ≠ none) ∧
      w'.term = w.term ∧ w'.stdin = w.stdin ∧ w'.rng = w.rng := by
  rw [output_eq]
  have h0 : (w.writeFile path data).1 = true ∧ Output w path data (w.writeFile path data).2 := by
    rcases writeFile_cases w path data with ⟨h0, h1, -⟩ | ⟨h0, h1, h2, -⟩
    · exact ⟨h0, h1⟩
    · exact absurd (h h1) h2
  rw [h0.1]
  refine ⟨_, rfl, h0.2, writeFile_exists w path data, ?_⟩
  unfold World.writeFile World.save
  split <;> exact ⟨rfl, rfl, rfl⟩

theorem readFile_some {w : World} {path data : Bytes} (h : Input w path data) :
    ∃ w', w.readFile path = (some data, w') ∧ w'.fs = w.fs ∧ w'.stdout = w.stdout ∧ w'.rng = w.rng ∧ w'.term = w.term ∧
      w'.writes = w.writes ∧ (path ≠ dash → w' = w) ∧ w'.failed = w.failed := by
  unfold Input at h
  unfold World.readFile
  by_cases hd : path = [45]
  · rw [if_pos hd] at h
    rw [if_pos hd, h]
    exact ⟨_, rfl, rfl, rfl, rfl, rfl, rfl, fun h => absurd hd h, rfl⟩
  · rw [if_neg hd] at h
    rw [if_neg hd, h]
    exact ⟨_, rfl, rfl, rfl, rfl, rfl, rfl, fun _ => rfl, rfl⟩

theorem Input.same {w w' : World} {path data : Bytes} (h : Input w path data) (hs : SameButTerm w w') : Input w' path data := by
  unfold Input at *
  rw [hs.stdin, hs.fs]
  exact h

theorem Noted.input {w w' : World} {n path data : Bytes} (hs : Noted w n w') (h : Input w path data) : Input w' path data := by
  unfold Input at *
  rw [hs.stdin, hs.fs]
  exact h

theorem Output.same {w w1 w' : World} {path data : Bytes} (h : Output w1 path data w') (h1 : w1.fs = w.fs)
    (h2 : w1.stdout = w.stdout) : Output w path data w' := by
  unfold Output at *
  rw [h1, h2] at h
  exact h

theorem Written.same {w w1 w' : World} {path data : Bytes} {b : Bool} (h : Written w1 path data b w') (h1 : w1.fs = w.fs)
    (h2 : w1.stdout = w.stdout) : Written w path data b w' := by
  unfold Written at *
  rw [h1, h2] at h
  rcases h with h | h
  · exact Or.inl (Output.same h h1 h2)
  · exact Or.inr h

theorem armoured_iff (b : Bytes) : armoured b = true ↔ BeginsArmour b := by
  unfold armoured BeginsArmour
  simp only [Bool.and_eq_true, decide_eq_true_eq, beq_iff_eq]
  constructor
  · rintro ⟨h1, h2⟩
    refine ⟨b.drop 10, ?_, ?_⟩
    · intro h
      have := congrArg List.length h
      simp at this
      omega
    · rw [← h2, List.take_append_drop]
  · rintro ⟨t, h1, rfl⟩
    refine ⟨?_, List.take_left' (by decide)⟩
    cases t with
    | nil => exact absurd rfl h1
    | cons x t =>
      have : (ascii "-----BEGIN").length = 10 := by decide
      simp [this]

theorem enc_armour (typ body : Bytes) : BeginsArmour (P.enc typ body) := P.enc_begin typ body

theorem select_check {e : Env} {f : Flags} (h : Checks f) : select C A P e f = some ⟨true, false, 0, checkStore C e⟩ := by
  unfold select
  rw [h]
  rfl

theorem select_cryptsign {e : Env} {f : Flags} (h : SignsEncrypted f) :
    select C A P e f = some ⟨true, false, 2, cryptSignFile C P⟩ := by
  obtain ⟨h1, h2, h3⟩ := h
  unfold select
  rw [h1, h2, h3]
  rfl

theorem select_sign {e : Env} {f : Flags} (h : Signs f) : select C A P e f = some ⟨true, false, 2, signFile C P⟩ := by
  obtain ⟨h1, h2, h3⟩ := h
  unfold select
  rw [h1, h2, h3]
  rfl

theorem select_verify {e : Env} {f : Flags} (h : Verifies f) : select C A P e f = some ⟨false, false, 2, verifyFile C P⟩ := by
  obtain ⟨h1, h2, h3⟩ := h
  unfold select
  rw [h1, h2, h3]
  rfl

theorem select_encrypt {e : Env} {f : Flags} (h : Encrypts f) : select C A P e f = some ⟨false, false, 2, encryptFile C P⟩ := by
  obtain ⟨h1, h2, h3, h4⟩ := h
  unfold select
  rw [h1, h2, h3, h4]
  rfl

theorem select_decrypt {e : Env} {f : Flags} (h : Decrypts f) : select C A P e f = some ⟨true, false, 2, decryptFile C P⟩ := by
  obtain ⟨h1, h2, h3, h4, h5⟩ := h
  unfold select
  rw [h1, h2, h3, h4, h5]
  rfl

theorem select_remove {e : Env} {f : Flags} (h : Removes f) : select C A P e f = some ⟨false, true, 1, removeKey⟩ := by
  obtain ⟨⟨h1, h2, h3, h4, h5⟩, h6⟩ := h
  unfold select
  rw [h1, h2, h3, h4, h5, h6]
  rfl

theorem select_list {e : Env} {f : Flags} (h : Lists f) : select C A P e f = some ⟨false, false, 0, keyList e⟩ := by
  obtain ⟨⟨h1, h2, h3, h4, h5⟩, h6, h7⟩ := h
  unfold select
  rw [h1, h2, h3, h4, h5, h6, h7]
  rfl

theorem select_export_self {e : Env} {f : Flags} (h : Exports f) (hl : f.label = self) :
    select C A P e f = some ⟨false, false, 1, exportSelf⟩ := by
  obtain ⟨⟨h1, h2, h3, h4, h5⟩, h6, h7, h8⟩ := h
  unfold select
  rw [h1, h2, h3, h4, h5, h6, h7, h8, hl]
  rfl

theorem select_export {e : Env} {f : Flags} (h : Exports f) (hl : f.label ≠ self) :
    select C A P e f = some ⟨true, false, 1, exportVerified C A P e⟩ := by
  obtain ⟨⟨h1, h2, h3, h4, h5⟩, h6, h7, h8⟩ := h
  unfold select
  rw [h1, h2, h3, h4, h5, h6, h7, h8]
  simp [hl]

theorem select_import {e : Env} {f : Flags} (h : Imports f) (hu : f.untrusted = false) :
    select C A P e f = some ⟨true, true, 1, importVerified C A P e⟩ := by
  obtain ⟨⟨h1, h2, h3, h4, h5⟩, h6, h7, h8, h9⟩ := h
  unfold select
  rw [h1, h2, h3, h4, h5, h6, h7, h8, h9, hu]
  rfl

theorem select_uimport {e : Env} {f : Flags} (h : Imports f) (hu : f.untrusted = true) :
    select C A P e f = some ⟨true, true, 1, importUntrusted C A P e⟩ := by
  obtain ⟨⟨h1, h2, h3, h4, h5⟩, h6, h7, h8, h9⟩ := h
  unfold select
  rw [h1, h2, h3, h4, h5, h6, h7, h8, h9, hu]
  rfl

/-! ### Example key stores -/

/-- One key on record, vouched for by the owner. -/
def peerKeys (d seed label pk : Bytes) : Keys := Map.empty.set label (some (recordFor label (statement C d seed pk 5)))

def exFields (d seed label pk box : Bytes) (x : Option Bytes) : KeyFields :=
  ⟨1, 9, some (peerKeys C d seed label pk), some box, some (ownerOf C d seed), x⟩

theorem exFields_finite (d seed label pk box : Bytes) (x : Option Bytes) : (exFields C d seed label pk box x).Finite := by
  intro m hm
  cases hm
  refine ⟨Map.finite_empty.set _ _, fun k r md hk hmd => ?_⟩
  unfold peerKeys at hk
  by_cases h : k = label
  · subst h
    rw [Map.set_same] at hk
    cases hk
    cases hmd
  · rw [Map.set_other _ _ h] at hk
    cases hk

theorem exFields_clean (d seed label pk box : Bytes) (x : Option Bytes) (hl : ValidUtf8 label) :
    (exFields C d seed label pk box x).Clean := by
  intro m hm k v hk
  cases hm
  unfold peerKeys at hk
  by_cases h : k = label
  · subst h
    rw [Map.set_same] at hk
    cases hk
    refine ⟨hl, fun r hr => ?_⟩
    cases hr
    exact ⟨hl, fun md j x hmd => by cases hmd⟩
  · rw [Map.set_other _ _ h] at hk
    cases hk

/-- A key store file with one key on record, for any pair and passphrase. -/
theorem exKeyring (d seed label pk pass : Bytes) (x : Option Bytes) (hd : d.length = 32) (hs : seed.length = 32)
    (hl : ValidUtf8 label) (hself : label ≠ self) :
    ∃ f, f.exportKey = x ∧ Opens C f d seed pass ∧ ∀ (fs : Fs) path,
      Keyring C J (fs.set path (J.enc f)) path (ownerOf C d seed) f (peerKeys C d seed label pk) := by
  obtain ⟨box, -, -, hb⟩ := (Props.Public.C24_lock_roundtrip C (pairOf C d seed) (pairOf_wt C d seed hd hs)
    (pairOf_valid C d seed) pass (List.replicate 56 7)).2 (by simp)
  refine ⟨exFields C d seed label pk box x, rfl, ⟨hd, hs, box, rfl, hb⟩, fun fs path => ?_⟩
  have key : ∀ l r, peerKeys C d seed label pk l = some r → l = label ∧ r = some (recordFor label (statement C d seed pk 5)) := by
    intro l r h
    unfold peerKeys at h
    by_cases hq : l = label
    · subst hq
      rw [Map.set_same] at h
      cases h
      exact ⟨rfl, rfl⟩
    · rw [Map.set_other _ _ hq] at h
      cases h
  exact {
    file := ⟨_, Fs.set_same _ _ _, J.dec_enc _ (exFields_finite C d seed label pk box x) (exFields_clean C d seed label pk box x hl)⟩
    version := rfl
    time := by simp [exFields]
    pub := rfl
    len := ownerOf_length C d seed
    keys := rfl
    noNil := by
      intro k hk
      have := (key _ _ hk).2
      cases this
    labelled := by
      intro k r hk
      obtain ⟨h1, h2⟩ := key _ _ hk
      cases h2
      exact h1.symm
    noSelf := by
      unfold peerKeys
      rw [Map.set_other _ _ (Ne.symm hself)]
      rfl
    trust := by
      intro l r hr
      obtain ⟨h1, h2⟩ := key _ _ hr
      cases h2
      exact .owner hr rfl (statement_signed C d seed pk 5 hs)
    locked := by simp [exFields] }

end Verif.Proofs.Fcrypt
