import Verif.Model.MigrateErrors
import Verif.Spec.SecretsErrors
import Verif.Props.MigrateOutput
import Verif.Proofs.Journal
/-! Properties of what cmd/migrate-store writes to standard error (C222, C223). -/

namespace Verif.Props.MigrateErrors
open Verif Verif.Go Verif.Model.Util Verif.Model.Migrate Verif.Model.MigrateErrors Verif.Spec.Migrate Verif.Props.Migrate
open Verif.Model.SecretsErrors (Texts errorf)
open Verif.Spec.SecretsErrors (report)

variable (T : Texts) (C : Crypto)

/-- One file: status and line go together. -/
theorem migrateErr_status {w w' : World} {p : Path} {ok : Bool} (h : migrateStore C w p = .ok (ok, w')) :
    ok = true ∧ migrateErr T C w p = [] ∨ ok = false ∧ ∃ m, migrateErr T C w p = [report m] := by
  unfold migrateErr
  cases ha : w.term.answers with
  | nil =>
    unfold migrateStore at h
    simp only [Term.read, ha] at h
    cases h
    exact .inr ⟨rfl, _, by simp only [Term.read, ha]; rfl⟩
  | cons a as =>
    cases a with
    | none =>
      unfold migrateStore at h
      simp only [Term.read, ha] at h
      cases h
      exact .inr ⟨rfl, _, by simp only [Term.read, ha]; rfl⟩
    | some pass =>
      rw [migrate_some C ha] at h
      simp only [Term.read, ha]
      cases hd : Legacy.decryptFile C w.fs p pass with
      | panic => rw [hd] at h; cases h
      | ok r =>
        rw [hd] at h
        cases r with
        | error x => cases h; exact .inr ⟨rfl, _, rfl⟩
        | ok blob =>
          simp only [Res.ok_bind] at h ⊢
          cases hx : Model.Secret.encryptFile C (w.disk 0) w.fs p pass blob w.rng with
          | panic => rw [hx] at h; cases h
          | ok out =>
            rw [hx] at h
            simp only [Res.ok_bind, Res.pure_eq, Res.ok.injEq, Prod.mk.injEq] at h ⊢
            cases ok with
            | true => exact .inl ⟨rfl, by rw [if_pos h.1]⟩
            | false => exact .inr ⟨rfl, _, by rw [if_neg (by simp [h.1])]; rfl⟩

theorem main_pre {w w1 : World} {pre post : List Path} (h : main C w pre = .ok (true, w1)) :
    mainErr T C w (pre ++ post) = mainErr T C w1 post ∧ main C w (pre ++ post) = main C w1 post := by
  induction pre generalizing w with
  | nil => cases h; exact ⟨rfl, rfl⟩
  | cons q pre ih =>
    rw [main] at h
    rw [List.cons_append, main, mainErr]
    cases hq : migrateStore C w q with
    | panic => rw [hq] at h; cases h
    | ok x =>
      obtain ⟨b, w2⟩ := x
      rw [hq] at h
      cases b with
      | false => cases h
      | true =>
        rcases migrateErr_status T C hq with ⟨-, h1⟩ | ⟨h1, -⟩
        · rw [h1]; exact ih h
        · cases h1

/-- C222: with exit status 1 there is exactly one line on standard error. -/
theorem C222_failed (w w' : World) (paths : List Path) (h : main C w paths = .ok (false, w')) :
    ∃ m, mainErr T C w paths = [report m] := by
  induction paths generalizing w with
  | nil => cases h
  | cons p ps ih =>
    rw [main] at h
    rw [mainErr]
    cases hq : migrateStore C w p with
    | panic => rw [hq] at h; cases h
    | ok x =>
      obtain ⟨b, w2⟩ := x
      rw [hq] at h
      rcases migrateErr_status T C hq with ⟨rfl, h1⟩ | ⟨rfl, m, h1⟩
      · rw [h1]; exact ih w2 h
      · exact ⟨m, by rw [h1]; rfl⟩

/-- C222: with exit status 0 there is nothing on standard error. -/
theorem C222_quiet (w w' : World) (paths : List Path) (h : main C w paths = .ok (true, w')) :
    mainErr T C w paths = [] := by
  have := (main_pre T C (post := []) h).1
  rw [List.append_nil] at this
  exact this

theorem mainErr_stops {w w1 w2 : World} {pre post : List Path} {p : Path} (hpre : main C w pre = .ok (true, w1))
    (hp : migrateStore C w1 p = .ok (false, w2)) : mainErr T C w (pre ++ p :: post) = migrateErr T C w1 p := by
  rw [(main_pre T C hpre).1, mainErr, hp]
  exact List.append_nil _

theorem encryptErr_eq (p : Path) (pass blob : Bytes) (rng : Rng) : encryptErr T C p pass blob rng =
    if rng.length < 32 then ascii "password: failed to generate new salt"
      else if rng.length < 56 then ascii "password: failed to encrypt data" else T.write p := by
  unfold encryptErr randBytes Model.Secret.saltSize readFull
  by_cases h1 : rng.length < 32
  · rw [if_pos h1, if_neg (by omega)]
  · rw [if_neg h1, if_pos (by omega)]
    simp only [Proofs.Secret.deriveKey_eq, Proofs.Secret.encrypt_some, List.length_drop]
    by_cases h2 : rng.length < 56
    · rw [if_pos h2, if_neg (by omega)]
    · rw [if_neg h2, if_pos (by omega)]

/-- C223: if no password can be read, standard error says so, and this and the following files are left alone. -/
theorem C223_no_password (w w1 : World) (pre post : List Path) (p : Path) (hpre : main C w pre = .ok (true, w1))
    (h : ∀ pass as, w1.term.answers ≠ some pass :: as) :
    mainErr T C w (pre ++ p :: post) = [report T.prompt] ∧ ∃ w2, main C w (pre ++ p :: post) = .ok (false, w2) ∧ w2.fs = w1.fs := by
  have hm : ∃ w2, migrateStore C w1 p = .ok (false, w2) ∧ w2.fs = w1.fs ∧ migrateErr T C w1 p = [report T.prompt] := by
    unfold migrateStore migrateErr
    cases ha : w1.term.answers with
    | nil => simp only [Term.read, ha]; exact ⟨_, rfl, rfl, rfl⟩
    | cons a as =>
      cases a with
      | none => simp only [Term.read, ha]; exact ⟨_, rfl, rfl, rfl⟩
      | some pass => exact absurd ha (h pass as)
  obtain ⟨w2, h1, h2, h3⟩ := hm
  exact ⟨by rw [mainErr_stops T C hpre h1, h3], w2, C101_reported C w w1 w2 pre post p hpre h1, h2⟩

/-- C223: a file that is not there is named as one that cannot be read. -/
theorem C223_missing (w w1 : World) (pre post : List Path) (p : Path) (hpre : main C w pre = .ok (true, w1)) (pass : Bytes)
    (as : List (Option Bytes)) (ha : w1.term.answers = some pass :: as) (hf : w1.fs p = none) :
    mainErr T C w (pre ++ p :: post) = [report (T.read p)] ∧ ∃ w2, main C w (pre ++ p :: post) = .ok (false, w2) ∧ w2.fs = w1.fs := by
  have hd : Legacy.decryptFile C w1.fs p pass = .ok (.error .read) := by unfold Legacy.decryptFile; rw [hf]
  have h1 : migrateStore C w1 p = .ok (false, { w1 with term := { w1.term with answers := as } }) := by
    rw [migrate_some C ha, hd]; rfl
  refine ⟨?_, _, C101_reported C w w1 _ pre post p hpre h1, rfl⟩
  rw [mainErr_stops T C hpre h1]
  unfold migrateErr
  simp only [Term.read, ha, hd]
  rfl

/-- C223: a wrong password and a file that was damaged, that is of another format, or that was migrated already are told in
the same words, which contain neither; the files are left alone. -/
theorem C223_shut (w w1 : World) (pre post : List Path) (p : Path) (hpre : main C w pre = .ok (true, w1)) (b pass : Bytes)
    (as : List (Option Bytes)) (ha : w1.term.answers = some pass :: as) (hf : w1.fs p = some b) (hl : 32 ≤ b.length)
    (h : ¬ ∃ blob, Old C b pass blob) :
    mainErr T C w (pre ++ p :: post) = [report (ascii "password: failed to decrypt password store")] ∧
      ∃ w2, main C w (pre ++ p :: post) = .ok (false, w2) ∧ w2.fs = w1.fs := by
  have hd : Legacy.decryptFile C w1.fs p pass = .ok (.error .decrypt) := by
    unfold Legacy.decryptFile
    rw [hf]
    simp only [Legacy.saltSize]
    rw [if_neg (by omega), legacy_deriveKey, legacy_decrypt]
    cases hx : Model.Secret.decrypt C (some (C.scrypt pass (List.take 32 b) 32768 8 4 32)) (List.drop 32 b) with
    | panic => exact absurd hx (Proofs.Secret.decrypt_no_panic C _ _)
    | ok r => cases r with
      | none => rfl
      | some m => exact absurd ⟨m, (sealed_open C).mpr ⟨hl, hx⟩⟩ h
  have h1 : migrateStore C w1 p = .ok (false, { w1 with term := { w1.term with answers := as } }) := by
    rw [migrate_some C ha, hd]; rfl
  refine ⟨?_, _, C101_reported C w w1 _ pre post p hpre h1, rfl⟩
  rw [mainErr_stops T C hpre h1]
  unfold migrateErr
  simp only [Term.read, ha, hd]
  rfl

/-- C223: a file that opened but was not migrated: either there were not enough random numbers, and the files are left
alone, or the write failed, and the line says this of the path. -/
theorem C223_opened (w w1 w2 : World) (pre post : List Path) (p : Path) (hpre : main C w pre = .ok (true, w1)) (b pass blob : Bytes)
    (as : List (Option Bytes)) (ha : w1.term.answers = some pass :: as) (hf : w1.fs p = some b) (h : Old C b pass blob)
    (hm : main C w (pre ++ p :: post) = .ok (false, w2)) (hstop : ∀ w3, migrateStore C w1 p ≠ .ok (true, w3)) :
    mainErr T C w (pre ++ p :: post) =
      [report (if w1.rng.length < 32 then ascii "password: failed to generate new salt"
        else if w1.rng.length < 56 then ascii "password: failed to encrypt data" else T.write p)] ∧
    (w1.rng.length < 56 → w2.fs = w1.fs) ∧ (∀ q, q ≠ p → w2.fs q = w1.fs q) := by
  have hd := (C79_legacy_exact C w1.fs p pass blob).mpr ⟨b, hf, h⟩
  cases hx : migrateStore C w1 p with
  | panic => rw [(main_pre T C hpre).2, main, hx] at hm; cases hm
  | ok x =>
    obtain ⟨ok, w3⟩ := x
    cases ok with
    | true => exact absurd hx (hstop w3)
    | false =>
      have : w3 = w2 := by
        have := C101_reported C w w1 w3 pre post p hpre hx
        rw [hm] at this
        cases this
        rfl
      subst this
      rw [mainErr_stops T C hpre hx]
      rw [migrate_some C ha, hd] at hx
      simp only [Res.ok_bind, Proofs.Secret.encryptFile_eq] at hx
      unfold migrateErr
      simp only [Term.read, ha, hd, Proofs.Secret.encryptFile_eq]
      rw [encryptErr_eq]
      by_cases h1 : w1.rng.length < 32
      · simp only [if_pos h1] at hx ⊢
        cases hx
        exact ⟨rfl, fun _ => rfl, fun _ _ => rfl⟩
      · simp only [if_neg h1] at hx ⊢
        by_cases h2 : w1.rng.length < 56
        · simp only [if_pos h2] at hx ⊢
          cases hx
          exact ⟨rfl, fun _ => rfl, fun _ _ => rfl⟩
        · simp only [if_neg h2] at hx ⊢
          simp only [Res.ok_bind, Res.pure_eq, Res.ok.injEq, Prod.mk.injEq] at hx
          obtain ⟨e1, e2⟩ := hx
          rw [e1]
          refine ⟨rfl, fun hc => absurd hc h2, fun q hq => ?_⟩
          rw [← e2]
          exact Proofs.Journal.writeFile_other hq

/-- Of two files the first is migrated. For the second a wrong password is typed. -/
example : ∃ w1, main Toy.crypto (exWorld .done) [[97]] = .ok (true, w1) ∧ (w1.term.answers = [some [113]] ∧ w1.fs [98] = some [0, 1]) ∧
    mainErr T Toy.crypto (exWorld .done) [[97], [99]] = [report (T.read [99])] ∧
    mainErr T Toy.crypto (exWorld .done) [[97], [97]] = [report (ascii "password: failed to decrypt password store")] := by
  obtain ⟨w', h1, h2, h3, h4, h5⟩ := C79_migrates Toy.crypto (exWorld .done) [97] exOld [112] [1, 2, 3]
      (List.replicate 32 4) (List.replicate 24 4) (List.replicate 4 4) [some [113]] rfl rfl exOld_old (by decide)
      (by decide) (by decide) rfl
  have hm : main Toy.crypto (exWorld .done) [[97]] = .ok (true, w') := by simp [main, h1]
  refine ⟨w', hm, ⟨h5, (h3 [98] (by decide)).trans rfl⟩, ?_, ?_⟩
  · exact (C223_missing T Toy.crypto _ w' [[97]] [] [99] hm [113] [] h5 ((h3 [99] (by decide)).trans rfl)).1
  · refine (C223_shut T Toy.crypto _ w' [[97]] [] [97] hm _ [113] [] h5 h2 (by simp) ?_).1
    rintro ⟨blob, hb⟩
    have h6 := ((sealed_open Toy.crypto).mp hb).2
    cases h6

/-- The disk is full, or nothing is typed. -/
example : mainErr T Toy.crypto (exWorld (.failsAfter 0)) [[97]] = [report (T.write [97])] ∧
    mainErr T Toy.crypto { exWorld .done with term := ⟨[none], fun _ => 5⟩ } [[97]] = [report T.prompt] := by
  constructor
  · obtain ⟨w', h1, -⟩ := C101_disk_full_violated Toy.crypto (exWorld (.failsAfter 0)) [97] exOld [112] [1, 2, 3] 0 [some [113]]
      rfl rfl exOld_old (by decide) rfl (by decide)
    refine (C223_opened T Toy.crypto _ _ w' [] [] [97] rfl exOld [112] [1, 2, 3] [some [113]] rfl rfl exOld_old
      (by simp [main, h1]) (fun w3 h => by rw [h1] at h; cases h)).1.trans ?_
    rw [if_neg (by decide), if_neg (by decide)]
  · exact (C223_no_password T Toy.crypto _ _ [] [] [97] rfl (fun _ _ h => by cases h)).1

end Verif.Props.MigrateErrors
