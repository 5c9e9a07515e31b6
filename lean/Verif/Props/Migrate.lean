import Verif.Model.Migrate
import Verif.Spec.Migrate
import Verif.Proofs.Secret
import Verif.Props.Secret
/-! Properties of cmd/migrate-store (C79, C101). -/

namespace Verif.Props.Migrate
open Verif Verif.Go Verif.Model.Util Verif.Model.Migrate Verif.Spec.Migrate

variable (C : Crypto)

theorem legacy_deriveKey (pass salt : Bytes) :
    Legacy.deriveKey C pass salt = some (C.scrypt pass salt 32768 8 4 32) := by
  unfold Legacy.deriveKey
  have : Model.Secret.scryptKey C pass salt 32768 8 4 32 = some (C.scrypt pass salt 32768 8 4 32) := by
    unfold Model.Secret.scryptKey
    rw [if_neg (by decide), if_neg (by decide)]
  simp only [Legacy.keySize, this]
  rw [copyInto_eq (C.scrypt_length ..)]

theorem legacy_decrypt (k : Option Bytes) (ct : Bytes) :
    Legacy.decrypt C k ct = Model.Secret.decrypt C k ct := rfl

theorem sealed_open {N r p : Nat} {b pass blob : Bytes} :
    Sealed C N r p b pass blob ↔ 32 ≤ b.length ∧
      Model.Secret.decrypt C (some (C.scrypt pass (b.take 32) N r p 32)) (b.drop 32) = .ok (some blob) := by
  rw [Proofs.Secret.decrypt_iff]
  constructor
  · rintro ⟨salt, nonce, hs, hn, rfl⟩
    rw [List.take_left' hs, List.drop_left' hs]
    exact ⟨by simp only [List.length_append]; omega, nonce, hn, rfl⟩
  · rintro ⟨hl, nonce, hn, h⟩
    exact ⟨b.take 32, nonce, by simp only [List.length_take]; omega, hn, by rw [← h, List.take_append_drop]⟩

/-- C79: `legacy.DecryptFile` opens exactly the files in the old format. -/
theorem C79_legacy_exact (fs : Fs) (f : Path) (pass blob : Bytes) :
    Legacy.decryptFile C fs f pass = .ok (.ok blob) ↔ ∃ b, fs f = some b ∧ Old C b pass blob := by
  unfold Legacy.decryptFile Old
  cases hf : fs f with
  | none => simp
  | some b =>
    simp only [sealed_open, Option.some.injEq, exists_eq_left', Legacy.saltSize]
    by_cases hl : b.length < 32
    · rw [if_pos hl]; simp; omega
    · rw [if_neg hl, legacy_deriveKey, legacy_decrypt]
      constructor
      · intro h
        obtain ⟨r, h1, h2⟩ := Res.bind_eq_ok.mp h
        cases r with
        | none => simp at h2
        | some m => simp at h2; subst h2; exact ⟨by omega, h1⟩
      · rintro ⟨_, h⟩
        rw [h]; rfl

/-- C79: `secret.DecryptFile` opens exactly the files in the new format. -/
theorem C79_current_exact (fs : Fs) (f : Path) (pass blob : Bytes) :
    Model.Secret.decryptFile C fs f pass = .ok (.ok blob) ↔ ∃ b, fs f = some b ∧ New C b pass blob := by
  unfold Model.Secret.decryptFile New
  cases hf : fs f with
  | none => simp
  | some b =>
    simp only [sealed_open, Option.some.injEq, exists_eq_left', Model.Secret.saltSize]
    by_cases hl : b.length < 32
    · rw [if_pos hl]; simp; omega
    · rw [if_neg hl, Proofs.Secret.deriveKey_eq]
      constructor
      · intro h
        obtain ⟨r, h1, h2⟩ := Res.bind_eq_ok.mp h
        cases r with
        | none => simp at h2
        | some m => simp at h2; subst h2; exact ⟨by omega, h1⟩
      · rintro ⟨_, h⟩
        rw [Proofs.Secret.stdKey, h]; rfl

/-- What `migrateStore` does once the password is read. -/
theorem migrate_some {w : World} {path : Path} {pass : Bytes} {as : List (Option Bytes)}
    (ha : w.term.answers = some pass :: as) :
    migrateStore C w path = (do
      match ← Legacy.decryptFile C w.fs path pass with
      | .error _ => pure (false, { w with term := { w.term with answers := as } })
      | .ok blob =>
        let out ← Model.Secret.encryptFile C (w.disk 0) w.fs path pass blob w.rng
        pure (out.ok, { w with term := { w.term with answers := as }, fs := out.fs, rng := out.rng, disk := fun n => w.disk (n + 1) })) := by
  unfold migrateStore Term.read
  rw [ha]
  rfl

/-- C79: a file in the old format, the right password, enough randomness and a working disk:
the file is then in the new format, under the same password, with the same plaintext and fresh
salt and nonce; no other file changes. -/
theorem C79_migrates (w : World) (path : Path) (b pass blob salt nonce rest : Bytes)
    (as : List (Option Bytes)) (ha : w.term.answers = some pass :: as) (hf : w.fs path = some b)
    (hb : Old C b pass blob) (hr : w.rng = salt ++ (nonce ++ rest)) (hs : salt.length = 32)
    (hn : nonce.length = 24) (hd : w.disk 0 = .done) :
    ∃ w', migrateStore C w path = .ok (true, w') ∧
      w'.fs path = some (salt ++ (nonce ++ C.sealBox (C.scrypt pass salt 1048576 8 2 32) nonce blob)) ∧
      (∀ g, g ≠ path → w'.fs g = w.fs g) ∧ w'.rng = rest ∧ w'.term.answers = as := by
  rw [migrate_some C ha, (C79_legacy_exact C w.fs path pass blob).mpr ⟨b, hf, hb⟩, hd]
  simp only [Res.ok_bind, Proofs.Secret.encryptFile_eq, hr]
  have hl : (salt ++ (nonce ++ rest)).length = 56 + rest.length := by simp only [List.length_append]; omega
  rw [if_neg (by omega), if_neg (by omega)]
  refine ⟨_, rfl, ?_, ?_, ?_, rfl⟩
  · simp only [writeFile, Fs.set_same]
    rw [List.take_left' hs, List.drop_left' hs, List.take_left' hn]
    rfl
  · intro g hg
    exact Fs.set_other _ _ hg
  · show List.drop 56 _ = _
    rw [← List.append_assoc]
    exact List.drop_left' (by simp only [List.length_append]; omega)

/-- C79: with a wrong password or a failing PRNG the run fails and every file is as it was. -/
theorem C79_refuses (w : World) (path : Path) (b pass : Bytes) (as : List (Option Bytes))
    (ha : w.term.answers = some pass :: as) (hf : w.fs path = some b) (hl : 32 ≤ b.length)
    (h : (¬ ∃ blob, Old C b pass blob) ∨ w.rng.length < 56) :
    ∃ w', migrateStore C w path = .ok (false, w') ∧ w'.fs = w.fs := by
  rw [migrate_some C ha]
  by_cases ho : ∃ blob, Old C b pass blob
  · obtain ⟨blob, hb⟩ := ho
    have hr := h.resolve_left (fun hc => hc ⟨blob, hb⟩)
    rw [(C79_legacy_exact C w.fs path pass blob).mpr ⟨b, hf, hb⟩]
    simp only [Res.ok_bind, Proofs.Secret.encryptFile_eq]
    by_cases h1 : w.rng.length < 32
    · rw [if_pos h1]; exact ⟨_, rfl, rfl⟩
    · rw [if_neg h1, if_pos hr]; exact ⟨_, rfl, rfl⟩
  · have hd : Legacy.decryptFile C w.fs path pass = .ok (.error .decrypt) := by
      unfold Legacy.decryptFile
      rw [hf]
      simp only [Legacy.saltSize]
      rw [if_neg (by omega), legacy_deriveKey, legacy_decrypt]
      cases hx : Model.Secret.decrypt C (some (C.scrypt pass (List.take 32 b) 32768 8 4 32)) (List.drop 32 b) with
      | panic => exact absurd hx (Proofs.Secret.decrypt_no_panic C _ _)
      | ok r => cases r with
        | none => rfl
        | some m => exact absurd ⟨m, (sealed_open C).mpr ⟨hl, hx⟩⟩ ho
    rw [hd]
    exact ⟨_, rfl, rfl⟩

/-- One file after one run: as it was, or taken from the old to the new format. -/
def Moved (b b' : Option Bytes) (answers : List (Option Bytes)) : Prop :=
  ∃ x y pass blob, b = some x ∧ b' = some y ∧ some pass ∈ answers ∧ Old C x pass blob ∧ New C y pass blob

theorem migrate_step {w w' : World} {path : Path} {ok : Bool} (hd : ∀ k, w.disk 0 ≠ .failsAfter k)
    (h : migrateStore C w path = .ok (ok, w')) :
    (∀ g, g ≠ path → w'.fs g = w.fs g) ∧
    (ok = false → w'.fs path = w.fs path) ∧
    (ok = true → Moved C (w.fs path) (w'.fs path) w.term.answers) ∧
    (∀ a ∈ w'.term.answers, a ∈ w.term.answers) ∧
    (∀ n, ∃ m, w'.disk n = w.disk m) := by
  cases ha : w.term.answers with
  | nil =>
    simp [migrateStore, Term.read, ha] at h
    obtain ⟨rfl, rfl⟩ := h
    simp [ha]
    exact fun n => ⟨n, rfl⟩
  | cons a as =>
    cases a with
    | none =>
      simp [migrateStore, Term.read, ha] at h
      obtain ⟨rfl, rfl⟩ := h
      simp
      exact ⟨fun a h => .inr h, fun n => ⟨n, rfl⟩⟩
    | some pass =>
      rw [migrate_some C ha] at h
      obtain ⟨r, h1, h2⟩ := Res.bind_eq_ok.mp h
      cases r with
      | error e =>
        simp at h2
        obtain ⟨rfl, rfl⟩ := h2
        simp
        exact ⟨fun a h => .inr h, fun n => ⟨n, rfl⟩⟩
      | ok blob =>
        obtain ⟨out, h3, h4⟩ := Res.bind_eq_ok.mp h2
        simp only [Res.pure_eq, Res.ok.injEq, Prod.mk.injEq] at h4
        obtain ⟨rfl, rfl⟩ := h4
        obtain ⟨hc1, hc2⟩ := Props.Secret.C12_file_roundtrip C _ _ _ _ _ _ _ h3
        obtain ⟨b, hb1, hb2⟩ := (C79_legacy_exact C _ _ _ _).mp h1
        refine ⟨hc1, ?_, ?_, fun a h => by simp at h ⊢; exact .inr h, fun n => ⟨n + 1, rfl⟩⟩
        · intro hf
          rw [Proofs.Secret.encryptFile_eq] at h3
          split at h3
          · simp at h3; subst h3; rfl
          · split at h3
            · simp at h3; subst h3; rfl
            · cases hw : w.disk 0 with
              | done => rw [hw] at h3; simp [writeFile] at h3; subst h3; simp at hf
              | openFails => rw [hw] at h3; simp [writeFile] at h3; subst h3; rfl
              | failsAfter k => exact absurd hw (hd k)
        · intro ht
          obtain ⟨y, hy1, hy2⟩ := (C79_current_exact C _ _ _ _).mp (hc2 ht).1
          exact ⟨b, y, pass, blob, hb1, hy1, by simp, hb2, hy2⟩

/-- C79: the whole program, for any number of files given once each and a disk that does not fail
in the middle of a write: every file is as it was or was taken from the old to the new format
under one of the passwords typed, with the same plaintext; if the exit status is 0 every file
named was. -/
theorem C79_program (paths : List Path) (w w' : World) (ok : Bool) (hp : paths.Nodup)
    (hd : ∀ n k, w.disk n ≠ .failsAfter k) (h : main C w paths = .ok (ok, w')) :
    (∀ g, w'.fs g = w.fs g ∨ g ∈ paths ∧ Moved C (w.fs g) (w'.fs g) w.term.answers) ∧
    (ok = true → ∀ g ∈ paths, Moved C (w.fs g) (w'.fs g) w.term.answers) := by
  induction paths generalizing w with
  | nil =>
    simp [main] at h
    obtain ⟨rfl, rfl⟩ := h
    simp
  | cons p ps ih =>
    simp only [main] at h
    obtain ⟨⟨ok1, w1⟩, h1, h2⟩ := Res.bind_eq_ok.mp h
    obtain ⟨s1, s2, s3, s4, s5⟩ := migrate_step C (hd 0) h1
    have hpn := List.nodup_cons.mp hp
    cases ok1 with
    | false =>
      simp at h2
      obtain ⟨rfl, rfl⟩ := h2
      refine ⟨fun g => .inl ?_, by simp⟩
      by_cases hg : g = p
      · subst hg; exact s2 rfl
      · exact s1 g hg
    | true =>
      simp only at h2
      have mono : ∀ {a b}, Moved C a b w1.term.answers → Moved C a b w.term.answers := by
        rintro a b ⟨x, y, pass, blob, e1, e2, e3, e4, e5⟩
        exact ⟨x, y, pass, blob, e1, e2, s4 _ e3, e4, e5⟩
      obtain ⟨i1, i2⟩ := ih w1 hpn.2 (fun n k => by obtain ⟨m, hm⟩ := s5 n; rw [hm]; exact hd m k) h2
      have hp' : w'.fs p = w1.fs p := (i1 p).resolve_right (fun hc => hpn.1 hc.1)
      constructor
      · intro g
        by_cases hg : g = p
        · subst hg
          exact .inr ⟨by simp, by rw [hp']; exact s3 rfl⟩
        · rcases i1 g with e | ⟨e1, e2⟩
          · exact .inl (by rw [e, s1 g hg])
          · rw [s1 g hg] at e2
            exact .inr ⟨by simp [e1], mono e2⟩
      · intro hok g hg
        by_cases hgp : g = p
        · subst hgp; rw [hp']; exact s3 rfl
        · have := i2 hok g (by simpa [hgp] using hg)
          rw [s1 g hgp] at this
          exact mono this

/-- C101 is false: when the disk fills up during the write, the store is lost: what is left
is a strict prefix of the new file, and for a write that stops at once it is an empty file, on
which both readers panic. -/
theorem C101_disk_full_violated (w : World) (path : Path) (b pass blob : Bytes) (k : Nat)
    (as : List (Option Bytes)) (ha : w.term.answers = some pass :: as) (hf : w.fs path = some b)
    (hb : Old C b pass blob) (hr : 56 ≤ w.rng.length) (hd : w.disk 0 = .failsAfter k) (hk : k < 32) :
    ∃ w', migrateStore C w path = .ok (false, w') ∧ w'.fs path ≠ w.fs path ∧
      ∀ p, Model.Secret.decryptFile C w'.fs path p = .panic ∧ Legacy.decryptFile C w'.fs path p = .panic := by
  rw [migrate_some C ha, (C79_legacy_exact C w.fs path pass blob).mpr ⟨b, hf, hb⟩, hd]
  simp only [Res.ok_bind, Proofs.Secret.encryptFile_eq]
  rw [if_neg (by omega), if_neg (by omega)]
  refine ⟨_, rfl, ?_, fun p => ?_⟩
  · obtain ⟨salt, nonce, hs, hn, rfl⟩ := hb
    simp only [writeFile, Fs.set_same, hf, ne_eq, Option.some.injEq]
    intro h
    have := congrArg List.length h
    rw [List.length_take] at this
    simp only [List.length_append] at this
    omega
  · have hlen : ∀ x : Bytes, (x.take k).length < 32 := by
      intro x; rw [List.length_take]; omega
    refine ⟨(Props.Secret.C13_panics_violated C _ _ _).mpr ⟨_, Fs.set_same .., hlen _⟩, ?_⟩
    unfold Legacy.decryptFile
    simp only [writeFile, Fs.set_same, Legacy.saltSize]
    rw [if_pos (hlen _)]

/-- C101: a file shorter than a salt makes the program panic instead of reporting an error. -/
theorem C101_short_violated (w : World) (path : Path) (b pass : Bytes) (as : List (Option Bytes))
    (ha : w.term.answers = some pass :: as) (hf : w.fs path = some b) (hl : b.length < 32) :
    migrateStore C w path = .panic := by
  rw [migrate_some C ha]
  unfold Legacy.decryptFile
  rw [hf]
  simp only [Legacy.saltSize]
  rw [if_pos hl]
  rfl

/-- C101, what holds: a failing run leaves the files alone if writes fail, if at all, when the file
is opened. Missing: a disk that fills up. -/
theorem C101_unchanged_partial (w w' : World) (path : Path) (hd : ∀ k, w.disk 0 ≠ .failsAfter k)
    (h : migrateStore C w path = .ok (false, w')) : w'.fs = w.fs := by
  obtain ⟨s1, s2, -⟩ := migrate_step C hd h
  funext g
  by_cases hg : g = path
  · subst hg; exact s2 rfl
  · exact s1 g hg

/-- C101: the program stops at the first file it cannot migrate, and reports it: whatever files
follow, the exit status is 1 and they are left alone. -/
theorem C101_reported (w w1 w2 : World) (pre post : List Path) (p : Path) (hpre : main C w pre = .ok (true, w1))
    (hp : migrateStore C w1 p = .ok (false, w2)) : main C w (pre ++ p :: post) = .ok (false, w2) := by
  induction pre generalizing w with
  | nil =>
    cases hpre
    rw [List.nil_append, main, hp]
    rfl
  | cons q pre ih =>
    rw [main] at hpre
    rw [List.cons_append, main]
    cases hq : migrateStore C w q with
    | panic => rw [hq] at hpre; cases hpre
    | ok x =>
      obtain ⟨b, w'⟩ := x
      rw [hq] at hpre
      cases b with
      | false => cases hpre
      | true => exact ih w' hpre

/-! ### Examples -/

/-- A file in the old format, made by the legacy package. -/
def exOld : Bytes :=
  List.replicate 32 7 ++ (List.replicate 24 9 ++
    Toy.crypto.sealBox (Toy.crypto.scrypt [112] (List.replicate 32 7) 32768 8 4 32) (List.replicate 24 9) [1, 2, 3])

def exWorld (o : WriteOutcome) : World :=
  { term := ⟨[some [112], some [113]], fun _ => 5⟩, rng := List.replicate 60 4
    fs := fun p => if p = [97] then some exOld else if p = [98] then some [0, 1] else none
    disk := fun _ => o }

theorem exOld_old : Old Toy.crypto exOld [112] [1, 2, 3] :=
  ⟨List.replicate 32 7, List.replicate 24 9, by decide, by decide, rfl⟩

/-- The legacy package makes such files. -/
example : ∃ out, Legacy.encryptFile Toy.crypto .done (fun _ => none) [97] [112] [1, 2, 3]
    (List.replicate 32 7 ++ List.replicate 24 9) = .ok out ∧ out.fs [97] = some exOld :=
  ⟨_, rfl, by decide⟩

example : ∃ w', migrateStore Toy.crypto (exWorld .done) [97] = .ok (true, w') ∧ w'.fs [98] = some [0, 1] ∧
    Model.Secret.decryptFile Toy.crypto w'.fs [97] [112] = .ok (.ok [1, 2, 3]) := by
  obtain ⟨w', h1, h2, h3, -⟩ := C79_migrates Toy.crypto (exWorld .done) [97] exOld [112] [1, 2, 3]
    (List.replicate 32 4) (List.replicate 24 4) (List.replicate 4 4) [some [113]] rfl rfl exOld_old (by decide)
    (by decide) (by decide) rfl
  refine ⟨w', h1, by rw [h3 _ (by decide)]; rfl, ?_⟩
  rw [C79_current_exact]
  exact ⟨_, h2, List.replicate 32 4, List.replicate 24 4, by decide, by decide, rfl⟩

/-- A wrong password. -/
example : ¬ ∃ blob, Old Toy.crypto exOld [113] blob := by
  rintro ⟨blob, h⟩
  obtain ⟨h1, h2⟩ := (sealed_open Toy.crypto).mp h
  revert h2
  have : Model.Secret.decrypt Toy.crypto (some (Toy.crypto.scrypt [113] (exOld.take 32) 32768 8 4 32)) (exOld.drop 32) =
      .ok none := by decide
  rw [this]
  simp

example : ∃ r, main Toy.crypto (exWorld .done) [[97]] = .ok r ∧ r.1 = true ∧
    [([97] : Path)].Nodup ∧ ∀ n k, (exWorld .done).disk n ≠ .failsAfter k := by
  obtain ⟨w', h1, -⟩ := C79_migrates Toy.crypto (exWorld .done) [97] exOld [112] [1, 2, 3]
    (List.replicate 32 4) (List.replicate 24 4) (List.replicate 4 4) [some [113]] rfl rfl exOld_old (by decide)
    (by decide) (by decide) rfl
  exact ⟨(true, w'), by simp [main, h1], rfl, by simp, by simp [exWorld]⟩

example : (exWorld (.failsAfter 0)).disk 0 = .failsAfter 0 ∧ 56 ≤ (exWorld (.failsAfter 0)).rng.length ∧
    migrateStore Toy.crypto (exWorld .done) [98] = .panic :=
  ⟨rfl, by decide, C101_short_violated Toy.crypto (exWorld .done) [98] [0, 1] [112] [some [113]] rfl rfl (by decide)⟩

/-- The first file does not exist, the second could be migrated but is not looked at. -/
example : ∃ w2, main Toy.crypto (exWorld .done) [[99], [97]] = .ok (false, w2) ∧ w2.fs [97] = some exOld := by
  have h : migrateStore Toy.crypto (exWorld .done) [99] =
      .ok (false, { exWorld .done with term := ⟨[some [113]], fun _ => 5⟩ }) := by
    rw [migrate_some Toy.crypto (as := [some [113]]) (pass := [112]) rfl]
    rfl
  exact ⟨_, C101_reported Toy.crypto _ _ _ [] [[97]] [99] rfl h, rfl⟩

end Verif.Props.Migrate
