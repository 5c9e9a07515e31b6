import Verif.Model.MigrateOutput
import Verif.Props.Migrate
/-! C188: what cmd/migrate-store prints. -/

namespace Verif.Props.MigrateOutput
open Verif Verif.Go Verif.Model.Util Verif.Model.Migrate Verif.Model.MigrateOutput Verif.Spec.Migrate Verif.Props.Migrate

variable (C : Crypto)

def decrypted (p : Path) : Bytes := ascii "[+] Decrypted " ++ p ++ ascii ".\n"
def migrated (p : Path) : Bytes := ascii "[+] Migrated " ++ p ++ ascii ".\n"

/-- The next password typed opens the file in the old format. -/
def Opens (w : World) (p : Path) (pass blob : Bytes) : Prop :=
  ∃ b as, w.term.answers = some pass :: as ∧ w.fs p = some b ∧ Old C b pass blob

theorem text_opens {w : World} {p : Path} {pass blob : Bytes} (h : Opens C w p pass blob) :
    (∃ w', migrateStore C w p = .ok (true, w') ∧ migrateText C w p = decrypted p ++ migrated p ∧ ∃ y, w'.fs p = some y ∧ New C y pass blob) ∨
    (∀ w', migrateStore C w p ≠ .ok (true, w')) ∧ migrateText C w p = decrypted p := by
  obtain ⟨b, as, ha, hf, ho⟩ := h
  have hd := (C79_legacy_exact C w.fs p pass blob).mpr ⟨b, hf, ho⟩
  rw [migrate_some C ha, hd]
  have ht : w.term.read.1 = some pass := by simp [Term.read, ha]
  simp only [migrateText, ht, hd, Res.ok_bind]
  cases hx : Model.Secret.encryptFile C (w.disk 0) w.fs p pass blob w.rng with
  | panic => exact .inr ⟨(fun w' h => by cases h), List.append_nil _⟩
  | ok out =>
    cases hok : out.ok with
    | false =>
      refine .inr ⟨fun w' h => ?_, by simp [hok, decrypted]⟩
      simp [hok] at h
    | true =>
      obtain ⟨-, hc⟩ := Props.Secret.C12_file_roundtrip C _ _ _ _ _ _ _ hx
      obtain ⟨y, hy1, hy2⟩ := (C79_current_exact C _ _ _ _).mp (hc hok).1
      refine .inl ⟨_, by rw [Res.ok_bind, hok]; rfl, by simp [hok, decrypted, migrated], y, hy1, hy2⟩

theorem text_closed {w : World} {p : Path} (h : ¬ ∃ pass blob, Opens C w p pass blob) :
    (∀ w', migrateStore C w p ≠ .ok (true, w')) ∧ migrateText C w p = [] := by
  unfold migrateText migrateStore
  cases ha : w.term.answers with
  | nil => simp [Term.read, ha]
  | cons a as =>
    cases a with
    | none => simp [Term.read, ha]
    | some pass =>
      simp only [Term.read, ha]
      cases hd : Legacy.decryptFile C w.fs p pass with
      | panic => exact ⟨(fun w' h => by cases h), rfl⟩
      | ok r =>
        cases r with
        | error x => exact ⟨(fun w' h => by cases h), rfl⟩
        | ok blob =>
          obtain ⟨b, h1, h2⟩ := (C79_legacy_exact C w.fs p pass blob).mp hd
          exact absurd ⟨pass, blob, b, as, ha, h1, h2⟩ h

/-- The text consists of two lines for every file that was migrated, and, if the program fails at a file, a line for this
one if and only if the password opened it. A file that is said to be migrated has been taken from the old format to the new one,
under the same password and with the same plaintext. -/
theorem C188_lines (w : World) (paths : List Path) :
    ∃ (pre post : List Path) (w1 : World) (last : Bytes), paths = pre ++ post ∧ main C w pre = .ok (true, w1) ∧
      mainText C w paths = (pre.map fun p => decrypted p ++ migrated p).flatten ++ last ∧
      (∀ p rest, post = p :: rest → (∀ w2, migrateStore C w1 p ≠ .ok (true, w2)) ∧
        ((∃ pass blob, Opens C w1 p pass blob) ∧ last = decrypted p ∨ (¬ ∃ pass blob, Opens C w1 p pass blob) ∧ last = [])) ∧
      (post = [] → last = []) ∧
      ∀ a p b, pre = a ++ p :: b → ∃ wa wb pass blob, main C w a = .ok (true, wa) ∧ migrateStore C wa p = .ok (true, wb) ∧
        Opens C wa p pass blob ∧ ∃ y, wb.fs p = some y ∧ New C y pass blob := by
  induction paths generalizing w with
  | nil => exact ⟨[], [], w, [], rfl, rfl, rfl, (fun p rest h => by cases h), fun _ => rfl, (fun a p b h => by cases a <;> cases h)⟩
  | cons p ps ih =>
    rw [mainText]
    by_cases hop : ∃ pass blob, Opens C w p pass blob
    · obtain ⟨pass, blob, ho⟩ := hop
      rcases text_opens C ho with ⟨w', h1, h2, h3⟩ | ⟨h1, h2⟩
      · obtain ⟨pre, post, w1, last, i1, i2, i3, i4, i5, i6⟩ := ih w'
        refine ⟨p :: pre, post, w1, last, by rw [i1]; rfl, by rw [main, h1]; exact i2, ?_, i4, i5, ?_⟩
        · rw [h1, h2]
          simp only [i3, List.map_cons, List.flatten_cons, List.append_assoc]
        · intro a q b hab
          cases a with
          | nil =>
            cases hab
            exact ⟨w, w', pass, blob, rfl, h1, ho, h3⟩
          | cons x a =>
            cases hab
            obtain ⟨wa, wb, pa, bl, j1, j2⟩ := i6 a q b rfl
            exact ⟨wa, wb, pa, bl, by rw [main, h1]; exact j1, j2⟩
      · refine ⟨[], p :: ps, w, decrypted p, rfl, rfl, ?_, ?_, (fun h => by cases h), (fun a p b h => by cases a <;> cases h)⟩
        · rw [h2]
          cases hx : migrateStore C w p with
          | panic => rw [List.append_nil]; rfl
          | ok r =>
            obtain ⟨ok, w2⟩ := r
            cases ok with
            | true => exact absurd hx (h1 w2)
            | false => rw [List.append_nil]; rfl
        · intro q rest hq
          cases hq
          exact ⟨h1, .inl ⟨⟨pass, blob, ho⟩, rfl⟩⟩
    · obtain ⟨h1, h2⟩ := text_closed C hop
      refine ⟨[], p :: ps, w, [], rfl, rfl, ?_, ?_, fun _ => rfl, (fun a p b h => by cases a <;> cases h)⟩
      · rw [h2]
        cases hx : migrateStore C w p with
        | panic => rfl
        | ok r =>
          obtain ⟨ok, w2⟩ := r
          cases ok with
          | true => exact absurd hx (h1 w2)
          | false => rfl
      · intro q rest hq
        cases hq
        exact ⟨h1, .inr ⟨hop, rfl⟩⟩

/-- With exit status 0 every file has been announced. -/
theorem C188_all (w w' : World) (paths : List Path) (h : main C w paths = .ok (true, w')) :
    mainText C w paths = (paths.map fun p => decrypted p ++ migrated p).flatten := by
  obtain ⟨pre, post, w1, last, h1, h2, h3, h4, h5, -⟩ := C188_lines C w paths
  cases post with
  | nil => rw [h3, h5 rfl, h1, List.append_nil, List.append_nil]
  | cons p rest =>
    exfalso
    have hsplit : ∀ (pre : List Path) (w : World), main C w pre = .ok (true, w1) →
        main C w (pre ++ p :: rest) = main C w1 (p :: rest) := by
      intro pre
      induction pre with
      | nil => intro w h; cases h; rfl
      | cons q pre ih =>
        intro w hw
        rw [main] at hw
        rw [List.cons_append, main]
        cases hq : migrateStore C w q with
        | panic => rw [hq] at hw; cases hw
        | ok x =>
          obtain ⟨b, w2⟩ := x
          rw [hq] at hw
          cases b with
          | false => cases hw
          | true => exact ih w2 hw
    rw [h1, hsplit pre w h2, main] at h
    cases hq : migrateStore C w1 p with
    | panic => rw [hq] at h; cases h
    | ok x =>
      obtain ⟨b, w2⟩ := x
      cases b with
      | true => exact (h4 p rest rfl).1 w2 hq
      | false => rw [hq] at h; cases h

/-- One file is migrated; when the disk is full, it is only decrypted. -/
example : Opens Toy.crypto (exWorld .done) [97] [112] [1, 2, 3] ∧
    mainText Toy.crypto (exWorld .done) [[97]] = ascii "[+] Decrypted a.\n[+] Migrated a.\n" ∧
    mainText Toy.crypto (exWorld (.failsAfter 0)) [[97]] = ascii "[+] Decrypted a.\n" := by
  have ho : ∀ o, Opens Toy.crypto (exWorld o) [97] [112] [1, 2, 3] := fun o => ⟨exOld, _, rfl, rfl, exOld_old⟩
  refine ⟨ho _, ?_, ?_⟩
  · obtain ⟨w', h1, -⟩ := C79_migrates Toy.crypto (exWorld .done) [97] exOld [112] [1, 2, 3]
      (List.replicate 32 4) (List.replicate 24 4) (List.replicate 4 4) [some [113]] rfl rfl exOld_old (by decide)
      (by decide) (by decide) rfl
    rw [C188_all Toy.crypto _ w' [[97]] (by simp [main, h1])]
    decide
  · obtain ⟨w', h1, -⟩ := C101_disk_full_violated Toy.crypto (exWorld (.failsAfter 0)) [97] exOld [112] [1, 2, 3] 0 [some [113]]
      rfl rfl exOld_old (by decide) rfl (by decide)
    rcases text_opens Toy.crypto (ho (.failsAfter 0)) with ⟨w2, h2, -⟩ | ⟨-, h2⟩
    · rw [h1] at h2; cases h2
    · rw [mainText, h2, h1]
      show decrypted [97] ++ [] = _
      decide

end Verif.Props.MigrateOutput
