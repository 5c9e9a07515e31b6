import Verif.Model.PasscryptErrors
import Verif.Spec.SecretsErrors
import Verif.Props.PasscryptOutput
/-! Properties of what cmd/passcrypt writes to standard error (C219-C221). -/

namespace Verif.Props.PasscryptErrors
open Verif Verif.Go Verif.Model.Passcrypt Verif.Model.PasscryptOutput Verif.Model.PasscryptErrors Verif.Spec.Passcrypt
  Verif.Spec.PasscryptOutput Verif.Proofs.Passcrypt Verif.Proofs.PasscryptOutput Verif.Props.Passcrypt Verif.Props.PasscryptOutput
open Verif.Model.SecretsErrors (errorf)
open Verif.Spec.SecretsErrors (report)

variable (T : Texts) (C : Crypto) (P : Pem) (A : FilesAsn1) (Z : Gzip)

/-! ### Status and lines -/

theorem loopErr_status (cwd : List Bytes) (top : Bytes) (s : DiskState) (files : List File) :
    (unpackLoopErr T Z cwd top s files).isNone = (unpackLoop Z cwd top s files).2 := by
  induction files generalizing s with
  | nil => rfl
  | cons g l ih =>
    rw [unpackLoopErr, unpackLoop]
    rcases unpackEntry Z s cwd g top with ⟨s', ok⟩
    cases ok with
    | false => rfl
    | true => exact ih s'

theorem unpackErr_status (s : DiskState) (cwd : List Bytes) (b top : Bytes) :
    (unpackErr T A Z s cwd b top).isNone = (unpackFiles A Z s cwd b top).2 := by
  unfold unpackErr unpackFiles
  cases A.dec b with
  | none => rfl
  | some files =>
    simp only
    rcases makeTop s cwd top with ⟨s', ok⟩
    cases ok with
    | false => rfl
    | true => exact loopErr_status T Z cwd top s' files

theorem openErr_status {w w' : World} {args : List Bytes} {r : Option Bytes} (h : openArchive C P w args = .ok (r, w')) :
    r.isSome = true ∧ openErr T C P w args = [] ∨ r = none ∧ ∃ m, openErr T C P w args = [report m] := by
  unfold openArchive at h
  unfold openErr
  split at h
  · rename_i path
    cases hr : w.st.disk.readFile w.cwd path with
    | none => simp only [hr] at h ⊢; cases h; exact .inr ⟨rfl, _, rfl⟩
    | some raw =>
      simp only [hr] at h ⊢
      cases hb : unarmour P raw with
      | none => simp only [hb] at h ⊢; cases h; exact .inr ⟨rfl, _, rfl⟩
      | some body =>
        simp only [hb] at h ⊢
        by_cases hl : body.length ≤ saltLength
        · rw [if_pos hl] at h ⊢; cases h; exact .inr ⟨rfl, _, rfl⟩
        · rw [if_neg hl] at h ⊢
          cases ha : w.term.answers with
          | nil => simp only [Term.read, ha] at h ⊢; cases h; exact .inr ⟨rfl, _, rfl⟩
          | cons a as =>
            cases a with
            | none => simp only [Term.read, ha] at h ⊢; cases h; exact .inr ⟨rfl, _, rfl⟩
            | some pass =>
              simp only [Term.read, ha, Proofs.Secret.deriveKey_eq] at h ⊢
              cases hx : Model.Secret.decrypt C (some (Proofs.Secret.stdKey C pass (body.take saltLength))) (body.drop saltLength) with
              | panic => rw [hx] at h; cases h
              | ok r =>
                simp only [hx] at h ⊢
                cases h
                cases r with
                | none => exact .inr ⟨rfl, _, rfl⟩
                | some m => exact .inl ⟨rfl, rfl⟩
  · rename_i hn
    cases h
    refine .inr ⟨rfl, ascii "Only one file may be unpacked at a time.", ?_⟩
    split
    · rename_i path
      exact absurd rfl (hn path)
    · rfl

theorem packErr_status {f : Flags} {visits : List Visit} {w w' : World} {ok : Bool} (h : pack C P A Z f visits w = .ok (ok, w')) :
    ok = true ∧ packMainErr T C P A Z f visits w = [] ∨ ok = false ∧ ∃ m, packMainErr T C P A Z f visits w = [report m] := by
  unfold pack at h
  unfold packMainErr
  cases ha : w.term.answers with
  | nil => simp only [Term.read, ha] at h ⊢; cases h; exact .inr ⟨rfl, _, rfl⟩
  | cons a as =>
    cases a with
    | none => simp only [Term.read, ha] at h ⊢; cases h; exact .inr ⟨rfl, _, rfl⟩
    | some pass =>
      simp only [Term.read, ha] at h ⊢
      rcases hr : Model.Util.randBytes w.rng saltLength with ⟨salt, rng⟩
      simp only [hr] at h ⊢
      cases salt with
      | none => cases h; exact .inr ⟨rfl, _, rfl⟩
      | some salt =>
        simp only [Proofs.Secret.deriveKey_eq] at h ⊢
        cases hp : packFiles A Z w.st.disk w.cwd visits with
        | none => simp only [hp] at h ⊢; cases h; exact .inr ⟨rfl, _, rfl⟩
        | some out =>
          simp only [hp] at h ⊢
          cases he : Model.Secret.encrypt C (some (Proofs.Secret.stdKey C pass salt)) out rng with
          | panic => rw [he] at h; cases h
          | ok x =>
            obtain ⟨ct, rng'⟩ := x
            simp only [he] at h ⊢
            cases ct with
            | none => cases h; exact .inr ⟨rfl, _, rfl⟩
            | some ct =>
              simp only [Res.ok_bind, Res.pure_eq, Res.ok.injEq, Prod.mk.injEq] at h ⊢
              cases ok with
              | true => exact .inl ⟨rfl, by rw [if_pos h.1]⟩
              | false => exact .inr ⟨rfl, T.write f.outFile, by rw [if_neg (fun hc => Bool.noConfusion (h.1.symm.trans hc))]; rfl⟩

theorem main_status (f : Flags) (args : List Bytes) (visits : List Visit) (w w' : World) (ok : Bool)
    (h : main C P A Z f args visits w = .ok (ok, w')) :
    ok = true ∧ mainErr T C P A Z f args visits w = [] ∨ ok = false ∧ ∃ m, mainErr T C P A Z f args visits w = [report m] := by
  unfold main at h
  unfold mainErr
  split at h
  · rename_i hf
    rw [if_pos hf]
    obtain ⟨⟨r, w1⟩, h1, h⟩ := Res.bind_eq_ok.mp h
    rw [h1]
    rcases openErr_status T C P h1 with ⟨e1, e2⟩ | ⟨rfl, m, e2⟩
    · cases r with
      | none => cases e1
      | some b =>
        rw [e2]
        simp only [List.nil_append] at h ⊢
        split at h
        · rename_i hu
          rw [if_pos hu]
          have := unpackErr_status T A Z w1.st w1.cwd b f.outDir
          cases h
          revert this
          generalize unpackErr T A Z w1.st w1.cwd b f.outDir = e
          rintro this
          rw [← this]
          cases e with
          | none => exact .inl ⟨rfl, rfl⟩
          | some e => exact .inr ⟨rfl, e, rfl⟩
        · rename_i hu
          rw [if_neg hu]
          cases h
          cases A.dec b with
          | none => exact .inr ⟨rfl, _, rfl⟩
          | some l => exact .inl ⟨rfl, rfl⟩
    · cases h
      exact .inr ⟨rfl, m, by rw [e2]; rfl⟩
  · rename_i hf
    rw [if_neg hf]
    split at h
    · rename_i ha
      rw [if_pos ha]
      cases h
      exact .inl ⟨rfl, rfl⟩
    · rename_i ha
      rw [if_neg ha]
      exact packErr_status T C P A Z h

/-- C219: if passcrypt exits with a status other than 0, there is exactly one line on standard error. -/
theorem C219_failed (f : Flags) (args : List Bytes) (visits : List Visit) (w w' : World)
    (h : main C P A Z f args visits w = .ok (false, w')) : ∃ m, mainErr T C P A Z f args visits w = [report m] := by
  rcases main_status T C P A Z f args visits w w' false h with ⟨e, -⟩ | ⟨-, e⟩
  · cases e
  · exact e

/-- C219: if passcrypt exits with status 0, there is nothing on standard error. -/
theorem C219_quiet (f : Flags) (args : List Bytes) (visits : List Visit) (w w' : World)
    (h : main C P A Z f args visits w = .ok (true, w')) : mainErr T C P A Z f args visits w = [] := by
  rcases main_status T C P A Z f args visits w w' true h with ⟨-, e⟩ | ⟨e, -⟩
  · exact e
  · cases e

/-! ### Archives that do not open -/

/-- The file named on the command line holds this, once armour is taken off. -/
def Holds (w : World) (path body : Bytes) : Prop :=
  ∃ raw, w.st.disk.readFile w.cwd path = some raw ∧ (P.dec raw = none ∧ body = raw ∨ P.dec raw = some (ascii "PASSCRYPT ARCHIVE", body))

theorem holds_unarmour {w : World} {path body : Bytes} (h : Holds P w path body) :
    ∃ raw, w.st.disk.readFile w.cwd path = some raw ∧ unarmour P raw = some body := by
  obtain ⟨raw, h1, h2⟩ := h
  refine ⟨raw, h1, ?_⟩
  unfold unarmour
  rcases h2 with ⟨e1, e2⟩ | e
  · rw [e1, e2]
  · rw [e]
    exact if_neg (fun hc => hc rfl)

/-- C220: a wrong password and an archive that was altered are told in the same words, which contain nothing of either;
nothing is printed on standard output, and no file is changed. -/
theorem C220_same (verbose : Bool) (f : Flags) (path body pass : Bytes) (as : List (Option Bytes)) (visits : List Visit) (w : World)
    (hf : (f.unpack || f.list) = true) (hb : Holds P w path body) (hl : 32 < body.length) (ha : w.term.answers = some pass :: as)
    (h : ¬ ∃ plain, Spec.Migrate.New C body pass plain) :
    mainErr T C P A Z f [path] visits w = [report (ascii "Decryption failed.")] ∧
      mainText C P A Z verbose f [path] visits w = [] ∧
      ∃ w', main C P A Z f [path] visits w = .ok (false, w') ∧ w'.st = w.st := by
  have ho : ∀ plain, ¬ Opens C P w [path] plain := by
    rintro plain ⟨path', raw', body', pass', as', e1, e2, e3, e4, e5⟩
    cases e1
    obtain ⟨raw, h1, h2⟩ := hb
    rw [h1] at e2
    cases e2
    rw [ha] at e4
    cases e4
    have : body' = body := by
      rcases h2 with ⟨x1, x2⟩ | x <;> rcases e3 with ⟨y1, y2⟩ | y
      · rw [x2, y2]
      · rw [x1] at y; cases y
      · rw [x] at y1; cases y1
      · rw [x] at y; cases y; rfl
    subst this
    exact h ⟨plain, e5⟩
  obtain ⟨w', h1, h2⟩ := C103_refuses C P A Z f [path] visits w hf ho
  obtain ⟨w1, h3, -⟩ := openArchive_none C P ho
  refine ⟨?_, ?_, w', h1, h2⟩
  · unfold mainErr
    rw [if_pos hf, h3]
    simp only [List.append_nil]
    obtain ⟨raw, e1, e2⟩ := holds_unarmour P hb
    unfold openErr
    simp only [e1, e2]
    rw [if_neg (by simp only [saltLength]; omega)]
    simp only [Term.read, ha, Proofs.Secret.deriveKey_eq]
    cases hx : Model.Secret.decrypt C (some (Proofs.Secret.stdKey C pass (body.take saltLength))) (body.drop saltLength) with
    | panic => exact absurd hx (Proofs.Secret.decrypt_no_panic C _ _)
    | ok r =>
      cases r with
      | none => rfl
      | some plain => exact absurd ⟨plain, (Props.Migrate.sealed_open C).mpr ⟨by omega, hx⟩⟩ h
  · unfold mainText
    rw [if_pos hf, h3]

/-- C220: what can be told without the password is told before it is asked for: that there is not one file, that it
cannot be read, that its armour is of another kind, or that it is too short. The answers typed are not read. -/
theorem C220_before (f : Flags) (args : List Bytes) (visits : List Visit) (w : World)
    (hf : (f.unpack || f.list) = true) (h : ∀ path body, args = [path] → Holds P w path body → body.length ≤ 32) :
    ∃ m, mainErr T C P A Z f args visits w = [report m] ∧ main C P A Z f args visits w = .ok (false, w) ∧
      m = match args with
        | [path] =>
          match w.st.disk.readFile w.cwd path with
          | none => T.read path
          | some raw =>
            match P.dec raw with
            | none => ascii "Invalid archive."
            | some (typ, _) => if typ = ascii "PASSCRYPT ARCHIVE" then ascii "Invalid archive." else ascii "Wrong header for archive."
        | _ => ascii "Only one file may be unpacked at a time." := by
  refine ⟨_, ?_, ?_, rfl⟩
  all_goals (
    first | unfold mainErr | unfold main
    rw [if_pos hf]
    unfold openArchive
    first | unfold openErr | skip
    match args, h with
    | [], _ => rfl
    | _ :: _ :: _, _ => rfl
    | [path], h =>
      simp only
      cases hr : w.st.disk.readFile w.cwd path with
      | none => rfl
      | some raw =>
        simp only
        cases hd : P.dec raw with
        | none =>
          have hu : unarmour P raw = some raw := by unfold unarmour; rw [hd]
          have : raw.length ≤ saltLength := h path raw rfl ⟨raw, hr, .inl ⟨hd, rfl⟩⟩
          simp only [hu]
          simp only [if_pos this]
          rfl
        | some x =>
          obtain ⟨typ, body⟩ := x
          try simp only
          by_cases ht : typ = ascii "PASSCRYPT ARCHIVE"
          · have hu : unarmour P raw = some body := by unfold unarmour; rw [hd]; exact if_neg (fun hc => hc ht)
            have : body.length ≤ saltLength := h path body rfl ⟨raw, hr, .inr (by rw [hd, ht])⟩
            simp only [hu]
            simp only [if_pos this]
            first | rw [if_pos ht] | skip
            rfl
          · have hu : unarmour P raw = none := by unfold unarmour; rw [hd]; exact if_pos ht
            simp only [hu]
            first | rw [if_neg ht] | skip
            rfl)

/-! ### What is named -/

theorem visitsErr_stops {d : Disk} {cwd : List Bytes} {acc : List File} {vs : List Visit} (h : packVisits Z d cwd acc vs = none) :
    ∃ pre v post files, vs = pre ++ v :: post ∧ packVisits Z d cwd acc pre = some files ∧ packVisit Z d cwd files v = none ∧
      packVisitsErr T Z d cwd vs = some (packVisitErr T v) := by
  induction vs generalizing acc with
  | nil => simp [packVisits] at h
  | cons v vs ih =>
    rw [packVisits] at h
    rw [packVisitsErr, packVisit_isSome Z d cwd [] acc v]
    cases hv : packVisit Z d cwd acc v with
    | none => exact ⟨[], v, vs, acc, rfl, rfl, hv, rfl⟩
    | some acc' =>
      rw [hv] at h
      obtain ⟨pre, u, post, files, e1, e2, e3, e4⟩ := ih h
      exact ⟨v :: pre, u, post, files, by rw [e1]; rfl, by rw [packVisits, hv]; exact e2, e3, e4⟩

/-- C221: when packing stops because of a file, the line names this file: it could not be examined, or it is regular and
could not be read. Everything visited before could be packed. No archive is written. -/
theorem C221_pack_names (f : Flags) (args : List Bytes) (visits : List Visit) (w : World) (pass : Bytes) (as : List (Option Bytes))
    (hf : (f.unpack || f.list) = false) (ha : args ≠ []) (hans : w.term.answers = some pass :: as) (hr : 32 ≤ w.rng.length)
    (h : packVisits Z w.st.disk w.cwd [] visits = none) :
    ∃ pre v post, visits = pre ++ v :: post ∧ (∃ files, packVisits Z w.st.disk w.cwd [] pre = some files) ∧
      (v.info = none ∧ mainErr T C P A Z f args visits w = [report (ascii "passcrypt: " ++ v.path ++ ascii " could not be read")] ∨
        Visit.Regular v ∧ mainErr T C P A Z f args visits w = [report (T.read v.path)]) ∧
      ∃ w', main C P A Z f args visits w = .ok (false, w') ∧ w'.st = w.st := by
  obtain ⟨pre, v, post, files, e1, e2, e3, e4⟩ := visitsErr_stops T Z h
  have hs : Model.Util.randBytes w.rng saltLength = (some (w.rng.take 32), w.rng.drop 32) := by
    unfold Model.Util.randBytes Model.Util.readFull
    rw [if_pos (by simp only [saltLength]; omega)]
  have hp : packFiles A Z w.st.disk w.cwd visits = none := by unfold packFiles; rw [h]
  have hm : mainErr T C P A Z f args visits w = [report (packVisitErr T v)] := by
    unfold mainErr packMainErr
    rw [if_neg (by simp [hf]), if_neg ha]
    simp only [Term.read, hans, hs, Proofs.Secret.deriveKey_eq, hp]
    unfold packErr
    rw [e4]
    rfl
  refine ⟨pre, v, post, e1, ⟨files, e2⟩, ?_, ?_⟩
  · rw [hm]
    unfold packVisitErr
    cases hi : v.info with
    | none => exact .inl ⟨rfl, rfl⟩
    | some mode =>
      refine .inr ⟨?_, rfl⟩
      unfold packVisit at e3
      rw [hi] at e3
      simp only at e3
      split at e3
      · cases e3
      · rename_i hd
        split at e3
        · cases e3
        · rename_i hreg
          exact ⟨mode, hi, by simpa using hd, by simpa using hreg⟩
  · unfold main pack
    rw [if_neg (by simp [hf]), if_neg ha]
    simp only [Term.read, hans, hs, Proofs.Secret.deriveKey_eq, hp]
    exact ⟨_, rfl, rfl⟩

/-- The lines about one entry of an archive. -/
def about (top : Bytes) (g : File) : List Bytes :=
  [T.mkdir (joinPath top g.path), T.mkdir (cleanPath (joinPath top (dirPath g.path))), T.write (joinPath top g.path), T.gzip g.data]

theorem entryErr_about (s : DiskState) (cwd : List Bytes) (g : File) (top : Bytes) : unpackEntryErr T Z s cwd g top ∈ about T top g := by
  unfold unpackEntryErr about
  split
  · simp
  · rcases unpackDir s cwd g top with ⟨s', ok⟩
    cases ok with
    | false => simp
    | true =>
      simp only
      unfold unpackFileErr
      split
      · simp
      · split <;> simp

theorem loopErr_stops {cwd : List Bytes} {top : Bytes} {s : DiskState} {files : List File} (h : (unpackLoop Z cwd top s files).2 = false) :
    ∃ pre g post, files = pre ++ g :: post ∧ (unpackLoop Z cwd top s pre).2 = true ∧
      unpackEntry Z (unpackLoop Z cwd top s pre).1 cwd g top = ((unpackLoop Z cwd top s files).1, false) ∧
      ∃ m ∈ about T top g, unpackLoopErr T Z cwd top s files = some m := by
  induction files generalizing s with
  | nil => simp [unpackLoop] at h
  | cons g l ih =>
    rw [unpackLoop] at h ⊢
    rw [unpackLoopErr]
    rcases he : unpackEntry Z s cwd g top with ⟨s', ok⟩
    rw [he] at h
    cases ok with
    | false => exact ⟨[], g, l, rfl, rfl, by rw [unpackLoop, he], _, entryErr_about T Z s cwd g top, rfl⟩
    | true =>
      simp only at h ⊢
      obtain ⟨pre, k, post, e1, e2, e3, e4⟩ := ih h
      have hl : unpackLoop Z cwd top s (g :: pre) = unpackLoop Z cwd top s' pre := by rw [unpackLoop, he]
      exact ⟨g :: pre, k, post, by rw [e1]; rfl, by rw [hl]; exact e2, by rw [hl]; exact e3, e4⟩

/-- C221: when an archive opens and is a list of files, but not all of it can be unpacked, the line is about the output
directory, if this cannot be made, or else about the first entry that fails: its place or the directory around it, or
the compressed data. What precedes the entry has been unpacked. -/
theorem C221_unpack_names (f : Flags) (args : List Bytes) (visits : List Visit) (w w' : World) (plain : Bytes) (files : List File)
    (hu : f.unpack = true) (h : Opens C P w args plain) (hd : A.dec plain = some files)
    (hm : main C P A Z f args visits w = .ok (false, w')) :
    (makeTop w.st w.cwd f.outDir).2 = false ∧ mainErr T C P A Z f args visits w = [report (T.mkdir f.outDir)] ∨
    (makeTop w.st w.cwd f.outDir).2 = true ∧ ∃ pre g post, files = pre ++ g :: post ∧
      (unpackLoop Z w.cwd f.outDir (makeTop w.st w.cwd f.outDir).1 pre).2 = true ∧
      unpackEntry Z (unpackLoop Z w.cwd f.outDir (makeTop w.st w.cwd f.outDir).1 pre).1 w.cwd g f.outDir = (w'.st, false) ∧
      ∃ m ∈ about T f.outDir g, mainErr T C P A Z f args visits w = [report m] := by
  have hf : (f.unpack || f.list) = true := by simp [hu]
  have ho := openArchive_eq C P h
  have he : openErr T C P w args = [] := by
    rcases openErr_status T C P ho with ⟨-, e⟩ | ⟨e, -⟩
    · exact e
    · cases e
  obtain ⟨w2, ok, h1, h2⟩ := C103_opens C P A Z f args visits w plain hf h
  rw [hm] at h1
  cases h1
  rw [if_pos hu] at h2
  have hmain : mainErr T C P A Z f args visits w =
      match unpackErr T A Z w.st w.cwd plain f.outDir with
      | some e => [errorf e]
      | none => [] := by
    unfold mainErr
    rw [if_pos hf, he, ho]
    simp only [List.nil_append]
    rw [if_pos hu]
    rfl
  rw [hmain]
  unfold unpackFiles at h2
  unfold unpackErr
  rw [hd] at h2 ⊢
  simp only at h2 ⊢
  rcases hmt : makeTop w.st w.cwd f.outDir with ⟨s, ok⟩
  rw [hmt] at h2
  cases ok with
  | false => exact .inl ⟨rfl, rfl⟩
  | true =>
    simp only at h2 ⊢
    obtain ⟨pre, g, post, e1, e2, e3, m, e4, e5⟩ := loopErr_stops T Z (congrArg Prod.snd h2.symm)
    refine .inr ⟨trivial, pre, g, post, e1, e2, ?_, m, e4, by rw [e5]; rfl⟩
    rw [e3, ← h2]

/-! ### What is not told -/

theorem visitsErr_shape {d d' : Disk} (h : SameShape d d') (cwd : List Bytes) (vs : List Visit) :
    packVisitsErr T Z d cwd vs = packVisitsErr T Z d' cwd vs := by
  induction vs with
  | nil => rfl
  | cons v vs ih => rw [packVisitsErr, packVisitsErr, packVisit_shape Z h, ih]

theorem packVisit_paths {d d' : Disk} (h : SameShape d d') (cwd : List Bytes) {acc acc' : List File} (v : Visit)
    (ha : acc.map File.path = acc'.map File.path) :
    (packVisit Z d cwd acc v).map (·.map File.path) = (packVisit Z d' cwd acc' v).map (·.map File.path) := by
  unfold packVisit
  cases v.info with
  | none => rfl
  | some mode =>
    simp only
    split
    · simp [ha]
    · split
      · simp [ha]
      · split
        · rfl
        · unfold packFile
          rcases shape_cases h (resolvePath cwd v.path) with ⟨h1, h2⟩ | ⟨m, h1, h2⟩ | ⟨m, x, x', h1, h2⟩ <;> rw [h1, h2]
          simp [ha]

theorem packVisits_paths {d d' : Disk} (h : SameShape d d') (cwd : List Bytes) {acc acc' : List File} (vs : List Visit)
    (ha : acc.map File.path = acc'.map File.path) :
    (packVisits Z d cwd acc vs).map (·.map File.path) = (packVisits Z d' cwd acc' vs).map (·.map File.path) := by
  induction vs generalizing acc acc' with
  | nil => simp [packVisits, ha]
  | cons v vs ih =>
    have := packVisit_paths Z h cwd v ha
    rw [packVisits, packVisits]
    revert this
    generalize packVisit Z d cwd acc v = x
    generalize packVisit Z d' cwd acc' v = y
    intro this
    cases x <;> cases y <;> simp only [Option.map_none, Option.map_some, reduceCtorEq, Option.some.injEq] at this ⊢
    exact ih this

theorem enc_isSome (files : List File) : (A.enc files).isSome = true ↔ ∀ p ∈ files.map File.path, ValidUtf8 p := by
  constructor
  · intro h p hp
    obtain ⟨b, hb⟩ := Option.isSome_iff_exists.mp h
    obtain ⟨g, hg, rfl⟩ := List.mem_map.mp hp
    exact A.enc_utf8 files b hb g hg
  · intro h
    obtain ⟨b, hb, -⟩ := A.dec_enc files (fun g hg => h _ (List.mem_map_of_mem hg))
    rw [hb]
    rfl

theorem packFiles_shape {d d' : Disk} (h : SameShape d d') (cwd : List Bytes) (vs : List Visit) :
    (packFiles A Z d cwd vs).isSome = (packFiles A Z d' cwd vs).isSome := by
  have := packVisits_paths Z h cwd (acc := []) (acc' := []) vs rfl
  unfold packFiles
  revert this
  generalize packVisits Z d cwd [] vs = x
  generalize packVisits Z d' cwd [] vs = y
  intro this
  cases x <;> cases y <;> simp only [Option.map_none, Option.map_some, reduceCtorEq, Option.some.injEq] at this ⊢
  rw [Bool.eq_iff_iff, enc_isSome, enc_isSome, this]

/-- C221: what passcrypt writes to standard error while packing does not depend on what the files hold, nor on the
password or on the values of the random numbers. -/
theorem C221_pack_content (f : Flags) (args : List Bytes) (visits : List Visit) (w w' : World) (pass pass' : Bytes)
    (as as' : List (Option Bytes)) (hf : (f.unpack || f.list) = false)
    (ha : w.term.answers = some pass :: as) (ha' : w'.term.answers = some pass' :: as') (hr : w.rng.length = w'.rng.length)
    (hc : w.cwd = w'.cwd) (hs : SameShape w.st.disk w'.st.disk) (ho : w.st.ops 0 = w'.st.ops 0) (hu : w.st.umask = w'.st.umask) :
    mainErr T C P A Z f args visits w = mainErr T C P A Z f args visits w' := by
  unfold mainErr
  simp only [hf, Bool.false_eq_true, if_false]
  by_cases hargs : args = []
  · rw [if_pos hargs, if_pos hargs]
  · rw [if_neg hargs, if_neg hargs]
    unfold packMainErr
    simp only [Term.read, ha, ha', Model.Util.randBytes, Model.Util.readFull, saltLength, Proofs.Secret.deriveKey_eq]
    rw [hr]
    by_cases h1 : 32 ≤ w'.rng.length
    · simp only [if_pos h1, hc]
      have hp := packFiles_shape A Z hs w'.cwd visits
      cases hx : packFiles A Z w.st.disk w'.cwd visits <;> cases hy : packFiles A Z w'.st.disk w'.cwd visits <;>
        rw [hx, hy] at hp <;> simp only [Option.isSome_none, Option.isSome_some, reduceCtorEq, Bool.false_eq_true] at hp ⊢
      · unfold packErr
        rw [visitsErr_shape T Z hs]
      · simp only [Proofs.Secret.encrypt_some, List.length_drop, hr]
        by_cases h2 : 24 ≤ w'.rng.length - 32
        · simp only [if_pos h2]
          rw [ho, allow_umask hu]
          rw [(writeAt_shape hs _ _ _ _ _ _ _).2]
        · simp only [if_neg h2]
    · simp only [if_neg h1]

theorem unpackDir_shape {s s' : DiskState} (h : SameState s s') (cwd : List Bytes) {g g' : File} (top : Bytes)
    (hp : g.path = g'.path) (hm : g.mode = g'.mode) :
    SameState (unpackDir s cwd g top).1 (unpackDir s' cwd g' top).1 ∧ (unpackDir s cwd g top).2 = (unpackDir s' cwd g' top).2 := by
  obtain ⟨d, ops, u⟩ := s
  obtain ⟨d', ops', u'⟩ := s'
  obtain ⟨h, ho, hu⟩ := h
  simp only at h ho hu
  subst ho hu
  unfold unpackDir
  rw [hp, hm]
  simp only
  by_cases hs : d.stat cwd (cleanPath (joinPath top (dirPath g'.path))) = .notExist
  · rw [if_pos hs, if_pos ((stat_shape h _ _).mp hs)]
    have := mkdirAll_shape h (ops 0) cwd (cleanPath (joinPath top (dirPath g'.path))) (DiskState.allow ⟨d, ops, u⟩ (dirPerm g'.mode))
    exact ⟨⟨this.1, rfl, rfl⟩, this.2⟩
  · rw [if_neg hs, if_neg (fun e => hs ((stat_shape h _ _).mpr e))]
    exact ⟨⟨h, rfl, rfl⟩, rfl⟩

/-- The compressed data of the entry is sound. -/
def Sound (g : File) : Prop := ∃ x, Z.unzip g.data = some (x, true)

theorem unpackFile_clean {s s' : DiskState} {cwd : List Bytes} {g : File} {top : Bytes} (hs : Sound Z g)
    (h : unpackFile Z s cwd g top = (s', false)) : unpackFileErr T Z s cwd g top = T.write (joinPath top g.path) := by
  obtain ⟨x, hx⟩ := hs
  unfold unpackFile at h
  unfold unpackFileErr
  rw [hx] at h ⊢
  simp only [Bool.and_true, Prod.mk.injEq] at h ⊢
  rw [if_neg (fun hc => Bool.noConfusion (h.2.symm.trans hc))]

theorem loopErr_shape {s s' : DiskState} (h : SameState s s') (cwd : List Bytes) {l l' : List File} (top : Bytes)
    (hl : AlikeFiles Z l l') (hz : ∀ g ∈ l, Sound Z g) (hz' : ∀ g ∈ l', Sound Z g) :
    unpackLoopErr T Z cwd top s l = unpackLoopErr T Z cwd top s' l' := by
  induction l generalizing l' s s' with
  | nil =>
    cases l' with
    | nil => rfl
    | cons g' l' => exact absurd hl (by simp [AlikeFiles])
  | cons g l ih =>
    cases l' with
    | nil => exact absurd hl (by simp [AlikeFiles])
    | cons g' l' =>
      obtain ⟨hp, hm, hzz, hl⟩ := hl
      have := unpackEntry_shape Z h cwd top hp hm hzz
      rw [unpackLoopErr, unpackLoopErr]
      rcases he : unpackEntry Z s cwd g top with ⟨t, ok⟩
      rcases he' : unpackEntry Z s' cwd g' top with ⟨t', ok'⟩
      rw [he, he'] at this
      obtain ⟨ht, hok⟩ := this
      simp only at ht hok
      subst hok
      cases ok with
      | true =>
        simp only
        exact ih ht hl (fun k hk => hz k (List.mem_cons_of_mem _ hk)) (fun k hk => hz' k (List.mem_cons_of_mem _ hk))
      | false =>
        simp only
        unfold unpackEntry at he he'
        unfold unpackEntryErr
        rw [hm] at he ⊢
        split
        · rw [hp]
        · rename_i hdir
          rw [if_neg hdir] at he he'
          have hd := unpackDir_shape h cwd top hp hm
          rcases hu : unpackDir s cwd g top with ⟨a, ok⟩
          rcases hu' : unpackDir s' cwd g' top with ⟨a', ok'⟩
          rw [hu] at he
          rw [hu'] at he'
          rw [hu, hu'] at hd
          obtain ⟨-, hok⟩ := hd
          simp only at hok
          subst hok
          cases ok with
          | false => rw [hp]
          | true =>
            simp only [Bool.not_true, Bool.false_eq_true, if_false] at he he' ⊢
            rw [unpackFile_clean T Z (hz g (List.mem_cons_self ..)) he, unpackFile_clean T Z (hz' g' (List.mem_cons_self ..)) he', hp]

/-- C221: what passcrypt writes to standard error of an archive that opens, with sound entries, does not depend on what the
files in it, or on the disk, hold, nor on the password. -/
theorem C221_open_content (f : Flags) (args : List Bytes) (visits visits' : List Visit) (w w' : World)
    (plain plain' : Bytes) (files files' : List File) (hf : (f.unpack || f.list) = true)
    (h : Opens C P w args plain) (hd : A.dec plain = some files) (h' : Opens C P w' args plain') (hd' : A.dec plain' = some files')
    (hal : AlikeFiles Z files files') (hz : ∀ g ∈ files, Sound Z g) (hz' : ∀ g ∈ files', Sound Z g)
    (hc : w.cwd = w'.cwd) (ho : w.st.ops = w'.st.ops) (hu : w.st.umask = w'.st.umask) (hs : SameShape w.st.disk w'.st.disk) :
    mainErr T C P A Z f args visits w = mainErr T C P A Z f args visits' w' := by
  have key : ∀ (u : World) (p : Bytes) (l : List File) (vs : List Visit), Opens C P u args p → A.dec p = some l →
      mainErr T C P A Z f args vs u =
        if f.unpack then
          match makeTop u.st u.cwd f.outDir with
          | (_, false) => [errorf (T.mkdir f.outDir)]
          | (s, true) => ((unpackLoopErr T Z u.cwd f.outDir s l).map errorf).toList
        else [] := by
    intro u p l vs hu hl
    have ho := openArchive_eq C P hu
    have he : openErr T C P u args = [] := by
      rcases openErr_status T C P ho with ⟨-, e⟩ | ⟨e, -⟩
      · exact e
      · cases e
    unfold mainErr
    rw [if_pos hf, he, ho]
    simp only [List.nil_append, hl]
    split
    · unfold unpackErr
      rw [hl]
      simp only
      rcases makeTop u.st u.cwd f.outDir with ⟨s, ok⟩
      cases ok with
      | false => rfl
      | true =>
        simp only
        cases unpackLoopErr T Z u.cwd f.outDir s l <;> rfl
    · rfl
  rw [key w plain files visits h hd, key w' plain' files' visits' h' hd']
  split
  · have := makeTop_shape (s := w.st) (s' := w'.st) ⟨hs, ho, hu⟩ w.cwd f.outDir
    rw [← hc]
    revert this
    rcases makeTop w.st w.cwd f.outDir with ⟨s, ok⟩
    rcases makeTop w'.st w.cwd f.outDir with ⟨s', ok'⟩
    rintro ⟨h1, h2⟩
    simp only at h1 h2
    subst h2
    cases ok with
    | false => rfl
    | true =>
      simp only
      rw [loopErr_shape T Z h1 w.cwd f.outDir hal hz hz']
  · rfl

/-! ### Examples -/

/-- A file with three bytes is no archive; nothing is read from the terminal. -/
example : mainErr T Toy.crypto Pem.toy A Z { list := true } [ascii "a", ascii "b"] [] exWorld =
      [report (ascii "Only one file may be unpacked at a time.")] ∧
    main Toy.crypto Pem.toy A Z { list := true } [ascii "a", ascii "b"] [] exWorld = .ok (false, exWorld) := by
  obtain ⟨m, h1, h2, h3⟩ := C220_before T Toy.crypto Pem.toy A Z { list := true } [ascii "a", ascii "b"] [] exWorld rfl
    (fun path body e => by cases e)
  exact ⟨by rw [h1, h3], h2⟩

/-- passcrypt a nothing -/
example : mainErr T C P A Z {} [ascii "a", ascii "nothing"] (exVisits false ++ [⟨ascii "nothing", none, true, true⟩]) exWorld =
    [report (ascii "passcrypt: nothing could not be read")] := by
  unfold mainErr packMainErr
  rw [if_neg (by decide), if_neg (by decide)]
  have hr : Model.Util.randBytes exWorld.rng saltLength = (some (exWorld.rng.take 32), exWorld.rng.drop 32) := by
    unfold Model.Util.randBytes Model.Util.readFull
    rw [if_pos (by decide)]
  have ht : exWorld.term.read.1 = some [112] := rfl
  simp only [ht, hr, Proofs.Secret.deriveKey_eq]
  rfl

/-- An archive and a wrong password. -/
example : ∃ w : World, mainErr T Toy.crypto Pem.toy A Z { unpack := true } [ascii "x"] [] w = [report (ascii "Decryption failed.")] := by
  let body : Bytes := List.replicate 73 0
  have hb : Holds Pem.toy ⟨⟨[some [1]], fun _ => 5⟩, [], [], ⟨oneFile (Pem.toy.enc (ascii "PASSCRYPT ARCHIVE") body), fun _ => .done, 0⟩⟩ (ascii "x") body :=
    ⟨_, rfl, .inr (Pem.toy.dec_enc _ _ (by decide) (by decide))⟩
  refine ⟨_, (C220_same T Toy.crypto Pem.toy A Z false { unpack := true } (ascii "x") body [1] [] [] _ rfl hb (by decide) rfl ?_).1⟩
  rintro ⟨plain, hp⟩
  have h6 := ((Props.Migrate.sealed_open Toy.crypto).mp hp).2
  cases h6

/-- An entry that cannot be unpacked, as its data is no stream. -/
example (hz : Z.unzip [1] = none) : ∃ w : World,
    mainErr T C P A Z { unpack := true } [ascii "x"] [] w = [report (T.gzip [1])] ∧ mainErr T C P A Z { list := true } [ascii "x"] [] w = [] := by
  obtain ⟨b, -, h1⟩ := A.dec_enc [⟨ascii "f", 0o600, [1]⟩] (by
    intro g hg
    rw [List.mem_singleton.mp hg]
    show ValidUtf8 (ascii "f")
    decide)
  obtain ⟨w, raw, o, hc, hs⟩ := world_with C P b
  refine ⟨w, ?_, ?_⟩
  · unfold mainErr
    rw [if_pos (by decide), openArchive_eq C P o]
    have he : openErr T C P w [ascii "x"] = [] := by
      rcases openErr_status T C P (openArchive_eq C P o) with ⟨-, e⟩ | ⟨e, -⟩
      · exact e
      · cases e
    rw [he]
    simp only [List.nil_append, if_true, hs, hc]
    unfold unpackErr
    rw [h1]
    have hmt : makeTop ⟨oneFile raw, fun _ => .done, 0⟩ [] dot = (⟨oneFile raw, fun _ => .done, 0⟩, true) := rfl
    simp only [hmt]
    have hdir : ∀ f : File, f = ⟨ascii "f", 0o600, [1]⟩ → unpackDir ⟨oneFile raw, fun _ => .done, 0⟩ [] f dot = (⟨oneFile raw, fun _ => .done, 0⟩, true) := by
      rintro f rfl; rfl
    unfold unpackLoopErr unpackEntry unpackEntryErr
    rw [if_neg (by decide), if_neg (by decide)]
    simp only [hdir _ rfl]
    unfold unpackFile unpackFileErr
    simp only [hz]
    rfl
  · obtain ⟨w', hm, -⟩ := (C175_lists C P A Z false { list := true } (ascii "x") [] w b _ rfl rfl o h1).2
    exact C219_quiet T C P A Z _ _ _ _ _ hm

end Verif.Props.PasscryptErrors
