import Verif.Proofs.PasscryptOutput
import Verif.Props.PasscryptTree
import Verif.Props.SecretsOutput
/-! Properties of what cmd/passcrypt prints (C175-C178). -/

namespace Verif.Props.PasscryptOutput
open Verif Verif.Go Verif.Model.Passcrypt Verif.Model.PasscryptOutput Verif.Spec.Passcrypt Verif.Spec.PasscryptOutput
  Verif.Spec.SecretsOutput Verif.Proofs.Passcrypt Verif.Proofs.PasscryptOutput Verif.Props.Passcrypt
  Verif.Props.PasscryptTree Verif.Proofs.FilePath

variable (C : Crypto) (P : Pem) (A : FilesAsn1) (Z : Gzip)

/-! ### Lists -/

theorem text_open {verbose : Bool} {f : Flags} {args : List Bytes} {visits : List Visit} {w : World} {plain : Bytes} {files : List File}
    (hf : (f.unpack || f.list) = true) (h : Opens C P w args plain) (hd : A.dec plain = some files) :
    mainText C P A Z verbose f args visits w =
      if f.unpack then
        match makeTop w.st w.cwd f.outDir with
        | (_, false) => []
        | (s, true) => unpackText Z verbose w.cwd f.outDir s files
      else manifestText (args.headD []) files := by
  unfold mainText
  rw [if_pos hf, openArchive_eq C P h]
  simp only [hd]
  rfl

/-- C175: passcrypt -l with the right password prints the names the archive holds, in order and one in a line, those of
directories with a slash at the end, and changes nothing. -/
theorem C175_lists (verbose : Bool) (f : Flags) (arg : Bytes) (visits : List Visit) (w : World) (plain : Bytes) (files : List File)
    (hl : f.list = true) (hu : f.unpack = false) (h : Opens C P w [arg] plain) (hd : A.dec plain = some files) :
    mainText C P A Z verbose f [arg] visits w = listing arg (files.map nameOf) ∧
      ∃ w', main C P A Z f [arg] visits w = .ok (true, w') ∧ w'.st = w.st := by
  constructor
  · rw [text_open C P A Z (by simp [hl]) h hd, if_neg (by simp [hu])]
    exact manifest_eq arg files
  · obtain ⟨w', ok, h1, h2⟩ := C103_opens C P A Z f [arg] visits w plain (by simp [hl]) h
    rw [if_neg (by simp [hu])] at h2
    have : ok = true := h2.2.mpr ⟨files, hd⟩
    subst this
    exact ⟨w', h1, h2.1⟩

/-- C175: if the archive does not open or is no list of files, nothing is listed (or unpacked), and passcrypt fails. -/
theorem C175_refuses (verbose : Bool) (f : Flags) (args : List Bytes) (visits : List Visit) (w : World)
    (hf : (f.unpack || f.list) = true) (h : ∀ plain, Opens C P w args plain → A.dec plain = none) :
    mainText C P A Z verbose f args visits w = [] ∧
      ∃ w', main C P A Z f args visits w = .ok (false, w') ∧ w'.st = w.st := by
  by_cases ho : ∃ plain, Opens C P w args plain
  · obtain ⟨plain, ho⟩ := ho
    have hd := h plain ho
    constructor
    · unfold mainText
      rw [if_pos hf, openArchive_eq C P ho]
      simp only
      rw [hd]
    · unfold main
      rw [if_pos hf, openArchive_eq C P ho]
      simp only [Res.ok_bind]
      split
      · unfold unpackFiles
        rw [hd]
        exact ⟨_, rfl, rfl⟩
      · rw [hd]
        exact ⟨_, rfl, rfl⟩
  · have ho' : ∀ plain, ¬ Opens C P w args plain := fun plain e => ho ⟨plain, e⟩
    refine ⟨?_, C103_refuses C P A Z f args visits w hf ho'⟩
    obtain ⟨w', h1, -⟩ := openArchive_none C P ho'
    unfold mainText
    rw [if_pos hf, h1]

/-- What was packed opens again. -/
theorem pack_opens {f : Flags} {args : List Bytes} {visits : List Visit} {w w' wl : World}
    {pass raw path : Bytes} {as asl : List (Option Bytes)} (hf : (f.unpack || f.list) = false) (ha : args ≠ [])
    (hpack : main C P A Z f args visits w = .ok (true, w')) (hans : w.term.answers = some pass :: as)
    (hraw : w'.st.disk.readFile w.cwd f.outFile = some raw) (harm : f.armour = true ∨ P.dec raw = none)
    (hread : wl.st.disk.readFile wl.cwd path = some raw) (hansl : wl.term.answers = some pass :: asl) :
    ∃ b, Opens C P wl [path] b ∧ A.dec b = some (visits.filterMap (entryOf Z w.st.disk w.cwd)) ∧
      packVisits Z w.st.disk w.cwd [] visits = some (visits.filterMap (entryOf Z w.st.disk w.cwd)) := by
  obtain ⟨pass', as', files, b, body, mo, h1, h2, h3, h4, -, h5, -⟩ := pack_ok C P A Z hf ha hpack
  rw [hans] at h1
  simp only [List.cons.injEq, Option.some.injEq] at h1
  obtain ⟨rfl, -⟩ := h1
  rw [hraw] at h5
  simp only [Option.some.injEq] at h5
  obtain ⟨hfiles, -⟩ := packVisits_some Z h2
  rw [List.nil_append] at hfiles
  obtain ⟨b', e1, hdec⟩ := A.dec_enc files (A.enc_utf8 files b h3)
  rw [h3] at e1
  simp only [Option.some.injEq] at e1
  subst e1
  have hbody : body ≠ [] := by
    obtain ⟨salt, nonce, hs, -, rfl⟩ := h4
    intro e
    have := congrArg List.length e
    simp only [List.length_append, List.length_nil] at this
    omega
  refine ⟨b, ⟨path, raw, body, pass, asl, rfl, hread, ?_, hansl, h4⟩, hfiles ▸ hdec, hfiles ▸ h2⟩
  by_cases harm' : f.armour = true
  · rw [if_pos harm'] at h5
    right
    rw [h5]
    exact P.dec_enc _ _ (by decide) hbody
  · rw [if_neg harm'] at h5
    exact .inl ⟨harm.resolve_left harm', h5.symm⟩

/-- Names and kinds of what a walk found: directories and regular files, nothing else. -/
def found (v : Visit) : Option (Bytes × Bool) :=
  match v.info with
  | none => none
  | some mode => if mode.getLsbD 31 then some (v.path, true) else if mode &&& 0x8f280000 = 0 then some (v.path, false) else none

theorem found_dir {v : Visit} (h : Visit.Directory v) : found v = some (v.path, true) := by
  obtain ⟨mode, h1, h2⟩ := h
  unfold found
  rw [h1]
  simp only
  rw [if_pos (by rw [← isDir_bit]; exact h2)]

theorem found_regular {v : Visit} (h : Visit.Regular v) : found v = some (v.path, false) := by
  obtain ⟨mode, h1, h2, h3⟩ := h
  unfold found
  rw [h1]
  simp only
  rw [if_neg (by rw [← isDir_bit, h2]; simp), if_pos (by simpa [isRegular, modeType] using h3)]

theorem found_none {v : Visit} (h1 : ¬ Visit.Directory v) (h2 : ¬ Visit.Regular v) : found v = none := by
  unfold found
  cases hi : v.info with
  | none => rfl
  | some mode =>
    simp only
    rw [← isDir_bit]
    split
    · rename_i hd
      exact absurd ⟨mode, hi, hd⟩ h1
    · rename_i hd
      split
      · rename_i hr
        exact absurd ⟨mode, hi, by simpa using hd, by simpa [isRegular, modeType] using hr⟩ h2
      · rfl

/-- The entries of an archive are what the walk found. -/
theorem packed_names {d : Disk} {cwd : List Bytes} {visits : List Visit} {files : List File}
    (h : packVisits Z d cwd [] visits = some files)
    (hvr : ∀ v ∈ visits, Visit.Regular v → ∀ m c, d.get (resolvePath cwd v.path) = some (.file m c) → m.getLsbD 31 = false) :
    files.map nameOf = (visits.filterMap found).map (fun x => (cleanPath x.1, x.2)) := by
  obtain ⟨hfiles, hvis⟩ := packVisits_some Z h
  rw [List.nil_append] at hfiles
  rw [hfiles, List.map_filterMap, List.map_filterMap]
  refine List.filterMap_congr (fun v hv => ?_)
  obtain ⟨mode, e1, e2⟩ := hvis v hv
  by_cases hd : isDir mode = true
  · obtain ⟨g, e3, e4, e5⟩ := entryOf_dir Z (d := d) (cwd := cwd) (v := v) ⟨mode, e1, hd⟩
    rw [e3, found_dir ⟨mode, e1, hd⟩]
    simp only [Option.map_some, nameOf]
    rw [← directory_isDir, e4, e5]
  · have hd' : isDir mode = false := by simpa using hd
    by_cases hr : isRegular mode = true
    · obtain ⟨hrd, g, hg⟩ := e2 hd' hr
      unfold packFile at hg
      split at hg
      · rename_i m c hc
        have hreg : Visit.Regular v := ⟨mode, e1, hd', hr⟩
        rw [entryOf_regular Z hreg hrd hc, found_regular hreg]
        simp only [Option.map_some, nameOf, directory]
        rw [BitVec.getLsbD_setWidth, hvr v hv hreg m c hc]
        rfl
      · simp at hg
    · rw [found_none (fun ⟨m, e3, e4⟩ => hd (by rw [e1] at e3; cases e3; exact e4))
        (fun ⟨m, e3, _, e4⟩ => hr (by rw [e1] at e3; cases e3; exact e4))]
      unfold entryOf
      rw [e1]
      simp [hd', hr]

/-- C175: what passcrypt packed, passcrypt -l with the same password lists: the regular files and directories that the
walks found, in this order, under their cleaned paths. -/
theorem C175_packed (verbose : Bool) (f fl : Flags) (args : List Bytes) (visits visitsl : List Visit) (w w' wl : World)
    (pass raw path : Bytes) (as asl : List (Option Bytes)) (hf : (f.unpack || f.list) = false) (ha : args ≠ [])
    (hpack : main C P A Z f args visits w = .ok (true, w')) (hans : w.term.answers = some pass :: as)
    (hraw : w'.st.disk.readFile w.cwd f.outFile = some raw) (harm : f.armour = true ∨ P.dec raw = none)
    (hvr : ∀ v ∈ visits, Visit.Regular v → ∀ m c, w.st.disk.get (resolvePath w.cwd v.path) = some (.file m c) → m.getLsbD 31 = false)
    (hl : fl.list = true) (hu : fl.unpack = false) (hread : wl.st.disk.readFile wl.cwd path = some raw)
    (hansl : wl.term.answers = some pass :: asl) :
    mainText C P A Z verbose fl [path] visitsl wl =
      listing path ((visits.filterMap found).map (fun x => (cleanPath x.1, x.2))) := by
  obtain ⟨b, h1, h2, h3⟩ := pack_opens C P A Z hf ha hpack hans hraw harm hread hansl
  rw [(C175_lists C P A Z verbose fl path visitsl wl b _ hl hu h1 h2).1, packed_names Z h3 hvr]

/-- The names can be told apart in a list: there is no end of line in them, and only directories end in a slash. -/
def Readable (g : File) : Prop := (10 : UInt8) ∉ g.path ∧ (directory g = false → g.path.getLast? ≠ some slash)

theorem shown_inj {p q : Bytes} {a b : Bool} (hp : a = false → p.getLast? ≠ some slash) (hq : b = false → q.getLast? ≠ some slash)
    (h : shown p a = shown q b) : p = q ∧ a = b := by
  unfold shown at h
  cases a <;> cases b
  · exact ⟨by simpa using h, rfl⟩
  · simp only [Bool.false_eq_true, if_false, if_true] at h
    exact absurd (by rw [h]; simp [ascii]) (hp rfl)
  · simp only [Bool.false_eq_true, if_false, if_true] at h
    exact absurd (by rw [← h]; simp [ascii]) (hq rfl)
  · simp only [if_true] at h
    exact ⟨List.append_cancel_right h, rfl⟩

theorem readable_line {g : File} (h : Readable g) : (10 : UInt8) ∉ shown (nameOf g).1 (nameOf g).2 := by
  unfold shown nameOf
  simp only
  split
  · simp only [List.mem_append, not_or]
    exact ⟨h.1, by decide⟩
  · exact h.1

theorem names_inj {l l' : List File} (h : ∀ g ∈ l, Readable g) (h' : ∀ g ∈ l', Readable g)
    (e : (l.map nameOf).map (fun x => shown x.1 x.2) = (l'.map nameOf).map (fun x => shown x.1 x.2)) :
    l.map nameOf = l'.map nameOf := by
  induction l generalizing l' with
  | nil =>
    cases l' with
    | nil => rfl
    | cons g l' => simp at e
  | cons g l ih =>
    cases l' with
    | nil => simp at e
    | cons k l' =>
      simp only [List.map_cons, List.cons.injEq] at e ⊢
      obtain ⟨e1, e2⟩ := e
      refine ⟨?_, ih (fun x hx => h x (by simp [hx])) (fun x hx => h' x (by simp [hx])) e2⟩
      have := shown_inj (h g (by simp)).2 (h' k (by simp)).2 e1
      exact Prod.ext this.1 this.2

/-- C175, what holds: the list tells which names the archive holds and which of them are directories, if no name has an
end of line in it and only directories end in a slash. Missing: names with ends of lines. -/
theorem C175_apart_partial (verbose verbose' : Bool) (f f' : Flags) (arg : Bytes) (visits visits' : List Visit) (w w' : World)
    (plain plain' : Bytes) (files files' : List File) (hl : f.list = true) (hu : f.unpack = false) (hl' : f'.list = true)
    (hu' : f'.unpack = false) (h : Opens C P w [arg] plain) (hd : A.dec plain = some files)
    (h' : Opens C P w' [arg] plain') (hd' : A.dec plain' = some files') (hr : ∀ g ∈ files, Readable g) (hr' : ∀ g ∈ files', Readable g)
    (heq : mainText C P A Z verbose f [arg] visits w = mainText C P A Z verbose' f' [arg] visits' w') :
    files.map nameOf = files'.map nameOf := by
  rw [(C175_lists C P A Z verbose f arg visits w plain files hl hu h hd).1,
    (C175_lists C P A Z verbose' f' arg visits' w' plain' files' hl' hu' h' hd').1] at heq
  unfold listing at heq
  have hi := List.append_cancel_left heq
  refine names_inj hr hr' (SecretsOutput.indented_inj ?_ ?_ hi)
  all_goals
    intro k hk
    simp only [List.mem_map] at hk
    obtain ⟨x, ⟨g, hg, rfl⟩, rfl⟩ := hk
  · exact readable_line (hr g hg)
  · exact readable_line (hr' g hg)

/-- What passcrypt packs is readable in this sense if no path visited has an end of line: a cleaned path other than "/"
does not end in a slash. -/
theorem C175_packed_slash {d : Disk} {cwd : List Bytes} {v : Visit} {g : File} (h : entryOf Z d cwd v = some g)
    (hroot : g.path ≠ ascii "/") : g.path.getLast? ≠ some slash := by
  intro e
  rw [(entryOf_some Z h).1] at e hroot
  exact hroot (clean_last e)

/-! ### Worlds for examples -/

/-- A disk with an archive x. -/
def oneFile (raw : Bytes) : Disk := fun q => if q = [ascii "x"] then some (.file 0o600 raw) else none

/-- There is an archive with this plaintext, at /x, and the password is typed. -/
theorem world_with (plain : Bytes) : ∃ (w : World) (raw : Bytes), Opens C P w [ascii "x"] plain ∧ w.cwd = [] ∧
    w.st = ⟨oneFile raw, fun _ => .done, 0⟩ := by
  let body := List.replicate 32 0 ++ (List.replicate 24 0 ++ C.sealBox (C.scrypt [112] (List.replicate 32 0) 1048576 8 2 32) (List.replicate 24 0) plain)
  have hbody : body ≠ [] := by
    intro e
    have := congrArg List.length e
    simp [body] at this
  refine ⟨⟨⟨[some [112]], fun _ => 5⟩, [], [], ⟨oneFile (P.enc header body), fun _ => .done, 0⟩⟩, P.enc header body, ?_, rfl, rfl⟩
  refine ⟨ascii "x", P.enc header body, body, [112], [], rfl, by rfl, .inr (P.dec_enc _ _ (by decide) hbody), rfl, ?_⟩
  exact ⟨List.replicate 32 0, List.replicate 24 0, by simp, by simp, rfl⟩

/-- C175 is false of names with ends of lines: the list of one file looks like the list of two. -/
theorem C175_newline_violated : ∃ (w w' : World) (plain plain' : Bytes) (files files' : List File),
    Opens C P w [ascii "x"] plain ∧ A.dec plain = some files ∧ Opens C P w' [ascii "x"] plain' ∧ A.dec plain' = some files' ∧
    files.length = 1 ∧ files'.length = 2 ∧
    mainText C P A Z false { list := true } [ascii "x"] [] w = mainText C P A Z false { list := true } [ascii "x"] [] w' := by
  obtain ⟨b, -, h1⟩ := A.dec_enc [⟨ascii "a\n\tb", 0o600, Z.zip [1]⟩] (by
    intro g hg
    rw [List.mem_singleton.mp hg]
    show ValidUtf8 (ascii "a\n\tb")
    decide)
  obtain ⟨b', -, h2⟩ := A.dec_enc [⟨ascii "a", 0o600, Z.zip [1]⟩, ⟨ascii "b", 0o600, Z.zip [2]⟩] (by
    intro g hg
    rcases List.mem_cons.mp hg with rfl | hg
    · show ValidUtf8 (ascii "a")
      decide
    · rw [List.mem_singleton.mp hg]
      show ValidUtf8 (ascii "b")
      decide)
  obtain ⟨w, raw, o, -, -⟩ := world_with C P b
  obtain ⟨w', raw', o', -, -⟩ := world_with C P b'
  refine ⟨w, w', b, b', _, _, o, h1, o', h2, rfl, rfl, ?_⟩
  rw [(C175_lists C P A Z false { list := true } (ascii "x") [] w b _ rfl rfl o h1).1,
    (C175_lists C P A Z false { list := true } (ascii "x") [] w' b' _ rfl rfl o' h2).1]
  simp only [List.map_cons, List.map_nil, nameOf, directory]
  rfl

/-- C175 is false of archives made otherwise: a file whose name ends in a slash is listed as a directory. -/
theorem C175_slash_violated : ∃ (w w' : World) (plain plain' : Bytes) (g g' : File),
    Opens C P w [ascii "x"] plain ∧ A.dec plain = some [g] ∧ Opens C P w' [ascii "x"] plain' ∧ A.dec plain' = some [g'] ∧
    directory g = true ∧ directory g' = false ∧
    mainText C P A Z false { list := true } [ascii "x"] [] w = mainText C P A Z false { list := true } [ascii "x"] [] w' := by
  obtain ⟨b, -, h1⟩ := A.dec_enc [⟨ascii "a", 0x800001ed, []⟩] (by decide)
  obtain ⟨b', -, h2⟩ := A.dec_enc [⟨ascii "a/", 0o600, Z.zip [2]⟩] (by
    intro g hg
    rw [List.mem_singleton.mp hg]
    show ValidUtf8 (ascii "a/")
    decide)
  obtain ⟨w, raw, o, -, -⟩ := world_with C P b
  obtain ⟨w', raw', o', -, -⟩ := world_with C P b'
  refine ⟨w, w', b, b', _, _, o, h1, o', h2, by decide, by simp [directory], ?_⟩
  rw [(C175_lists C P A Z false { list := true } (ascii "x") [] w b _ rfl rfl o h1).1,
    (C175_lists C P A Z false { list := true } (ascii "x") [] w' b' _ rfl rfl o' h2).1]
  simp only [List.map_cons, List.map_nil, nameOf, directory]
  rfl

/-- A list of a directory and a file in it. -/
example : ∃ w : World, mainText C P A Z false { list := true } [ascii "x"] [] w = ascii "Manifest for x\n\n\td/\n\td/f\n" := by
  obtain ⟨b, -, h1⟩ := A.dec_enc [⟨ascii "d", 0x800001ed, []⟩, ⟨ascii "d/f", 0o600, [1]⟩] (by decide)
  obtain ⟨w, raw, o, -, -⟩ := world_with C P b
  refine ⟨w, ?_⟩
  rw [(C175_lists C P A Z false { list := true } (ascii "x") [] w b _ rfl rfl o h1).1]
  rfl

example : Readable ⟨ascii "d", 0x800001ed, []⟩ ∧ Readable ⟨ascii "d/f", 0o600, [1]⟩ := by
  unfold Readable directory; decide

/-- The list of what passcrypt -a a packed. -/
example : ∃ wl : World, mainText Toy.crypto Pem.toy toyFiles toyGzip false { list := true } [ascii "passcrypt.enc"] [] wl =
    ascii "Manifest for passcrypt.enc\n\n\ta/\n\ta/b\n" := by
  obtain ⟨w', raw, h1, h2⟩ := exPack false
  let wl : World := ⟨⟨[some [112]], fun _ => 5⟩, [], [ascii "home"], w'.st⟩
  refine ⟨wl, ?_⟩
  rw [C175_packed Toy.crypto Pem.toy toyFiles toyGzip false { armour := true } { list := true } [ascii "a"] (exVisits false) [] exWorld w' wl
    [112] raw (ascii "passcrypt.enc") [] [] rfl (by decide) h1 rfl h2 (.inl rfl) ?_ rfl rfl h2 rfl]
  · rfl
  · intro v hv hr m c hc
    rcases List.mem_cons.mp hv with rfl | hv
    · obtain ⟨mode, e1, e2, -⟩ := hr
      cases e1
      exact absurd e2 (by decide)
    · rw [List.mem_singleton.mp hv] at hc
      have : exWorld.st.disk.get (resolvePath exWorld.cwd (ascii "a/b")) = some (.file 0o644 [1, 2, 3]) := by decide
      rw [show ({ path := ascii "a/b", info := some 0o644 } : Visit).path = ascii "a/b" from rfl, this] at hc
      cases hc
      decide

/-- No archive is there. -/
example (w : World) (h : w.st.disk = fun _ => none) :
    mainText C P A Z true { list := true } [ascii "x"] [] w = [] :=
  (C175_refuses C P A Z true { list := true } [ascii "x"] [] w rfl (by
    rintro plain ⟨path, raw, -, -, -, e, hr, -⟩
    cases e
    exfalso
    rw [h] at hr
    unfold Disk.readFile Disk.get at hr
    rw [if_neg (by decide)] at hr
    split at hr
    · rename_i hg
      split at hg
      · simp at hg
      · simp at hg
    · simp at hr)).1

/-! ### Announcements -/

theorem packVisitText_eq (verbose : Bool) (v : Visit) : packVisitText verbose v = if verbose then announced (found v).toList else [] := by
  unfold packVisitText found announced
  cases v.info with
  | none => cases verbose <;> rfl
  | some mode =>
    simp only
    rw [isDir_bit]
    by_cases hd : mode.getLsbD 31 = true
    · rw [if_pos hd, if_pos hd]
      cases verbose <;> simp [line, ascii]
    · rw [if_neg hd, if_neg hd]
      by_cases hr : mode &&& 0x8f280000 = 0
      · rw [if_pos hr, if_neg (by simpa [isRegular, modeType] using hr)]
        cases verbose <;> simp [line, ascii]
      · rw [if_neg hr, if_pos (by simpa [isRegular, modeType] using hr)]
        cases verbose <;> rfl

theorem announced_visits (vs : List Visit) : (vs.map (packVisitText true)).flatten = announced (vs.filterMap found) := by
  induction vs with
  | nil => rfl
  | cons v vs ih =>
    rw [List.map_cons, List.flatten_cons, ih, packVisitText_eq, if_pos rfl, List.filterMap_cons]
    cases found v <;> simp [announced]

theorem quiet_visits (vs : List Visit) : (vs.map (packVisitText false)).flatten = [] := by
  induction vs with
  | nil => rfl
  | cons v vs ih => rw [List.map_cons, List.flatten_cons, ih, packVisitText_eq]; rfl

/-- What packing prints: nothing, or what the walks print. -/
theorem text_pack {verbose : Bool} {f : Flags} {args : List Bytes} {visits : List Visit} {w : World} (hf : (f.unpack || f.list) = false) :
    mainText C P A Z verbose f args visits w = [] ∨
      mainText C P A Z verbose f args visits w = packText Z verbose w.st.disk w.cwd visits := by
  unfold mainText
  rw [if_neg (by simp [hf])]
  repeat' split
  all_goals first | exact .inl rfl | exact .inr rfl

theorem text_packed {verbose : Bool} {f : Flags} {args : List Bytes} {visits : List Visit} {w : World} {pass : Bytes} {as : List (Option Bytes)}
    (hf : (f.unpack || f.list) = false) (ha : args ≠ []) (hans : w.term.answers = some pass :: as) (hr : 32 ≤ w.rng.length) :
    mainText C P A Z verbose f args visits w = packText Z verbose w.st.disk w.cwd visits := by
  unfold mainText
  rw [if_neg (by simp [hf]), if_neg ha]
  simp only [Term.read, hans, Model.Util.randBytes, Model.Util.readFull, saltLength]
  rw [if_pos (by omega)]
  simp only [Proofs.Secret.deriveKey_eq]

theorem pack_rng {f : Flags} {args : List Bytes} {visits : List Visit} {w w' : World} (hf : (f.unpack || f.list) = false)
    (ha : args ≠ []) (h : main C P A Z f args visits w = .ok (true, w')) : 32 ≤ w.rng.length := by
  rcases Nat.lt_or_ge w.rng.length 32 with hr | hr
  · exfalso
    unfold main pack at h
    rw [if_neg (by simp [hf]), if_neg ha] at h
    have : Model.Util.randBytes w.rng saltLength = (none, []) := by
      unfold Model.Util.randBytes Model.Util.readFull
      rw [if_neg (by simp only [saltLength]; omega)]
    rcases ht : w.term.read with ⟨pass, t⟩
    rw [ht] at h
    cases pass <;> simp [this] at h
  · exact hr

/-- C176: passcrypt -v that packs and reports success has announced, in order, exactly what the archive holds, as files
and directories. -/
theorem C176_pack (f : Flags) (args : List Bytes) (visits : List Visit) (w w' : World) (hf : (f.unpack || f.list) = false)
    (ha : args ≠ []) (h : main C P A Z f args visits w = .ok (true, w'))
    (hvr : ∀ v ∈ visits, Visit.Regular v → ∀ m c, w.st.disk.get (resolvePath w.cwd v.path) = some (.file m c) → m.getLsbD 31 = false) :
    ∃ names pass as b body files, mainText C P A Z true f args visits w = announced names ∧
      w.term.answers = some pass :: as ∧
      w'.st.disk.readFile w.cwd f.outFile = some (if f.armour then P.enc header body else body) ∧
      Spec.Migrate.New C body pass b ∧ A.enc files = some b ∧
      files.map nameOf = names.map (fun x => (cleanPath x.1, x.2)) := by
  obtain ⟨pass, as, files, b, body, mo, h1, h2, h3, h4, -, h5, -⟩ := pack_ok C P A Z hf ha h
  refine ⟨visits.filterMap found, pass, as, b, body, files, ?_, h1, h5, h4, h3, packed_names Z h2 hvr⟩
  rw [text_packed C P A Z hf ha h1 (pack_rng C P A Z hf ha h), packText_some Z h2, announced_visits]

/-- C176: if a file cannot be packed, it is the last that was announced, and nothing is written. -/
theorem C176_pack_stops (f : Flags) (args : List Bytes) (visits : List Visit) (w : World) (pass : Bytes) (as : List (Option Bytes))
    (hf : (f.unpack || f.list) = false) (ha : args ≠ []) (hans : w.term.answers = some pass :: as) (hr : 32 ≤ w.rng.length)
    (h : packVisits Z w.st.disk w.cwd [] visits = none) :
    (∃ pre v post, visits = pre ++ v :: post ∧ (∃ files, packVisits Z w.st.disk w.cwd [] pre = some files) ∧
      (v.info = none ∨ Visit.Regular v ∧
        (v.readable = false ∨ ∀ m c, w.st.disk.get (resolvePath w.cwd v.path) ≠ some (.file m c))) ∧
      mainText C P A Z true f args visits w = announced ((pre ++ [v]).filterMap found)) ∧
    ∃ w', main C P A Z f args visits w = .ok (false, w') ∧ w'.st = w.st := by
  constructor
  · obtain ⟨pre, v, post, files, e1, e2, e3, e4⟩ := packText_none Z (verbose := true) h
    refine ⟨pre, v, post, e1, ⟨files, e2⟩, ?_, by rw [text_packed C P A Z hf ha hans hr, e4, announced_visits]⟩
    unfold packVisit at e3
    cases hi : v.info with
    | none => exact .inl rfl
    | some mode =>
      rw [hi] at e3
      simp only at e3
      right
      split at e3
      · simp at e3
      · rename_i hd
        split at e3
        · simp at e3
        · rename_i hreg
          refine ⟨⟨mode, hi, by simpa using hd, by simpa using hreg⟩, ?_⟩
          split at e3
          · rename_i hrd
            exact .inl (by simpa using hrd)
          · right
            intro m c hc
            unfold packFile at e3
            rw [hc] at e3
            simp at e3
  · unfold main pack packFiles
    rw [if_neg (by simp [hf]), if_neg ha]
    simp only [h, hans, Term.read, Proofs.Secret.deriveKey_eq, Model.Util.randBytes, Model.Util.readFull, saltLength]
    rw [if_pos (by omega)]
    exact ⟨_, rfl, rfl⟩

theorem unpack_run {f : Flags} {args : List Bytes} {visits : List Visit} {w w' : World} {plain : Bytes} {files : List File} {ok : Bool}
    (hu : f.unpack = true) (h : Opens C P w args plain) (hd : A.dec plain = some files)
    (hm : main C P A Z f args visits w = .ok (ok, w')) :
    (w'.st, ok) = match makeTop w.st w.cwd f.outDir with
      | (s, false) => (s, false)
      | (s, true) => unpackLoop Z w.cwd f.outDir s files := by
  obtain ⟨w'', ok', h1, h2⟩ := C103_opens C P A Z f args visits w plain (by simp [hu]) h
  rw [if_pos hu] at h2
  rw [h1] at hm
  cases hm
  rw [h2]
  unfold unpackFiles
  simp only [hd]
  rfl

/-- C176: passcrypt -u -v that reports success has named every entry of the archive, in order. Directories are named
twice. Without -v only the directories are named. -/
theorem C176_unpack (verbose : Bool) (f : Flags) (args : List Bytes) (visits : List Visit) (w w' : World) (plain : Bytes) (files : List File)
    (hu : f.unpack = true) (h : Opens C P w args plain) (hd : A.dec plain = some files)
    (hm : main C P A Z f args visits w = .ok (true, w')) :
    mainText C P A Z verbose f args visits w = (files.map (fun g => unpacking verbose (nameOf g))).flatten := by
  have hr := unpack_run C P A Z hu h hd hm
  rw [text_open C P A Z (by simp [hu]) h hd, if_pos hu]
  revert hr
  rcases makeTop w.st w.cwd f.outDir with ⟨s, ok⟩
  cases ok with
  | false => simp
  | true =>
    intro hr
    simp only at hr
    exact unpackText_ok Z (by rw [← hr])

/-- C176: if passcrypt -u -v fails at an entry, it is the last that was named: those before are unpacked, and those
after are not tried. -/
theorem C176_unpack_stops (verbose : Bool) (f : Flags) (args : List Bytes) (visits : List Visit) (w w' : World) (plain : Bytes)
    (files : List File) (hu : f.unpack = true) (h : Opens C P w args plain) (hd : A.dec plain = some files)
    (hm : main C P A Z f args visits w = .ok (false, w')) :
    ((makeTop w.st w.cwd f.outDir).2 = false ∧ mainText C P A Z verbose f args visits w = []) ∨
    ∃ pre g post, files = pre ++ g :: post ∧
      (unpackLoop Z w.cwd f.outDir (makeTop w.st w.cwd f.outDir).1 pre).2 = true ∧
      unpackEntry Z (unpackLoop Z w.cwd f.outDir (makeTop w.st w.cwd f.outDir).1 pre).1 w.cwd g f.outDir = (w'.st, false) ∧
      mainText C P A Z verbose f args visits w = ((pre ++ [g]).map (fun g => unpacking verbose (nameOf g))).flatten := by
  have hr := unpack_run C P A Z hu h hd hm
  rw [text_open C P A Z (by simp [hu]) h hd, if_pos hu]
  revert hr
  rcases makeTop w.st w.cwd f.outDir with ⟨s, ok⟩
  cases ok with
  | false => intro _; exact .inl ⟨rfl, rfl⟩
  | true =>
    intro hr
    simp only at hr ⊢
    right
    obtain ⟨pre, g, post, e1, e2, e3, e4⟩ := unpackText_stops Z (verbose := verbose) (s := s) (files := files)
      (cwd := w.cwd) (top := f.outDir) (by rw [← hr])
    exact ⟨pre, g, post, e1, e2, by rw [e3, ← hr], e4⟩

/-- passcrypt -v a -/
example : mainText C P A Z true {} [ascii "a"] (exVisits false) exWorld = ascii "Pack directory a\nPack file a/b\n" := by
  rw [text_packed C P A Z (by decide) (by decide) (rfl : exWorld.term.answers = _) (by decide)]
  rfl

/-- passcrypt -v a nothing -/
example : packVisits Z exDisk [ascii "home"] [] (exVisits false ++ [⟨ascii "nothing", none, true, true⟩]) = none ∧
    mainText C P A Z true {} [ascii "a"] (exVisits false ++ [⟨ascii "nothing", none, true, true⟩]) exWorld =
      ascii "Pack directory a\nPack file a/b\n" := by
  rw [text_packed C P A Z (by decide) (by decide) (rfl : exWorld.term.answers = _) (by decide)]
  exact ⟨rfl, rfl⟩

/-! ### Without -v -/

/-- C177, what holds: without -v nothing is printed while packing, and nothing while unpacking an archive without
directories. Missing: directories. -/
theorem C177_quiet_partial (f : Flags) (args : List Bytes) (visits : List Visit) (w : World) (hl : f.list = false ∨ f.unpack = true)
    (h : f.unpack = true → ∀ plain files, Opens C P w args plain → A.dec plain = some files → ∀ g ∈ files, directory g = false) :
    mainText C P A Z false f args visits w = [] := by
  by_cases hu : f.unpack = true
  · by_cases ho : ∃ plain files, Opens C P w args plain ∧ A.dec plain = some files
    · obtain ⟨plain, files, ho, hd⟩ := ho
      have hq := h hu plain files ho hd
      have hn : ∀ l : List File, (∀ g ∈ l, directory g = false) → (l.map (fun g => unpacking false (nameOf g))).flatten = [] := by
        intro l hl
        induction l with
        | nil => rfl
        | cons g l ih =>
          rw [List.map_cons, List.flatten_cons, ih (fun x hx => hl x (by simp [hx]))]
          simp [unpacking, nameOf, hl g (by simp)]
      obtain ⟨w', ok, h1, -⟩ := C103_opens C P A Z f args visits w plain (by simp [hu]) ho
      cases ok with
      | true => rw [C176_unpack C P A Z false f args visits w w' plain files hu ho hd h1, hn files hq]
      | false =>
        rcases C176_unpack_stops C P A Z false f args visits w w' plain files hu ho hd h1 with ⟨-, e⟩ | ⟨pre, g, post, e1, -, -, e4⟩
        · exact e
        · rw [e4, hn]
          intro x hx
          refine hq x ?_
          rw [e1]
          rcases List.mem_append.mp hx with hx | hx
          · simp [hx]
          · simp [List.mem_singleton.mp hx]
    · refine (C175_refuses C P A Z false f args visits w (by simp [hu]) (fun plain hp => ?_)).1
      cases hd : A.dec plain with
      | none => rfl
      | some files => exact absurd ⟨plain, files, hp, hd⟩ ho
  · have hf : (f.unpack || f.list) = false := by
      rcases hl with hl | hl
      · simp [hl, hu]
      · exact absurd hl hu
    rcases text_pack C P A Z (verbose := false) (args := args) (visits := visits) (w := w) hf with e | e
    · exact e
    · rw [e]
      cases hp : packVisits Z w.st.disk w.cwd [] visits with
      | some files => rw [packText_some Z hp, quiet_visits]
      | none =>
        obtain ⟨pre, v, post, files, -, -, -, e4⟩ := packText_none Z (verbose := false) hp
        rw [e4, quiet_visits]

/-- C177 is false: directories are named while unpacking, with or without -v. -/
theorem C177_directories_violated : ∃ (w w' : World) (plain : Bytes), Opens C P w [ascii "x"] plain ∧
    main C P A Z { unpack := true } [ascii "x"] [] w = .ok (true, w') ∧
    mainText C P A Z false { unpack := true } [ascii "x"] [] w = ascii "Directory: d\n" := by
  obtain ⟨b, -, h1⟩ := A.dec_enc [⟨ascii "d", 0x800001ed, []⟩] (by decide)
  obtain ⟨w, raw, o, hc, hs⟩ := world_with C P b
  obtain ⟨w', ok, hm, hst⟩ := C103_opens C P A Z { unpack := true } [ascii "x"] [] w b rfl o
  have hok : ok = true := by
    rw [if_pos rfl, hs, hc] at hst
    rw [show ok = _ from congrArg Prod.snd hst]
    unfold unpackFiles
    rw [h1]
    rfl
  subst hok
  refine ⟨w, w', b, o, hm, ?_⟩
  rw [C176_unpack C P A Z false { unpack := true } [ascii "x"] [] w w' b _ rfl o h1 hm]
  rfl

/-- An archive without directories, and what is printed of it with -v and without. -/
example : ∃ w : World, mainText C P A Z false { unpack := true } [ascii "x"] [] w = [] ∧
    mainText C P A Z true { unpack := true } [ascii "x"] [] w = ascii "Unpack f\n" := by
  obtain ⟨b, -, h1⟩ := A.dec_enc [⟨ascii "f", 0o600, Z.zip [1]⟩] (by
    intro g hg
    rw [List.mem_singleton.mp hg]
    show ValidUtf8 (ascii "f")
    decide)
  obtain ⟨w, raw, o, hc, hs⟩ := world_with C P b
  obtain ⟨w', ok, hm, hst⟩ := C103_opens C P A Z { unpack := true } [ascii "x"] [] w b rfl o
  have hok : ok = true := by
    rw [if_pos rfl, hs, hc] at hst
    rw [show ok = _ from congrArg Prod.snd hst]
    unfold unpackFiles
    rw [h1]
    simp only [makeTop]
    have hstat : (oneFile raw).stat [] dot = .found (.dir 0o755) := by
      unfold Disk.stat Disk.get
      rw [if_neg (by decide), if_pos (by decide)]
    rw [hstat, if_neg (by simp)]
    simp only [unpackLoop]
    have he : (unpackEntry Z ⟨oneFile raw, fun _ => .done, 0⟩ [] ⟨ascii "f", 0o600, Z.zip [1]⟩ dot).2 = true := by
      unfold unpackEntry
      rw [if_neg (by show ¬ isDir (BitVec.setWidth 32 (0o600 : BitVec 64)) = true; decide)]
      simp only [unpackDir, unpackFile, Z.unzip_zip]
      rfl
    revert he
    rcases unpackEntry Z ⟨oneFile raw, fun _ => .done, 0⟩ [] ⟨ascii "f", 0o600, Z.zip [1]⟩ dot with ⟨s, ok⟩
    intro he
    simp only at he
    subst he
    rfl
  subst hok
  refine ⟨w, ?_, ?_⟩
  · rw [C176_unpack C P A Z false { unpack := true } [ascii "x"] [] w w' b _ rfl o h1 hm]
    simp only [List.map_cons, List.map_nil, nameOf, directory]
    rfl
  · rw [C176_unpack C P A Z true { unpack := true } [ascii "x"] [] w w' b _ rfl o h1 hm]
    simp only [List.map_cons, List.map_nil, nameOf, directory]
    rfl

/-! ### What is not printed -/

/-- C178: what passcrypt prints of an archive does not depend on what the files in it, or on the disk, hold, nor on the
password. -/
theorem C178_open (verbose : Bool) (f : Flags) (args : List Bytes) (visits visits' : List Visit) (w w' : World)
    (plain plain' : Bytes) (files files' : List File) (hf : (f.unpack || f.list) = true)
    (h : Opens C P w args plain) (hd : A.dec plain = some files) (h' : Opens C P w' args plain') (hd' : A.dec plain' = some files')
    (hal : AlikeFiles Z files files') (hc : w.cwd = w'.cwd) (ho : w.st.ops = w'.st.ops) (hu : w.st.umask = w'.st.umask)
    (hs : SameShape w.st.disk w'.st.disk) :
    mainText C P A Z verbose f args visits w = mainText C P A Z verbose f args visits' w' := by
  rw [text_open C P A Z hf h hd, text_open C P A Z hf h' hd']
  split
  · have := makeTop_shape (s := w.st) (s' := w'.st) ⟨hs, ho, hu⟩ w.cwd f.outDir
    rw [← hc]
    revert this
    rcases makeTop w.st w.cwd f.outDir with ⟨s, ok⟩
    rcases makeTop w'.st w.cwd f.outDir with ⟨s', ok'⟩
    rintro ⟨h1, h2⟩
    simp only at h1 h2
    subst h2
    cases ok with
    | false => rfl
    | true => exact unpackText_shape Z h1 verbose w.cwd f.outDir hal
  · rw [manifest_eq, manifest_eq, alike_names Z hal]

/-- C178: what passcrypt prints while packing does not depend on what the files hold, nor on the password or on random
numbers. -/
theorem C178_pack (verbose : Bool) (f : Flags) (args : List Bytes) (visits : List Visit) (w w' : World) (pass pass' : Bytes)
    (as as' : List (Option Bytes)) (hf : (f.unpack || f.list) = false)
    (ha : w.term.answers = some pass :: as) (ha' : w'.term.answers = some pass' :: as') (hr : w.rng.length = w'.rng.length)
    (hc : w.cwd = w'.cwd) (hs : SameShape w.st.disk w'.st.disk) :
    mainText C P A Z verbose f args visits w = mainText C P A Z verbose f args visits w' := by
  have hw : ∀ (u : World) (p : Bytes) (l : List (Option Bytes)), u.term.answers = some p :: l →
      mainText C P A Z verbose f args visits u =
        if args = [] then [] else if 32 ≤ u.rng.length then packText Z verbose u.st.disk u.cwd visits else [] := by
    intro u p l hu
    split
    · rename_i hargs
      unfold mainText
      rw [if_neg (by simp [hf]), if_pos hargs]
    · rename_i hargs
      split
      · rename_i hl
        exact text_packed C P A Z hf hargs hu hl
      · rename_i hl
        unfold mainText
        rw [if_neg (by simp [hf]), if_neg hargs]
        simp only [Term.read, hu, Model.Util.randBytes, Model.Util.readFull, saltLength]
        rw [if_neg hl]
  rw [hw w pass as ha, hw w' pass' as' ha', ← hc, ← hr, packText_shape Z hs]

example : AlikeFiles toyGzip [⟨ascii "d", 0x800001ed, []⟩, ⟨ascii "f", 0o600, [1]⟩] [⟨ascii "d", 0x800001ed, []⟩, ⟨ascii "f", 0o600, [2, 3]⟩] ∧
    SameShape (oneFile [1, 2]) (oneFile [3]) := by
  refine ⟨⟨rfl, rfl, rfl, rfl, rfl, rfl, trivial⟩, fun q => ?_⟩
  unfold oneFile
  split <;> rfl

end Verif.Props.PasscryptOutput
