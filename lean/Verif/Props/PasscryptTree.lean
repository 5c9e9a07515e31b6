import Verif.Props.Passcrypt
import Verif.Proofs.PasscryptWalk
/-! Properties of passcrypt on trees of files (C102, C104, C160). -/

namespace Verif.Props.PasscryptTree
open Verif Verif.Go Verif.Model.Passcrypt Verif.Spec.Passcrypt Verif.Proofs.FilePath Verif.Proofs.PasscryptWalk
  Verif.Proofs.Passcrypt Verif.Props.Passcrypt

variable (C : Crypto) (P : Pem) (A : FilesAsn1) (Z : Gzip)

/-- Every directory at or below the arguments can be listed. -/
def AllListed (list : List Bytes → Option (List Bytes)) (d : Disk) (cwd : List Bytes) (args : List Bytes) : Prop :=
  ∀ a ∈ args, ∀ q, resolvePath cwd a <+: q → (∃ m, d.get q = some (.dir m)) → list q ≠ none

theorem run_pack {acc : Access} {fuel : Nat} {f : Flags} {args : List Bytes} {w : World} {r : Res (Bool × World)}
    (hf : (f.unpack || f.list) = false) (h : run C P A Z acc fuel f args w = some r) :
    ∃ visits, walkArgs acc w.st.disk w.cwd fuel args = some visits ∧ main C P A Z f args visits w = r := by
  unfold run at h
  rw [if_neg (by simp [hf]), Option.map_eq_some_iff] at h
  exact h

theorem run_of_walk {acc : Access} {fuel : Nat} {f : Flags} {args : List Bytes} {w : World} {visits : List Visit} {r : Res (Bool × World)}
    (hf : (f.unpack || f.list) = false) (hw : walkArgs acc w.st.disk w.cwd fuel args = some visits)
    (h : main C P A Z f args visits w = r) : run C P A Z acc fuel f args w = some r := by
  unfold run
  rw [if_neg (by simp [hf]), hw, Option.map_some, h]

theorem run_open {acc : Access} {fuel : Nat} {f : Flags} {args : List Bytes} {w : World} (hf : (f.unpack || f.list) = true) :
    run C P A Z acc fuel f args w = some (main C P A Z f args [] w) := by
  unfold run
  rw [if_pos hf]

theorem plain_regular {m : BitVec 32} (h : Plain m) : isDir m = false ∧ isRegular m = true := by
  refine ⟨?_, by simpa [isRegular, modeType, Plain] using h⟩
  unfold isDir modeDir
  rw [bne_eq_false_iff_eq]
  have : (m &&& 0x8f280000) &&& 0x80000000 = m &&& 0x80000000 := by rw [BitVec.and_assoc]; rfl
  rw [← this, h]
  simp

section
variable {acc : Access} {d : Disk} {cwd : List Bytes}

/-- A visit that was examined shows what is on the disk. -/
theorem visit_kind {path : Bytes} {ks : List Bytes} {v : Visit} (h : Reached acc d cwd path ks v) (hi : v.info ≠ none) :
    (∃ m c, d.get (resolvePath cwd v.path) = some (.file m c) ∧ v.info = some m) ∨
      ∃ m, d.get (resolvePath cwd v.path) = some (.dir m) ∧ v.info = some (modeDir ||| m) := by
  obtain ⟨mode, hm⟩ := Option.ne_none_iff_exists'.mp hi
  rcases (lstat_some (h.info mode hm)).2 with ⟨c, e⟩ | ⟨m, e1, e2⟩
  · exact .inl ⟨mode, c, e, hm⟩
  · exact .inr ⟨m, e1, e2 ▸ hm⟩

/-- With every directory listed and every name examined, each place below an argument is visited. -/
theorem visited (ht : Tree d) (hl : Lists acc.list d) {fuel : Nat} {args : List Bytes} {visits : List Visit}
    (hw : walkArgs acc d cwd fuel args = some visits) (hinfo : ∀ v ∈ visits, v.info ≠ none) (hread : AllListed acc.list d cwd args)
    {a : Bytes} (ha : a ∈ args) (ks : List Bytes) (hk : d.get (resolvePath cwd a ++ ks) ≠ none) :
    ∃ v ∈ visits, Reached acc d cwd a ks v := by
  obtain ⟨b, hb, hsub⟩ := (walkArgs_mem hw).2 a ha
  obtain ⟨mode, hm, hwalk⟩ := walkRoot_some hb (fun v hv => hinfo v (hsub v hv))
  obtain ⟨v, hv, e⟩ := walk_place ht hl (lstat_some hm).1 hm hwalk (hread a ha) (fun v hv => hinfo v (hsub v hv)) ks hk
  obtain ⟨ks', hr⟩ := walk_reached ht hl (lstat_some hm).1 hm hwalk v hv
  have : ks' = ks := by
    have := hr.place
    rw [e, List.append_cancel_left_eq] at this
    exact this.symm
  exact ⟨v, hsub v hv, this ▸ hr⟩

/-- Each visit belongs below an argument. -/
theorem visits_reached (ht : Tree d) (hl : Lists acc.list d) {fuel : Nat} {args : List Bytes} {visits : List Visit}
    (hw : walkArgs acc d cwd fuel args = some visits) (hinfo : ∀ v ∈ visits, v.info ≠ none) :
    ∀ v ∈ visits, ∃ a ∈ args, ∃ ks, Reached acc d cwd a ks v := by
  intro v hv
  obtain ⟨a, ha, b, hb, hvb⟩ := (walkArgs_mem hw).1 v hv
  obtain ⟨b', hb', hsub⟩ := (walkArgs_mem hw).2 a ha
  rw [hb] at hb'
  cases hb'
  obtain ⟨mode, hm, hwalk⟩ := walkRoot_some hb (fun v hv => hinfo v (hsub v hv))
  obtain ⟨ks, hr⟩ := walk_reached ht hl (lstat_some hm).1 hm hwalk v hvb
  exact ⟨a, ha, ks, hr⟩

end

/-- C104, what holds for trees: if every directory below the arguments can be read and passcrypt
reports success, then all arguments exist, and for every regular file at or below an argument the
archive holds an entry that leads to it, with its mode and content, and for every directory an entry
with its mode; every entry is of something at or below an argument. Missing: trees with directories
that cannot be read. -/
theorem C104_tree_partial (acc : Access) (fuel : Nat) (f : Flags) (args : List Bytes) (w w' : World) (ht : Tree w.st.disk)
    (hl : Lists acc.list w.st.disk) (hread : AllListed acc.list w.st.disk w.cwd args)
    (hf : (f.unpack || f.list) = false) (ha : args ≠ []) (h : run C P A Z acc fuel f args w = some (.ok (true, w'))) :
    ∃ pass as b body files, w.term.answers = some pass :: as ∧
      w'.st.disk.readFile w.cwd f.outFile = some (if f.armour then P.enc (ascii "PASSCRYPT ARCHIVE") body else body) ∧
      Spec.Migrate.New C body pass b ∧ A.enc files = some b ∧
      (∀ a ∈ args, w.st.disk.get (resolvePath w.cwd a) ≠ none ∧ ∀ q, resolvePath w.cwd a <+: q →
        (∀ m c, w.st.disk.get q = some (.file m c) → Plain m → acc.read q = true ∧
          ∃ g ∈ files, resolvePath w.cwd g.path = q ∧ g.mode = m.setWidth 64 ∧ Z.unzip g.data = some (c, true)) ∧
        ∀ m, w.st.disk.get q = some (.dir m) → ∃ g ∈ files, resolvePath w.cwd g.path = q ∧ g.mode = (0x80000000 ||| m).setWidth 64) ∧
      ∀ g ∈ files, ∃ a ∈ args, resolvePath w.cwd a <+: resolvePath w.cwd g.path ∧
        w.st.disk.get (resolvePath w.cwd g.path) ≠ none := by
  obtain ⟨visits, hwalk, hmain⟩ := run_pack C P A Z hf h
  obtain ⟨pass, as, files, b, body, mo, h1, h2, h3, h4, -, h5, -⟩ := pack_ok C P A Z hf ha hmain
  obtain ⟨hfiles, hvis⟩ := packVisits_some Z h2
  rw [List.nil_append] at hfiles
  have hinfo : ∀ v ∈ visits, v.info ≠ none := fun v hv => by
    obtain ⟨mode, e, -⟩ := hvis v hv
    simp [e]
  refine ⟨pass, as, b, body, files, h1, h5, h4, h3, fun a hma => ⟨?_, ?_⟩, ?_⟩
  · obtain ⟨bl, hb, hsub⟩ := (walkArgs_mem hwalk).2 a hma
    obtain ⟨mode, hm, -⟩ := walkRoot_some hb (fun v hv => hinfo v (hsub v hv))
    rcases (lstat_some hm).2 with ⟨c, e⟩ | ⟨m, e, -⟩ <;> simp [e]
  · rintro q ⟨ks, rfl⟩
    constructor
    · intro m c hc hp
      obtain ⟨v, hv, hr⟩ := visited ht hl hwalk hinfo hread hma ks (by simp [hc])
      obtain ⟨mode, e1, e2⟩ := hvis v hv
      have hc' : w.st.disk.get (resolvePath w.cwd v.path) = some (.file m c) := by rw [hr.place, hc]
      have hmode : mode = m := by
        rcases visit_kind hr (hinfo v hv) with ⟨m', c', e3, e4⟩ | ⟨m', e3, -⟩
        · rw [hc'] at e3; rw [e1] at e4; cases e3; cases e4; rfl
        · rw [hc'] at e3; cases e3
      subst hmode
      obtain ⟨p1, p2⟩ := plain_regular hp
      obtain ⟨hrd, -⟩ := e2 p1 p2
      refine ⟨by rw [← hr.place, ← hr.readable, hrd],
        { path := cleanPath v.path, mode := mode.setWidth 64, data := Z.zip c }, ?_, ?_, rfl, Z.unzip_zip c⟩
      · rw [hfiles, List.mem_filterMap]
        exact ⟨v, hv, entryOf_regular Z ⟨mode, e1, p1, p2⟩ hrd hc'⟩
      · show resolvePath w.cwd (cleanPath v.path) = _
        rw [resolve_clean, hr.place]
    · intro m hc
      obtain ⟨v, hv, hr⟩ := visited ht hl hwalk hinfo hread hma ks (by simp [hc])
      have hc' : w.st.disk.get (resolvePath w.cwd v.path) = some (.dir m) := by rw [hr.place, hc]
      have hi : v.info = some (modeDir ||| m) := by
        rcases visit_kind hr (hinfo v hv) with ⟨m', c', e3, e4⟩ | ⟨m', e3, e4⟩
        · rw [hc'] at e3; cases e3
        · rw [hc'] at e3; cases e3; exact e4
      refine ⟨{ path := cleanPath v.path, mode := (modeDir ||| m).setWidth 64, data := [] }, ?_, ?_, rfl⟩
      · rw [hfiles, List.mem_filterMap]
        refine ⟨v, hv, ?_⟩
        unfold entryOf
        rw [hi]
        simp only
        rw [if_pos (isDir_or m)]
      · show resolvePath w.cwd (cleanPath v.path) = _
        rw [resolve_clean, hr.place]
  · intro g hg
    rw [hfiles, List.mem_filterMap] at hg
    obtain ⟨v, hv, he⟩ := hg
    obtain ⟨a, hma, ks, hr⟩ := visits_reached ht hl hwalk hinfo v hv
    refine ⟨a, hma, ?_, ?_⟩
    · rw [(entryOf_some Z he).1, resolve_clean, hr.place]
      exact List.prefix_append _ _
    · rw [(entryOf_some Z he).1, resolve_clean]
      rcases visit_kind hr (hinfo v hv) with ⟨m', c', e3, -⟩ | ⟨m', e3, -⟩ <;> simp [e3]

/-- A walk over a tree that is not endlessly deep ends. -/
theorem run_ends (acc : Access) (f : Flags) (args : List Bytes) (w : World) (ht : Tree w.st.disk) (hl : Lists acc.list w.st.disk) (N : Nat)
    (hN : ∀ q, w.st.disk.get q ≠ none → q.length ≤ N) : run C P A Z acc (N + 1) f args w ≠ none := by
  unfold run
  split
  · simp
  · rw [ne_eq, Option.map_eq_none_iff]
    exact walkArgs_total ht hl hN args

/-- When packing succeeds. -/
theorem pack_succeeds {f : Flags} {args : List Bytes} {visits : List Visit} {w : World} {files : List File} {b pass b0 : Bytes}
    {as : List (Option Bytes)} {m0 : BitVec 32} (hf : (f.unpack || f.list) = false) (ha : args ≠ [])
    (hp : packVisits Z w.st.disk w.cwd [] visits = some files) (he : A.enc files = some b) (hans : w.term.answers = some pass :: as)
    (hr : 56 ≤ w.rng.length) (hop : w.st.ops 0 = .done) (hout : f.outFile ≠ [])
    (ho : w.st.disk.openCreate (resolvePath w.cwd f.outFile) (w.st.allow 0o644) = some (m0, b0)) :
    ∃ w', main C P A Z f args visits w = .ok (true, w') := by
  unfold main pack packFiles
  rw [if_neg (by simp [hf]), if_neg ha]
  simp only [hp, he, hans, Term.read, Proofs.Secret.deriveKey_eq, Proofs.Secret.encrypt_some, Model.Util.randBytes,
    Model.Util.readFull, saltLength]
  rw [if_pos (by omega)]
  simp only
  rw [if_pos (by simp; omega)]
  simp only [Res.ok_bind, hop, writeAt_done hout ho]
  exact ⟨_, rfl⟩

/-! ### Round trips -/

theorem resolve_noUp (cwd : List Bytes) {p : Bytes} (h : NoUp p) :
    resolvePath cwd p = (if rootedPath p then [] else cwd) ++ namesIn p := by
  unfold resolvePath
  rw [fold_names h, List.reverse_append, List.reverse_reverse]
  split <;> simp [namesIn, names]

/-- A visit to a regular file is to a file on the disk. -/
theorem regular_file {acc : Access} {d : Disk} {cwd : List Bytes} {path : Bytes} {ks : List Bytes} {v : Visit}
    (h : Reached acc d cwd path ks v) (hr : Visit.Regular v) : ∃ m c, d.get (resolvePath cwd v.path) = some (.file m c) := by
  obtain ⟨mode, e1, e2, -⟩ := hr
  rcases visit_kind h (by simp [e1]) with ⟨m, c, e, -⟩ | ⟨m, -, e⟩
  · exact ⟨m, c, e⟩
  · rw [e1] at e
    cases e
    rw [isDir_or] at e2
    cases e2

/-- The names below the arguments are as far apart as the places. -/
theorem visits_apart {acc : Access} {d : Disk} {cwd : List Bytes} (ht : Tree d) (hl : Lists acc.list d) {fuel : Nat} {args : List Bytes}
    {visits : List Visit} (hw : walkArgs acc d cwd fuel args = some visits) (hinfo : ∀ v ∈ visits, v.info ≠ none)
    (hup : ∀ a ∈ args, NoUp a) (hap : args.Pairwise (fun a b => ¬ namesIn a <+: namesIn b ∧ ¬ namesIn b <+: namesIn a)) :
    visits.Pairwise (fun v u => (Visit.Regular v → ¬ namesIn v.path <+: namesIn u.path) ∧
      (Visit.Regular u → ¬ namesIn u.path <+: namesIn v.path)) := by
  have hex : ∀ {path ks v}, Reached acc d cwd path ks v → v.info ≠ none → d.get (resolvePath cwd v.path) ≠ none := by
    intro path ks v hr hi
    rcases visit_kind hr hi with ⟨m, c, e, -⟩ | ⟨m, e, -⟩ <;> simp [e]
  induction args generalizing visits with
  | nil =>
    simp only [walkArgs, Option.some.injEq] at hw
    subst hw
    exact List.Pairwise.nil
  | cons a as ih =>
    obtain ⟨vs, us, h1, h2, rfl⟩ := walkArgs_cons hw
    rw [List.pairwise_cons] at hap
    have hua := hup a (by simp)
    obtain ⟨mode, hm, hwalk⟩ := walkRoot_some h1 (fun v hv => hinfo v (by simp [hv]))
    have hreach := walk_reached ht hl (lstat_some hm).1 hm hwalk
    rw [List.pairwise_append]
    refine ⟨?_, ih h2 (fun v hv => hinfo v (by simp [hv])) (fun b hb => hup b (by simp [hb])) hap.2, ?_⟩
    · have key : ∀ v ∈ vs, ∀ u ∈ vs, resolvePath cwd v.path ≠ resolvePath cwd u.path → Visit.Regular v →
          ¬ namesIn v.path <+: namesIn u.path := by
        intro v hv u hu hne hr hpre
        obtain ⟨kv, rv⟩ := hreach v hv
        obtain ⟨ku, ru⟩ := hreach u hu
        rw [rv.names hua, ru.names hua, List.prefix_append_right_inj] at hpre
        obtain ⟨t, rfl⟩ := hpre
        obtain ⟨m, c, hc⟩ := regular_file rv hr
        have : d.get (resolvePath cwd v.path ++ t) ≠ none := by
          have := hex ru (hinfo u (by simp [hu]))
          rwa [ru.place, ← List.append_assoc, ← rv.place] at this
        have := tree_file ht hc this
        subst this
        exact hne (by rw [rv.place, ru.place, List.append_nil])
      refine List.Pairwise.imp_of_mem (fun {v u} hv hu hne => ⟨key v hv u hu hne, key u hu v hv (Ne.symm hne)⟩)
        (walk_apart ht hl (lstat_some hm).1 hm hwalk)
    · intro v hv u hu
      obtain ⟨kv, rv⟩ := hreach v hv
      obtain ⟨b, hb, ku, ru⟩ := visits_reached ht hl h2 (fun v hv => hinfo v (by simp [hv])) u hu
      have hub := hup b (by simp [hb])
      rw [rv.names hua, ru.names hub]
      have hno := hap.1 b hb
      have hcomp : ∀ {x y z t : List Bytes}, x ++ z <+: y ++ t → x <+: y ∨ y <+: x := by
        intro x y z t h
        exact List.prefix_or_prefix_of_prefix ((List.prefix_append x z).trans h) (List.prefix_append y t)
      exact ⟨fun _ h => (hcomp h).elim hno.1 hno.2, fun _ h => (hcomp h).elim hno.2 hno.1⟩

/-- C102 for trees: if passcrypt packed some files and directories all of which could be read, none
inside another, then passcrypt -u with the same password restores into a new or empty directory what
is at and below each of them, under the same names: every regular file with its content and mode, and
every directory. The arguments have no "..", and the archive is armoured, or at least does not look
as if it were. -/
theorem C102_tree (acc accu : Access) (fuel fuelu : Nat) (f fu : Flags) (args : List Bytes) (w w' wu : World)
    (pass raw path : Bytes) (as asu : List (Option Bytes)) (htree : Tree w.st.disk) (hmodes : Modes w.st.disk)
    (hl : Lists acc.list w.st.disk) (hread : AllListed acc.list w.st.disk w.cwd args) (hcwd : ∃ m, w.st.disk.get w.cwd = some (.dir m))
    (hup : ∀ a ∈ args, NoUp a) (hap : args.Pairwise (fun a b => ¬ namesIn a <+: namesIn b ∧ ¬ namesIn b <+: namesIn a))
    (hf : (f.unpack || f.list) = false) (ha : args ≠ [])
    (hpack : run C P A Z acc fuel f args w = some (.ok (true, w'))) (hans : w.term.answers = some pass :: as)
    (hraw : w'.st.disk.readFile w.cwd f.outFile = some raw) (harm : f.armour = true ∨ P.dec raw = none)
    (hu : fu.unpack = true) (hrd : wu.st.disk.readFile wu.cwd path = some raw)
    (hansu : wu.term.answers = some pass :: asu) (hw : ∀ n, wu.st.ops n = .done) (ht : fu.outDir ≠ [])
    (habove : ∀ q, q <+: resolvePath wu.cwd fu.outDir → q ≠ [] → ∀ m b, wu.st.disk q ≠ some (.file m b))
    (hbelow : ∀ q, resolvePath wu.cwd fu.outDir <+: q → q ≠ resolvePath wu.cwd fu.outDir → wu.st.disk q = none) :
    ∃ wu', run C P A Z accu fuelu fu [path] wu = some (.ok (true, wu')) ∧ ∀ a ∈ args, ∀ ks,
      (∀ m c, w.st.disk.get (resolvePath w.cwd a ++ ks) = some (.file m c) → Plain m →
        wu'.st.disk (resolvePath wu.cwd fu.outDir ++ namesIn a ++ ks) =
          some (.file (m &&& ~~~(wu.st.umask.setWidth 32)) c)) ∧
      ∀ m, w.st.disk.get (resolvePath w.cwd a ++ ks) = some (.dir m) →
        ∃ m', wu'.st.disk.get (resolvePath wu.cwd fu.outDir ++ namesIn a ++ ks) = some (.dir m') := by
  obtain ⟨visits, hwalk, hmain⟩ := run_pack C P A Z hf hpack
  have hinfo : ∀ v ∈ visits, v.info ≠ none := by
    obtain ⟨_, _, _, _, _, _, -, h2, -⟩ := pack_ok C P A Z hf ha hmain
    intro v hv
    obtain ⟨mode, e, -⟩ := (packVisits_some Z h2).2 v hv
    simp [e]
  have hreach := visits_reached htree hl hwalk hinfo
  obtain ⟨wu', hrun, hres⟩ := C102_roundtrip C P A Z f fu args visits [] w w' wu pass raw path as asu hf ha hmain hans hraw harm
    (fun v hv => by
      obtain ⟨a, hma, ks, hr⟩ := hreach v hv
      exact hr.noUp (hup a hma))
    (fun v hv hreg => by
      obtain ⟨a, hma, ks, hr⟩ := hreach v hv
      obtain ⟨m0, c0, hc0⟩ := regular_file hr hreg
      refine ⟨fun e => ?_, fun m c hc => ?_⟩
      · rw [resolve_noUp _ (hr.noUp (hup a hma)), e, List.append_nil] at hc0
        split at hc0
        · cases hc0
        · obtain ⟨m, hm⟩ := hcwd
          rw [hm] at hc0
          cases hc0
      · unfold Disk.get at hc
        split at hc
        · cases hc
        · have := hmodes _ m c hc
          simpa [isDir, modeDir] using this)
    (visits_apart htree hl hwalk hinfo hup hap) hu hrd hansu hw ht habove hbelow
  refine ⟨wu', by rw [run_open C P A Z (by simp [hu]), hrun], fun a hma ks => ⟨fun m c hc hp => ?_, fun m hc => ?_⟩⟩
  · obtain ⟨v, hv, hr⟩ := visited htree hl hwalk hinfo hread hma ks (by simp [hc])
    have hc' : w.st.disk.get (resolvePath w.cwd v.path) = some (.file m c) := by rw [hr.place, hc]
    have hreg : Visit.Regular v := by
      rcases visit_kind hr (hinfo v hv) with ⟨m', c', e3, e4⟩ | ⟨m', e3, -⟩
      · rw [hc'] at e3
        cases e3
        exact ⟨m, e4, (plain_regular hp).1, (plain_regular hp).2⟩
      · rw [hc'] at e3; cases e3
    have := (hres v hv).1 hreg m c hc'
    rwa [hr.names (hup a hma), ← List.append_assoc] at this
  · obtain ⟨v, hv, hr⟩ := visited htree hl hwalk hinfo hread hma ks (by simp [hc])
    have hc' : w.st.disk.get (resolvePath w.cwd v.path) = some (.dir m) := by rw [hr.place, hc]
    have hdir : Visit.Directory v := by
      rcases visit_kind hr (hinfo v hv) with ⟨m', c', e3, e4⟩ | ⟨m', e3, e4⟩
      · rw [hc'] at e3; cases e3
      · exact ⟨_, e4, isDir_or m'⟩
    have := (hres v hv).2 hdir
    rwa [hr.names (hup a hma), ← List.append_assoc] at this

/-! ### Different files, different places -/

/-- C160, what holds: if the arguments are without ".." and all absolute or all relative, two entries
of the archive that lead to different files are unpacked to different places, whatever the directory.
Missing: absolute and relative arguments together, and "..". -/
theorem C160_partial (acc : Access) (fuel : Nat) (f : Flags) (args : List Bytes) (w w' : World) (ht : Tree w.st.disk)
    (hl : Lists acc.list w.st.disk) (hup : ∀ a ∈ args, NoUp a)
    (hkind : (∀ a ∈ args, a.head? = some 47) ∨ ∀ a ∈ args, a.head? ≠ some 47) (hf : (f.unpack || f.list) = false) (ha : args ≠ [])
    (h : run C P A Z acc fuel f args w = some (.ok (true, w'))) :
    ∃ pass as b body files, w.term.answers = some pass :: as ∧
      w'.st.disk.readFile w.cwd f.outFile = some (if f.armour then P.enc (ascii "PASSCRYPT ARCHIVE") body else body) ∧
      Spec.Migrate.New C body pass b ∧ A.enc files = some b ∧
      ∀ g ∈ files, ∀ k ∈ files, resolvePath w.cwd g.path ≠ resolvePath w.cwd k.path →
        ∀ cwd top, top ≠ [] → resolvePath cwd (joinPath top g.path) ≠ resolvePath cwd (joinPath top k.path) := by
  obtain ⟨visits, hwalk, hmain⟩ := run_pack C P A Z hf h
  obtain ⟨pass, as, files, b, body, mo, h1, h2, h3, h4, -, h5, -⟩ := pack_ok C P A Z hf ha hmain
  obtain ⟨hfiles, hvis⟩ := packVisits_some Z h2
  rw [List.nil_append] at hfiles
  have hinfo : ∀ v ∈ visits, v.info ≠ none := fun v hv => by
    obtain ⟨mode, e, -⟩ := hvis v hv
    simp [e]
  refine ⟨pass, as, b, body, files, h1, h5, h4, h3, ?_⟩
  have hent : ∀ g ∈ files, ∃ v, ∃ a ∈ args, g.path = cleanPath v ∧ NoUp v ∧ rootedPath v = rootedPath a := by
    intro g hg
    rw [hfiles, List.mem_filterMap] at hg
    obtain ⟨v, hv, he⟩ := hg
    obtain ⟨a, hma, ks, hr⟩ := visits_reached ht hl hwalk hinfo v hv
    exact ⟨v.path, a, hma, (entryOf_some Z he).1, hr.noUp (hup a hma), hr.rooted⟩
  intro g hg k hk hne cwd top htop e
  obtain ⟨v, a, hma, eg, hv, rv⟩ := hent g hg
  obtain ⟨u, a', hma', ek, hu, ru⟩ := hent k hk
  rw [eg, ek, resolve_join_below cwd htop (clean_no_dotdot hv), resolve_join_below cwd htop (clean_no_dotdot hu),
    List.append_cancel_left_eq, names_clean hv, names_clean hu] at e
  apply hne
  rw [eg, ek, resolve_clean, resolve_clean, resolve_noUp _ hv, resolve_noUp _ hu]
  have : rootedPath v = rootedPath u := by
    rw [rv, ru]
    unfold rootedPath
    rcases hkind with h | h
    · rw [h a hma, h a' hma']
    · rw [beq_eq_false_iff_ne.mpr (h a hma), beq_eq_false_iff_ne.mpr (h a' hma')]
  rw [this]
  exact congrArg _ e

theorem unpackEntry_zip {s : DiskState} {cwd : List Bytes} {p c top : Bytes} {m : BitVec 64} (h : isDir (m.setWidth 32) = false)
    (hd : unpackDir s cwd ⟨p, m, Z.zip c⟩ top = (s, true)) (ho : s.ops 0 = .done) (hj : joinPath top p ≠ []) {m0 : BitVec 32} {b0 : Bytes}
    (hc : s.disk.openCreate (resolvePath cwd (joinPath top p)) (s.allow (m.setWidth 32)) = some (m0, b0)) :
    unpackEntry Z s cwd ⟨p, m, Z.zip c⟩ top =
      (⟨s.disk.set (resolvePath cwd (joinPath top p)) (.file m0 (c ++ b0.drop c.length)), s.next, s.umask⟩, true) := by
  unfold unpackEntry
  rw [if_neg (by simp [h]), hd]
  simp only [Bool.not_true, Bool.false_eq_true, if_false]
  unfold unpackFile
  simp only [Z.unzip_zip, ho, writeAt_done hj hc, Bool.false_eq_true, if_false, Bool.and_self]

theorem unpackDir_there {s : DiskState} {cwd : List Bytes} {f : File} {top dir : Bytes} {n : Node}
    (hd : cleanPath (joinPath top (dirPath f.path)) = dir) (hne : dir ≠ []) (h : s.disk.get (resolvePath cwd dir) = some n) :
    unpackDir s cwd f top = (s, true) := by
  unfold unpackDir
  simp only [hd]
  rw [if_neg]
  unfold Disk.stat
  rw [if_neg hne, h]
  simp

/-- A disk with the files /x and /h/x. -/
def exTwo : Disk := fun p =>
  if p = [[104]] then some (.dir 0o755)
  else if p = [[120]] then some (.file 0o644 [1, 2, 3])
  else if p = [[104], [120]] then some (.file 0o600 [9])
  else none

def exTwoAccess : Access where
  list p := if p = [] then some [[104], [120]] else if p = [[104]] then some [[120]] else some []
  look _ := true
  read _ := true

theorem exTwo_some (p : List Bytes) (n : Bytes) : exTwo (p ++ [n]) ≠ none ↔
    (p = [] ∧ n = [104]) ∨ (p = [] ∧ n = [120]) ∨ (p = [[104]] ∧ n = [120]) := by
  have hlast : ∀ (q : List Bytes) (x : Bytes), p ++ [n] = q ++ [x] ↔ p = q ∧ n = x := by
    intro q x
    constructor
    · intro e
      have := List.append_inj' e rfl
      exact ⟨this.1, by simpa using this.2⟩
    · rintro ⟨rfl, rfl⟩; rfl
  have e1 := hlast [] [104]
  have e2 := hlast [] [120]
  have e3 := hlast [[104]] [120]
  simp only [List.nil_append, List.cons_append] at e1 e2 e3
  unfold exTwo
  simp only [e1, e2, e3]
  by_cases h1 : p = [] ∧ n = [104]
  · simp [h1]
  · by_cases h2 : p = [] ∧ n = [120]
    · simp [h2]
    · by_cases h3 : p = [[104]] ∧ n = [120]
      · simp [h3]
      · simp only [h1, h2, h3, if_false, ne_eq, not_true_eq_false, or_self]

theorem exTwo_tree : Tree exTwo := by
  intro p n h
  rcases (exTwo_some p n).mp h with ⟨rfl, rfl⟩ | ⟨rfl, rfl⟩ | ⟨rfl, rfl⟩
  · exact ⟨by unfold Name; decide, _, rfl⟩
  · exact ⟨by unfold Name; decide, _, rfl⟩
  · exact ⟨by unfold Name; decide, 0o755, by decide⟩

theorem exTwo_lists : Lists exTwoAccess.list exTwo := by
  intro p ns h
  unfold exTwoAccess at h
  simp only at h
  split at h
  · rename_i e
    subst e
    cases h
    exact ⟨by decide, fun n => by rw [exTwo_some]; simp⟩
  · split at h
    · rename_i e
      subst e
      cases h
      exact ⟨by decide, fun n => by rw [exTwo_some]; simp⟩
    · rename_i e1 e2
      cases h
      exact ⟨by decide, fun n => by rw [exTwo_some]; simp [e1, e2]⟩

/-- The working directory is /h. -/
def exTwoWorld : World :=
  { term := ⟨[some [112]], fun _ => 5⟩, rng := List.replicate 60 4, cwd := [[104]], st := ⟨exTwo, fun _ => .done, 0⟩ }

/-- Elsewhere there is nothing but the archive /h/o. -/
def exElse (raw : Bytes) : Disk := fun p =>
  if p = [[104]] then some (.dir 0o755)
  else if p = [[104], [111]] then some (.file 0o644 raw)
  else none

/-- C160 is false: in the directory /h, passcrypt /x x packs two files, of the contents 1 2 3 and 9.
Unpacking the archive succeeds and yields a single file n/x, with the content 9 2 3. -/
theorem C160_violated : ∃ (acc : Access) (w w' wu wu' : World) (raw : Bytes), Tree w.st.disk ∧ Lists acc.list w.st.disk ∧
    w.st.disk [[120]] = some (.file 0o644 [1, 2, 3]) ∧ w.st.disk [[104], [120]] = some (.file 0o600 [9]) ∧ w.cwd = [[104]] ∧
    (∀ fuel, run C P A Z acc (fuel + 1) { armour := true } [[47, 120], [120]] w = some (.ok (true, w'))) ∧
    w'.st.disk.readFile w.cwd (ascii "passcrypt.enc") = some raw ∧
    wu.st.disk.readFile wu.cwd [111] = some raw ∧ wu.term.answers = w.term.answers ∧
    (∀ q, resolvePath wu.cwd [110] <+: q → wu.st.disk q = none) ∧
    (∀ acc fuel, run C P A Z acc fuel { unpack := true, outDir := [110] } [[111]] wu = some (.ok (true, wu'))) ∧
    (∀ q, resolvePath wu.cwd [110] <+: q → wu'.st.disk q =
      if q = resolvePath wu.cwd [110] then some (.dir 0o755)
      else if q = resolvePath wu.cwd [110] ++ [[120]] then some (.file 0o644 [9, 2, 3]) else none) := by
  let files : List File := [⟨[47, 120], 0o644, Z.zip [1, 2, 3]⟩, ⟨[120], 0o600, Z.zip [9]⟩]
  let visits : List Visit := [⟨[47, 120], some 0o644, false, true⟩, ⟨[120], some 0o600, false, true⟩]
  have hp : packVisits Z exTwo [[104]] [] visits = some files := rfl
  obtain ⟨b, e1, e2⟩ := A.dec_enc files (by
    intro f hf
    simp only [files, List.mem_cons, List.not_mem_nil, or_false] at hf
    rcases hf with rfl | rfl
    · exact (by decide : ValidUtf8 [47, 120])
    · exact (by decide : ValidUtf8 [120]))
  obtain ⟨w', hm⟩ := pack_succeeds C P A Z (f := { armour := true }) (args := [[47, 120], [120]]) (w := exTwoWorld) (as := []) rfl
    (by decide) hp e1 rfl (by decide) rfl (by decide) (m0 := 0o644) (b0 := []) (by decide)
  obtain ⟨pass, as, files', b', body, mo, h1, h2, h3, h4, -, h5, -⟩ := pack_ok C P A Z rfl (by decide) hm
  have hfe : files' = files := by
    have := h2.symm.trans hp
    simpa using this
  subst hfe
  rw [e1] at h3
  cases h3
  cases h1
  simp only [if_true] at h5
  have hbody : body ≠ [] := by
    obtain ⟨salt, nonce, hs, -, rfl⟩ := h4
    intro e
    have := congrArg List.length e
    simp only [List.length_append, List.length_nil] at this
    omega
  let raw := P.enc header body
  let wu : World := { exTwoWorld with st := ⟨exElse raw, fun _ => .done, 0⟩ }
  have hopens : Opens C P wu [[111]] b :=
    ⟨[111], raw, body, [112], [], rfl, rfl, .inr (P.dec_enc _ _ (by decide) hbody), rfl, h4⟩
  obtain ⟨wu', ok, hmain, hst⟩ := C103_opens C P A Z { unpack := true, outDir := [110] } [[111]] [] wu b rfl hopens
  rw [if_pos rfl] at hst
  let D1 : Disk := (exElse raw).set [[104], [110]] (.dir 0o755)
  let D2 : Disk := D1.set [[104], [110], [120]] (.file 0o644 [1, 2, 3])
  let D3 : Disk := D2.set [[104], [110], [120]] (.file 0o644 [9, 2, 3])
  have hun : unpackFiles A Z wu.st wu.cwd b [110] = (⟨D3, fun _ => .done, 0⟩, true) := by
    have hmk : makeTop wu.st [[104]] [110] = (⟨D1, fun _ => .done, 0⟩, true) := by
      unfold makeTop
      rw [if_pos (show wu.st.disk.stat [[104]] [110] = .notExist from rfl), show wu.st.allow 0o755 = 0o755 from allow_zero _ _ _]
      rfl
    have r1 : resolvePath [[104]] [110] = [[104], [110]] := by decide
    have r2 : resolvePath [[104]] (joinPath [110] [47, 120]) = [[104], [110], [120]] := by decide
    have r3 : resolvePath [[104]] (joinPath [110] [120]) = [[104], [110], [120]] := by decide
    have d1 : cleanPath (joinPath [110] (dirPath [47, 120])) = [110] := by decide
    have d2 : cleanPath (joinPath [110] (dirPath [120])) = [110] := by decide
    have g1 : D1.get [[104], [110]] = some (.dir 0o755) := rfl
    have g2 : D2.get [[104], [110]] = some (.dir 0o755) := rfl
    have o1 : D1.openCreate [[104], [110], [120]] 0o644 = some (0o644, []) := rfl
    have o2 : D2.openCreate [[104], [110], [120]] 0o600 = some (0o644, [1, 2, 3]) := rfl
    have hs1 := unpackEntry_zip Z (s := ⟨D1, fun _ => .done, 0⟩) (cwd := [[104]]) (p := [47, 120]) (c := [1, 2, 3]) (top := [110])
      (m := 0o644) (by decide) (unpackDir_there (dir := [110]) d1 (by decide) (by rw [r1]; exact g1)) rfl (by decide)
      (m0 := 0o644) (b0 := []) (by rw [r2, allow_zero]; exact o1)
    rw [r2] at hs1
    have hs2 := unpackEntry_zip Z (s := ⟨D2, fun _ => .done, 0⟩) (cwd := [[104]]) (p := [120]) (c := [9]) (top := [110])
      (m := 0o600) (by decide) (unpackDir_there (dir := [110]) d2 (by decide) (by rw [r1]; exact g2)) rfl (by decide)
      (m0 := 0o644) (b0 := [1, 2, 3]) (by rw [r3, allow_zero]; exact o2)
    rw [r3] at hs2
    unfold unpackFiles
    rw [e2]
    show (match makeTop wu.st [[104]] [110] with
      | (s, false) => (s, false)
      | (s, true) => unpackLoop Z [[104]] [110] s files) = _
    rw [hmk]
    show unpackLoop Z [[104]] [110] ⟨D1, fun _ => .done, 0⟩ [⟨[47, 120], 0o644, Z.zip [1, 2, 3]⟩, ⟨[120], 0o600, Z.zip [9]⟩] = _
    rw [unpackLoop, hs1]
    show unpackLoop Z [[104]] [110] ⟨D2, fun _ => .done, 0⟩ [⟨[120], 0o600, Z.zip [9]⟩] = _
    rw [unpackLoop, hs2]
    rfl
  rw [show wu.cwd = [[104]] from rfl] at hun
  have hst' := hst.trans hun
  simp only [Prod.mk.injEq] at hst'
  obtain ⟨hst1, rfl⟩ := hst'
  refine ⟨exTwoAccess, exTwoWorld, w', wu, wu', raw, exTwo_tree, exTwo_lists, by decide, by decide, rfl, ?_, h5, rfl, rfl, ?_, ?_, ?_⟩
  · intro fuel
    have hw : walkArgs exTwoAccess exTwo [[104]] (fuel + 1) [[47, 120], [120]] = some visits := rfl
    exact run_of_walk C P A Z rfl hw hm
  · rintro q ⟨t, rfl⟩
    show exElse raw ([[104], [110]] ++ t) = none
    unfold exElse
    rw [if_neg (by simp), if_neg (by simp)]
  · intro acc fuel
    rw [run_open C P A Z rfl, hmain]
  · intro q hq
    rw [hst1]
    show D3 q = if q = [[104], [110]] then _ else if q = [[104], [110], [120]] then _ else _
    obtain ⟨t, ht⟩ := hq
    have ht' : q = [[104], [110]] ++ t := ht.symm
    clear ht
    subst ht'
    by_cases h1 : t = []
    · subst h1; rfl
    · by_cases h2 : t = [[120]]
      · subst h2; rfl
      · rw [if_neg (by simpa using h1), if_neg (by simpa using h2)]
        show Disk.set (Disk.set (Disk.set (exElse raw) _ _) _ _) _ _ _ = none
        unfold Disk.set
        rw [if_neg (by simpa using h2), if_neg (by simpa using h2), if_neg (by simpa using h1)]
        unfold exElse
        rw [if_neg (by simp), if_neg (by simp)]

/-! ### Trees that cannot be read -/

theorem exTree : Tree exDisk := by
  intro p n h
  unfold exDisk at h
  have hlast : ∀ (q : List Bytes) (x : Bytes), p ++ [n] = q ++ [x] → p = q ∧ n = x := by
    intro q x e
    have := List.append_inj' e rfl
    exact ⟨this.1, by simpa using this.2⟩
  split at h
  · rename_i e
    obtain ⟨rfl, rfl⟩ := hlast [] (ascii "home") e
    exact ⟨by unfold Name; decide, _, rfl⟩
  · split at h
    · rename_i e
      obtain ⟨rfl, rfl⟩ := hlast [ascii "home"] (ascii "a") e
      exact ⟨by unfold Name; decide, 0o755, by decide⟩
    · split at h
      · rename_i e
        obtain ⟨rfl, rfl⟩ := hlast [ascii "home", ascii "a"] (ascii "b") e
        exact ⟨by unfold Name; decide, 0o755, by decide⟩
      · exact absurd rfl h

/-- Everything is allowed, but perhaps not to list home/a. -/
def exAccess (may : Bool) : Access where
  list p := if p = [] then some [ascii "home"] else if p = [ascii "home"] then some [ascii "a"]
    else if p = [ascii "home", ascii "a"] then (if may then some [ascii "b"] else none) else some []
  look _ := true
  read _ := true

theorem exLists (may : Bool) : Lists (exAccess may).list exDisk := by
  intro p ns h
  have hlast : ∀ (q : List Bytes) (n x : Bytes), p ++ [n] = q ++ [x] ↔ p = q ∧ n = x := by
    intro q n x
    constructor
    · intro e
      have := List.append_inj' e rfl
      exact ⟨this.1, by simpa using this.2⟩
    · rintro ⟨rfl, rfl⟩; rfl
  have key : ∀ n, exDisk (p ++ [n]) ≠ none ↔ (p = [] ∧ n = ascii "home") ∨ (p = [ascii "home"] ∧ n = ascii "a") ∨
      (p = [ascii "home", ascii "a"] ∧ n = ascii "b") := by
    intro n
    unfold exDisk
    rw [show [ascii "home"] = [] ++ [ascii "home"] from rfl,
      show [ascii "home", ascii "a"] = [ascii "home"] ++ [ascii "a"] from rfl,
      show [ascii "home", ascii "a", ascii "b"] = [ascii "home", ascii "a"] ++ [ascii "b"] from rfl]
    simp only [hlast]
    by_cases h1 : p = [] ∧ n = ascii "home"
    · simp [h1]
    · by_cases h2 : p = [ascii "home"] ∧ n = ascii "a"
      · simp [h2]
      · by_cases h3 : p = [ascii "home", ascii "a"] ∧ n = ascii "b"
        · simp [h3]
        · simp only [List.nil_append, List.cons_append, h1, h2, h3, if_false, ne_eq, not_true_eq_false, or_self]
  unfold exAccess at h
  simp only at h
  have n1 : ([ascii "home"] : List Bytes) ≠ [] := by decide
  have n2 : ([ascii "home", ascii "a"] : List Bytes) ≠ [] := by decide
  have n3 : ([ascii "home", ascii "a"] : List Bytes) ≠ [ascii "home"] := by decide
  split at h
  · rename_i e
    subst e
    cases h
    exact ⟨by decide, fun n => by rw [key]; simp⟩
  · split at h
    · rename_i e
      subst e
      cases h
      exact ⟨by decide, fun n => by rw [key]; simp⟩
    · split at h
      · rename_i e
        subst e
        split at h
        · cases h
          exact ⟨by decide, fun n => by rw [key]; simp⟩
        · cases h
      · rename_i e1 e2 e3
        cases h
        exact ⟨by decide, fun n => by rw [key]; simp [e1, e2, e3]⟩

/-- C104 is false: nothing but the directory a cannot be read; passcrypt reports success, and the
archive is without the file a/b. -/
theorem C104_unreadable_violated : ∃ (acc : Access) (w w' : World) (pass b body : Bytes) (as : List (Option Bytes)) (files : List File),
    Tree w.st.disk ∧ Lists acc.list w.st.disk ∧ (∀ p, acc.look p = true ∧ acc.read p = true) ∧
    w.st.disk.get (resolvePath w.cwd (ascii "a/b")) = some (.file 0o644 [1, 2, 3]) ∧
    (∀ fuel, run C P A Z acc (fuel + 1) {} [ascii "a"] w = some (.ok (true, w'))) ∧ w.term.answers = some pass :: as ∧
    w'.st.disk.readFile w.cwd (ascii "passcrypt.enc") = some body ∧ Spec.Migrate.New C body pass b ∧
    A.enc files = some b ∧ ∀ g ∈ files, resolvePath w.cwd g.path ≠ resolvePath w.cwd (ascii "a/b") := by
  have hp : packVisits Z exDisk [ascii "home"] [] [⟨ascii "a", some 0x800001ed, true, true⟩] =
      some [⟨ascii "a", 0x800001ed, []⟩] := rfl
  obtain ⟨b, e1, -⟩ := A.dec_enc [⟨ascii "a", 0x800001ed, []⟩] (by decide)
  obtain ⟨w', hm⟩ := pack_succeeds C P A Z (f := {}) (args := [ascii "a"]) (w := exWorld) (as := []) rfl (by decide) hp e1 rfl
    (by decide) rfl (by decide) (m0 := 0o644) (b0 := []) (by decide)
  obtain ⟨pass, as, files, b', body, mo, h1, h2, h3, h4, -, h5, -⟩ := pack_ok C P A Z rfl (by decide) hm
  have e : files = [⟨ascii "a", 0x800001ed, []⟩] := by
    have := h2.symm.trans hp
    simpa using this
  refine ⟨exAccess false, exWorld, w', pass, b', body, as, files, exTree, exLists false, fun _ => ⟨rfl, rfl⟩, by decide, ?_, h1, h5, h4, h3, ?_⟩
  · intro fuel
    have hw : walkArgs (exAccess false) exDisk [ascii "home"] (fuel + 1) [ascii "a"] = some [⟨ascii "a", some 0x800001ed, true, true⟩] := rfl
    exact run_of_walk C P A Z rfl hw hm
  · rw [e]
    decide

/-- The tree of the example below home, all of which can be read: the hypotheses of C104. -/
example : Tree exWorld.st.disk ∧ Lists (exAccess true).list exWorld.st.disk ∧
    AllListed (exAccess true).list exWorld.st.disk exWorld.cwd [ascii "a"] ∧
    ∃ w', run Toy.crypto Pem.toy toyFiles toyGzip (exAccess true) 3 { armour := true } [ascii "a"] exWorld = some (.ok (true, w')) := by
  refine ⟨exTree, exLists true, fun a _ q _ _ => ?_, ?_⟩
  · unfold exAccess
    simp only
    repeat' split
    all_goals simp_all
  · obtain ⟨w', -, h, -⟩ := exPack false
    have hw : walkArgs (exAccess true) exDisk [ascii "home"] 3 [ascii "a"] = some (exVisits false) := by decide
    exact ⟨w', run_of_walk _ _ _ _ rfl hw h⟩

/-- The hypotheses of C102 and C160 are met by a and a second argument. -/
example : Modes exDisk ∧ (∃ m, exDisk.get [ascii "home"] = some (.dir m)) ∧ (∀ a ∈ [ascii "a", ascii "./c"], NoUp a) ∧
    [ascii "a", ascii "./c"].Pairwise (fun a b => ¬ namesIn a <+: namesIn b ∧ ¬ namesIn b <+: namesIn a) ∧
    ∀ a ∈ [ascii "a", ascii "./c"], a.head? ≠ some 47 := by
  refine ⟨?_, ⟨0o755, by decide⟩, by unfold NoUp; decide, by decide, by decide⟩
  intro p m c h
  unfold exDisk at h
  split at h
  · cases h
  · split at h
    · cases h
    · split at h
      · cases h; decide
      · cases h

/-- A walk over a disk whose places have at most three names. -/
example : ∀ q, exDisk.get q ≠ none → q.length ≤ 3 := by
  intro q h
  unfold Disk.get at h
  split at h
  · rename_i e; rw [e]; decide
  · unfold exDisk at h
    split at h
    · rename_i e; rw [e]; decide
    · split at h
      · rename_i e; rw [e]; decide
      · split at h
        · rename_i e; rw [e]; decide
        · exact absurd rfl h

end Verif.Props.PasscryptTree
