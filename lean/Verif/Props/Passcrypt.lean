import Verif.Proofs.Passcrypt
import Verif.Spec.Migrate
import Verif.Props.Migrate
import Verif.Proofs.ToyJson
/-! Properties of cmd/passcrypt (C76-C78, C102-C104). -/

namespace Verif.Props.Passcrypt
open Verif Verif.Go Verif.Model.Passcrypt Verif.Spec.Passcrypt Verif.Proofs.Passcrypt Verif.Proofs.FilePath

variable (C : Crypto) (P : Pem) (A : FilesAsn1) (Z : Gzip)

/-! ### Directory permissions -/

/-- The last nine bits of `dirPerm`, computed on nine bits. -/
def perm9 (mode : BitVec 9) : BitVec 9 :=
  let mode := if mode &&& 7 ≠ 0 then mode + 1 else mode
  let mode := if mode &&& 0x38 ≠ 0 then mode + 8 else mode
  if mode &&& 0x1c0 ≠ 0 then mode + 64 else mode

theorem and_low (m : BitVec 64) (c : BitVec 9) : m &&& c.setWidth 64 = 0 ↔ m.setWidth 9 &&& c = 0 := by
  have h : m &&& c.setWidth 64 = (m.setWidth 9 &&& c).setWidth 64 := by
    ext i hi
    simp only [BitVec.getElem_and, BitVec.getElem_setWidth, BitVec.getLsbD_and, BitVec.getLsbD_setWidth]
    by_cases h9 : i < 9
    · simp [h9, BitVec.getLsbD_eq_getElem hi]
    · simp [h9, BitVec.getLsbD_of_ge c i (by omega)]
  rw [h]
  constructor
  · intro e
    have := congrArg (BitVec.setWidth 9) e
    simpa [BitVec.setWidth_setWidth_of_le] using this
  · intro e; rw [e]; rfl

theorem dirPerm_low (m : BitVec 64) : (dirPerm m).setWidth 9 = perm9 (m.setWidth 9) := by
  have step : ∀ (x : BitVec 64) (c : BitVec 9) (k : BitVec 64),
      (if x &&& c.setWidth 64 ≠ 0 then x + k else x).setWidth 9 =
        if x.setWidth 9 &&& c ≠ 0 then x.setWidth 9 + k.setWidth 9 else x.setWidth 9 := by
    intro x c k
    by_cases h : x.setWidth 9 &&& c = 0
    · rw [if_neg (by simpa using (and_low x c).mpr h), if_neg (by simpa using h)]
    · rw [if_pos (by simpa using fun e => h ((and_low x c).mp e)), if_pos h, BitVec.setWidth_add _ _ (by decide)]
  unfold dirPerm perm9
  simp only
  rw [BitVec.setWidth_setWidth_of_le _ (by decide)]
  have h1 := step m 7 1
  have h2 := step (if m &&& 7 ≠ 0 then m + 1 else m) 0x38 8
  have h3 := step (if (if m &&& 7 ≠ 0 then m + 1 else m) &&& 0x38 ≠ 0 then (if m &&& 7 ≠ 0 then m + 1 else m) + 8
    else (if m &&& 7 ≠ 0 then m + 1 else m)) 0x1c0 64
  refine h3.trans ?_
  have h2' : (if (if m &&& 7 ≠ 0 then m + 1 else m) &&& 0x38 ≠ 0 then (if m &&& 7 ≠ 0 then m + 1 else m) + 8
    else (if m &&& 7 ≠ 0 then m + 1 else m)).setWidth 9 = _ := h2
  have h1' : (if m &&& 7 ≠ 0 then m + 1 else m).setWidth 9 = _ := h1
  rw [h2', h1']
  rfl

set_option maxRecDepth 100000 in
theorem perm9_exact : ∀ m : BitVec 9, perm9 m = searchable m ↔ m &&& 0o111 = 0 := by decide

theorem perm_of_low {x : BitVec 32} {y : BitVec 9} : x &&& 0o777 = y.setWidth 32 ↔ x.setWidth 9 = y := by
  have h : x &&& 0o777 = (x.setWidth 9).setWidth 32 := by
    have : (0o777 : BitVec 32) = (BitVec.allOnes 9).setWidth 32 := by decide
    rw [this]
    ext i hi
    simp only [BitVec.getElem_and, BitVec.getElem_setWidth, BitVec.getLsbD_allOnes, BitVec.getLsbD_setWidth]
    by_cases h9 : i < 9
    · simp [h9, BitVec.getLsbD_eq_getElem hi]
    · simp [h9]
  rw [h]
  constructor
  · intro e
    have := congrArg (BitVec.setWidth 9) e
    simpa [BitVec.setWidth_setWidth_of_le] using this
  · intro e; rw [e]

/-- What is too much or too little in the mode of a directory made for an executable file: the search
and the write permission of some class. -/
theorem perm9_differs : ∀ m : BitVec 9, m &&& 0o111 ≠ 0 →
    0o3 &&& ~~~(perm9 m ^^^ searchable m) = 0 ∨ 0o30 &&& ~~~(perm9 m ^^^ searchable m) = 0 ∨
      0o300 &&& ~~~(perm9 m ^^^ searchable m) = 0 := by decide

theorem masked_eq {x y u : BitVec 9} (h : x &&& ~~~u = y &&& ~~~u) (c : BitVec 9) (hc : c &&& ~~~(x ^^^ y) = 0) :
    c &&& ~~~u = 0 := by
  ext i hi
  have h1 := congrArg (·[i]) h
  have h2 := congrArg (·[i]) hc
  simp only [BitVec.getElem_and, BitVec.getElem_not, BitVec.getElem_xor, BitVec.getElem_zero] at h1 h2 ⊢
  cases hx : x[i] <;> cases hy : y[i] <;> cases hu : u[i] <;> cases hcc : c[i] <;> simp_all

theorem allow_low (s : DiskState) (m : BitVec 32) : (s.allow m).setWidth 9 = m.setWidth 9 &&& ~~~s.umask := by
  unfold DiskState.allow
  ext i hi
  have : i < 32 := by omega
  simp [BitVec.getLsbD_eq_getElem hi, this]

/-- C76: what `unpackFiles` gives the directories it creates for a file. -/
theorem created_eq {s : DiskState} {cwd : List Bytes} {f : File} {top : Bytes} (hf : File.IsDir f = false)
    {q : List Bytes} {m : BitVec 32} (h0 : s.disk q = none)
    (h1 : (unpackEntry Z s cwd f top).1.disk q = some (.dir m)) :
    m = (perm9 (f.mode.setWidth 9) &&& ~~~s.umask).setWidth 32 := by
  have hm : m = s.allow (dirPerm f.mode) &&& 0o777 := by
    have hd : ¬ isDir (f.mode.setWidth 32) = true := by simpa [File.IsDir] using hf
    have hfr := unpackDir_frame s cwd f top q
    have hdir : (unpackDir s cwd f top).1.disk q = some (.dir m) → m = s.allow (dirPerm f.mode) &&& 0o777 := by
      intro e
      rcases hfr with e1 | ⟨-, e2, -⟩
      · rw [e1, h0] at e; simp at e
      · rw [e2] at e; simpa using e.symm
    unfold unpackEntry at h1
    rw [if_neg hd] at h1
    simp only at h1
    split at h1
    · exact hdir h1
    · by_cases hq : q = resolvePath cwd (joinPath top f.path)
      · unfold unpackFile at h1
        split at h1
        · exact hdir h1
        · simp only at h1
          unfold Disk.writeAt at h1
          split at h1
          · exact hdir h1
          · simp only at h1
            split at h1
            · exact hdir h1
            · split at h1
              · exact hdir h1
              · rw [hq] at h1; simp [Disk.set] at h1
              · rw [hq] at h1; simp [Disk.set] at h1
      · rw [unpackFile_frame Z _ _ _ _ _ hq] at h1
        exact hdir h1
  rw [hm, perm_of_low, allow_low, dirPerm_low]

/-- C76, what holds: for files nobody may execute, every directory created on the way to the file
has the file's permissions plus search permission for each class that has any, less what the umask
takes away. Missing: executable files. -/
theorem C76_directories_partial (s : DiskState) (cwd : List Bytes) (f : File) (top : Bytes) (hf : File.IsDir f = false)
    (hx : f.mode.setWidth 9 &&& 0o111 = (0 : BitVec 9)) (q : List Bytes) (m : BitVec 32) (h0 : s.disk q = none)
    (h1 : (unpackEntry Z s cwd f top).1.disk q = some (.dir m)) :
    m = (searchable (f.mode.setWidth 9) &&& ~~~s.umask).setWidth 32 := by
  rw [created_eq Z hf h0 h1, (perm9_exact _).mpr hx]

/-- C76 is false: for a file that some class may execute every directory created on the way to it
has other permissions, unless the umask takes write and search permission from some class. -/
theorem C76_directories_violated (s : DiskState) (cwd : List Bytes) (f : File) (top : Bytes) (hf : File.IsDir f = false)
    (hx : f.mode.setWidth 9 &&& 0o111 ≠ (0 : BitVec 9))
    (hu : 0o3 &&& ~~~s.umask ≠ 0 ∧ 0o30 &&& ~~~s.umask ≠ 0 ∧ 0o300 &&& ~~~s.umask ≠ 0)
    (q : List Bytes) (m : BitVec 32) (h0 : s.disk q = none)
    (h1 : (unpackEntry Z s cwd f top).1.disk q = some (.dir m)) :
    m ≠ (searchable (f.mode.setWidth 9) &&& ~~~s.umask).setWidth 32 := by
  rw [created_eq Z hf h0 h1]
  intro e
  have e' := congrArg (BitVec.setWidth 9) e
  rw [BitVec.setWidth_setWidth_of_le _ (by decide), BitVec.setWidth_setWidth_of_le _ (by decide), BitVec.setWidth_eq,
    BitVec.setWidth_eq] at e'
  rcases perm9_differs _ hx with h | h | h
  · exact hu.1 (masked_eq e' _ h)
  · exact hu.2.1 (masked_eq e' _ h)
  · exact hu.2.2 (masked_eq e' _ h)

/-- 0644 becomes 0755 and 0600 becomes 0700, but 0755 becomes 0066 (and the sticky bit). -/
example : dirPerm 0o644 = 0o755 ∧ dirPerm 0o600 = 0o700 ∧ dirPerm 0o755 = 0o1066 ∧
    searchable 0o644 = 0o755 ∧ searchable 0o755 = 0o755 := by decide

/-- The umasks 0, 022 and 002 leave the mistake visible. -/
example : ∀ u ∈ [0, 0o022, (0o002 : BitVec 9)],
    0o3 &&& ~~~u ≠ 0 ∧ 0o30 &&& ~~~u ≠ 0 ∧ 0o300 &&& ~~~u ≠ 0 := by decide

/-- Unpacking a file of mode 0644 makes a directory of mode 0755, one of mode 0755 makes one of mode
0066; with umask 022, 0755 and 0044. -/
example : (unpackEntry ⟨id, fun b => some (b, true), fun _ => rfl⟩ ⟨fun _ => none, fun _ => .done, 0⟩ [] ⟨ascii "d/x", 0o644, [1]⟩ (ascii "/")).1.disk
      [ascii "d"] = some (.dir 0o755) ∧
    (unpackEntry ⟨id, fun b => some (b, true), fun _ => rfl⟩ ⟨fun _ => none, fun _ => .done, 0⟩ [] ⟨ascii "d/x", 0o755, [1]⟩ (ascii "/")).1.disk
      [ascii "d"] = some (.dir 0o066) ∧
    (unpackEntry ⟨id, fun b => some (b, true), fun _ => rfl⟩ ⟨fun _ => none, fun _ => .done, 0o022⟩ [] ⟨ascii "d/x", 0o644, [1]⟩ (ascii "/")).1.disk
      [ascii "d"] = some (.dir 0o755) ∧
    (unpackEntry ⟨id, fun b => some (b, true), fun _ => rfl⟩ ⟨fun _ => none, fun _ => .done, 0o022⟩ [] ⟨ascii "d/x", 0o755, [1]⟩ (ascii "/")).1.disk
      [ascii "d"] = some (.dir 0o044) := by decide

/-! ### Where files go -/

/-- C77, what holds: if no path in the archive has a ".." component, then outside the output
directory nothing changes, except that the directories above it are created if they are
missing. This holds for every file system, output directory and pattern of failures. Missing: archives with "..". -/
theorem C77_below_partial (s : DiskState) (cwd : List Bytes) (b top : Bytes) (files : List File)
    (hA : A.dec b = some files) (hp : ∀ f ∈ files, NoUp f.path) (q : List Bytes) (hq : ¬ resolvePath cwd top <+: q) :
    (unpackFiles A Z s cwd b top).1.disk q = s.disk q ∨
    (s.disk q = none ∧ (∃ m, (unpackFiles A Z s cwd b top).1.disk q = some (.dir m)) ∧ q <+: resolvePath cwd top) := by
  unfold unpackFiles
  rw [hA]
  simp only
  by_cases ht : top = []
  · subst ht
    obtain ⟨h1, h2⟩ := makeTop_nil s cwd
    split
    · rename_i s' he
      rw [he] at h1
      exact .inl (congrFun h1 q)
    · rename_i s' he
      rw [he] at h2
      simp at h2
  · have h1 := makeTop_frame s cwd top q
    split
    · rename_i s' he
      rw [he] at h1
      rcases h1 with e | ⟨e1, e2, e3⟩
      · exact .inl e
      · exact .inr ⟨e1, ⟨_, e2⟩, e3⟩
    · rename_i s' he
      rw [he] at h1
      simp only at h1
      rcases loop_below Z cwd ht s' files hp q hq with e | ⟨e1, e2, e3⟩
      · rw [e]
        rcases h1 with e | ⟨e1, e2, e3⟩
        · exact .inl e
        · exact .inr ⟨e1, ⟨_, e2⟩, e3⟩
      · rcases h1 with e | ⟨-, e5, -⟩
        · exact .inr ⟨by rw [← e]; exact e1, e2, e3⟩
        · rw [e5] at e1; simp at e1

/-- C77 is false: whatever the output directory (other than the root), an archive with an entry
"../x" replaces or creates the file x beside it, and unpacking reports success. -/
theorem C77_escapes_violated (s : DiskState) (cwd T : List Bytes) (c : Bytes) (b top x data : Bytes) (f : File)
    (m m0 : BitVec 32) (hT : resolvePath cwd top = T ++ [c]) (ht : top ≠ []) (hA : A.dec b = some [f])
    (hf : f.path = dotdot ++ slash :: x) (hx : slash ∉ x) (hx1 : x ≠ []) (hx2 : x ≠ dot) (hx3 : x ≠ dotdot) (hxc : x ≠ c) (hc : c ≠ dotdot)
    (hreg : File.IsDir f = false) (hz : Z.unzip f.data = some (data, true)) (hw : ∀ n, s.ops n = .done)
    (h1 : s.disk (T ++ [c]) = some (.dir m)) (h0 : s.disk.get T = some (.dir m0))
    (h2 : ∀ m, s.disk (T ++ [x]) ≠ some (.dir m)) :
    ¬ resolvePath cwd top <+: T ++ [x] ∧ (unpackFiles A Z s cwd b top).2 = true ∧
    ∃ m tail, (unpackFiles A Z s cwd b top).1.disk (T ++ [x]) = some (.file m (data ++ tail)) := by
  have hdir : dirPath f.path = dotdot := by
    rw [hf]
    unfold dirPath dirPart
    have : (dotdot ++ slash :: x).reverse.dropWhile (fun y => decide (y ≠ slash)) = [slash, 46, 46] := by
      rw [List.reverse_append, List.reverse_cons, List.append_assoc,
        List.dropWhile_append_of_pos (by
          intro y hy
          simp only [List.mem_reverse] at hy
          simp only [ne_eq, decide_not, Bool.not_eq_true', decide_eq_false_iff_not]
          intro e; exact hx (e ▸ hy))]
      decide
    rw [this]
    decide
  have hup : ∀ S : List Bytes, [dotdot].foldl (pathStep true) (c :: S) = if c = dotdot then dotdot :: c :: S else S := by
    intro S
    simp only [List.foldl_cons, List.foldl_nil]
    unfold pathStep
    rw [if_neg (by decide), if_pos rfl]
  have hr := resolve_join cwd f.path ht
  rw [hf, Proofs.FilePath.splitSlash_append, Proofs.FilePath.splitSlash_noslash hx, hT] at hr
  have hplace : resolvePath cwd (joinPath top f.path) = T ++ [x] := by
    rw [hf, hr]
    have h3 : splitSlash dotdot = [dotdot] := by decide
    rw [h3, List.foldl_append, List.reverse_append, List.reverse_singleton, List.singleton_append, hup, if_neg hc]
    simp only [List.foldl_cons, List.foldl_nil]
    unfold pathStep
    rw [if_neg (by simp [hx1, hx2]), if_neg hx3]
    simp
  have hpdir : resolvePath cwd (cleanPath (joinPath top (dirPath f.path))) = T := by
    rw [hdir, resolve_clean, resolve_join cwd dotdot ht, hT]
    have h3 : splitSlash dotdot = [dotdot] := by decide
    rw [h3, List.reverse_append, List.reverse_singleton, List.singleton_append, hup, if_neg hc]
    simp
  have hst : s.disk.stat cwd top ≠ .notExist := by
    unfold Disk.stat Disk.get
    rw [if_neg ht, hT, if_neg (by simp), h1]
    simp
  have hst2 : s.disk.stat cwd (cleanPath (joinPath top (dirPath f.path))) ≠ .notExist := by
    unfold Disk.stat
    rw [if_neg (Proofs.FilePath.clean_ne_nil _), hpdir, h0]
    simp
  have hopen : ∃ m' b', s.disk.openCreate (resolvePath cwd (joinPath top f.path)) (s.allow (f.mode.setWidth 32)) = some (m', b') := by
    unfold Disk.openCreate
    rw [hplace, List.dropLast_concat, h0]
    unfold Disk.get
    rw [if_neg (by simp)]
    cases hs : s.disk (T ++ [x]) with
    | none => exact ⟨_, _, rfl⟩
    | some n =>
      cases n with
      | file m b => exact ⟨_, _, rfl⟩
      | dir m => exact absurd hs (h2 m)
  obtain ⟨m', b', ho⟩ := hopen
  have hmk : makeTop s cwd top = (s, true) := by unfold makeTop; rw [if_neg hst]
  have hmd : unpackDir s cwd f top = (s, true) := by unfold unpackDir; simp only; rw [if_neg hst2]
  have hun : unpackFiles A Z s cwd b top =
      (⟨s.disk.set (T ++ [x]) (.file m' (data ++ b'.drop data.length)), s.next, s.umask⟩, true) := by
    unfold unpackFiles
    rw [hA]
    simp only [hmk, unpackLoop]
    unfold unpackEntry
    rw [if_neg (by simpa [File.IsDir] using hreg), hmd]
    simp only [Bool.not_true, Bool.false_eq_true, if_false]
    unfold unpackFile
    rw [hz]
    simp only [hw 0]
    rw [writeAt_done (join_ne _ ht) ho, hplace]
    rfl
  rw [hun, hT]
  refine ⟨?_, rfl, m', b'.drop data.length, set_same ..⟩
  rintro ⟨l, hl⟩
  rw [List.append_assoc, List.append_cancel_left_eq] at hl
  simp at hl
  exact hxc hl.1.symm

/-! ### Contents -/

/-- What is at the place of a regular file in the archive after unpacking: the packed content,
followed by what the old content had beyond that length. -/
theorem unpack_content (s : DiskState) (cwd : List Bytes) (b top : Bytes) (pre post : List File) (f : File)
    (hA : A.dec b = some (pre ++ f :: post)) (hreg : File.IsDir f = false)
    (hne : ∀ g ∈ pre ++ post, File.IsDir g = false → place cwd top g ≠ place cwd top f)
    (data : Bytes) (cl : Bool) (hz : Z.unzip f.data = some (data, cl))
    (h : (unpackFiles A Z s cwd b top).2 = true) :
    cl = true ∧ ∃ m old, (s.disk (place cwd top f) = some (.file m old) ∨ (s.disk (place cwd top f) = none ∧ old = [] ∧ m = s.allow (f.mode.setWidth 32))) ∧
      (unpackFiles A Z s cwd b top).1.disk (place cwd top f) = some (.file m (data ++ old.drop data.length)) := by
  unfold unpackFiles at h ⊢
  rw [hA] at h ⊢
  simp only at h ⊢
  have h1 := makeTop_frame s cwd top (place cwd top f)
  split at h
  · simp at h
  · rename_i s' he
    rw [he] at h1
    simp only at h1
    have hum := makeTop_umask s cwd top
    rw [he] at hum
    obtain ⟨hc, m, old, e1, e2⟩ := loop_writes Z hreg hne hz h
    rw [allow_umask hum] at e1
    refine ⟨hc, m, old, ?_, e2⟩
    rcases h1 with e | ⟨-, e3, -⟩
    · rw [← e]; exact e1
    · rw [e3] at e1; simp at e1

/-- C78, what holds: after unpacking succeeded, a regular file that goes where no other file of the
archive goes has exactly the packed content, if there was no file there before or no longer one.
Missing: longer files. -/
theorem C78_restores_partial (s : DiskState) (cwd : List Bytes) (b top : Bytes) (pre post : List File) (f : File)
    (hA : A.dec b = some (pre ++ f :: post)) (hreg : File.IsDir f = false)
    (hne : ∀ g ∈ pre ++ post, File.IsDir g = false → place cwd top g ≠ place cwd top f)
    (data : Bytes) (cl : Bool) (hz : Z.unzip f.data = some (data, cl))
    (hold : ∀ m old, s.disk (place cwd top f) = some (.file m old) → old.length ≤ data.length)
    (h : (unpackFiles A Z s cwd b top).2 = true) :
    ∃ m, (unpackFiles A Z s cwd b top).1.disk (place cwd top f) = some (.file m data) := by
  obtain ⟨-, m, old, e1, e2⟩ := unpack_content A Z s cwd b top pre post f hA hreg hne data cl hz h
  refine ⟨m, ?_⟩
  rw [e2]
  have : old.length ≤ data.length := by
    rcases e1 with e | ⟨-, e⟩
    · exact hold m old e
    · rw [e.1]; simp
  rw [List.drop_eq_nil_of_le this, List.append_nil]

/-- C78 is false: if a longer file was there, its end remains. -/
theorem C78_stale_violated (s : DiskState) (cwd : List Bytes) (b top : Bytes) (pre post : List File) (f : File)
    (hA : A.dec b = some (pre ++ f :: post)) (hreg : File.IsDir f = false)
    (hne : ∀ g ∈ pre ++ post, File.IsDir g = false → place cwd top g ≠ place cwd top f)
    (data : Bytes) (cl : Bool) (hz : Z.unzip f.data = some (data, cl)) (m : BitVec 32) (old : Bytes)
    (hold : s.disk (place cwd top f) = some (.file m old)) (hl : data.length < old.length)
    (h : (unpackFiles A Z s cwd b top).2 = true) :
    (unpackFiles A Z s cwd b top).1.disk (place cwd top f) = some (.file m (data ++ old.drop data.length)) ∧
    data ++ old.drop data.length ≠ data := by
  obtain ⟨-, m', old', e1, e2⟩ := unpack_content A Z s cwd b top pre post f hA hreg hne data cl hz h
  rw [hold] at e1
  simp only [Option.some.injEq, Node.file.injEq, reduceCtorEq, false_and, or_false] at e1
  rw [e1.1, e1.2]
  refine ⟨e2, fun e => ?_⟩
  have := congrArg List.length e
  simp only [List.length_append, List.length_drop] at this
  rw [← e1.2] at this
  omega

/-! ### Opening archives -/

/-- The archive named on the command line opens, with the password typed, to `plain`. -/
def Opens (w : World) (args : List Bytes) (plain : Bytes) : Prop :=
  ∃ path raw body pass as, args = [path] ∧ w.st.disk.readFile w.cwd path = some raw ∧
    (P.dec raw = none ∧ body = raw ∨ P.dec raw = some (header, body)) ∧
    w.term.answers = some pass :: as ∧ Spec.Migrate.New C body pass plain

theorem openArchive_eq {w : World} {args : List Bytes} {plain : Bytes} (h : Opens C P w args plain) :
    openArchive C P w args = .ok (some plain, { w with term := { w.term with answers := w.term.answers.drop 1 } }) := by
  obtain ⟨path, raw, body, pass, as, rfl, h1, h2, h3, h4⟩ := h
  obtain ⟨h5, h6⟩ := (Props.Migrate.sealed_open C).mp h4
  have hlen : 32 < body.length := by
    obtain ⟨salt, nonce, hs, hn, rfl⟩ := h4
    simp only [List.length_append]; omega
  have hb : unarmour P raw = some body := by
    unfold unarmour
    rcases h2 with ⟨e1, e2⟩ | e
    · rw [e1, e2]
    · rw [e]; simp
  unfold openArchive
  simp only [h1, hb]
  rw [if_neg (by simp only [saltLength]; omega)]
  simp only [Term.read, h3, Proofs.Secret.deriveKey_eq, saltLength]
  unfold Proofs.Secret.stdKey
  rw [h6]
  rfl

theorem openArchive_none {w : World} {args : List Bytes} (h : ∀ plain, ¬ Opens C P w args plain) :
    ∃ w', openArchive C P w args = .ok (none, w') ∧ w'.st = w.st := by
  unfold openArchive
  split
  · rename_i path
    cases hr : w.st.disk.readFile w.cwd path with
    | none => exact ⟨_, rfl, rfl⟩
    | some raw =>
      simp only
      cases hb : unarmour P raw with
      | none => exact ⟨_, rfl, rfl⟩
      | some body =>
        simp only
        have hb' : P.dec raw = none ∧ body = raw ∨ P.dec raw = some (header, body) := by
          unfold unarmour at hb
          cases hd : P.dec raw with
          | none => rw [hd] at hb; simp at hb; exact .inl ⟨rfl, hb.symm⟩
          | some x =>
            obtain ⟨typ, bd⟩ := x
            rw [hd] at hb
            simp only at hb
            split at hb
            · simp at hb
            · rename_i ht
              simp only [ne_eq, Decidable.not_not] at ht
              simp only [Option.some.injEq] at hb
              exact .inr (by rw [ht, hb])
        by_cases hl : body.length ≤ saltLength
        · rw [if_pos hl]; exact ⟨_, rfl, rfl⟩
        · rw [if_neg hl]
          cases ha : w.term.answers with
          | nil => simp only [Term.read, ha]; exact ⟨_, rfl, rfl⟩
          | cons a as =>
            cases a with
            | none => simp only [Term.read, ha]; exact ⟨_, rfl, rfl⟩
            | some pass =>
              simp only [Term.read, ha, Proofs.Secret.deriveKey_eq]
              cases hx : Model.Secret.decrypt C (some (Proofs.Secret.stdKey C pass (body.take saltLength))) (body.drop saltLength) with
              | panic => exact absurd hx (Proofs.Secret.decrypt_no_panic C _ _)
              | ok r =>
                cases r with
                | none => exact ⟨_, rfl, rfl⟩
                | some plain =>
                  refine absurd ⟨path, raw, body, pass, as, rfl, hr, hb', ha, ?_⟩ (h plain)
                  exact (Props.Migrate.sealed_open C).mpr ⟨by simp only [saltLength] at hl; omega, hx⟩
  · exact ⟨_, rfl, rfl⟩

/-- C103: unless the archive opens with the password typed, passcrypt -u and -l exit with status 1 and
change nothing. -/
theorem C103_refuses (f : Flags) (args : List Bytes) (visits : List Visit) (w : World) (hf : (f.unpack || f.list) = true)
    (h : ∀ plain, ¬ Opens C P w args plain) :
    ∃ w', main C P A Z f args visits w = .ok (false, w') ∧ w'.st = w.st := by
  obtain ⟨w', h1, h2⟩ := openArchive_none C P h
  unfold main
  rw [if_pos hf, h1]
  exact ⟨w', rfl, h2⟩

/-- C103: if it opens, exactly what was sealed is unpacked (or listed). -/
theorem C103_opens (f : Flags) (args : List Bytes) (visits : List Visit) (w : World) (plain : Bytes)
    (hf : (f.unpack || f.list) = true) (h : Opens C P w args plain) :
    ∃ w' ok, main C P A Z f args visits w = .ok (ok, w') ∧
      if f.unpack then (w'.st, ok) = unpackFiles A Z w.st w.cwd plain f.outDir
      else w'.st = w.st ∧ (ok = true ↔ ∃ files, A.dec plain = some files) := by
  unfold main
  rw [if_pos hf, openArchive_eq C P h]
  simp only [Res.ok_bind]
  by_cases hu : f.unpack = true
  · rw [if_pos hu]
    exact ⟨_, _, rfl, by rw [if_pos hu]⟩
  · rw [if_neg hu]
    exact ⟨_, _, rfl, by rw [if_neg hu]; exact ⟨rfl, Option.isSome_iff_exists⟩⟩

/-! ### Packing -/

/-- What a successful run of passcrypt leaves: a sealed archive of the entries, and everything else as it was. -/
theorem pack_ok {f : Flags} {args : List Bytes} {visits : List Visit} {w w' : World} (hf : (f.unpack || f.list) = false)
    (ha : args ≠ []) (h : main C P A Z f args visits w = .ok (true, w')) :
    ∃ pass as files b body m, w.term.answers = some pass :: as ∧ packVisits Z w.st.disk w.cwd [] visits = some files ∧
      A.enc files = some b ∧ Spec.Migrate.New C body pass b ∧
      w'.st.disk (resolvePath w.cwd f.outFile) = some (.file m (if f.armour then P.enc header body else body)) ∧
      w'.st.disk.readFile w.cwd f.outFile = some (if f.armour then P.enc header body else body) ∧
      ∀ q, q ≠ resolvePath w.cwd f.outFile → w'.st.disk q = w.st.disk q := by
  unfold main at h
  rw [if_neg (by simp [hf]), if_neg ha] at h
  unfold pack at h
  cases hans : w.term.answers with
  | nil => simp [Term.read, hans] at h
  | cons a as =>
    cases a with
    | none => simp [Term.read, hans] at h
    | some pass =>
      simp only [Term.read, hans] at h
      by_cases hr : w.rng.length < 32
      · have : Model.Util.randBytes w.rng saltLength = (none, []) := by
          unfold Model.Util.randBytes Model.Util.readFull
          rw [if_neg (by simp only [saltLength]; omega)]
        rw [this] at h
        simp at h
      · have : Model.Util.randBytes w.rng saltLength = (some (w.rng.take 32), w.rng.drop 32) := by
          unfold Model.Util.randBytes Model.Util.readFull
          rw [if_pos (by simp only [saltLength]; omega)]
        rw [this] at h
        simp only [Proofs.Secret.deriveKey_eq] at h
        cases hp : packVisits Z w.st.disk w.cwd [] visits with
        | none => simp [packFiles, hp] at h
        | some files =>
          cases he : A.enc files with
          | none => simp [packFiles, hp, he] at h
          | some b =>
            simp only [packFiles, hp, he, Proofs.Secret.encrypt_some] at h
            split at h
            · rename_i hl
              simp only [Res.ok_bind] at h
              generalize hwa : w.st.disk.writeAt (w.st.ops 0) true w.cwd f.outFile (w.st.allow 0o644) _ = wr at h
              obtain ⟨d, ok⟩ := wr
              simp only [Res.pure_eq, Res.ok.injEq, Prod.mk.injEq] at h
              obtain ⟨rfl, rfl⟩ := h
              obtain ⟨m, b0, e1, e2⟩ := writeAt_ok (congrArg Prod.snd hwa)
              rw [hwa] at e2
              simp only [if_true, List.drop_nil, List.append_nil] at e2
              have hne : f.outFile ≠ [] := by
                intro e
                have := congrArg Prod.snd hwa
                unfold Disk.writeAt at this
                rw [if_pos e] at this
                simp at this
              have hne2 : resolvePath w.cwd f.outFile ≠ [] := by
                intro e
                rw [e] at e1
                simp [Disk.openCreate, Disk.get] at e1
              refine ⟨pass, as, files, b, w.rng.take 32 ++ _, m, rfl, rfl, he, ?_, e2, ?_, ?_⟩
              · exact ⟨w.rng.take 32, (w.rng.drop 32).take 24, by simp only [List.length_take]; omega,
                  by simp only [List.length_take]; omega, rfl⟩
              · unfold Disk.readFile Disk.get
                rw [if_neg hne, if_neg hne2]
                simp only
                rw [e2]
              · intro q hq
                show d q = _
                rw [show d = _ from (congrArg Prod.fst hwa).symm]
                exact writeAt_frame _ _ _ _ _ _ _ _ hq
            · simp at h

/-- The visit is to a regular file. -/
def Visit.Regular (v : Visit) : Prop := ∃ mode, v.info = some mode ∧ isDir mode = false ∧ isRegular mode = true

/-- The visit is to a directory. -/
def Visit.Directory (v : Visit) : Prop := ∃ mode, v.info = some mode ∧ isDir mode = true

theorem entryOf_dir {d : Disk} {cwd : List Bytes} {v : Visit} (h : Visit.Directory v) :
    ∃ f, entryOf Z d cwd v = some f ∧ f.path = cleanPath v.path ∧ File.IsDir f = true := by
  obtain ⟨mode, h1, h2⟩ := h
  unfold entryOf
  rw [h1]
  simp only
  rw [if_pos h2]
  refine ⟨_, rfl, rfl, ?_⟩
  unfold File.IsDir
  simp only
  rw [BitVec.setWidth_setWidth_of_le _ (by decide), BitVec.setWidth_eq]
  exact h2

theorem entryOf_regular {d : Disk} {cwd : List Bytes} {v : Visit} (h : Visit.Regular v) (hrd : v.readable = true)
    {m : BitVec 32} {c : Bytes}
    (hm : d.get (resolvePath cwd v.path) = some (.file m c)) :
    entryOf Z d cwd v = some { path := cleanPath v.path, mode := m.setWidth 64, data := Z.zip c } := by
  obtain ⟨mode, h1, h2, h3⟩ := h
  unfold entryOf
  rw [h1]
  simp only
  rw [if_neg (by simp [h2]), if_neg (by simp [h3, hrd])]
  unfold packFile
  rw [hm]

theorem entryOf_some {d : Disk} {cwd : List Bytes} {v : Visit} {f : File} (h : entryOf Z d cwd v = some f) :
    f.path = cleanPath v.path ∧ ((Visit.Directory v ∧ File.IsDir f = true) ∨
      (Visit.Regular v ∧ ∃ m c, d.get (resolvePath cwd v.path) = some (.file m c) ∧
        f = { path := cleanPath v.path, mode := m.setWidth 64, data := Z.zip c })) := by
  cases hi : v.info with
  | none => simp [entryOf, hi] at h
  | some mode =>
    by_cases hd : isDir mode = true
    · obtain ⟨g, e1, e2, e3⟩ := entryOf_dir Z (d := d) (cwd := cwd) (v := v) ⟨mode, hi, hd⟩
      rw [e1] at h
      simp only [Option.some.injEq] at h
      subst h
      exact ⟨e2, .inl ⟨⟨mode, hi, hd⟩, e3⟩⟩
    · by_cases hr : (isRegular mode && v.readable) = true
      · rw [Bool.and_eq_true] at hr
        obtain ⟨hr, hrd⟩ := hr
        have hreg : Visit.Regular v := ⟨mode, hi, by simpa using hd, hr⟩
        cases hg : d.get (resolvePath cwd v.path) with
        | none =>
          simp [entryOf, hi, hd, hr, packFile, hg] at h
        | some n =>
          cases n with
          | dir m => simp [entryOf, hi, hd, hr, packFile, hg] at h
          | file m c =>
            rw [entryOf_regular Z hreg hrd hg] at h
            simp only [Option.some.injEq] at h
            subst h
            exact ⟨rfl, .inr ⟨hreg, m, c, rfl, rfl⟩⟩
      · rw [Bool.and_eq_true, Classical.not_and_iff_not_or_not] at hr
        have : (!isRegular mode || !v.readable) = true := by simpa using hr
        simp [entryOf, hi, hd, this] at h

/-- C102: what passcrypt packed, passcrypt -u with the same password restores into a new or empty
directory: every regular file has its content again, and its mode less the bits of the umask, and
every directory exists. The archive is armoured, or at least does not look as if it were. The paths have no "..", no file is
visited twice, and the disk still is as the walk found it. -/
theorem C102_roundtrip (f fu : Flags) (args : List Bytes) (visits visitsu : List Visit) (w w' wu : World)
    (pass raw path : Bytes) (as asu : List (Option Bytes)) (hf : (f.unpack || f.list) = false) (ha : args ≠ [])
    (hpack : main C P A Z f args visits w = .ok (true, w')) (hans : w.term.answers = some pass :: as)
    (hraw : w'.st.disk.readFile w.cwd f.outFile = some raw) (harm : f.armour = true ∨ P.dec raw = none)
    (hv : ∀ v ∈ visits, NoUp v.path)
    (hvr : ∀ v ∈ visits, Visit.Regular v → namesIn v.path ≠ [] ∧
      ∀ m c, w.st.disk.get (resolvePath w.cwd v.path) = some (.file m c) → isDir m = false)
    (hap : visits.Pairwise (fun v u => (Visit.Regular v → ¬ namesIn v.path <+: namesIn u.path) ∧
      (Visit.Regular u → ¬ namesIn u.path <+: namesIn v.path)))
    (hu : fu.unpack = true) (hread : wu.st.disk.readFile wu.cwd path = some raw)
    (hansu : wu.term.answers = some pass :: asu) (hw : ∀ n, wu.st.ops n = .done) (ht : fu.outDir ≠ [])
    (habove : ∀ q, q <+: resolvePath wu.cwd fu.outDir → q ≠ [] → ∀ m b, wu.st.disk q ≠ some (.file m b))
    (hbelow : ∀ q, resolvePath wu.cwd fu.outDir <+: q → q ≠ resolvePath wu.cwd fu.outDir → wu.st.disk q = none) :
    ∃ wu', main C P A Z fu [path] visitsu wu = .ok (true, wu') ∧ ∀ v ∈ visits,
      (Visit.Regular v → ∀ m c, w.st.disk.get (resolvePath w.cwd v.path) = some (.file m c) →
        wu'.st.disk (resolvePath wu.cwd fu.outDir ++ namesIn v.path) = some (.file (m &&& ~~~(wu.st.umask.setWidth 32)) c)) ∧
      (Visit.Directory v → ∃ m, wu'.st.disk.get (resolvePath wu.cwd fu.outDir ++ namesIn v.path) = some (.dir m)) := by
  obtain ⟨pass', as', files, b, body, mo, h1, h2, h3, h4, -, h5, -⟩ := pack_ok C P A Z hf ha hpack
  rw [hans] at h1
  simp only [List.cons.injEq, Option.some.injEq] at h1
  obtain ⟨rfl, -⟩ := h1
  rw [hraw] at h5
  simp only [Option.some.injEq] at h5
  obtain ⟨hfiles, hvis⟩ := packVisits_some Z h2
  rw [List.nil_append] at hfiles
  -- what the entries are
  have hent : ∀ g ∈ files, ∃ v ∈ visits, entryOf Z w.st.disk w.cwd v = some g := by
    intro g hg
    rw [hfiles, List.mem_filterMap] at hg
    exact hg
  have hutf : ∀ g ∈ files, ValidUtf8 g.path := A.enc_utf8 files b h3
  obtain ⟨b', e1, hdec⟩ := A.dec_enc files hutf
  rw [h3] at e1
  simp only [Option.some.injEq] at e1
  subst e1
  have hbody : body ≠ [] := by
    obtain ⟨salt, nonce, hs, -, rfl⟩ := h4
    intro e
    have := congrArg List.length e
    simp only [List.length_append, List.length_nil] at this
    omega
  have hopens : Opens C P wu [path] b := by
    refine ⟨path, raw, body, pass, asu, rfl, hread, ?_, hansu, h4⟩
    by_cases harm' : f.armour = true
    · rw [if_pos harm'] at h5
      right
      rw [h5]
      exact P.dec_enc _ _ (by decide) hbody
    · rw [if_neg harm'] at h5
      exact .inl ⟨harm.resolve_left harm', h5.symm⟩
  obtain ⟨wu', ok, hmain, hst⟩ := C103_opens C P A Z fu [path] visitsu wu b (by simp [hu]) hopens
  rw [if_pos hu] at hst
  -- where they go
  have hup : ∀ v ∈ visits, NoUp (cleanPath v.path) := fun v hvm => clean_no_dotdot (hv v hvm)
  have hpl : ∀ v ∈ visits, ∀ g, entryOf Z w.st.disk w.cwd v = some g →
      place wu.cwd fu.outDir g = resolvePath wu.cwd fu.outDir ++ namesIn v.path := by
    intro v hvm g he
    unfold place
    rw [(entryOf_some Z he).1, place_below wu.cwd ht (hup v hvm)]
    congr 1
    exact names_clean (hv v hvm)
  have hregf : ∀ v ∈ visits, ∀ g, entryOf Z w.st.disk w.cwd v = some g → File.IsDir g = false → Visit.Regular v := by
    intro v hvm g he hd
    rcases (entryOf_some Z he).2 with ⟨-, e⟩ | ⟨e, -⟩
    · rw [hd] at e; simp at e
    · exact e
  have hregf' : ∀ v ∈ visits, ∀ g, entryOf Z w.st.disk w.cwd v = some g → Visit.Regular v → File.IsDir g = false ∧
      ∃ m c, w.st.disk.get (resolvePath w.cwd v.path) = some (.file m c) ∧
        g = { path := cleanPath v.path, mode := m.setWidth 64, data := Z.zip c } := by
    intro v hvm g he hr
    rcases (entryOf_some Z he).2 with ⟨⟨mode, e1, e2⟩, -⟩ | ⟨-, m, c, e1, e2⟩
    · obtain ⟨mode', e3, e4, -⟩ := hr
      rw [e1] at e3
      simp only [Option.some.injEq] at e3
      rw [e3, e4] at e2
      simp at e2
    · refine ⟨?_, m, c, e1, e2⟩
      rw [e2]
      unfold File.IsDir
      simp only
      rw [BitVec.setWidth_setWidth_of_le _ (by decide), BitVec.setWidth_eq]
      exact (hvr v hvm hr).2 m c e1
  have hupf : ∀ g ∈ files, NoUp g.path := by
    intro g hg
    obtain ⟨v, hvm, he⟩ := hent g hg
    rw [(entryOf_some Z he).1]
    exact hup v hvm
  have hins : ∀ g ∈ files, File.IsDir g = false → Inside g.path ∧ ∃ data, Z.unzip g.data = some (data, true) := by
    intro g hg hd
    obtain ⟨v, hvm, he⟩ := hent g hg
    have hr := hregf v hvm g he hd
    obtain ⟨-, m, c, -, e⟩ := hregf' v hvm g he hr
    rw [e]
    exact ⟨inside_clean (hv v hvm) (hvr v hvm hr).1, c, Z.unzip_zip c⟩
  have hapart : files.Pairwise (Apart wu.cwd fu.outDir) := by
    rw [hfiles, List.pairwise_filterMap]
    refine List.Pairwise.imp_of_mem ?_ hap
    intro v u hvm hum hvu g hg k hk
    have pg := hpl v hvm g hg
    have pk := hpl u hum k hk
    unfold Apart
    rw [pg, pk, List.prefix_append_right_inj, List.prefix_append_right_inj]
    exact ⟨fun hd => hvu.1 (hregf v hvm g hg hd), fun hd => hvu.2 (hregf u hum k hk hd)⟩
  have hnofile : ∀ l, NoFile wu.st.disk (resolvePath wu.cwd fu.outDir ++ l) := by
    intro l q hq hne m c
    by_cases hqT : q <+: resolvePath wu.cwd fu.outDir
    · exact habove q hqT hne m c
    · rcases List.prefix_or_prefix_of_prefix hq (List.prefix_append (resolvePath wu.cwd fu.outDir) l) with h | h
      · exact absurd h hqT
      · rw [hbelow q h (fun e => hqT (e ▸ List.prefix_refl _))]
        simp
  have hnone : ∀ v ∈ visits, Visit.Regular v → wu.st.disk (resolvePath wu.cwd fu.outDir ++ namesIn v.path) = none := by
    intro v hvm hr
    refine hbelow _ (List.prefix_append _ _) (fun e => (hvr v hvm hr).1 ?_)
    have := congrArg List.length e
    simp only [List.length_append] at this
    exact List.length_eq_zero_iff.mp (by omega)
  have hfree : ∀ g ∈ files, Free wu.st.disk wu.cwd fu.outDir g := by
    intro g hg
    obtain ⟨v, hvm, he⟩ := hent g hg
    have pg := hpl v hvm g he
    unfold Free
    split
    · rw [pg]; exact hnofile _
    · rename_i hd
      have hr := hregf v hvm g he (by simpa using hd)
      rw [pg]
      refine ⟨(hnofile _).mono (List.dropLast_prefix _), fun m => ?_⟩
      rw [hnone v hvm hr]
      simp
  -- it goes well
  have htop := makeTop_ok (s := wu.st) (cwd := wu.cwd) hw ht habove
  have hwt := willing_top (s := wu.st) hw wu.cwd fu.outDir
  have hft : ∀ g ∈ files, Free (makeTop wu.st wu.cwd fu.outDir).1.disk wu.cwd fu.outDir g := fun g hg =>
    free_top ht (hupf g hg) (fun hd => (hins g hg hd).1) (hfree g hg)
  have hmk : makeTop wu.st wu.cwd fu.outDir = ((makeTop wu.st wu.cwd fu.outDir).1, true) := by
    rw [← htop.1]
  have hun : unpackFiles A Z wu.st wu.cwd b fu.outDir =
      unpackLoop Z wu.cwd fu.outDir (makeTop wu.st wu.cwd fu.outDir).1 files := by
    unfold unpackFiles
    rw [hdec]
    simp only
    rw [hmk]
  have hok := loop_ok Z ht hwt hupf hft hins hapart
  rw [← hun, ← hst] at hok
  simp only at hok
  subst hok
  refine ⟨wu', hmain, fun v hvm => ⟨fun hr m c hc => ?_, fun hd => ?_⟩⟩
  · have hrd : v.readable = true := by
      obtain ⟨mode, e1, e2⟩ := hvis v hvm
      obtain ⟨mode', e3, e4, e5⟩ := hr
      rw [e1] at e3
      simp only [Option.some.injEq] at e3
      subst e3
      exact (e2 e4 e5).1
    have he := entryOf_regular Z hr hrd hc
    have hd := (hregf' v hvm _ he hr).1
    have hg : { path := cleanPath v.path, mode := m.setWidth 64, data := Z.zip c : File } ∈ files := by
      rw [hfiles, List.mem_filterMap]
      exact ⟨v, hvm, he⟩
    obtain ⟨pre, post, hsplit⟩ := List.append_of_mem hg
    have hne : ∀ k ∈ pre ++ post, File.IsDir k = false → place wu.cwd fu.outDir k ≠
        place wu.cwd fu.outDir { path := cleanPath v.path, mode := m.setWidth 64, data := Z.zip c } := by
      intro k hk hkd e
      rw [hsplit, List.pairwise_append, List.pairwise_cons] at hapart
      obtain ⟨-, ⟨p1, -⟩, p2⟩ := hapart
      rcases List.mem_append.mp hk with hk | hk
      · exact (p2 k hk _ List.mem_cons_self).1 hkd (e ▸ List.prefix_refl _)
      · exact (p1 k hk).2 hkd (e ▸ List.prefix_refl _)
    have := unpack_content A Z wu.st wu.cwd b fu.outDir pre post _ (by rw [hdec, hsplit]) hd hne c true (Z.unzip_zip c)
      (by rw [← hst])
    obtain ⟨-, m', old, e1, e2⟩ := this
    rw [hpl v hvm _ he] at e1 e2
    rw [hnone v hvm hr] at e1
    simp only [reduceCtorEq, true_and, false_or] at e1
    rw [← hst] at e2
    rw [e2, e1.1, e1.2, BitVec.setWidth_setWidth_of_le _ (by decide), BitVec.setWidth_eq]
    simp [DiskState.allow]
  · obtain ⟨g, he, -, hgd⟩ := entryOf_dir Z (d := w.st.disk) (cwd := w.cwd) hd
    have hg : g ∈ files := by
      rw [hfiles, List.mem_filterMap]
      exact ⟨v, hvm, he⟩
    have := loop_makes Z ht hwt hupf hft hins hapart hg hgd
    rw [hpl v hvm g he, ← hun, ← hst] at this
    exact this

/-- C104, what holds: if passcrypt reports success, the archive holds every regular file visited, with
its content, every directory visited, and nothing else. Missing: what a walk could not reach. -/
theorem C104_complete_partial (f : Flags) (args : List Bytes) (visits : List Visit) (w w' : World)
    (hf : (f.unpack || f.list) = false) (ha : args ≠ []) (h : main C P A Z f args visits w = .ok (true, w')) :
    ∃ pass as b body files, w.term.answers = some pass :: as ∧
      w'.st.disk.readFile w.cwd f.outFile = some (if f.armour then P.enc header body else body) ∧
      Spec.Migrate.New C body pass b ∧ A.enc files = some b ∧
      (∀ v ∈ visits, v.info ≠ none ∧
        (Visit.Regular v → ∃ m c, w.st.disk.get (resolvePath w.cwd v.path) = some (.file m c) ∧
          { path := cleanPath v.path, mode := m.setWidth 64, data := Z.zip c : File } ∈ files) ∧
        (Visit.Directory v → ∃ g ∈ files, g.path = cleanPath v.path ∧ File.IsDir g = true)) ∧
      ∀ g ∈ files, ∃ v ∈ visits, g.path = cleanPath v.path := by
  obtain ⟨pass, as, files, b, body, mo, h1, h2, h3, h4, -, h5, -⟩ := pack_ok C P A Z hf ha h
  obtain ⟨hfiles, hvis⟩ := packVisits_some Z h2
  rw [List.nil_append] at hfiles
  refine ⟨pass, as, b, body, files, h1, h5, h4, h3, fun v hv => ⟨?_, fun hr => ?_, fun hd => ?_⟩, fun g hg => ?_⟩
  · obtain ⟨mode, e, -⟩ := hvis v hv
    simp [e]
  · obtain ⟨mode, e1, e2⟩ := hvis v hv
    obtain ⟨mode', e3, e4, e5⟩ := hr
    rw [e1] at e3
    simp only [Option.some.injEq] at e3
    subst e3
    obtain ⟨hrd, g, hg⟩ := e2 e4 e5
    unfold packFile at hg
    split at hg
    · rename_i m c hc
      refine ⟨m, c, hc, ?_⟩
      rw [hfiles, List.mem_filterMap]
      exact ⟨v, hv, entryOf_regular Z ⟨mode, e1, e4, e5⟩ hrd hc⟩
    · simp at hg
  · obtain ⟨g, e1, e2, e3⟩ := entryOf_dir Z (d := w.st.disk) (cwd := w.cwd) hd
    refine ⟨g, ?_, e2, e3⟩
    rw [hfiles, List.mem_filterMap]
    exact ⟨v, hv, e1⟩
  · rw [hfiles, List.mem_filterMap] at hg
    obtain ⟨v, hv, he⟩ := hg
    exact ⟨v, hv, (entryOf_some Z he).1⟩

/-- C104 is false: an error reported by the walk, such as a directory that cannot be read, makes no
difference to anything passcrypt does. -/
theorem C104_errors_ignored_violated (f : Flags) (args : List Bytes) (visits : List Visit) (w : World) :
    main C P A Z f args visits w = main C P A Z f args (visits.map (fun v => { v with err := false })) w := by
  have h : ∀ d cwd acc, packVisits Z d cwd acc visits =
      packVisits Z d cwd acc (visits.map (fun v => { v with err := false })) := by
    intro d cwd
    induction visits with
    | nil => intro acc; rfl
    | cons v vs ih =>
      intro acc
      rw [List.map_cons, packVisits, packVisits]
      have : packVisit Z d cwd acc { v with err := false } = packVisit Z d cwd acc v := rfl
      rw [this]
      cases packVisit Z d cwd acc v with
      | none => rfl
      | some acc' => exact ih acc'
  unfold main pack packFiles
  simp only [h]

/-! ### Examples -/

/-- A gzip that compresses nothing. -/
def toyGzip : Gzip := ⟨id, fun b => some (b, true), fun _ => rfl⟩

/-- Archives in unary, as in Proofs/ToyJson. -/
noncomputable def toyFiles : FilesAsn1 where
  enc fs := if ∀ f ∈ fs, ValidUtf8 f.path then
    some (List.replicate (Encodable.encode (fs.map (fun f => (f.path, f.mode, f.data)))) 0) else none
  dec b := (Encodable.decode (α := List (Bytes × BitVec 64 × Bytes)) b.length).map
    (List.map (fun x => ⟨x.1, x.2.1, x.2.2⟩))
  enc_utf8 fs b h := by
    by_cases hu : ∀ f ∈ fs, ValidUtf8 f.path
    · exact hu
    · rw [if_neg hu] at h; cases h
  dec_enc fs h := ⟨_, if_pos h, by simp [Function.comp_def]⟩

/-- A home directory with a file a/b of mode 0644. -/
def exDisk : Disk := fun p =>
  if p = [ascii "home"] then some (.dir 0o755)
  else if p = [ascii "home", ascii "a"] then some (.dir 0o755)
  else if p = [ascii "home", ascii "a", ascii "b"] then some (.file 0o644 [1, 2, 3])
  else none

def exWorld : World :=
  { term := ⟨[some [112]], fun _ => 5⟩, rng := List.replicate 60 4, cwd := [ascii "home"], st := ⟨exDisk, fun _ => .done, 0⟩ }

/-- What a walk over a reports. -/
def exVisits (e : Bool) : List Visit :=
  [{ path := ascii "a", info := some 0x800001ed, err := e }, { path := ascii "a/b", info := some 0o644 }]

/-- passcrypt -a a -/
theorem exPack (e : Bool) : ∃ w' raw, main Toy.crypto Pem.toy toyFiles toyGzip { armour := true } [ascii "a"] (exVisits e) exWorld =
    .ok (true, w') ∧ w'.st.disk.readFile [ascii "home"] (ascii "passcrypt.enc") = some raw := by
  have hp : packVisits toyGzip exDisk [ascii "home"] [] (exVisits e) =
      some [⟨ascii "a", 0x800001ed, []⟩, ⟨ascii "a/b", 0o644, [1, 2, 3]⟩] := by cases e <;> decide
  obtain ⟨b, e1, -⟩ := toyFiles.dec_enc [⟨ascii "a", 0x800001ed, []⟩, ⟨ascii "a/b", 0o644, [1, 2, 3]⟩] (by decide)
  have hw : ∀ x, exDisk.writeAt .done true [ascii "home"] (ascii "passcrypt.enc") 0o644 x =
      (exDisk.set [ascii "home", ascii "passcrypt.enc"] (.file 0o644 (x ++ [])), true) := by
    intro x
    rw [writeAt_done (m := 0o644) (b := []) (by decide) (by decide)]
    rw [show resolvePath [ascii "home"] (ascii "passcrypt.enc") = [ascii "home", ascii "passcrypt.enc"] by decide]
    simp
  have hrun : ∃ w' x, main Toy.crypto Pem.toy toyFiles toyGzip { armour := true } [ascii "a"] (exVisits e) exWorld =
      .ok (true, w') ∧ w'.st.disk = exDisk.set [ascii "home", ascii "passcrypt.enc"] (.file 0o644 x) := by
    unfold main pack packFiles
    rw [if_neg (by decide), if_neg (by decide)]
    simp only [exWorld, hp, e1, Term.read, Proofs.Secret.deriveKey_eq, Proofs.Secret.encrypt_some,
      Model.Util.randBytes, Model.Util.readFull, List.length_replicate, saltLength]
    rw [if_pos (by decide)]
    simp only
    rw [if_pos (by decide)]
    simp only [Res.ok_bind, hw]
    exact ⟨_, _, rfl, rfl⟩
  obtain ⟨w', x, h1, h2⟩ := hrun
  refine ⟨w', x, h1, ?_⟩
  rw [h2]
  unfold Disk.readFile Disk.get
  rw [if_neg (by decide), show resolvePath [ascii "home"] (ascii "passcrypt.enc") = [ascii "home", ascii "passcrypt.enc"] by decide,
    if_neg (by decide), set_same]

/-- The walk could not read a, and passcrypt reports success. -/
example : (exVisits true).any (·.err) = true ∧
    ∃ w', main Toy.crypto Pem.toy toyFiles toyGzip { armour := true } [ascii "a"] (exVisits true) exWorld = .ok (true, w') := by
  obtain ⟨w', -, h, -⟩ := exPack true
  exact ⟨rfl, w', h⟩

/-- new/out and the directories above it. -/
def exNew : List (List Bytes) :=
  [[ascii "home"], [ascii "home", ascii "new"], [ascii "home", ascii "new", ascii "out"]]

theorem exNew_dirs : ∀ p ∈ exNew, ∀ m c, exDisk p ≠ some (.file m c) := by
  intro p hp m c e
  have := (by decide : ∀ p ∈ exNew, (exDisk p).all Node.isDir = true) p hp
  rw [e] at this
  simp [Node.isDir] at this

/-- The round trip into a directory that does not exist, with any umask. -/
theorem exRestored (u : BitVec 9) : ∃ wu wu', wu.st.umask = u ∧
    (∃ w' raw, main Toy.crypto Pem.toy toyFiles toyGzip { armour := true } [ascii "a"] (exVisits false) exWorld = .ok (true, w') ∧
      w'.st.disk.readFile [ascii "home"] (ascii "passcrypt.enc") = some raw ∧
      wu.st.disk.readFile wu.cwd (ascii "../home/passcrypt.enc") = some raw) ∧
    main Toy.crypto Pem.toy toyFiles toyGzip { unpack := true, outDir := ascii "new/out" }
      [ascii "../home/passcrypt.enc"] [] wu = .ok (true, wu') ∧
    wu'.st.disk [ascii "home", ascii "new", ascii "out", ascii "a", ascii "b"] = some (.file (0o644 &&& ~~~(u.setWidth 32)) [1, 2, 3]) := by
  obtain ⟨w', raw, h1, h2⟩ := exPack false
  have hd : ∀ q, w'.st.disk q = if q = [ascii "home", ascii "passcrypt.enc"] then w'.st.disk q else exDisk q := by
    intro q
    split
    · rfl
    · rename_i hq
      obtain ⟨_, _, _, _, _, _, -, -, -, -, -, -, h⟩ := pack_ok _ _ _ _ rfl (by decide) h1
      exact h q hq
  refine ⟨{ w' with cwd := [ascii "home"], term := ⟨[some [112]], fun _ => 5⟩, st := ⟨w'.st.disk, fun _ => .done, u⟩ }, ?_⟩
  obtain ⟨wu', r1, r2⟩ := C102_roundtrip Toy.crypto Pem.toy toyFiles toyGzip { armour := true }
    { unpack := true, outDir := ascii "new/out" } [ascii "a"] (exVisits false) [] exWorld w'
    { w' with cwd := [ascii "home"], term := ⟨[some [112]], fun _ => 5⟩, st := ⟨w'.st.disk, fun _ => .done, u⟩ }
    [112] raw (ascii "../home/passcrypt.enc") [] [] rfl (by decide) h1 rfl h2 (.inl rfl)
    (by unfold NoUp; decide)
    (by
      intro v hv hr
      simp only [exVisits, List.mem_cons, List.not_mem_nil, or_false] at hv
      rcases hv with rfl | rfl
      · obtain ⟨mode, e1, e2, -⟩ := hr
        simp only [Option.some.injEq] at e1
        subst e1
        exact absurd e2 (by decide)
      · refine ⟨by decide, fun m c hc => ?_⟩
        have : exWorld.st.disk.get (resolvePath exWorld.cwd (ascii "a/b")) = some (.file 0o644 [1, 2, 3]) := by decide
        rw [this] at hc
        simp only [Option.some.injEq, Node.file.injEq] at hc
        rw [← hc.1]
        decide)
    (by
      rw [exVisits, List.pairwise_cons]
      refine ⟨fun u hu => ?_, List.pairwise_singleton _ _⟩
      simp only [List.mem_singleton] at hu
      subst hu
      refine ⟨fun hr => ?_, fun _ => by decide⟩
      obtain ⟨mode, e1, e2, -⟩ := hr
      simp only [Option.some.injEq] at e1
      subst e1
      exact absurd e2 (by decide))
    rfl (by
      rw [← h2]
      unfold Disk.readFile
      rw [if_neg (by decide), if_neg (by decide)]
      rw [show resolvePath [ascii "home"] (ascii "passcrypt.enc") = resolvePath [ascii "home"] (ascii "../home/passcrypt.enc") by decide])
    rfl (fun _ => rfl) (by decide)
    (by
      intro q hq hne m c
      have hT : resolvePath [ascii "home"] (ascii "new/out") = [ascii "home", ascii "new", ascii "out"] := by decide
      simp only [hT] at hq
      rw [show w'.st.disk q = _ from hd q]
      obtain ⟨l, hl⟩ := hq
      rcases q with _ | ⟨x, _ | ⟨y, _ | ⟨z, _ | ⟨u, r⟩⟩⟩⟩
      · exact absurd rfl hne
      all_goals simp at hl
      · rw [hl.1, if_neg (by decide)]; exact exNew_dirs _ (by simp [exNew]) m c
      · rw [hl.1, hl.2.1, if_neg (by decide)]; exact exNew_dirs _ (by simp [exNew]) m c
      · rw [hl.1, hl.2.1, hl.2.2.1, if_neg (by decide)]; exact exNew_dirs _ (by simp [exNew]) m c)
    (by
      intro q hq hne
      have hT : resolvePath [ascii "home"] (ascii "new/out") = [ascii "home", ascii "new", ascii "out"] := by decide
      simp only [hT] at hq
      rw [show w'.st.disk q = _ from hd q]
      obtain ⟨l, rfl⟩ := hq
      have h1 : ∀ l : List Bytes, [ascii "home", ascii "new", ascii "out"] ++ l ≠ [ascii "home", ascii "passcrypt.enc"] := by
        intro l e
        have := congrArg List.length e
        simp at this
      rw [if_neg (h1 l)]
      unfold exDisk
      rw [if_neg (by simp), if_neg (by simp), if_neg (by
        intro e
        simp only [List.cons_append, List.nil_append, List.cons.injEq] at e
        exact absurd e.2.1 (by decide))])
  refine ⟨wu', rfl, ⟨w', raw, h1, h2, ?_⟩, r1, ?_⟩
  · rw [← h2]
    unfold Disk.readFile
    rw [if_neg (by decide), if_neg (by decide)]
    rw [show resolvePath [ascii "home"] (ascii "passcrypt.enc") = resolvePath [ascii "home"] (ascii "../home/passcrypt.enc") by decide]
  have := (r2 _ (List.mem_cons_of_mem _ (List.mem_cons_self ..))).1 ⟨0o644, rfl, by decide, by decide⟩ 0o644 [1, 2, 3] (by decide)
  have hp : resolvePath [ascii "home"] (ascii "new/out") ++ namesIn (ascii "a/b") =
      [ascii "home", ascii "new", ascii "out", ascii "a", ascii "b"] := by decide
  rw [← hp]
  exact this

/-- With umask 022 a file of mode 0644 comes back with mode 0644, with umask 077 with mode 0600. -/
example : (∃ wu wu', wu.st.umask = 0o022 ∧ main Toy.crypto Pem.toy toyFiles toyGzip
      { unpack := true, outDir := ascii "new/out" } [ascii "../home/passcrypt.enc"] [] wu = .ok (true, wu') ∧
    wu'.st.disk [ascii "home", ascii "new", ascii "out", ascii "a", ascii "b"] = some (.file 0o644 [1, 2, 3])) ∧
    (∃ wu wu', wu.st.umask = 0o077 ∧ main Toy.crypto Pem.toy toyFiles toyGzip
      { unpack := true, outDir := ascii "new/out" } [ascii "../home/passcrypt.enc"] [] wu = .ok (true, wu') ∧
    wu'.st.disk [ascii "home", ascii "new", ascii "out", ascii "a", ascii "b"] = some (.file 0o600 [1, 2, 3])) :=
  ⟨(let ⟨wu, wu', h1, _, h2⟩ := exRestored 0o022; ⟨wu, wu', h1, h2⟩),
    (let ⟨wu, wu', h1, _, h2⟩ := exRestored 0o077; ⟨wu, wu', h1, h2⟩)⟩

/-- An entry with "..": unpacked below home/a it lands in home. -/
example : ∃ b m tail, (unpackFiles toyFiles toyGzip ⟨exDisk, fun _ => .done, 0⟩ [ascii "home"] b (ascii "a")).1.disk
      [ascii "home", ascii "x"] = some (.file m ([9] ++ tail)) := by
  obtain ⟨b, -, e2⟩ := toyFiles.dec_enc [⟨ascii "../x", 0o600, [9]⟩] (by decide)
  exact ⟨b, (C77_escapes_violated toyFiles toyGzip ⟨exDisk, fun _ => .done, 0⟩ [ascii "home"] [ascii "home"] (ascii "a")
    b (ascii "a") (ascii "x") [9] ⟨ascii "../x", 0o600, [9]⟩ 0o755 0o755
    (by decide) (by decide) e2 (by decide) (by decide) (by decide) (by decide) (by decide) (by decide) (by decide) (by decide)
    rfl (fun _ => rfl) (by decide) (by decide)
    (by intro m e; have h : exDisk ([ascii "home"] ++ [ascii "x"]) = none := (by decide); exact absurd (h.symm.trans e) (by simp))).2.2⟩

/-- A shorter file over a/b keeps its end; a longer one replaces it. -/
example : (unpackEntry toyGzip ⟨exDisk, fun _ => .done, 0⟩ [ascii "home"] ⟨ascii "b", 0o600, [9]⟩ (ascii "a")).1.disk
      [ascii "home", ascii "a", ascii "b"] = some (.file 0o644 [9, 2, 3]) ∧
    (unpackEntry toyGzip ⟨exDisk, fun _ => .done, 0⟩ [ascii "home"] ⟨ascii "b", 0o600, [9, 9, 9, 9]⟩ (ascii "a")).1.disk
      [ascii "home", ascii "a", ascii "b"] = some (.file 0o644 [9, 9, 9, 9]) := by decide

/-- The hypotheses of C77 and C78 are met by an archive of two entries. -/
example : ∀ f ∈ ([⟨ascii "d", 0x800001ed, []⟩, ⟨ascii "d/x", 0o600, [9]⟩] : List File), NoUp f.path := by
  unfold NoUp; decide

example : ∃ b, (unpackFiles toyFiles toyGzip ⟨exDisk, fun _ => .done, 0⟩ [ascii "home"] b (ascii "a")).2 = true ∧
    (unpackFiles toyFiles toyGzip ⟨exDisk, fun _ => .done, 0⟩ [ascii "home"] b (ascii "a")).1.disk
        [ascii "home", ascii "a", ascii "b"] = some (.file 0o644 [9, 2, 3]) := by
  obtain ⟨b, -, e2⟩ := toyFiles.dec_enc [⟨ascii "d", 0x800001ed, []⟩, ⟨ascii "b", 0o600, [9]⟩] (by decide)
  refine ⟨b, ?_⟩
  unfold unpackFiles
  rw [e2]
  decide

/-- A file that is not an archive. -/
example : ∀ plain, ¬ Opens Toy.crypto Pem.toy exWorld [ascii "a/b"] plain := by
  rintro plain ⟨path, raw, body, pass, as, h1, h2, h3, h4, h5⟩
  simp only [List.cons.injEq, and_true] at h1
  subst h1
  have : exWorld.st.disk.readFile exWorld.cwd (ascii "a/b") = some [1, 2, 3] := by decide
  rw [this] at h2
  simp only [Option.some.injEq] at h2
  subst h2
  have hl : body.length < 32 := by
    rcases h3 with ⟨-, rfl⟩ | h3
    · decide
    · have e : Pem.toy.dec [1, 2, 3] = some ([3], []) := by decide
      rw [e] at h3
      simp only [Option.some.injEq, Prod.mk.injEq] at h3
      rw [← h3.2]; decide
  obtain ⟨salt, nonce, hs, -, rfl⟩ := h5
  simp only [List.length_append] at hl
  omega

end Verif.Props.Passcrypt
