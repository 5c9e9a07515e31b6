import Verif.Model.Passcrypt
import Verif.Proofs.FilePath
import Verif.Proofs.Secret
import Verif.Spec.Passcrypt
/-! Lemmas about passcrypt. -/

namespace Verif.Proofs.Passcrypt
open Verif Verif.Go Verif.Model.Passcrypt Verif.Proofs.FilePath Verif.Spec.Passcrypt

/-! ### The disk -/

theorem set_same (d : Disk) (p : List Bytes) (n : Node) : d.set p n p = some n := by simp [Disk.set]

theorem set_other (d : Disk) {p q : List Bytes} (n : Node) (h : q ≠ p) : d.set p n q = d q := by simp [Disk.set, h]

/-- What `mkdirs` changes. -/
theorem mkdirs_frame (perm : BitVec 32) (limit : Option Nat) (d : Disk) (pre rest : List Bytes) (q : List Bytes) :
    (Disk.mkdirs perm limit d pre rest).1 q = d q ∨
    (d q = none ∧ (Disk.mkdirs perm limit d pre rest).1 q = some (.dir (perm &&& 0o777)) ∧ q <+: pre ++ rest) := by
  induction rest generalizing limit d pre with
  | nil => exact .inl rfl
  | cons c cs ih =>
    rw [Disk.mkdirs]
    have hassoc : pre ++ [c] ++ cs = pre ++ c :: cs := by simp
    split
    · have := ih limit d (pre ++ [c]); rwa [hassoc] at this
    · exact .inl rfl
    · rename_i hn
      split
      · exact .inl rfl
      · have := ih (limit.map (· - 1)) (d.set (pre ++ [c]) (.dir (perm &&& 0o777))) (pre ++ [c])
        rw [hassoc] at this
        by_cases hq : q = pre ++ [c]
        · subst hq
          rw [set_same] at this
          rcases this with e | ⟨e, -⟩
          · exact .inr ⟨hn, e, cs, by simp⟩
          · simp at e
        · rw [set_other _ _ hq] at this
          exact this

theorem mkdirAll_frame (o : WriteOutcome) (d : Disk) (cwd : List Bytes) (path : Bytes) (perm : BitVec 32) (q : List Bytes) :
    (d.mkdirAll o cwd path perm).1 q = d q ∨
    (d q = none ∧ (d.mkdirAll o cwd path perm).1 q = some (.dir (perm &&& 0o777)) ∧ q <+: resolvePath cwd path) := by
  unfold Disk.mkdirAll
  split
  · exact .inl rfl
  · split <;> exact mkdirs_frame _ _ _ _ _ _

/-- With a willing operating system `mkdirs` succeeds unless there is a file in the way. -/
theorem mkdirs_ok (perm : BitVec 32) (d : Disk) (pre rest : List Bytes)
    (h : ∀ k, 0 < k → k ≤ rest.length → ∀ m b, d (pre ++ rest.take k) ≠ some (.file m b)) :
    (Disk.mkdirs perm none d pre rest).2 = true ∧
    ∀ k, 0 < k → k ≤ rest.length → ∃ m, (Disk.mkdirs perm none d pre rest).1 (pre ++ rest.take k) = some (.dir m) := by
  induction rest generalizing d pre with
  | nil => exact ⟨rfl, fun k h1 h2 => by simp at h2; omega⟩
  | cons c cs ih =>
    have hassoc : ∀ k, pre ++ [c] ++ cs.take k = pre ++ (c :: cs).take (k + 1) := by simp
    have h1 := h 1 (by omega) (by simp)
    have h1' : ∀ m b, d (pre ++ [c]) ≠ some (.file m b) := by simpa using h1
    rw [Disk.mkdirs]
    split
    · rename_i m hm
      have := ih d (pre ++ [c]) (fun k hk1 hk2 m b => by rw [hassoc]; exact h (k + 1) (by omega) (by simp; omega) m b)
      refine ⟨this.1, fun k hk1 hk2 => ?_⟩
      by_cases hk : k = 1
      · subst hk
        rcases mkdirs_frame perm none d (pre ++ [c]) cs (pre ++ [c]) with e | ⟨e, -⟩
        · exact ⟨m, by simpa [hm] using e⟩
        · rw [hm] at e; simp at e
      · obtain ⟨m', hm'⟩ := this.2 (k - 1) (by omega) (by simp at hk2; omega)
        rw [hassoc, show k - 1 + 1 = k by omega] at hm'
        exact ⟨m', hm'⟩
    · rename_i m b hm
      exact absurd hm (h1' m b)
    · rename_i hm
      rw [if_neg (by simp)]
      have := ih (d.set (pre ++ [c]) (.dir (perm &&& 0o777))) (pre ++ [c]) (fun k hk1 hk2 m b => by
        rw [hassoc, set_other]
        · exact h (k + 1) (by omega) (by simp; omega) m b
        · intro e
          have := congrArg List.length e
          simp only [List.length_append, List.length_take, List.length_cons, List.length_nil] at this
          omega)
      refine ⟨this.1, fun k hk1 hk2 => ?_⟩
      by_cases hk : k = 1
      · subst hk
        have hs := set_same d (pre ++ [c]) (.dir (perm &&& 0o777))
        rcases mkdirs_frame perm none (d.set (pre ++ [c]) (.dir (perm &&& 0o777))) (pre ++ [c]) cs (pre ++ [c]) with e | ⟨e, -⟩
        · exact ⟨perm &&& 0o777, e.trans hs⟩
        · rw [hs] at e; simp at e
      · obtain ⟨m', hm'⟩ := this.2 (k - 1) (by omega) (by simp at hk2; omega)
        rw [hassoc, show k - 1 + 1 = k by omega] at hm'
        exact ⟨m', hm'⟩

/-- What `writeAt` changes. -/
theorem writeAt_frame (o : WriteOutcome) (tr : Bool) (d : Disk) (cwd : List Bytes) (path : Bytes) (mode : BitVec 32)
    (data : Bytes) (q : List Bytes) (hq : q ≠ resolvePath cwd path) :
    (d.writeAt o tr cwd path mode data).1 q = d q := by
  unfold Disk.writeAt
  split
  · rfl
  · simp only
    split
    · rfl
    · split
      · rfl
      · exact set_other _ _ hq
      · exact set_other _ _ hq

theorem writeAt_ok {o : WriteOutcome} {tr : Bool} {d : Disk} {cwd : List Bytes} {path : Bytes} {mode : BitVec 32}
    {data : Bytes} (h : (d.writeAt o tr cwd path mode data).2 = true) :
    ∃ m b, d.openCreate (resolvePath cwd path) mode = some (m, b) ∧
      (d.writeAt o tr cwd path mode data).1 (resolvePath cwd path) =
        some (.file m (data ++ (if tr then [] else b).drop data.length)) := by
  unfold Disk.writeAt at h ⊢
  split at h
  · simp at h
  · rename_i hp
    rw [if_neg hp]
    simp only at h ⊢
    cases ho : d.openCreate (resolvePath cwd path) mode with
    | none => simp [ho] at h
    | some x =>
      obtain ⟨m, b⟩ := x
      cases o with
      | done => exact ⟨m, b, rfl, set_same ..⟩
      | openFails => simp [ho] at h
      | failsAfter k => simp [ho] at h

theorem writeAt_done {tr : Bool} {d : Disk} {cwd : List Bytes} {path : Bytes} {mode m : BitVec 32} {data b : Bytes}
    (hp : path ≠ []) (h : d.openCreate (resolvePath cwd path) mode = some (m, b)) :
    d.writeAt .done tr cwd path mode data =
      (d.set (resolvePath cwd path) (.file m (data ++ (if tr then [] else b).drop data.length)), true) := by
  unfold Disk.writeAt
  rw [if_neg hp]
  simp only [h]

/-! ### Places -/

theorem join_ne {top : Bytes} (p : Bytes) (ht : top ≠ []) : joinPath top p ≠ [] := by
  unfold joinPath
  rw [if_neg ht]
  split <;> exact clean_ne_nil _

/-- Where a file of the archive goes. -/
theorem place_below (cwd : List Bytes) {top p : Bytes} (ht : top ≠ []) (hp : NoUp p) :
    resolvePath cwd (joinPath top p) = resolvePath cwd top ++ namesIn p := resolve_join_below cwd ht hp

theorem place_dir (cwd : List Bytes) {top p : Bytes} (ht : top ≠ []) (hp : NoUp p) :
    resolvePath cwd (cleanPath (joinPath top (dirPath p))) = resolvePath cwd top ++ namesIn (dirPath p) := by
  rw [resolve_clean]
  exact resolve_join_below cwd ht (dir_no_dotdot hp)

theorem dir_prefix {p : Bytes} (hp : NoUp p) : namesIn (dirPath p) <+: namesIn p := by
  obtain ⟨l, h, -⟩ := names_dir hp
  exact ⟨l, h.symm⟩

/-! ### Entries -/

theorem unpackDir_frame (s : DiskState) (cwd : List Bytes) (f : File) (top : Bytes) (q : List Bytes) :
    (unpackDir s cwd f top).1.disk q = s.disk q ∨
    (s.disk q = none ∧ (unpackDir s cwd f top).1.disk q = some (.dir (s.allow (dirPerm f.mode) &&& 0o777)) ∧
      q <+: resolvePath cwd (cleanPath (joinPath top (dirPath f.path)))) := by
  unfold unpackDir
  simp only
  split
  · exact mkdirAll_frame _ _ _ _ _ _
  · exact .inl rfl

theorem unpackFile_frame (Z : Gzip) (s : DiskState) (cwd : List Bytes) (f : File) (top : Bytes) (q : List Bytes)
    (hq : q ≠ resolvePath cwd (joinPath top f.path)) : (unpackFile Z s cwd f top).1.disk q = s.disk q := by
  unfold unpackFile
  split
  · rfl
  · exact writeAt_frame _ _ _ _ _ _ _ _ hq

/-- Nothing changes the umask. -/
theorem unpackDir_umask (s : DiskState) (cwd : List Bytes) (f : File) (top : Bytes) :
    (unpackDir s cwd f top).1.umask = s.umask := by
  unfold unpackDir
  simp only
  split <;> rfl

theorem unpackEntry_umask (Z : Gzip) (s : DiskState) (cwd : List Bytes) (f : File) (top : Bytes) :
    (unpackEntry Z s cwd f top).1.umask = s.umask := by
  unfold unpackEntry
  split
  · rfl
  · simp only
    split
    · exact unpackDir_umask ..
    · unfold unpackFile
      split <;> exact unpackDir_umask ..

theorem unpackLoop_umask (Z : Gzip) (cwd : List Bytes) (top : Bytes) (s : DiskState) (fs : List File) :
    (unpackLoop Z cwd top s fs).1.umask = s.umask := by
  induction fs generalizing s with
  | nil => rfl
  | cons f fs ih =>
    have h := unpackEntry_umask Z s cwd f top
    rw [unpackLoop]
    split
    · rename_i s' he
      rw [he] at h
      exact h
    · rename_i s' he
      rw [he] at h
      exact (ih s').trans h

theorem makeTop_umask (s : DiskState) (cwd : List Bytes) (top : Bytes) : (makeTop s cwd top).1.umask = s.umask := by
  unfold makeTop
  simp only
  split <;> rfl

theorem allow_umask {s t : DiskState} (h : s.umask = t.umask) (m : BitVec 32) : s.allow m = t.allow m := by
  unfold DiskState.allow
  rw [h]

theorem allow_zero (d : Disk) (ops : Nat → WriteOutcome) (m : BitVec 32) : DiskState.allow ⟨d, ops, 0⟩ m = m := by
  show m &&& ~~~((0 : BitVec 9).setWidth 32) = m
  rw [show ~~~((0 : BitVec 9).setWidth 32) = BitVec.allOnes 32 by decide, BitVec.and_allOnes]

/-- Where an entry of the archive goes. -/
def place (cwd : List Bytes) (top : Bytes) (f : File) : List Bytes := resolvePath cwd (joinPath top f.path)

/-- Is the entry a directory? -/
def File.IsDir (f : File) : Bool := isDir (f.mode.setWidth 32)

variable (Z : Gzip)

/-- An entry creates directories, and otherwise changes the place of its file. -/
theorem entry_frame (s : DiskState) (cwd : List Bytes) (f : File) (top : Bytes) (q : List Bytes)
    (hq : File.IsDir f = false → q ≠ place cwd top f) :
    (unpackEntry Z s cwd f top).1.disk q = s.disk q ∨
    (s.disk q = none ∧ ∃ m, (unpackEntry Z s cwd f top).1.disk q = some (.dir m)) := by
  unfold unpackEntry
  split
  · rcases mkdirAll_frame (s.ops 0) s.disk cwd (joinPath top f.path) (s.allow (f.mode.setWidth 32)) q with e | ⟨e1, e2, -⟩
    · exact .inl e
    · exact .inr ⟨e1, _, e2⟩
  · rename_i hd
    have hq' := hq (by simpa [File.IsDir] using hd)
    have h1 := unpackDir_frame s cwd f top q
    have h2 := unpackFile_frame Z (unpackDir s cwd f top).1 cwd f top q hq'
    simp only
    split
    · rcases h1 with e | ⟨e1, e2, -⟩
      · exact .inl e
      · exact .inr ⟨e1, _, e2⟩
    · rw [h2]
      rcases h1 with e | ⟨e1, e2, -⟩
      · exact .inl e
      · exact .inr ⟨e1, _, e2⟩

theorem loop_frame (cwd : List Bytes) (top : Bytes) (s : DiskState) (fs : List File) (q : List Bytes)
    (hq : ∀ f ∈ fs, File.IsDir f = false → q ≠ place cwd top f) :
    (unpackLoop Z cwd top s fs).1.disk q = s.disk q ∨
    (s.disk q = none ∧ ∃ m, (unpackLoop Z cwd top s fs).1.disk q = some (.dir m)) := by
  induction fs generalizing s with
  | nil => exact .inl rfl
  | cons f fs ih =>
    have h1 := entry_frame Z s cwd f top q (hq f (by simp))
    rw [unpackLoop]
    split
    · rename_i s' he
      rw [he] at h1
      exact h1
    · rename_i s' he
      rw [he] at h1
      simp only at h1
      rcases ih s' (fun g hg => hq g (by simp [hg])) with e | ⟨e1, m, e2⟩
      · rw [e]; exact h1
      · rcases h1 with e | ⟨e3, m', e4⟩
        · exact .inr ⟨by rw [← e]; exact e1, m, e2⟩
        · rw [e4] at e1; simp at e1

/-- Without "..", an entry changes nothing but what is below `top` and directories above it. -/
theorem entry_below (s : DiskState) (cwd : List Bytes) (f : File) {top : Bytes} (ht : top ≠ []) (hp : NoUp f.path)
    (q : List Bytes) (hq : ¬ resolvePath cwd top <+: q) :
    (unpackEntry Z s cwd f top).1.disk q = s.disk q ∨
    (s.disk q = none ∧ (∃ m, (unpackEntry Z s cwd f top).1.disk q = some (.dir m)) ∧ q <+: resolvePath cwd top) := by
  have hside : ∀ l, q <+: resolvePath cwd top ++ l → q <+: resolvePath cwd top := by
    intro l h
    rcases List.prefix_or_prefix_of_prefix h (List.prefix_append (resolvePath cwd top) l) with h | h
    · exact h
    · exact absurd h hq
  have hne : q ≠ resolvePath cwd (joinPath top f.path) := by
    intro e
    rw [place_below cwd ht hp] at e
    exact hq ⟨_, e.symm⟩
  unfold unpackEntry
  split
  · rcases mkdirAll_frame (s.ops 0) s.disk cwd (joinPath top f.path) (s.allow (f.mode.setWidth 32)) q with e | ⟨e1, e2, e3⟩
    · exact .inl e
    · rw [place_below cwd ht hp] at e3
      exact .inr ⟨e1, ⟨_, e2⟩, hside _ e3⟩
  · have h1 := unpackDir_frame s cwd f top q
    rw [place_dir cwd ht hp] at h1
    have h2 := unpackFile_frame Z (unpackDir s cwd f top).1 cwd f top q hne
    have h3 : (unpackDir s cwd f top).1.disk q = s.disk q ∨
      (s.disk q = none ∧ (∃ m, (unpackDir s cwd f top).1.disk q = some (.dir m)) ∧ q <+: resolvePath cwd top) := by
      rcases h1 with e | ⟨e1, e2, e3⟩
      · exact .inl e
      · exact .inr ⟨e1, ⟨_, e2⟩, hside _ e3⟩
    simp only
    split
    · exact h3
    · rw [h2]; exact h3

theorem loop_below (cwd : List Bytes) {top : Bytes} (ht : top ≠ []) (s : DiskState) (fs : List File)
    (hp : ∀ f ∈ fs, NoUp f.path) (q : List Bytes) (hq : ¬ resolvePath cwd top <+: q) :
    (unpackLoop Z cwd top s fs).1.disk q = s.disk q ∨
    (s.disk q = none ∧ (∃ m, (unpackLoop Z cwd top s fs).1.disk q = some (.dir m)) ∧ q <+: resolvePath cwd top) := by
  induction fs generalizing s with
  | nil => exact .inl rfl
  | cons f fs ih =>
    have h1 := entry_below Z s cwd f ht (hp f (by simp)) q hq
    rw [unpackLoop]
    split
    · rename_i s' he
      rw [he] at h1
      exact h1
    · rename_i s' he
      rw [he] at h1
      simp only at h1
      rcases ih s' (fun g hg => hp g (by simp [hg])) with e | ⟨e1, e2, e3⟩
      · rw [e]; exact h1
      · rcases h1 with e | ⟨e4, ⟨m', e5⟩, -⟩
        · exact .inr ⟨by rw [← e]; exact e1, e2, e3⟩
        · rw [e5] at e1; simp at e1

theorem loop_append (cwd : List Bytes) (top : Bytes) (s : DiskState) (as bs : List File)
    (h : (unpackLoop Z cwd top s (as ++ bs)).2 = true) :
    (unpackLoop Z cwd top s as).2 = true ∧
    unpackLoop Z cwd top s (as ++ bs) = unpackLoop Z cwd top (unpackLoop Z cwd top s as).1 bs := by
  induction as generalizing s with
  | nil => exact ⟨rfl, rfl⟩
  | cons f as ih =>
    rw [List.cons_append, unpackLoop] at h ⊢
    rw [unpackLoop]
    split at h
    · simp at h
    · exact ih _ h

/-- A file entry that is unpacked: what is then at its place. -/
theorem entry_writes {s : DiskState} {cwd : List Bytes} {f : File} {top : Bytes} (hf : File.IsDir f = false)
    {data : Bytes} {cl : Bool} (hz : Z.unzip f.data = some (data, cl))
    (h : (unpackEntry Z s cwd f top).2 = true) :
    cl = true ∧ ∃ m b, (s.disk (place cwd top f) = some (.file m b) ∨ (s.disk (place cwd top f) = none ∧ b = [] ∧ m = s.allow (f.mode.setWidth 32))) ∧
      (unpackEntry Z s cwd f top).1.disk (place cwd top f) = some (.file m (data ++ b.drop data.length)) := by
  have hd : ¬ isDir (f.mode.setWidth 32) = true := by simpa [File.IsDir] using hf
  unfold unpackEntry at h ⊢
  rw [if_neg hd] at h ⊢
  have h1 := unpackDir_frame s cwd f top (place cwd top f)
  simp only at h ⊢
  split at h
  · simp at h
  · rename_i hok
    rw [if_neg hok]
    unfold unpackFile at h ⊢
    rw [hz] at h ⊢
    simp only [Bool.and_eq_true] at h ⊢
    obtain ⟨m, b, h2, h3⟩ := writeAt_ok h.1
    refine ⟨h.2, m, b, ?_, h3⟩
    unfold Disk.openCreate Disk.get at h2
    by_cases hnil : place cwd top f = []
    · unfold place at hnil
      rw [if_pos hnil] at h2
      simp at h2
    · unfold place at hnil
      rw [if_neg hnil] at h2
      have hpl : resolvePath cwd (joinPath top f.path) = place cwd top f := rfl
      rw [hpl] at h2
      rcases h1 with e | ⟨e1, e2, -⟩
      · rw [e] at h2
        split at h2
        · simp at h2
        · rename_i m' b' hm
          simp only [Option.some.injEq, Prod.mk.injEq] at h2
          rw [← h2.1, ← h2.2]
          exact .inl hm
        · rename_i hm
          split at h2
          · simp only [Option.some.injEq, Prod.mk.injEq] at h2
            exact .inr ⟨hm, h2.2.symm, h2.1.symm.trans (allow_umask (unpackDir_umask ..) _)⟩
          · simp at h2
      · rw [e2] at h2
        simp at h2

/-- What was at the place of a file before the loop decides what is there after it. -/
theorem loop_writes {s : DiskState} {cwd : List Bytes} {top : Bytes} {pre post : List File} {f : File}
    (hf : File.IsDir f = false) (hne : ∀ g ∈ pre ++ post, File.IsDir g = false → place cwd top g ≠ place cwd top f)
    {data : Bytes} {cl : Bool} (hz : Z.unzip f.data = some (data, cl))
    (h : (unpackLoop Z cwd top s (pre ++ f :: post)).2 = true) :
    cl = true ∧ ∃ m b, (s.disk (place cwd top f) = some (.file m b) ∨ (s.disk (place cwd top f) = none ∧ b = [] ∧ m = s.allow (f.mode.setWidth 32))) ∧
      (unpackLoop Z cwd top s (pre ++ f :: post)).1.disk (place cwd top f) =
        some (.file m (data ++ b.drop data.length)) := by
  obtain ⟨h1, h2⟩ := loop_append Z cwd top s pre (f :: post) h
  rw [h2] at h ⊢
  have hpre := loop_frame Z cwd top s pre (place cwd top f)
    (fun g hg hd e => hne g (List.mem_append_left _ hg) hd e.symm)
  rw [unpackLoop] at h ⊢
  split at h
  · simp at h
  · rename_i s' he
    have he' : (unpackEntry Z (unpackLoop Z cwd top s pre).1 cwd f top).2 = true := by rw [he]
    obtain ⟨hc, m, b, e1, e2⟩ := entry_writes Z hf hz he'
    rw [allow_umask (unpackLoop_umask ..)] at e1
    rw [he] at e2
    simp only at e2
    have hpost := loop_frame Z cwd top s' post (place cwd top f)
      (fun g hg hd e => hne g (List.mem_append_right _ hg) hd e.symm)
    refine ⟨hc, m, b, ?_, ?_⟩
    · rcases hpre with e | ⟨e3, m', e4⟩
      · rw [e] at e1; exact e1
      · rw [e4] at e1; simp at e1
    · rcases hpost with e | ⟨e3, -⟩
      · rw [e, e2]
      · rw [e2] at e3; simp at e3

theorem makeTop_frame (s : DiskState) (cwd : List Bytes) (top : Bytes) (q : List Bytes) :
    (makeTop s cwd top).1.disk q = s.disk q ∨
    (s.disk q = none ∧ (makeTop s cwd top).1.disk q = some (.dir (s.allow 0o755 &&& 0o777)) ∧ q <+: resolvePath cwd top) := by
  unfold makeTop
  simp only
  split
  · exact mkdirAll_frame _ _ _ _ _ _
  · exact .inl rfl

theorem makeTop_nil (s : DiskState) (cwd : List Bytes) : (makeTop s cwd []).1.disk = s.disk ∧ (makeTop s cwd []).2 = false := by
  unfold makeTop Disk.stat Disk.mkdirAll
  simp

/-! ### Unpacking succeeds -/

/-- The operating system refuses nothing. -/
def Willing (s : DiskState) : Prop := ∀ n, s.ops n = .done

theorem willing_next {s : DiskState} (h : Willing s) (d : Disk) : Willing ⟨d, s.next, s.umask⟩ := fun n => h (n + 1)

theorem willing_dir {s : DiskState} (h : Willing s) (cwd : List Bytes) (f : File) (top : Bytes) :
    Willing (unpackDir s cwd f top).1 := by
  unfold unpackDir
  simp only
  split
  · exact willing_next h _
  · exact h

theorem willing_file {s : DiskState} (h : Willing s) (cwd : List Bytes) (f : File) (top : Bytes) :
    Willing (unpackFile Z s cwd f top).1 := by
  unfold unpackFile
  split
  · exact h
  · exact willing_next h _

theorem willing_entry {s : DiskState} (h : Willing s) (cwd : List Bytes) (f : File) (top : Bytes) :
    Willing (unpackEntry Z s cwd f top).1 := by
  unfold unpackEntry
  split
  · exact willing_next h _
  · have h1 := willing_dir h cwd f top
    simp only
    split
    · exact h1
    · exact willing_file Z h1 cwd f top

theorem willing_top {s : DiskState} (h : Willing s) (cwd : List Bytes) (top : Bytes) : Willing (makeTop s cwd top).1 := by
  unfold makeTop
  simp only
  split
  · exact willing_next h _
  · exact h

/-- Nothing at or above `p` is a file. -/
def NoFile (d : Disk) (p : List Bytes) : Prop := ∀ q, q <+: p → q ≠ [] → ∀ m b, d q ≠ some (.file m b)

theorem NoFile.mono {d : Disk} {p q : List Bytes} (h : NoFile d p) (hq : q <+: p) : NoFile d q :=
  fun r hr => h r (hr.trans hq)

theorem mkdirAll_ok {d : Disk} {cwd : List Bytes} {path : Bytes} (perm : BitVec 32) (hp : path ≠ [])
    (h : NoFile d (resolvePath cwd path)) :
    (d.mkdirAll .done cwd path perm).2 = true ∧
    ∃ m, (d.mkdirAll .done cwd path perm).1.get (resolvePath cwd path) = some (.dir m) := by
  unfold Disk.mkdirAll
  rw [if_neg hp]
  simp only
  have := mkdirs_ok perm d [] (resolvePath cwd path) (fun k h1 h2 m b => by
    rw [List.nil_append]
    refine h _ (List.take_prefix _ _) ?_ m b
    intro e
    have := congrArg List.length e
    rw [List.length_take, List.length_nil] at this
    omega)
  refine ⟨this.1, ?_⟩
  unfold Disk.get
  split
  · exact ⟨_, rfl⟩
  · rename_i hne
    obtain ⟨m, hm⟩ := this.2 (resolvePath cwd path).length (List.length_pos_iff.mpr hne) (Nat.le_refl _)
    rw [List.nil_append, List.take_length] at hm
    exact ⟨m, hm⟩

/-- After the check for a directory and its creation if it is missing, it is there. -/
theorem ensure_ok {s : DiskState} {cwd : List Bytes} {path : Bytes} (perm : BitVec 32) (hw : Willing s) (hp : path ≠ [])
    (h : NoFile s.disk (resolvePath cwd path)) :
    (if s.disk.stat cwd path = .notExist then
      let (d, ok) := s.disk.mkdirAll (s.ops 0) cwd path perm
      (⟨d, s.next, s.umask⟩, ok)
    else (s, true) : DiskState × Bool).2 = true ∧
    ∃ m, (if s.disk.stat cwd path = .notExist then
      let (d, ok) := s.disk.mkdirAll (s.ops 0) cwd path perm
      (⟨d, s.next, s.umask⟩, ok)
    else (s, true) : DiskState × Bool).1.disk.get (resolvePath cwd path) = some (.dir m) := by
  rw [hw 0]
  by_cases hs : s.disk.stat cwd path = .notExist
  · rw [if_pos hs]
    exact mkdirAll_ok perm hp h
  · rw [if_neg hs]
    refine ⟨rfl, ?_⟩
    unfold Disk.stat at hs
    rw [if_neg hp] at hs
    cases hg : s.disk.get (resolvePath cwd path) with
    | some n =>
      cases n with
      | dir m => exact ⟨m, rfl⟩
      | file m b =>
        exfalso
        unfold Disk.get at hg
        split at hg
        · simp at hg
        · rename_i hne
          exact h _ (List.prefix_refl _) hne m b hg
    | none =>
      exfalso
      rw [hg] at hs
      have : s.disk.behindFile (resolvePath cwd path) = false := by
        unfold Disk.behindFile
        rw [List.any_eq_false]
        intro n hn
        cases hx : s.disk.get (List.take n (resolvePath cwd path)) with
        | none => simp
        | some x =>
          cases x with
          | dir m => simp
          | file m b =>
            exfalso
            unfold Disk.get at hx
            split at hx
            · simp at hx
            · rename_i hne
              exact h _ (List.take_prefix _ _) hne m b hx
      rw [this] at hs
      simp at hs

theorem makeTop_ok {s : DiskState} {cwd : List Bytes} {top : Bytes} (hw : Willing s) (ht : top ≠ [])
    (h : NoFile s.disk (resolvePath cwd top)) :
    (makeTop s cwd top).2 = true ∧ ∃ m, (makeTop s cwd top).1.disk.get (resolvePath cwd top) = some (.dir m) :=
  ensure_ok _ hw ht h

theorem unpackDir_ok {s : DiskState} {cwd : List Bytes} {f : File} {top : Bytes} (hw : Willing s)
    (h : NoFile s.disk (resolvePath cwd (cleanPath (joinPath top (dirPath f.path))))) :
    (unpackDir s cwd f top).2 = true ∧
    ∃ m, (unpackDir s cwd f top).1.disk.get (resolvePath cwd (cleanPath (joinPath top (dirPath f.path)))) = some (.dir m) :=
  ensure_ok _ hw (clean_ne_nil _) h

/-- Nothing is in the way of an entry. -/
def Free (d : Disk) (cwd : List Bytes) (top : Bytes) (f : File) : Prop :=
  if File.IsDir f then NoFile d (place cwd top f)
  else NoFile d (place cwd top f).dropLast ∧ ∀ m, d (place cwd top f) ≠ some (.dir m)

/-- The path of a file names a place in the directory of the path. -/
def Inside (p : Bytes) : Prop := ∃ x, namesIn p = namesIn (dirPath p) ++ [x]

theorem entry_ok {s : DiskState} {cwd : List Bytes} {f : File} {top : Bytes} (hw : Willing s) (ht : top ≠ [])
    (hp : NoUp f.path) (hf : Free s.disk cwd top f)
    (hi : File.IsDir f = false → Inside f.path ∧ ∃ data, Z.unzip f.data = some (data, true)) :
    (unpackEntry Z s cwd f top).2 = true := by
  unfold Free at hf
  unfold unpackEntry
  by_cases hd : File.IsDir f = true
  · rw [if_pos hd] at hf
    rw [if_pos (show isDir (f.mode.setWidth 32) = true from hd)]
    simp only
    rw [hw 0]
    exact (mkdirAll_ok _ (join_ne _ ht) hf).1
  · rw [if_neg hd] at hf
    rw [if_neg (show ¬ isDir (f.mode.setWidth 32) = true from hd)]
    obtain ⟨⟨x, hx⟩, data, hz⟩ := hi (by simpa using hd)
    have hplace : place cwd top f = resolvePath cwd top ++ namesIn (dirPath f.path) ++ [x] := by
      unfold place
      rw [place_below cwd ht hp, hx, List.append_assoc]
    have hdir := place_dir cwd ht hp
    have hdl : (place cwd top f).dropLast = resolvePath cwd top ++ namesIn (dirPath f.path) := by
      rw [hplace, List.dropLast_concat]
    rw [hdl, ← hdir] at hf
    obtain ⟨h1, m, h2⟩ := unpackDir_ok hw hf.1
    have hw' := willing_dir hw cwd f top
    have hfr := unpackDir_frame s cwd f top (place cwd top f)
    simp only
    rw [if_neg (by simp [h1])]
    unfold unpackFile
    rw [hz]
    simp only [Bool.and_true]
    have hopen : ∃ r, (unpackDir s cwd f top).1.disk.openCreate (resolvePath cwd (joinPath top f.path))
        ((unpackDir s cwd f top).1.allow (f.mode.setWidth 32)) = some r := by
      unfold Disk.openCreate
      have hpl : resolvePath cwd (joinPath top f.path) = place cwd top f := rfl
      rw [hpl, hdl, ← hdir, h2]
      have hne : place cwd top f ≠ [] := by rw [hplace]; simp
      have hget : (unpackDir s cwd f top).1.disk.get (place cwd top f) = s.disk (place cwd top f) := by
        unfold Disk.get
        rw [if_neg hne]
        rcases hfr with e | ⟨-, -, e⟩
        · exact e
        · rw [hdir, hplace] at e
          have := e.length_le
          simp at this
          omega
      rw [hget]
      cases hs : s.disk (place cwd top f) with
      | none => exact ⟨_, rfl⟩
      | some n =>
        cases n with
        | file m b => exact ⟨_, rfl⟩
        | dir m => exact absurd hs (hf.2 m)
    obtain ⟨⟨m', b'⟩, hr⟩ := hopen
    rw [hw' 0, writeAt_done (join_ne _ ht) hr]

/-- Directories are made only on the way to the entry. -/
theorem entry_frame_on {s : DiskState} {cwd : List Bytes} {f : File} {top : Bytes} (ht : top ≠ []) (hp : NoUp f.path)
    (q : List Bytes) (hq : File.IsDir f = false → q ≠ place cwd top f) :
    (unpackEntry Z s cwd f top).1.disk q = s.disk q ∨
    (s.disk q = none ∧ (∃ m, (unpackEntry Z s cwd f top).1.disk q = some (.dir m)) ∧ q <+: place cwd top f) := by
  unfold unpackEntry
  split
  · rcases mkdirAll_frame (s.ops 0) s.disk cwd (joinPath top f.path) (s.allow (f.mode.setWidth 32)) q with e | ⟨e1, e2, e3⟩
    · exact .inl e
    · exact .inr ⟨e1, ⟨_, e2⟩, e3⟩
  · rename_i hd
    have hq' := hq (by simpa [File.IsDir] using hd)
    have h2 := unpackFile_frame Z (unpackDir s cwd f top).1 cwd f top q hq'
    have h1 : (unpackDir s cwd f top).1.disk q = s.disk q ∨
        (s.disk q = none ∧ (∃ m, (unpackDir s cwd f top).1.disk q = some (.dir m)) ∧ q <+: place cwd top f) := by
      rcases unpackDir_frame s cwd f top q with e | ⟨e1, e2, e3⟩
      · exact .inl e
      · refine .inr ⟨e1, ⟨_, e2⟩, e3.trans ?_⟩
        unfold place
        rw [place_dir cwd ht hp, place_below cwd ht hp]
        obtain ⟨l, hl⟩ := dir_prefix hp
        exact ⟨l, by rw [List.append_assoc, hl]⟩
    simp only
    split
    · exact h1
    · rw [h2]; exact h1

/-- Two entries that do not get in each other's way. -/
def Apart (cwd : List Bytes) (top : Bytes) (f g : File) : Prop :=
  (File.IsDir f = false → ¬ place cwd top f <+: place cwd top g) ∧
  (File.IsDir g = false → ¬ place cwd top g <+: place cwd top f)

theorem free_entry {s : DiskState} {cwd : List Bytes} {f g : File} {top : Bytes} (ht : top ≠ []) (hp : NoUp g.path)
    (ha : Apart cwd top g f) (hf : Free s.disk cwd top f) : Free (unpackEntry Z s cwd g top).1.disk cwd top f := by
  have key : ∀ q, q <+: place cwd top f → (∀ m b, s.disk q ≠ some (.file m b)) →
      ∀ m b, (unpackEntry Z s cwd g top).1.disk q ≠ some (.file m b) := by
    intro q hq h m b e
    rcases entry_frame_on Z (s := s) ht hp q (fun hd e => ha.1 hd (e ▸ hq)) with e1 | ⟨-, ⟨m', e2⟩, -⟩
    · exact h m b (e1 ▸ e)
    · rw [e2] at e; simp at e
  unfold Free at hf ⊢
  split
  · rename_i hd
    rw [if_pos hd] at hf
    exact fun q hq hne => key q hq (hf q hq hne)
  · rename_i hd
    rw [if_neg hd] at hf
    refine ⟨fun q hq hne => key q (hq.trans (List.dropLast_prefix _)) (hf.1 q hq hne), fun m e => ?_⟩
    have hdf : File.IsDir f = false := by simpa using hd
    rcases entry_frame_on Z (s := s) ht hp (place cwd top f) (fun hd e => ha.1 hd (e ▸ List.prefix_refl _)) with e1 | ⟨-, -, e2⟩
    · exact hf.2 m (e1 ▸ e)
    · exact ha.2 hdf e2

theorem loop_ok {cwd : List Bytes} {top : Bytes} (ht : top ≠ []) {fs : List File} {s : DiskState} (hw : Willing s)
    (hp : ∀ f ∈ fs, NoUp f.path) (hf : ∀ f ∈ fs, Free s.disk cwd top f)
    (hi : ∀ f ∈ fs, File.IsDir f = false → Inside f.path ∧ ∃ data, Z.unzip f.data = some (data, true))
    (ha : fs.Pairwise (Apart cwd top)) : (unpackLoop Z cwd top s fs).2 = true := by
  induction fs generalizing s with
  | nil => rfl
  | cons f fs ih =>
    rw [List.pairwise_cons] at ha
    have h1 := entry_ok Z hw ht (hp f (by simp)) (hf f (by simp)) (hi f (by simp))
    have h2 := willing_entry Z hw cwd f top
    have h3 : ∀ g ∈ fs, Free (unpackEntry Z s cwd f top).1.disk cwd top g := fun g hg =>
      free_entry Z ht (hp f (by simp)) (ha.1 g hg) (hf g (by simp [hg]))
    rw [unpackLoop]
    split
    · rename_i s' he
      rw [he] at h1
      simp at h1
    · rename_i s' he
      rw [he] at h2 h3
      exact ih h2 (fun g hg => hp g (by simp [hg])) h3 (fun g hg => hi g (by simp [hg])) ha.2

/-- The place of a directory entry is a directory after it was unpacked. -/
theorem entry_makes {s : DiskState} {cwd : List Bytes} {f : File} {top : Bytes} (hw : Willing s) (ht : top ≠ [])
    (hd : File.IsDir f = true) (hf : Free s.disk cwd top f) :
    ∃ m, (unpackEntry Z s cwd f top).1.disk.get (place cwd top f) = some (.dir m) := by
  unfold Free at hf
  rw [if_pos hd] at hf
  unfold unpackEntry
  rw [if_pos (show isDir (f.mode.setWidth 32) = true from hd)]
  simp only
  rw [hw 0]
  exact (mkdirAll_ok _ (join_ne _ ht) hf).2

theorem loop_makes {cwd : List Bytes} {top : Bytes} (ht : top ≠ []) {fs : List File} {s : DiskState} (hw : Willing s)
    (hp : ∀ f ∈ fs, NoUp f.path) (hf : ∀ f ∈ fs, Free s.disk cwd top f)
    (hi : ∀ f ∈ fs, File.IsDir f = false → Inside f.path ∧ ∃ data, Z.unzip f.data = some (data, true))
    (ha : fs.Pairwise (Apart cwd top)) {f : File} (hm : f ∈ fs) (hd : File.IsDir f = true) :
    ∃ m, (unpackLoop Z cwd top s fs).1.disk.get (place cwd top f) = some (.dir m) := by
  induction fs generalizing s with
  | nil => simp at hm
  | cons g fs ih =>
    rw [List.pairwise_cons] at ha
    have h1 := entry_ok Z hw ht (hp g (by simp)) (hf g (by simp)) (hi g (by simp))
    have h2 := willing_entry Z hw cwd g top
    have h3 : ∀ f ∈ fs, Free (unpackEntry Z s cwd g top).1.disk cwd top f := fun f hg =>
      free_entry Z ht (hp g (by simp)) (ha.1 f hg) (hf f (by simp [hg]))
    rcases List.mem_cons.mp hm with rfl | hm'
    · obtain ⟨m, e⟩ := entry_makes Z hw ht hd (hf f (by simp))
      have hfr : ∀ s', (unpackLoop Z cwd top s' fs).1.disk (place cwd top f) = s'.disk (place cwd top f) ∨ _ :=
        fun s' => loop_frame Z cwd top s' fs (place cwd top f) (fun g hg hgd e => (ha.1 g hg).2 hgd (e ▸ List.prefix_refl _))
      rw [unpackLoop]
      split
      · rename_i s' he
        rw [he] at h1
        simp at h1
      · rename_i s' he
        rw [he] at e
        unfold Disk.get at e ⊢
        split
        · exact ⟨_, rfl⟩
        · rename_i hne
          rw [if_neg hne] at e
          rcases hfr s' with e1 | ⟨e1, -⟩
          · exact ⟨m, by rw [e1]; exact e⟩
          · simp only at e; rw [e] at e1; simp at e1
    · rw [unpackLoop]
      split
      · rename_i s' he
        rw [he] at h1
        simp at h1
      · rename_i s' he
        rw [he] at h2 h3
        exact ih h2 (fun f hg => hp f (by simp [hg])) h3 (fun f hg => hi f (by simp [hg])) ha.2 hm'

/-- Making the output directory puts nothing in the way. -/
theorem free_top {s : DiskState} {cwd : List Bytes} {f : File} {top : Bytes} (ht : top ≠ []) (hp : NoUp f.path)
    (hi : File.IsDir f = false → Inside f.path) (hf : Free s.disk cwd top f) :
    Free (makeTop s cwd top).1.disk cwd top f := by
  have key : ∀ q, (∀ m b, s.disk q ≠ some (.file m b)) → ∀ m b, (makeTop s cwd top).1.disk q ≠ some (.file m b) := by
    intro q h m b e
    rcases makeTop_frame s cwd top q with e1 | ⟨-, e2, -⟩
    · exact h m b (e1 ▸ e)
    · rw [e2] at e; simp at e
  unfold Free at hf ⊢
  split
  · rename_i hd
    rw [if_pos hd] at hf
    exact fun q hq hne => key q (hf q hq hne)
  · rename_i hd
    rw [if_neg hd] at hf
    refine ⟨fun q hq hne => key q (hf.1 q hq hne), fun m e => ?_⟩
    obtain ⟨x, hx⟩ := hi (by simpa using hd)
    rcases makeTop_frame s cwd top (place cwd top f) with e1 | ⟨-, -, e2⟩
    · exact hf.2 m (e1 ▸ e)
    · unfold place at e2
      rw [place_below cwd ht hp, hx] at e2
      have := e2.length_le
      simp at this
      omega

/-! ### Packing -/

/-- The entry made for a visit. -/
def entryOf (d : Disk) (cwd : List Bytes) (v : Visit) : Option File :=
  match v.info with
  | none => none
  | some mode =>
    if isDir mode then some { path := cleanPath v.path, mode := mode.setWidth 64, data := [] }
    else if !isRegular mode || !v.readable then none
    else packFile Z d cwd v.path

theorem packVisits_some {d : Disk} {cwd : List Bytes} {acc files : List File} {vs : List Visit}
    (h : packVisits Z d cwd acc vs = some files) :
    files = acc ++ vs.filterMap (entryOf Z d cwd) ∧
    ∀ v ∈ vs, ∃ mode, v.info = some mode ∧
      (isDir mode = false → isRegular mode = true → v.readable = true ∧ ∃ f, packFile Z d cwd v.path = some f) := by
  induction vs generalizing acc with
  | nil => simp [packVisits] at h; simp [h]
  | cons v vs ih =>
    rw [packVisits] at h
    cases hv : packVisit Z d cwd acc v with
    | none => rw [hv] at h; simp at h
    | some acc' =>
      rw [hv] at h
      simp only at h
      obtain ⟨h1, h2⟩ := ih h
      have h3 : acc' = acc ++ (entryOf Z d cwd v).toList ∧ ∃ mode, v.info = some mode ∧
          (isDir mode = false → isRegular mode = true → v.readable = true ∧ ∃ f, packFile Z d cwd v.path = some f) := by
        unfold packVisit at hv
        unfold entryOf
        cases hi : v.info with
        | none => rw [hi] at hv; simp at hv
        | some mode =>
          rw [hi] at hv
          simp only at hv ⊢
          by_cases hd : isDir mode = true
          · rw [if_pos hd] at hv ⊢
            simp only [Option.some.injEq] at hv
            exact ⟨hv.symm, mode, rfl, by simp [hd]⟩
          · rw [if_neg hd] at hv ⊢
            by_cases hr : (!isRegular mode) = true
            · rw [if_pos hr] at hv
              simp only [Option.some.injEq] at hv
              refine ⟨by simp [hv, hr], mode, rfl, ?_⟩
              intro _ h
              rw [h] at hr
              simp at hr
            · rw [if_neg hr] at hv
              by_cases hrd : (!v.readable) = true
              · rw [if_pos hrd] at hv; simp at hv
              · rw [if_neg hrd] at hv
                rw [if_neg (by simp only [Bool.or_eq_true]; exact fun h => h.elim hr hrd)]
                cases hp : packFile Z d cwd v.path with
                | none => rw [hp] at hv; simp at hv
                | some f =>
                  rw [hp] at hv
                  simp only [Option.some.injEq] at hv
                  exact ⟨hv.symm, mode, rfl, fun _ _ => ⟨by simpa using hrd, f, rfl⟩⟩
      refine ⟨?_, ?_⟩
      · rw [h1, h3.1, List.append_assoc]
        congr 1
        cases he : entryOf Z d cwd v <;> simp [he]
      · intro u hu
        rcases List.mem_cons.mp hu with rfl | hu
        · exact h3.2
        · exact h2 u hu

theorem packVisits_none {d : Disk} {cwd : List Bytes} {acc : List File} {vs : List Visit}
    (h : ∀ v ∈ vs, ∃ mode, v.info = some mode ∧
      (isDir mode = false → isRegular mode = true → v.readable = true ∧ ∃ f, packFile Z d cwd v.path = some f)) :
    ∃ files, packVisits Z d cwd acc vs = some files := by
  induction vs generalizing acc with
  | nil => exact ⟨acc, rfl⟩
  | cons v vs ih =>
    rw [packVisits]
    have : ∃ acc', packVisit Z d cwd acc v = some acc' := by
      obtain ⟨mode, hi, hf⟩ := h v (by simp)
      unfold packVisit
      rw [hi]
      simp only
      by_cases hd : isDir mode = true
      · rw [if_pos hd]; exact ⟨_, rfl⟩
      · rw [if_neg hd]
        by_cases hr : (!isRegular mode) = true
        · rw [if_pos hr]; exact ⟨_, rfl⟩
        · rw [if_neg hr]
          obtain ⟨hrd, f, hf⟩ := hf (by simpa using hd) (by simpa using hr)
          rw [if_neg (by simp [hrd]), hf]
          exact ⟨_, rfl⟩
    obtain ⟨acc', e⟩ := this
    rw [e]
    exact ih (fun u hu => h u (by simp [hu]))

/-- A cleaned path with a name in it ends in that name. -/
theorem inside_clean {p : Bytes} (hp : NoUp p) (hn : namesIn p ≠ []) : Inside (cleanPath p) := by
  have h1 : namesIn (cleanPath p) = namesIn p := names_clean hp
  have hk := kept_cleanComps p
  have hc : cleanComps p ≠ [] := by
    intro e
    unfold cleanPath at h1
    rw [e] at h1
    apply hn
    rw [← h1]
    unfold renderPath
    cases rootedPath p <;> decide
  have hup := clean_no_dotdot hp
  unfold Inside
  -- the last component is a name
  have hlast : ∀ b, b ∈ cleanComps p → namesIn b = [b] := by
    intro b hb
    obtain ⟨k1, k2, k3⟩ := hk b hb
    unfold namesIn
    rw [splitSlash_noslash k3]
    simp [k1, k2]
  have hsplit : splitSlash (cleanPath p) = (if rootedPath p then [[]] else []) ++ cleanComps p := by
    unfold cleanPath renderPath
    cases rootedPath p with
    | true => simp only [if_true]; rw [splitSlash_cons, splitSlash_join (fun c h => (hk c h).2.2) hc]; rfl
    | false =>
      simp only [Bool.false_eq_true, if_false]
      rw [if_neg hc, splitSlash_join (fun c h => (hk c h).2.2) hc]; rfl
  have hlastmem : ∀ l b, splitSlash (cleanPath p) = l ++ [b] → b ∈ cleanComps p := by
    intro l b e
    rw [hsplit] at e
    have h2 : (cleanComps p).getLast hc = b := by
      have := congrArg List.getLast? e
      rw [List.getLast?_append, List.getLast?_eq_some_getLast hc] at this
      simpa using this
    rw [← h2]
    exact List.getLast_mem hc
  rcases dirPart_cases (cleanPath p) with ⟨hs, e⟩ | ⟨a, b, e1, hb, e⟩
  · refine ⟨cleanPath p, ?_⟩
    have hm := hlastmem [] (cleanPath p) (splitSlash_noslash hs)
    rw [hlast _ hm]
    unfold dirPath
    rw [e]
    rfl
  · refine ⟨b, ?_⟩
    have hm := hlastmem (splitSlash a) b (by rw [e1, splitSlash_append, splitSlash_noslash hb])
    unfold dirPath
    rw [e]
    have hua : dotdot ∉ splitSlash (a ++ [slash]) := by
      rw [e1, splitSlash_append] at hup
      rw [splitSlash_append]
      simp only [List.mem_append, not_or] at hup ⊢
      exact ⟨hup.1, by decide⟩
    have h3 : namesIn (cleanPath (a ++ [slash])) = namesIn (a ++ [slash]) := names_clean hua
    rw [h3]
    have h4 : ∀ x y, namesIn (x ++ slash :: y) = namesIn x ++ namesIn y := by
      intro x y
      unfold namesIn
      rw [splitSlash_append, List.filter_append]
    have h5 : namesIn (a ++ [slash]) = namesIn a := by rw [h4]; show _ ++ [] = _; simp
    rw [h5, e1, h4, hlast b hm]

end Verif.Proofs.Passcrypt
