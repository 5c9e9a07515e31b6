import Verif.Model.PasscryptOutput
import Verif.Spec.PasscryptOutput
import Verif.Proofs.Passcrypt
/-! Lemmas for the properties of what cmd/passcrypt prints. -/

namespace Verif.Proofs.PasscryptOutput
open Verif Verif.Go Verif.Model.Passcrypt Verif.Model.PasscryptOutput Verif.Spec.PasscryptOutput
  Verif.Spec.SecretsOutput Verif.Proofs.Passcrypt Verif.Proofs.FilePath

variable (C : Crypto) (P : Pem) (A : FilesAsn1) (Z : Gzip)

theorem isDir_bit (m : BitVec 32) : isDir m = m.getLsbD 31 := by
  unfold isDir modeDir
  rw [show (0x80000000 : BitVec 32) = BitVec.twoPow 32 31 from rfl, BitVec.and_twoPow]
  cases m.getLsbD 31 <;> decide

theorem directory_eq (g : File) : isDir (g.mode.setWidth 32) = directory g := by
  rw [isDir_bit, directory, BitVec.getLsbD_setWidth]
  simp

theorem directory_isDir (g : File) : File.IsDir g = directory g := directory_eq g

theorem manifest_eq (arg : Bytes) (files : List File) : manifestText arg files = listing arg (files.map nameOf) := by
  unfold manifestText listing indented
  rw [List.map_map, List.map_map, List.flatMap_def]
  have : ∀ g : File, 9 :: g.path ++ (if isDir (g.mode.setWidth 32) then ascii "/" else []) ++ [10] =
      line (ascii "\t" ++ shown (nameOf g).1 (nameOf g).2) := by
    intro g
    rw [directory_eq]
    unfold shown nameOf line
    cases directory g <;> simp [ascii]
  rw [show (fun g : File => 9 :: g.path ++ (if isDir (g.mode.setWidth 32) then ascii "/" else []) ++ [10]) =
    (fun s => line (ascii "\t" ++ s)) ∘ (fun x => shown x.1 x.2) ∘ nameOf from funext this]
  simp [line, ascii, Function.comp_def]

theorem entryText_eq (verbose : Bool) (g : File) : entryText verbose g = unpacking verbose (nameOf g) := by
  unfold entryText unpacking line nameOf
  rw [directory_eq]
  simp [ascii]

/-- Whether a visit is packed does not depend on what was packed before. -/
theorem packVisit_isSome (d : Disk) (cwd : List Bytes) (acc acc' : List File) (v : Visit) :
    (packVisit Z d cwd acc v).isSome = (packVisit Z d cwd acc' v).isSome := by
  unfold packVisit
  cases v.info with
  | none => rfl
  | some mode =>
    simp only
    split
    · rfl
    · split
      · rfl
      · split
        · rfl
        · split <;> rfl

theorem packText_some {d : Disk} {cwd : List Bytes} {verbose : Bool} {acc files : List File} {vs : List Visit}
    (h : packVisits Z d cwd acc vs = some files) : packText Z verbose d cwd vs = (vs.map (packVisitText verbose)).flatten := by
  induction vs generalizing acc with
  | nil => rfl
  | cons v vs ih =>
    rw [packVisits] at h
    cases hv : packVisit Z d cwd acc v with
    | none => rw [hv] at h; simp at h
    | some acc' =>
      rw [hv] at h
      rw [packText, packVisit_isSome Z d cwd [] acc v, hv]
      simp only [Option.isSome_some, if_true, List.map_cons, List.flatten_cons]
      rw [ih h]

/-- Packing that fails stops at a visit. -/
theorem packText_none {d : Disk} {cwd : List Bytes} {verbose : Bool} {acc : List File} {vs : List Visit}
    (h : packVisits Z d cwd acc vs = none) :
    ∃ pre v post files, vs = pre ++ v :: post ∧ packVisits Z d cwd acc pre = some files ∧ packVisit Z d cwd files v = none ∧
      packText Z verbose d cwd vs = ((pre ++ [v]).map (packVisitText verbose)).flatten := by
  induction vs generalizing acc with
  | nil => simp [packVisits] at h
  | cons v vs ih =>
    rw [packVisits] at h
    rw [packText, packVisit_isSome Z d cwd [] acc v]
    cases hv : packVisit Z d cwd acc v with
    | none => exact ⟨[], v, vs, acc, rfl, rfl, hv, by simp⟩
    | some acc' =>
      rw [hv] at h
      obtain ⟨pre, u, post, files, e1, e2, e3, e4⟩ := ih h
      refine ⟨v :: pre, u, post, files, by rw [e1]; rfl, by rw [packVisits, hv]; exact e2, e3, ?_⟩
      simp only [Option.isSome_some, if_true]
      rw [e4]
      simp

theorem unpackText_ok {cwd : List Bytes} {top : Bytes} {verbose : Bool} {s : DiskState} {files : List File}
    (h : (unpackLoop Z cwd top s files).2 = true) :
    unpackText Z verbose cwd top s files = (files.map (fun g => unpacking verbose (nameOf g))).flatten := by
  induction files generalizing s with
  | nil => rfl
  | cons g l ih =>
    rw [unpackLoop] at h
    rw [unpackText, entryText_eq, List.map_cons, List.flatten_cons]
    rcases he : unpackEntry Z s cwd g top with ⟨s', ok⟩
    rw [he] at h
    cases ok with
    | false => simp at h
    | true =>
      simp only at h ⊢
      rw [ih h]

theorem unpackText_stops {cwd : List Bytes} {top : Bytes} {verbose : Bool} {s : DiskState} {files : List File}
    (h : (unpackLoop Z cwd top s files).2 = false) :
    ∃ pre g post, files = pre ++ g :: post ∧ (unpackLoop Z cwd top s pre).2 = true ∧
      unpackEntry Z (unpackLoop Z cwd top s pre).1 cwd g top = ((unpackLoop Z cwd top s files).1, false) ∧
      unpackText Z verbose cwd top s files = ((pre ++ [g]).map (fun g => unpacking verbose (nameOf g))).flatten := by
  induction files generalizing s with
  | nil => simp [unpackLoop] at h
  | cons g l ih =>
    rw [unpackLoop] at h ⊢
    rw [unpackText, entryText_eq]
    rcases he : unpackEntry Z s cwd g top with ⟨s', ok⟩
    rw [he] at h
    cases ok with
    | false => exact ⟨[], g, l, rfl, rfl, by rw [unpackLoop, he], by simp⟩
    | true =>
      simp only at h ⊢
      obtain ⟨pre, k, post, e1, e2, e3, e4⟩ := ih h
      have hl : unpackLoop Z cwd top s (g :: pre) = unpackLoop Z cwd top s' pre := by rw [unpackLoop, he]
      refine ⟨g :: pre, k, post, by rw [e1]; rfl, by rw [hl]; exact e2, by rw [hl]; exact e3, ?_⟩
      rw [e4]
      simp

/-! ### Contents make no difference -/

section
variable {d d' : Disk} (h : SameShape d d')
include h

theorem get_shape (p : List Bytes) : (d.get p).map shape = (d'.get p).map shape := by
  unfold Disk.get
  split
  · rfl
  · exact h p

theorem shape_cases (p : List Bytes) : (d.get p = none ∧ d'.get p = none) ∨
    (∃ m, d.get p = some (.dir m) ∧ d'.get p = some (.dir m)) ∨
    ∃ m b b', d.get p = some (.file m b) ∧ d'.get p = some (.file m b') := by
  have := get_shape h p
  revert this
  generalize d.get p = x
  generalize d'.get p = y
  intro this
  cases x <;> cases y
  · exact .inl ⟨rfl, rfl⟩
  · simp at this
  · simp at this
  · rename_i a b
    cases a <;> cases b <;> simp only [shape, Option.map_some, Option.some.injEq, Prod.mk.injEq, Bool.true_eq_false,
      Bool.false_eq_true, false_and, true_and] at this <;> subst this
    · exact .inr (.inr ⟨_, _, _, rfl, rfl⟩)
    · exact .inr (.inl ⟨_, rfl, rfl⟩)

theorem set_shape {p : List Bytes} {n n' : Node} (hn : shape n = shape n') : SameShape (d.set p n) (d'.set p n') := by
  intro q
  unfold Disk.set
  split
  · simp [hn]
  · exact h q

theorem behindFile_shape (p : List Bytes) : d.behindFile p = d'.behindFile p := by
  unfold Disk.behindFile
  congr 1
  funext n
  rcases shape_cases h (p.take n) with ⟨h1, h2⟩ | ⟨m, h1, h2⟩ | ⟨m, b, b', h1, h2⟩ <;> rw [h1, h2]

theorem stat_shape (cwd : List Bytes) (path : Bytes) : (d.stat cwd path = .notExist) ↔ (d'.stat cwd path = .notExist) := by
  unfold Disk.stat
  split
  · rfl
  · have := get_shape h (resolvePath cwd path)
    cases h1 : d.get (resolvePath cwd path) <;> cases h2 : d'.get (resolvePath cwd path) <;> rw [h1, h2] at this
    · simp only [behindFile_shape h]
    · simp at this
    · simp at this
    · simp

theorem mkdirs_shape (perm : BitVec 32) (limit : Option Nat) (pre rest : List Bytes) :
    SameShape (Disk.mkdirs perm limit d pre rest).1 (Disk.mkdirs perm limit d' pre rest).1 ∧
      (Disk.mkdirs perm limit d pre rest).2 = (Disk.mkdirs perm limit d' pre rest).2 := by
  induction rest generalizing d d' limit pre with
  | nil => exact ⟨h, rfl⟩
  | cons c cs ih =>
    have := h (pre ++ [c])
    unfold Disk.mkdirs
    cases h1 : d (pre ++ [c]) <;> cases h2 : d' (pre ++ [c]) <;> rw [h1, h2] at this
    · simp only
      split
      · exact ⟨h, rfl⟩
      · exact ih (set_shape h rfl) _ _
    · simp at this
    · simp at this
    · rename_i a b
      cases a <;> cases b <;> simp only [shape, Option.map_some, Option.some.injEq, Prod.mk.injEq, Bool.true_eq_false,
        Bool.false_eq_true, false_and] at this
      · exact ⟨h, rfl⟩
      · exact ih h _ _

theorem mkdirAll_shape (o : WriteOutcome) (cwd : List Bytes) (path : Bytes) (perm : BitVec 32) :
    SameShape (d.mkdirAll o cwd path perm).1 (d'.mkdirAll o cwd path perm).1 ∧
      (d.mkdirAll o cwd path perm).2 = (d'.mkdirAll o cwd path perm).2 := by
  unfold Disk.mkdirAll
  split
  · exact ⟨h, rfl⟩
  · cases o <;> exact mkdirs_shape h _ _ _ _

theorem openCreate_shape (p : List Bytes) (mode : BitVec 32) :
    (d.openCreate p mode).map Prod.fst = (d'.openCreate p mode).map Prod.fst := by
  unfold Disk.openCreate
  rcases shape_cases h p with ⟨h1, h2⟩ | ⟨m, h1, h2⟩ | ⟨m, b, b', h1, h2⟩ <;> rw [h1, h2]
  · simp only
    rcases shape_cases h p.dropLast with ⟨h3, h4⟩ | ⟨m, h3, h4⟩ | ⟨m, b, b', h3, h4⟩ <;> rw [h3, h4]
  · rfl

theorem writeAt_shape (o : WriteOutcome) (trunc : Bool) (cwd : List Bytes) (path : Bytes) (mode : BitVec 32) (x x' : Bytes) :
    SameShape (d.writeAt o trunc cwd path mode x).1 (d'.writeAt o trunc cwd path mode x').1 ∧
      (d.writeAt o trunc cwd path mode x).2 = (d'.writeAt o trunc cwd path mode x').2 := by
  unfold Disk.writeAt
  split
  · exact ⟨h, rfl⟩
  · simp only
    have := openCreate_shape h (resolvePath cwd path) mode
    cases h1 : d.openCreate (resolvePath cwd path) mode <;> cases h2 : d'.openCreate (resolvePath cwd path) mode <;>
      rw [h1, h2] at this
    · exact ⟨h, rfl⟩
    · simp at this
    · simp at this
    · rename_i a b
      simp only [Option.map_some, Option.some.injEq] at this
      obtain ⟨m, b⟩ := b
      obtain ⟨m', a⟩ := a
      simp only at this
      subst this
      cases o
      · exact ⟨set_shape h rfl, rfl⟩
      · exact ⟨h, rfl⟩
      · exact ⟨set_shape h rfl, rfl⟩

theorem packFile_shape (cwd : List Bytes) (path : Bytes) :
    (packFile Z d cwd path).isSome = (packFile Z d' cwd path).isSome := by
  unfold packFile
  rcases shape_cases h (resolvePath cwd path) with ⟨h1, h2⟩ | ⟨m, h1, h2⟩ | ⟨m, b, b', h1, h2⟩ <;> rw [h1, h2]
  rfl

theorem packVisit_shape (cwd : List Bytes) (v : Visit) :
    (packVisit Z d cwd [] v).isSome = (packVisit Z d' cwd [] v).isSome := by
  have := packFile_shape Z h cwd v.path
  unfold packVisit
  cases v.info with
  | none => rfl
  | some mode =>
    simp only
    split
    · rfl
    · split
      · rfl
      · split
        · rfl
        · revert this
          generalize packFile Z d cwd v.path = x
          generalize packFile Z d' cwd v.path = y
          cases x <;> cases y <;> simp

theorem packText_shape (verbose : Bool) (cwd : List Bytes) (vs : List Visit) :
    packText Z verbose d cwd vs = packText Z verbose d' cwd vs := by
  induction vs with
  | nil => rfl
  | cons v vs ih => rw [packText, packText, packVisit_shape Z h, ih]

end

/-- Two states that differ at most in contents. -/
def SameState (s s' : DiskState) : Prop := SameShape s.disk s'.disk ∧ s.ops = s'.ops ∧ s.umask = s'.umask

theorem unpackEntry_shape {s s' : DiskState} (h : SameState s s') (cwd : List Bytes) {g g' : File} (top : Bytes)
    (hp : g.path = g'.path) (hm : g.mode = g'.mode) (hz : (Z.unzip g.data).map Prod.snd = (Z.unzip g'.data).map Prod.snd) :
    SameState (unpackEntry Z s cwd g top).1 (unpackEntry Z s' cwd g' top).1 ∧
      (unpackEntry Z s cwd g top).2 = (unpackEntry Z s' cwd g' top).2 := by
  obtain ⟨d, ops, u⟩ := s
  obtain ⟨d', ops', u'⟩ := s'
  obtain ⟨h, ho, hu⟩ := h
  simp only at h ho hu
  subst ho hu
  unfold unpackEntry
  rw [hm, hp]
  split
  · have := mkdirAll_shape h (ops 0) cwd (joinPath top g'.path) (DiskState.allow ⟨d, ops, u⟩ (g'.mode.setWidth 32))
    exact ⟨⟨this.1, rfl, rfl⟩, this.2⟩
  · have hdir : SameState (unpackDir ⟨d, ops, u⟩ cwd g top).1 (unpackDir ⟨d', ops, u⟩ cwd g' top).1 ∧
        (unpackDir ⟨d, ops, u⟩ cwd g top).2 = (unpackDir ⟨d', ops, u⟩ cwd g' top).2 := by
      unfold unpackDir
      rw [hp, hm]
      simp only
      by_cases hs : d.stat cwd (cleanPath (joinPath top (dirPath g'.path))) = .notExist
      · rw [if_pos hs, if_pos ((stat_shape h _ _).mp hs)]
        have := mkdirAll_shape h (ops 0) cwd (cleanPath (joinPath top (dirPath g'.path))) (DiskState.allow ⟨d, ops, u⟩ (dirPerm g'.mode))
        exact ⟨⟨this.1, rfl, rfl⟩, this.2⟩
      · rw [if_neg hs, if_neg (fun e => hs ((stat_shape h _ _).mpr e))]
        exact ⟨⟨h, rfl, rfl⟩, rfl⟩
    revert hdir
    rcases unpackDir ⟨d, ops, u⟩ cwd g top with ⟨t, ok⟩
    rcases unpackDir ⟨d', ops, u⟩ cwd g' top with ⟨t', ok'⟩
    rintro ⟨ht, hok⟩
    simp only at ht hok
    subst hok
    simp only
    split
    · exact ⟨ht, rfl⟩
    · obtain ⟨e, ops, u⟩ := t
      obtain ⟨e', ops', u'⟩ := t'
      obtain ⟨ht, ho, hu⟩ := ht
      simp only at ht ho hu
      subst ho hu
      unfold unpackFile
      cases h1 : Z.unzip g.data <;> cases h2 : Z.unzip g'.data <;> rw [h1, h2] at hz
      · exact ⟨⟨ht, rfl, rfl⟩, rfl⟩
      · simp at hz
      · simp at hz
      · rename_i a b
        simp only [Option.map_some, Option.some.injEq] at hz
        obtain ⟨x, c⟩ := a
        obtain ⟨x', c'⟩ := b
        simp only at hz
        subst hz
        have := writeAt_shape ht (ops 0) false cwd (joinPath top g'.path) (DiskState.allow ⟨e, ops, u⟩ (g'.mode.setWidth 32)) x x'
        simp only
        rw [hp, hm]
        exact ⟨⟨this.1, rfl, rfl⟩, congrArg (· && c) this.2⟩

theorem unpackText_shape {s s' : DiskState} (h : SameState s s') (verbose : Bool) (cwd : List Bytes) {l l' : List File} (top : Bytes)
    (hl : AlikeFiles Z l l') : unpackText Z verbose cwd top s l = unpackText Z verbose cwd top s' l' := by
  induction l generalizing l' s s' with
  | nil =>
    cases l' with
    | nil => rfl
    | cons g' l' => exact absurd hl (by simp [AlikeFiles])
  | cons g l ih =>
    cases l' with
    | nil => exact absurd hl (by simp [AlikeFiles])
    | cons g' l' =>
      obtain ⟨hp, hm, hz, hl⟩ := hl
      have := unpackEntry_shape Z h cwd top hp hm hz
      rw [unpackText, unpackText, show entryText verbose g = entryText verbose g' by unfold entryText; rw [hp, hm]]
      revert this
      rcases unpackEntry Z s cwd g top with ⟨t, ok⟩
      rcases unpackEntry Z s' cwd g' top with ⟨t', ok'⟩
      rintro ⟨ht, hok⟩
      simp only at ht hok
      subst hok
      cases ok with
      | false => rfl
      | true =>
        simp only
        rw [ih ht hl]

theorem makeTop_shape {s s' : DiskState} (h : SameState s s') (cwd : List Bytes) (top : Bytes) :
    SameState (makeTop s cwd top).1 (makeTop s' cwd top).1 ∧ (makeTop s cwd top).2 = (makeTop s' cwd top).2 := by
  obtain ⟨d, ops, u⟩ := s
  obtain ⟨d', ops', u'⟩ := s'
  obtain ⟨h, ho, hu⟩ := h
  simp only at h ho hu
  subst ho hu
  unfold makeTop
  simp only
  by_cases hs : d.stat cwd top = .notExist
  · rw [if_pos hs, if_pos ((stat_shape h _ _).mp hs)]
    have := mkdirAll_shape h (ops 0) cwd top (DiskState.allow ⟨d, ops, u⟩ 0o755)
    exact ⟨⟨this.1, rfl, rfl⟩, this.2⟩
  · rw [if_neg hs, if_neg (fun e => hs ((stat_shape h _ _).mpr e))]
    exact ⟨⟨h, rfl, rfl⟩, rfl⟩

theorem alike_names {l l' : List File} (h : AlikeFiles Z l l') : l.map nameOf = l'.map nameOf := by
  induction l generalizing l' with
  | nil =>
    cases l' with
    | nil => rfl
    | cons g' l' => exact absurd h (by simp [AlikeFiles])
  | cons g l ih =>
    cases l' with
    | nil => exact absurd h (by simp [AlikeFiles])
    | cons g' l' =>
      obtain ⟨hp, hm, -, hl⟩ := h
      rw [List.map_cons, List.map_cons, ih hl]
      congr 1
      unfold nameOf directory
      rw [hp, hm]

/-- A cleaned path ends in a slash only if it is the root. -/
theorem clean_last {p : Bytes} (h : (cleanPath p).getLast? = some slash) : cleanPath p = [slash] := by
  have hj : ∀ cs : List Bytes, Kept cs → cs ≠ [] → ∃ c ∈ cs, ∃ pre, joinSlash cs = pre ++ c := by
    intro cs
    induction cs with
    | nil => intro _ h; exact absurd rfl h
    | cons c cs ih =>
      intro hk _
      cases cs with
      | nil => exact ⟨c, by simp, [], by simp [joinSlash]⟩
      | cons c' cs =>
        obtain ⟨x, hx, pre, e⟩ := ih (fun y hy => hk y (by simp [hy])) (by simp)
        refine ⟨x, by simp [hx], c ++ slash :: pre, ?_⟩
        rw [joinSlash]
        · rw [e]; simp
        · simp
  have hk := kept_cleanComps p
  have hend : cleanComps p ≠ [] → ∀ pre, (pre ++ joinSlash (cleanComps p)).getLast? ≠ some slash := by
    intro hne pre e
    obtain ⟨c, hc, pre', he⟩ := hj _ hk hne
    obtain ⟨k1, -, k3⟩ := hk c hc
    rw [he, ← List.append_assoc, List.getLast?_append] at e
    obtain ⟨y, hy⟩ := Option.ne_none_iff_exists'.mp (show c.getLast? ≠ none by simpa using k1)
    rw [hy] at e
    simp only [Option.some_or, Option.some.injEq] at e
    exact k3 (e ▸ List.mem_of_getLast? hy)
  unfold cleanPath renderPath at h ⊢
  split at h
  · rename_i hr
    rw [if_pos hr]
    by_cases hne : cleanComps p = []
    · rw [hne]; rfl
    · exact absurd h (hend hne [slash])
  · rename_i hr
    rw [if_neg hr]
    split at h
    · simp [slash] at h
    · rename_i hne
      exact absurd h (hend hne [])

end Verif.Proofs.PasscryptOutput
