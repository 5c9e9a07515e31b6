import Verif.Model.PasscryptWalk
import Verif.Proofs.Passcrypt
/-! Where `filepath.Walk` gets. -/

namespace Verif.Proofs.PasscryptWalk
open Verif Verif.Go Verif.Model.Passcrypt Verif.Spec.Passcrypt Verif.Proofs.FilePath

variable {acc : Access} {d : Disk} {cwd : List Bytes}

theorem names_name {n : Bytes} (h : Name n) : names (splitSlash n) = [n] := by
  rw [splitSlash_noslash h.1]
  simp [names, h.2.1, h.2.2.1]

theorem name_noUp {n : Bytes} (h : Name n) : NoUp n := by
  unfold NoUp
  rw [splitSlash_noslash h.1]
  simpa using fun e => h.2.2.2 e.symm

theorem join_ne (path n : Bytes) (h : path ≠ []) : joinPath path n ≠ [] := by
  unfold joinPath
  rw [if_neg h]
  split <;> exact clean_ne_nil _

theorem resolve_name {path n : Bytes} (hp : path ≠ []) (h : Name n) :
    resolvePath cwd (joinPath path n) = resolvePath cwd path ++ [n] := by
  rw [resolve_join_below cwd hp (name_noUp h), names_name h]

theorem join_name {path n : Bytes} (hp : path ≠ []) (h : Name n) : joinPath path n = cleanPath (path ++ slash :: n) := by
  unfold joinPath
  rw [if_neg hp, if_neg h.2.1]

theorem rooted_join {path n : Bytes} (hp : path ≠ []) (h : Name n) : rootedPath (joinPath path n) = rootedPath path := by
  rw [join_name hp h, rooted_clean]
  obtain ⟨x, r, rfl⟩ := List.exists_cons_of_ne_nil hp
  rfl

theorem noUp_join {path n : Bytes} (hp : path ≠ []) (h : Name n) (hu : NoUp path) :
    NoUp (joinPath path n) ∧ namesIn (joinPath path n) = namesIn path ++ [n] := by
  have h1 : dotdot ∉ splitSlash (path ++ slash :: n) := by
    rw [splitSlash_append, List.mem_append, not_or]
    exact ⟨hu, name_noUp h⟩
  rw [join_name hp h]
  refine ⟨clean_no_dotdot h1, ?_⟩
  show names (splitSlash (cleanPath _)) = _
  rw [names_clean h1, splitSlash_append, names_append, names_name h]
  rfl

/-- The visit is to what lies at `ks` below `path`, as it is on the disk. -/
structure Reached (acc : Access) (d : Disk) (cwd : List Bytes) (path : Bytes) (ks : List Bytes) (v : Visit) : Prop where
  ne : v.path ≠ []
  place : resolvePath cwd v.path = resolvePath cwd path ++ ks
  rooted : rootedPath v.path = rootedPath path
  noUp : NoUp path → NoUp v.path
  names : NoUp path → namesIn v.path = namesIn path ++ ks
  info : ∀ m, v.info = some m → lstat acc d cwd v.path = some m
  readable : v.readable = acc.read (resolvePath cwd v.path)

theorem Reached.refl {path : Bytes} (h : path ≠ []) {info : Option (BitVec 32)} (hi : ∀ m, info = some m → lstat acc d cwd path = some m)
    (err : Bool) : Reached acc d cwd path [] (visit acc cwd path info err) :=
  ⟨h, by simp [visit], rfl, id, by simp [visit], hi, rfl⟩

theorem Reached.below {path n : Bytes} {ks : List Bytes} {v : Visit} (hp : path ≠ []) (hn : Name n)
    (h : Reached acc d cwd (joinPath path n) ks v) : Reached acc d cwd path (n :: ks) v := by
  refine ⟨h.ne, ?_, by rw [h.rooted, rooted_join hp hn], fun hu => h.noUp (noUp_join hp hn hu).1, fun hu => ?_, h.info, h.readable⟩
  · rw [h.place, resolve_name hp hn, List.append_assoc]; rfl
  · rw [h.names (noUp_join hp hn hu).1, (noUp_join hp hn hu).2, List.append_assoc]; rfl

/-- What a turn of the loop of `walk` yields. -/
def Turn (acc : Access) (d : Disk) (cwd : List Bytes) (W : Bytes → BitVec 32 → Option (List Visit)) (path n : Bytes)
    (b : List Visit) : Prop :=
  (lstat acc d cwd (joinPath path n) = none ∧ b = [visit acc cwd (joinPath path n) none true]) ∨
  ∃ mode, lstat acc d cwd (joinPath path n) = some mode ∧ W (joinPath path n) mode = some b

theorem walkNames_cons {W : Bytes → BitVec 32 → Option (List Visit)} {path n : Bytes} {ns : List Bytes} {vs : List Visit}
    (h : walkNames acc d cwd W path (n :: ns) = some vs) :
    ∃ a b, vs = a ++ b ∧ Turn acc d cwd W path n a ∧ walkNames acc d cwd W path ns = some b := by
  rw [walkNames] at h
  cases hl : lstat acc d cwd (joinPath path n) with
  | none =>
    rw [hl] at h
    dsimp only at h
    cases hb : walkNames acc d cwd W path ns with
    | none => rw [hb] at h; cases h
    | some b =>
      rw [hb] at h
      simp only [Option.some.injEq] at h
      exact ⟨_, b, h.symm, .inl ⟨hl, rfl⟩, rfl⟩
  | some mode =>
    rw [hl] at h
    dsimp only at h
    cases ha : W (joinPath path n) mode with
    | none => rw [ha] at h; cases h
    | some a =>
      rw [ha] at h
      cases hb : walkNames acc d cwd W path ns with
      | none => rw [hb] at h; cases h
      | some b =>
        rw [hb] at h
        simp only [Option.some.injEq] at h
        exact ⟨a, b, h.symm, .inr ⟨mode, hl, ha⟩, rfl⟩

theorem walkNames_mem {W : Bytes → BitVec 32 → Option (List Visit)} {path : Bytes} {ns : List Bytes} {vs : List Visit}
    (h : walkNames acc d cwd W path ns = some vs) :
    (∀ v ∈ vs, ∃ n ∈ ns, ∃ b, Turn acc d cwd W path n b ∧ v ∈ b) ∧ ∀ n ∈ ns, ∃ b, Turn acc d cwd W path n b ∧ ∀ v ∈ b, v ∈ vs := by
  induction ns generalizing vs with
  | nil =>
    simp only [walkNames, Option.some.injEq] at h
    subst h
    simp
  | cons n ns ih =>
    obtain ⟨a, b, rfl, ht, hb⟩ := walkNames_cons h
    obtain ⟨i1, i2⟩ := ih hb
    constructor
    · intro v hv
      rcases List.mem_append.mp hv with hv | hv
      · exact ⟨n, by simp, a, ht, hv⟩
      · obtain ⟨n', hn', r⟩ := i1 v hv
        exact ⟨n', by simp [hn'], r⟩
    · intro n' hn'
      rcases List.mem_cons.mp hn' with rfl | hn'
      · exact ⟨a, ht, fun v hv => by simp [hv]⟩
      · obtain ⟨b', t, hm⟩ := i2 n' hn'
        exact ⟨b', t, fun v hv => by simp [hm v hv]⟩

/-- The two ways a walk can go: one visit only, or into a directory. -/
theorem walk_cases {fuel : Nat} {path : Bytes} {mode : BitVec 32} {vs : List Visit} (h : walk acc d cwd fuel path mode = some vs) :
    ∃ k, fuel = k + 1 ∧ ∃ err, ((isDir mode = false ∨ acc.list (resolvePath cwd path) = none) ∧
        vs = [visit acc cwd path (some mode) err]) ∨
      (isDir mode = true ∧ ∃ ns b, acc.list (resolvePath cwd path) = some ns ∧
        walkNames acc d cwd (walk acc d cwd k) path ns = some b ∧ vs = visit acc cwd path (some mode) err :: b) := by
  cases fuel with
  | zero => cases h
  | succ k =>
    refine ⟨k, rfl, ?_⟩
    rw [walk] at h
    by_cases hd : isDir mode = true
    · rw [if_neg (by simp [hd])] at h
      cases hl : acc.list (resolvePath cwd path) with
      | none =>
        rw [hl] at h
        simp only [Option.some.injEq] at h
        exact ⟨true, .inl ⟨.inr rfl, h.symm⟩⟩
      | some ns =>
        rw [hl] at h
        simp only [Option.map_eq_some_iff] at h
        obtain ⟨b, hb, e⟩ := h
        exact ⟨false, .inr ⟨hd, ns, b, rfl, hb, e.symm⟩⟩
    · rw [if_pos (by simp [hd])] at h
      simp only [Option.some.injEq] at h
      exact ⟨false, .inl ⟨.inl (by simpa using hd), h.symm⟩⟩

theorem walk_head {fuel : Nat} {path : Bytes} {mode : BitVec 32} {vs : List Visit} (h : walk acc d cwd fuel path mode = some vs) :
    ∃ err, visit acc cwd path (some mode) err ∈ vs := by
  obtain ⟨k, -, err, ⟨-, e⟩ | ⟨-, ns, b, -, -, e⟩⟩ := walk_cases h <;> exact ⟨err, by simp [e]⟩

section
variable (ht : Tree d) (hl : Lists acc.list d)
include ht hl

theorem walk_reached {fuel : Nat} {path : Bytes} {mode : BitVec 32} {vs : List Visit} (hp : path ≠ [])
    (hm : lstat acc d cwd path = some mode) (h : walk acc d cwd fuel path mode = some vs) :
    ∀ v ∈ vs, ∃ ks, Reached acc d cwd path ks v := by
  induction fuel generalizing path mode vs with
  | zero => cases h
  | succ k ih =>
    have hr := fun err => Reached.refl (acc := acc) (d := d) (cwd := cwd) hp (info := some mode)
      (fun m e => by rw [hm, Option.some.inj e]) err
    obtain ⟨k', hk, err, ⟨-, rfl⟩ | ⟨-, ns, b, h1, h2, rfl⟩⟩ := walk_cases h
    · intro v hv
      rw [List.mem_singleton] at hv
      subst hv
      exact ⟨[], hr err⟩
    · simp only [Nat.add_right_cancel_iff] at hk
      subst hk
      intro v hv
      rcases List.mem_cons.mp hv with rfl | hv
      · exact ⟨[], hr err⟩
      · obtain ⟨n, hn, b', hT, hv⟩ := (walkNames_mem h2).1 v hv
        have hN : Name n := (ht _ n (((hl _ ns h1).2 n).mp hn)).1
        rcases hT with ⟨-, rfl⟩ | ⟨mode', e1, e2⟩
        · rw [List.mem_singleton] at hv
          subst hv
          exact ⟨_, Reached.below hp hN (Reached.refl (join_ne _ _ hp) (by simp) true)⟩
        · obtain ⟨ks, hks⟩ := ih (join_ne _ _ hp) e1 e2 v hv
          exact ⟨_, Reached.below hp hN hks⟩

/-- No place is visited twice. -/
theorem walk_apart {fuel : Nat} {path : Bytes} {mode : BitVec 32} {vs : List Visit} (hp : path ≠ [])
    (hm : lstat acc d cwd path = some mode) (h : walk acc d cwd fuel path mode = some vs) :
    vs.Pairwise (fun u v => resolvePath cwd u.path ≠ resolvePath cwd v.path) := by
  induction fuel generalizing path mode vs with
  | zero => cases h
  | succ k ih =>
    obtain ⟨k', hk, err, ⟨-, rfl⟩ | ⟨-, ns, b, h1, h2, rfl⟩⟩ := walk_cases h
    · exact List.pairwise_singleton _ _
    · simp only [Nat.add_right_cancel_iff] at hk
      subst hk
      have hN : ∀ n ∈ ns, Name n := fun n hn => (ht _ n (((hl _ ns h1).2 n).mp hn)).1
      have hturn : ∀ n ∈ ns, ∀ b, Turn acc d cwd (walk acc d cwd k) path n b → ∀ v ∈ b,
          ∃ ks, resolvePath cwd v.path = resolvePath cwd path ++ n :: ks := by
        intro n hn b hT v hv
        rcases hT with ⟨-, rfl⟩ | ⟨mode', e1, e2⟩
        · rw [List.mem_singleton] at hv
          subst hv
          exact ⟨[], resolve_name hp (hN n hn)⟩
        · obtain ⟨ks, hks⟩ := walk_reached ht hl (join_ne _ _ hp) e1 e2 v hv
          exact ⟨ks, (hks.below hp (hN n hn)).place⟩
      rw [List.pairwise_cons]
      constructor
      · intro v hv e
        obtain ⟨n, hn, b', hT, hv⟩ := (walkNames_mem h2).1 v hv
        obtain ⟨ks, hks⟩ := hturn n hn b' hT v hv
        rw [hks] at e
        have := congrArg List.length e
        simp [visit] at this
      · have hnd := (hl _ ns h1).1
        clear h1 h hm
        induction ns generalizing b with
        | nil =>
          simp only [walkNames, Option.some.injEq] at h2
          subst h2
          exact List.Pairwise.nil
        | cons n ns ihn =>
          obtain ⟨a, b', rfl, hT, hb'⟩ := walkNames_cons h2
          rw [List.nodup_cons] at hnd
          rw [List.pairwise_append]
          refine ⟨?_, ihn b' hb' (fun x hx => hN x (by simp [hx])) (fun x hx => hturn x (by simp [hx])) hnd.2, ?_⟩
          · rcases hT with ⟨-, rfl⟩ | ⟨mode', e1, e2⟩
            · exact List.pairwise_singleton _ _
            · exact ih (join_ne _ _ hp) e1 e2
          · intro u hu v hv e
            obtain ⟨ks, hks⟩ := hturn n (by simp) a hT u hu
            obtain ⟨n', hn', b'', hT', hv⟩ := (walkNames_mem hb').1 v hv
            obtain ⟨ks', hks'⟩ := hturn n' (by simp [hn']) b'' hT' v hv
            rw [hks, hks', List.append_cancel_left_eq, List.cons.injEq] at e
            exact hnd.1 (e.1 ▸ hn')

end

/-- What is on the disk is in directories. -/
theorem tree_above (ht : Tree d) {p : List Bytes} {k : Bytes} {ks : List Bytes} (h : d.get (p ++ k :: ks) ≠ none) :
    (∃ m, d.get p = some (.dir m)) ∧ d (p ++ [k]) ≠ none := by
  have hget : ∀ (p : List Bytes) x, d.get (p ++ [x]) = d (p ++ [x]) := fun p x => by
    unfold Disk.get; rw [if_neg (by simp)]
  induction hn : ks.length generalizing ks with
  | zero =>
    rw [List.length_eq_zero_iff] at hn
    subst hn
    rw [hget] at h
    exact ⟨(ht p k h).2, h⟩
  | succ n ih =>
    rcases List.eq_nil_or_concat ks with rfl | ⟨ks', x, rfl⟩
    · cases hn
    · have e : p ++ k :: (ks'.concat x) = (p ++ k :: ks') ++ [x] := by simp
      rw [e, hget] at h
      obtain ⟨m, hm⟩ := (ht _ x h).2
      exact ih (ks := ks') (by simp [hm]) (by simpa using hn)

theorem tree_file (ht : Tree d) {p ks : List Bytes} {m : BitVec 32} {c : Bytes} (h : d.get p = some (.file m c))
    (hk : d.get (p ++ ks) ≠ none) : ks = [] := by
  cases ks with
  | nil => rfl
  | cons k ks =>
    obtain ⟨⟨m', e⟩, -⟩ := tree_above ht hk
    rw [h] at e
    cases e

theorem isDir_or (m : BitVec 32) : isDir (modeDir ||| m) = true := by
  unfold isDir modeDir
  rw [bne_iff_ne]
  intro e
  have := congrArg (fun x => x.getLsbD 31) e
  simp at this

/-- What `os.Lstat` found. -/
theorem lstat_some {path : Bytes} {mode : BitVec 32} (h : lstat acc d cwd path = some mode) :
    path ≠ [] ∧ ((∃ c, d.get (resolvePath cwd path) = some (.file mode c)) ∨
      ∃ m, d.get (resolvePath cwd path) = some (.dir m) ∧ mode = modeDir ||| m) := by
  unfold lstat at h
  split at h
  · cases h
  · rename_i hc
    rw [not_or] at hc
    refine ⟨hc.1, ?_⟩
    rw [Option.map_eq_some_iff] at h
    obtain ⟨n, h1, h2⟩ := h
    cases n with
    | file m c => left; exact ⟨c, by rw [h1, ← h2]⟩
    | dir m => right; exact ⟨m, h1, h2.symm⟩

theorem walk_place (ht : Tree d) (hl : Lists acc.list d) {fuel : Nat} {path : Bytes} {mode : BitVec 32} {vs : List Visit} (hp : path ≠ [])
    (hm : lstat acc d cwd path = some mode) (h : walk acc d cwd fuel path mode = some vs)
    (hread : ∀ q, resolvePath cwd path <+: q → (∃ m, d.get q = some (.dir m)) → acc.list q ≠ none)
    (hinfo : ∀ v ∈ vs, v.info ≠ none) (ks : List Bytes) (hk : d.get (resolvePath cwd path ++ ks) ≠ none) :
    ∃ v ∈ vs, resolvePath cwd v.path = resolvePath cwd path ++ ks := by
  induction fuel generalizing path mode vs ks with
  | zero => cases h
  | succ k ih =>
    cases ks with
    | nil =>
      obtain ⟨err, hv⟩ := walk_head h
      exact ⟨_, hv, by simp [visit]⟩
    | cons n ks =>
      obtain ⟨⟨m, hdir⟩, hn⟩ := tree_above ht hk
      have hmode : isDir mode = true := by
        rcases (lstat_some hm).2 with ⟨c, e⟩ | ⟨m', -, e⟩
        · rw [hdir] at e; cases e
        · rw [e]; exact isDir_or m'
      obtain ⟨k', hk', err, ⟨h0, -⟩ | ⟨-, ns, b, h1, h2, rfl⟩⟩ := walk_cases h
      · rcases h0 with h0 | h0
        · rw [hmode] at h0; cases h0
        · exact absurd h0 (hread _ (List.prefix_refl _) ⟨m, hdir⟩)
      · simp only [Nat.add_right_cancel_iff] at hk'
        subst hk'
        have hmem : n ∈ ns := ((hl _ ns h1).2 n).mpr hn
        have hN : Name n := (ht _ n hn).1
        obtain ⟨b', hT, hsub⟩ := (walkNames_mem h2).2 n hmem
        have hres := resolve_name (cwd := cwd) hp hN
        rcases hT with ⟨-, rfl⟩ | ⟨mode', e1, e2⟩
        · exact absurd rfl (hinfo _ (List.mem_cons_of_mem _ (hsub _ (List.mem_singleton_self _))))
        · obtain ⟨v, hv, e⟩ := ih (join_ne _ _ hp) e1 e2
            (fun q hq => hread q (by rw [hres] at hq; exact (List.prefix_append _ _).trans hq))
            (fun v hv => hinfo v (List.mem_cons_of_mem _ (hsub v hv))) ks
            (by rw [hres, List.append_assoc]; exact hk)
          refine ⟨v, List.mem_cons_of_mem _ (hsub v hv), ?_⟩
          rw [e, hres, List.append_assoc]
          rfl

theorem walkNames_total {W : Bytes → BitVec 32 → Option (List Visit)} {path : Bytes} {ns : List Bytes}
    (h : ∀ n ∈ ns, ∀ mode, lstat acc d cwd (joinPath path n) = some mode → W (joinPath path n) mode ≠ none) :
    walkNames acc d cwd W path ns ≠ none := by
  induction ns with
  | nil => simp [walkNames]
  | cons n ns ih =>
    obtain ⟨b, hb⟩ := Option.ne_none_iff_exists'.mp (ih (fun x hx => h x (by simp [hx])))
    rw [walkNames, hb]
    cases hl : lstat acc d cwd (joinPath path n) with
    | none => simp
    | some mode =>
      obtain ⟨a, ha⟩ := Option.ne_none_iff_exists'.mp (h n (by simp) mode hl)
      simp [ha]

/-- A walk ends if the tree is not endlessly deep. -/
theorem walk_total (ht : Tree d) (hl : Lists acc.list d) {N fuel : Nat} (hN : ∀ q, d.get q ≠ none → q.length ≤ N) {path : Bytes}
    {mode : BitVec 32} (hp : path ≠ []) (hm : lstat acc d cwd path = some mode) (hf : N < (resolvePath cwd path).length + fuel) :
    walk acc d cwd fuel path mode ≠ none := by
  induction fuel generalizing path mode with
  | zero =>
    have : d.get (resolvePath cwd path) ≠ none := by
      rcases (lstat_some hm).2 with ⟨c, e⟩ | ⟨m, e, -⟩ <;> simp [e]
    have := hN _ this
    omega
  | succ k ih =>
    rw [walk]
    split
    · simp
    · cases h1 : acc.list (resolvePath cwd path) with
      | none => simp
      | some ns =>
        simp only [ne_eq, Option.map_eq_none_iff]
        refine walkNames_total (fun n hn mode' e => ih (join_ne _ _ hp) e ?_)
        have hNn : Name n := (ht _ n (((hl _ ns h1).2 n).mp hn)).1
        rw [resolve_name hp hNn]
        simp
        omega

/-! ### All arguments -/

theorem walkRoot_some {fuel : Nat} {root : Bytes} {vs : List Visit}
    (h : walkRoot acc d cwd fuel root = some vs) (hi : ∀ v ∈ vs, v.info ≠ none) :
    ∃ mode, lstat acc d cwd root = some mode ∧ walk acc d cwd fuel root mode = some vs := by
  unfold walkRoot at h
  cases hm : lstat acc d cwd root with
  | none =>
    rw [hm] at h
    simp only [Option.some.injEq] at h
    subst h
    exact absurd rfl (hi _ (List.mem_singleton_self _))
  | some mode => rw [hm] at h; exact ⟨mode, rfl, h⟩

theorem walkArgs_cons {fuel : Nat} {a : Bytes} {as : List Bytes} {vs : List Visit} (h : walkArgs acc d cwd fuel (a :: as) = some vs) :
    ∃ v b, walkRoot acc d cwd fuel a = some v ∧ walkArgs acc d cwd fuel as = some b ∧ vs = v ++ b := by
  rw [walkArgs] at h
  cases h1 : walkRoot acc d cwd fuel a with
  | none => rw [h1] at h; cases h
  | some v =>
    cases h2 : walkArgs acc d cwd fuel as with
    | none => rw [h1, h2] at h; cases h
    | some b =>
      rw [h1, h2] at h
      simp only [Option.some.injEq] at h
      exact ⟨v, b, rfl, rfl, h.symm⟩

/-- Every call belongs to an argument, and every argument has its calls. -/
theorem walkArgs_mem {fuel : Nat} {args : List Bytes} {vs : List Visit} (h : walkArgs acc d cwd fuel args = some vs) :
    (∀ v ∈ vs, ∃ a ∈ args, ∃ b, walkRoot acc d cwd fuel a = some b ∧ v ∈ b) ∧
    ∀ a ∈ args, ∃ b, walkRoot acc d cwd fuel a = some b ∧ ∀ v ∈ b, v ∈ vs := by
  induction args generalizing vs with
  | nil =>
    simp only [walkArgs, Option.some.injEq] at h
    subst h
    simp
  | cons a as ih =>
    obtain ⟨v, b, h1, h2, rfl⟩ := walkArgs_cons h
    obtain ⟨i1, i2⟩ := ih h2
    constructor
    · intro u hu
      rcases List.mem_append.mp hu with hu | hu
      · exact ⟨a, by simp, v, h1, hu⟩
      · obtain ⟨a', ha', r⟩ := i1 u hu
        exact ⟨a', by simp [ha'], r⟩
    · intro a' ha'
      rcases List.mem_cons.mp ha' with rfl | ha'
      · exact ⟨v, h1, fun u hu => by simp [hu]⟩
      · obtain ⟨b', e, hs⟩ := i2 a' ha'
        exact ⟨b', e, fun u hu => by simp [hs u hu]⟩

theorem walkArgs_total (ht : Tree d) (hl : Lists acc.list d) {N : Nat} (hN : ∀ q, d.get q ≠ none → q.length ≤ N) (args : List Bytes) :
    walkArgs acc d cwd (N + 1) args ≠ none := by
  induction args with
  | nil => simp [walkArgs]
  | cons a as ih =>
    obtain ⟨b, hb⟩ := Option.ne_none_iff_exists'.mp ih
    have : walkRoot acc d cwd (N + 1) a ≠ none := by
      unfold walkRoot
      cases hm : lstat acc d cwd a with
      | none => simp
      | some mode => exact walk_total ht hl hN (lstat_some hm).1 hm (by omega)
    obtain ⟨v, hv⟩ := Option.ne_none_iff_exists'.mp this
    rw [walkArgs, hb, hv]
    simp

end Verif.Proofs.PasscryptWalk
