import Verif.Model.MeanwhileKeys
import Verif.Props.FcryptKeys
/-! C242: fcrypt and other programs that use its key store at the same time. -/

namespace Verif.Props.MeanwhileKeys
open Verif Verif.Go Verif.Model.Util Verif.Model.Public Verif.Model.KeyStore Verif.Model.Fcrypt Verif.Model.MeanwhileKeys
open Verif.Spec.Public Verif.Spec.KeyStore Verif.Spec.Fcrypt
open Verif.Proofs.Public Verif.Proofs.KeyStore Verif.Proofs.Fcrypt
open Verif.Props.KeyTrust Verif.Props.FcryptFiles Verif.Props.FcryptKeys

variable (C : Crypto) (A : Asn1) (P : Armour) (J : KeyJson)

/-- With nobody else about, it is `main`. -/
theorem alone (e : Env) (fl : Flags) (args : List Bytes) (w : World) : fcrypt C A P J id e fl args w = main C A P J e fl args w := by
  unfold fcrypt main
  cases hs : select C A P e fl with
  | none => rfl
  | some cmd =>
    dsimp only
    split
    · rfl
    · cases hf : w.fs fl.path with
      | none =>
        obtain ⟨h1, h2⟩ := load_missing C A P J hf
        by_cases hr : 64 ≤ w.rng.length
        · rw [h1 hr]; rfl
        · obtain ⟨w', g1, -⟩ := h2 (by omega)
          rw [g1]; rfl
      | some data =>
        rcases load_file C A P J hf with ⟨n, -, -, hl⟩ | ⟨ks, -, -, hl⟩ <;> rw [hl] <;> rfl

theorem execute_step {f : Flags} {cmd : Command} {args : List Bytes} {ks : KeyStore} {w : World} {strict : Prop} {dst : Bytes → Prop}
    (ha : cmd.argc ≤ args.length) (hc : ∀ ks w1, cmd.argc ≤ args.length → CmdStep strict dst w1 (cmd.run ks (config f args) w1))
    (hw : cmd.shouldWrite = true ∨ f.check = true → dst f.path ∧ ∀ ks w1, (cmd.run ks (config f args) w1).2.2.fs = w1.fs) (hf : w.fs f.path ≠ none) :
    Step strict dst w (execute C A P J f cmd (config f args) ks w).1 (execute C A P J f cmd (config f args) ks w).2 := by
  have hor : ∀ b, (cmd.shouldWrite || (f.check && b)) = true → cmd.shouldWrite = true ∨ f.check = true := by
    intro b h
    simp only [Bool.or_eq_true, Bool.and_eq_true] at h
    exact h.imp id And.left
  have go : ∀ b u ks' w1, w1.fs = w.fs → w1.disk = w.disk →
      Step strict dst w (conclude J f (cmd.shouldWrite || (f.check && b)) u (cmd.run ks' (config f args) w1)).1
        (conclude J f (cmd.shouldWrite || (f.check && b)) u (cmd.run ks' (config f args) w1)).2 := by
    intro b u ks' w1 h1 h2
    refine Step.same (w1 := w1) ?_ h1 h2
    exact conclude_step J (hc ks' w1 ha) (fun h => (hw (hor b h)).1) (fun h => (hw (hor b h)).2 ks' w1) (by rw [h1]; exact hf)
  unfold execute
  cases hu : cmd.needsUnlock with
  | false =>
    simp only [Bool.false_eq_true, if_false]
    exact go _ _ ks w rfl rfl
  | true =>
    simp only [if_true]
    cases hk : unlockStore C A P ks w with
    | panic => exact Step.quiet rfl rfl
    | ok x =>
      obtain ⟨b, ks', w1⟩ := x
      obtain ⟨n, -, hn⟩ := unlockStore_false C A P hk
      cases b with
      | false => exact Step.quiet hn.fs (Prod.ext hn.writes hn.failed)
      | true => exact go _ _ ks' w1 hn.fs (Prod.ext hn.writes hn.failed)

/-- What fcrypt changes of the files as other programs leave them. -/
theorem run_files {other : Fs → Fs} {e : Env} {fl : Flags} {args : List Bytes} {w w' : World} {r : Ret} (hf : other w.fs fl.path ≠ none)
    (h : fcrypt C A P J other e fl args w = (r, w')) : ∀ q, w'.fs q ≠ other w.fs q → MayChange fl args q := by
  suffices hs : Step (¬ SignsEncrypted fl) (MayChange fl args) (change other w) (fcrypt C A P J other e fl args w).1 (fcrypt C A P J other e fl args w).2 by
    rw [h] at hs
    exact hs.files
  unfold fcrypt
  rcases select_step C A P e fl args with hs | ⟨cmd, hs, hc, hw⟩
  · rw [hs]; exact Step.quiet rfl rfl
  rw [hs]
  dsimp only
  split
  · exact Step.quiet rfl rfl
  rename_i ha
  cases hx : w.fs fl.path with
  | none =>
    obtain ⟨h1, h2⟩ := load_missing C A P J hx
    by_cases hr : 64 ≤ w.rng.length
    · rw [h1 hr]; exact Step.quiet rfl rfl
    · obtain ⟨w1, g1, g2, -, g3, g4⟩ := h2 (by omega)
      rw [g1]
      exact Step.quiet (congrArg other g2) (Prod.ext g3 g4)
  | some data =>
    rcases load_file C A P J hx with ⟨n, -, -, hl⟩ | ⟨ks, -, -, hl⟩
    · rw [hl]; exact Step.quiet rfl rfl
    · rw [hl]
      refine Step.same (w1 := change other (later w 2)) ?_ rfl rfl
      exact execute_step C A P J (by omega) hc hw hf

/-- A run of fcrypt that neither checks, removes nor imports keys, and writes its output to some other file, leaves the key store as another program
has saved it meanwhile, whatever it is. Missing from the property: runs that remove or import keys, and key stores that are deleted, for which it
is false. -/
theorem C242_reads_partial (other : Fs → Fs) (e : Env) (fl : Flags) (args : List Bytes) (w w' : World) (r : Ret)
    (h1 : ¬ Checks fl) (h2 : ¬ Removes fl) (h3 : ¬ Imports fl) (ho : fl.path ∉ args) (hf : other w.fs fl.path ≠ none)
    (h : fcrypt C A P J other e fl args w = (r, w')) : w'.fs fl.path = other w.fs fl.path := by
  apply Classical.byContradiction
  intro hq
  have hm := run_files C A P J hf h _ hq
  have key : ∀ q, MayChange fl args q → q = fl.path → False := by
    intro q hm hp
    cases hm with
    | output _ _ => exact ho (by simp [hp])
    | export_ _ _ => exact ho (by simp [hp])
    | store hs => exact hs.elim h1 (·.elim h2 h3)
  exact key _ hm rfl

/-- A command that needs no unlocking, with a key store. -/
theorem fcrypt_public {other : Fs → Fs} {e : Env} {fl : Flags} {args : List Bytes} {w : World} {cmd : Command} {owner : Bytes} {f : KeyFields} {m : Keys}
    (hs : select C A P e fl = some cmd) (hk : Keyfile J w.fs fl.path owner f m) (hn : cmd.needsUnlock = false)
    (hc : fl.check = false) (ha : cmd.argc ≤ args.length) :
    fcrypt C A P J other e fl args w =
      conclude J fl cmd.shouldWrite false (cmd.run (loaded f m) (config fl args) (change other (later w 2))) := by
  obtain ⟨data, h1, h2, h3⟩ := keyfile_load J hk
  unfold fcrypt
  rw [hs]
  simp only
  rw [if_neg (by omega)]
  rcases load_file C A P J h1 with ⟨n, -, -, hl⟩ | ⟨ks, h4, h5, hl⟩
  · exfalso
    unfold loadStore at hl
    simp only [now_eq, later_later] at hl
    have e : (later w (1 + 1)).fs fl.path = some data := h1
    rw [e] at hl
    simp [loadKeyStore, h1, h2, h3] at hl
  · rw [hl]
    rw [h2] at h4
    cases h4
    simp only
    unfold execute
    simp only [hn, Bool.false_eq_true, if_false, hc, Bool.false_and, Bool.or_false]
    rfl

/-- Removing a key while another program is at work: the store is saved as it was before, but for the key. -/
theorem removes (other : Fs → Fs) (e : Env) (fl : Flags) (hfl : Removes fl) (label : Bytes) (rest : List Bytes) (w : World)
    (owner : Bytes) (f : KeyFields) (m : Keys) (hk : Keyring C J w.fs fl.path owner f m) (h1 : label ≠ self) (h2 : m label ≠ none) (hw : w.writes 0 = .done) :
    ∃ w', fcrypt C A P J other e fl (label :: rest) w = (.ok, w') ∧
      w'.fs = (other w.fs).set fl.path (J.enc (without f m label (w.term.clock 2))) := by
  rw [fcrypt_public C A P J (select_remove C A P hfl) hk.keyfile rfl hfl.1.1 (by simp)]
  obtain ⟨data, -, -, hs⟩ := keyring_load C J hk
  simp only [removeKey, config]
  have hh : (loaded f m).has label = true := by
    cases hh : (loaded f m).has label with
    | true => rfl
    | false => exact absurd ((has_false hs.quick hs.keys label).mp hh).2 h2
  rw [if_neg h1, hh]
  obtain ⟨w2, q1, q2, -⟩ := finish_writes J fl false ({ loaded f m with keys := (loaded f m).keys.map (·.erase label) })
    ((change other (later w 2)).print (ascii "Removing key  " ++ label ++ [10]))
  have hw2 : ((change other (later w 2)).print (ascii "Removing key  " ++ label ++ [10])).writes 0 = .done := hw
  rw [hw2] at q1 q2
  exact ⟨w2, q1, q2⟩

/-- C242 is false of runs that change the store. Two runs of fcrypt -r at the same time, each of which removes a key: both exit with status 0, and the key
that was removed by the run that finished first is on record again, as trusted as before. -/
theorem C242_removed_violated (e : Env) (fl : Flags) (hfl : Removes fl) (a b : Bytes) (w wa : World)
    (owner : Bytes) (f : KeyFields) (m : Keys) (hk : Keyring C J w.fs fl.path owner f m) (hab : a ≠ b) (ha : a ≠ self) (hb : b ≠ self)
    (hma : m a ≠ none) (hmb : m b ≠ none) (hfs : wa.fs = w.fs) (hw : w.writes 0 = .done) (hwa : wa.writes 0 = .done) :
    ∃ w1 f1 w2 f2, main C A P J e fl [a] wa = (.ok, w1) ∧ w1.fs fl.path = some (J.enc f1) ∧ J.dec (J.enc f1) = some f1 ∧
      (∃ m1, f1.keys = some m1 ∧ m1 a = none ∧ m1 b = m b) ∧
      fcrypt C A P J (fun _ => w1.fs) e fl [b] w = (.ok, w2) ∧ w2.fs fl.path = some (J.enc f2) ∧ J.dec (J.enc f2) = some f2 ∧
      ∃ m2, f2.keys = some m2 ∧ m2 b = none ∧ m2 a = m a ∧ m a ≠ none := by
  have hka : Keyring C J wa.fs fl.path owner f m := by rw [hfs]; exact hk
  obtain ⟨w1, h1, h2⟩ := remove_run C A P J e fl hfl a [] wa owner f m hka ha hma
  rw [hwa] at h1 h2
  obtain ⟨w2, h3, h4⟩ := removes C A P J (fun _ => w1.fs) e fl hfl b [] w owner f m hk hb hmb hw
  refine ⟨w1, without f m a (wa.term.clock 2), w2, without f m b (w.term.clock 2), h1, ?_, without_read C J hk a _, ⟨_, rfl, Map.erase_same _ _, Map.erase_other _ (Ne.symm hab)⟩,
    h3, ?_, without_read C J hk b _, _, rfl, Map.erase_same _ _, Map.erase_other _ hab, hma⟩
  · rw [h2]; exact Fs.set_same _ _ _
  · rw [h4]; exact Fs.set_same _ _ _

/-- Nor is the deletion of a key store kept: if the file is deleted while fcrypt exports the own key, which has no business with the store, it is
there again afterwards, with all its keys. -/
theorem C242_deleted_violated (e : Env) (fl : Flags) (hfl : Exports fl) (hl : fl.label = self) (dst x : Bytes) (w : World)
    (owner : Bytes) (f : KeyFields) (m : Keys) (hk : Keyring C J w.fs fl.path owner f m) (hx : f.exportKey = some x)
    (hd : dst ≠ fl.path) (hw : ∀ n, w.writes n = .done) (ht : ∀ n, w.term.clock n ≠ 0) :
    ∃ w' f', fcrypt C A P J (fun fs q => if q = fl.path then none else fs q) e fl [dst] w = (.ok, w') ∧
      Keyring C J w'.fs fl.path owner f' m ∧ f'.lockedKey = f.lockedKey := by
  rw [fcrypt_public C A P J (select_export_self C A P (e := e) hfl hl) hk.keyfile rfl hfl.1.1 (by simp)]
  have hx' : (loaded f m).exportKey = some x := hx
  have hcfg : (config fl [dst]).args = [dst] := rfl
  simp only [exportSelf, hx', hcfg]
  generalize hw0 : change _ (later w 2) = w0
  have hn : w0.fs fl.path = none := by rw [← hw0]; simp [change]
  have hd0 : ∀ n, w0.writes n = .done := by intro n; rw [← hw0]; exact hw n
  have hs := exportSelf_step (strict := True) (dst := fun q => q = dst) (loaded f m) (config fl [dst]) w0 (by intro d r h1 _; rw [hcfg] at h1; cases h1; rfl)
  simp only [exportSelf, hx', hcfg] at hs
  obtain ⟨w3, o1, -, -, o2, -⟩ := output_ok (loaded f m) w0 dst x (fun _ => hd0 0)
  rw [o1] at hs ⊢
  obtain ⟨k, hk3⟩ := hs.shift
  have hw3 : w3.writes 0 = .done := by
    have := congrFun hk3 0
    exact this.trans (hd0 _)
  have hn3 : w3.fs fl.path = none := by
    by_cases hq : w3.fs fl.path = w0.fs fl.path
    · rw [hq, hn]
    · exact absurd (hs.files _ hq).symm hd
  obtain ⟨w4, q1, q2, -⟩ := finish_writes J fl false (loaded f m) w3
  have he : finish J fl false false (loaded f m) w3 = finish J fl true false (loaded f m) w3 := by
    unfold finish
    simp [hn3]
  rw [hw3] at q1 q2
  obtain ⟨-, -, -, hsound⟩ := keyring_load C J hk
  obtain ⟨t1, t2⟩ := keyring_tidy C J hk
  have hz : w3.term.clock 0 ≠ 0 := by rw [o2, ← hw0]; exact ht _
  refine ⟨w4, stamped (loaded f m).toKeyFields (w3.term.clock 0), he.trans q1, ?_, rfl⟩
  rw [q2]
  exact keyring_written C J hsound hk.locked t1 hz t2 w3.fs fl.path

/-! ### Examples -/

/-- Two keys on record, vouched for by the owner. -/
def twoKeys (d seed pk : Bytes) : Keys :=
  (Map.empty.set [97] (some (recordFor [97] (statement C d seed pk 5)))).set [98] (some (recordFor [98] (statement C d seed pk 6)))

def twoFields (d seed pk : Bytes) : KeyFields := ⟨1, 9, some (twoKeys C d seed pk), some [1], some (ownerOf C d seed), some [7]⟩

theorem two_cases {d seed pk l : Bytes} {r : Option PublicKeyRecord} (h : twoKeys C d seed pk l = some r) :
    (l = [97] ∧ r = some (recordFor [97] (statement C d seed pk 5))) ∨ (l = [98] ∧ r = some (recordFor [98] (statement C d seed pk 6))) := by
  unfold twoKeys at h
  by_cases h1 : l = [98]
  · subst h1
    rw [Map.set_same] at h
    cases h
    exact .inr ⟨rfl, rfl⟩
  · rw [Map.set_other _ _ h1] at h
    by_cases h2 : l = [97]
    · subst h2
      rw [Map.set_same] at h
      cases h
      exact .inl ⟨rfl, rfl⟩
    · rw [Map.set_other _ _ h2] at h
      cases h

theorem two_keyring (d seed pk : Bytes) (hs : seed.length = 32) (fs : Fs) (path : Bytes) :
    Keyring C J (fs.set path (J.enc (twoFields C d seed pk))) path (ownerOf C d seed) (twoFields C d seed pk) (twoKeys C d seed pk) where
  file := by
    refine ⟨_, Fs.set_same _ _ _, J.dec_enc _ ?_ ?_⟩
    · intro m hm
      cases hm
      refine ⟨(Map.finite_empty.set _ _).set _ _, fun k r md hk hmd => ?_⟩
      rcases two_cases C hk with ⟨-, h⟩ | ⟨-, h⟩ <;> (cases h; cases hmd)
    · intro m hm k v hk
      cases hm
      rcases two_cases C hk with ⟨rfl, rfl⟩ | ⟨rfl, rfl⟩
      · exact ⟨by decide, fun r hr => by cases hr; exact ⟨(by decide : ValidUtf8 [97]), fun md j x hmd => by cases hmd⟩⟩
      · exact ⟨by decide, fun r hr => by cases hr; exact ⟨(by decide : ValidUtf8 [98]), fun md j x hmd => by cases hmd⟩⟩
  version := rfl
  time := by simp [twoFields]
  pub := rfl
  len := ownerOf_length C d seed
  keys := rfl
  noNil := by
    intro k hk
    rcases two_cases C hk with ⟨-, h⟩ | ⟨-, h⟩ <;> cases h
  labelled := by
    intro k r hk
    rcases two_cases C hk with ⟨rfl, h⟩ | ⟨rfl, h⟩ <;> (cases h; rfl)
  noSelf := rfl
  trust := by
    intro l r hr
    rcases two_cases C hr with ⟨-, h⟩ | ⟨-, h⟩
    · cases h; exact .owner hr rfl (statement_signed C d seed pk 5 hs)
    · cases h; exact .owner hr rfl (statement_signed C d seed pk 6 hs)
  locked := by simp [twoFields]

noncomputable def exWorld : World :=
  { term := { answers := [], clock := fun _ => 100 }, rng := []
    fs := Fs.set (fun _ => none) [107] (J.enc (twoFields C (List.replicate 32 1) (List.replicate 32 2) (List.replicate 64 3)))
    writes := fun _ => .done, stdin := [], stdout := [] }

/-- fcrypt -r a and fcrypt -r b at the same time, on a store with two keys. -/
example (e : Env) : ∃ w1 w2 f2 m2, main C A P J e { path := [107], remove := true } [[97]] (exWorld C J) = (.ok, w1) ∧
    fcrypt C A P J (fun _ => w1.fs) e { path := [107], remove := true } [[98]] (exWorld C J) = (.ok, w2) ∧
    w2.fs [107] = some (J.enc f2) ∧ f2.keys = some m2 ∧ m2 [97] ≠ none := by
  obtain ⟨w1, f1, w2, f2, h1, -, -, -, h2, h3, -, m2, h4, -, h5, h6⟩ := C242_removed_violated C A P J e { path := [107], remove := true }
    ⟨⟨rfl, rfl, rfl, rfl, rfl⟩, rfl⟩ [97] [98] (exWorld C J) (exWorld C J) _ _ _ (two_keyring C J _ _ _ (by decide) _ _)
    (by decide) (by decide) (by decide) (by simp [twoKeys, Map.set]) (by simp [twoKeys, Map.set]) rfl rfl rfl
  exact ⟨w1, w2, f2, m2, h1, h2, h3, h4, by rw [h5]; exact h6⟩

/-- The store is deleted while the own key is exported. -/
example (e : Env) : ∃ w' f', fcrypt C A P J (fun fs q => if q = [107] then none else fs q) e { path := [107], export_ := true } [[111]] (exWorld C J) = (.ok, w') ∧
    Keyring C J w'.fs [107] (ownerOf C (List.replicate 32 1) (List.replicate 32 2)) f' (twoKeys C (List.replicate 32 1) (List.replicate 32 2) (List.replicate 64 3)) := by
  obtain ⟨w', f', h1, h2, -⟩ := C242_deleted_violated C A P J e { path := [107], export_ := true } ⟨⟨rfl, rfl, rfl, rfl, rfl⟩, rfl, rfl, rfl⟩ rfl [111] [7] (exWorld C J)
    _ _ _ (two_keyring C J _ _ _ (by decide) _ _) rfl (by decide) (fun _ => rfl) (fun _ => by show (100 : BitVec 64) ≠ 0; decide)
  exact ⟨w', f', h1, h2⟩

/-- The keys are listed while another run removes one of them: it stays removed. -/
example (e : Env) (w' : World) (r : Ret)
    (h : fcrypt C A P J (fun fs => (main C A P J e { path := [107], remove := true } [[97]] { exWorld C J with fs := fs }).2.fs) e { path := [107], list := true } [] (exWorld C J) = (r, w')) :
    ∃ f' m', w'.fs [107] = some (J.enc f') ∧ f'.keys = some m' ∧ m' [97] = none := by
  obtain ⟨w1, f1, w2, f2, h1, g1, -, ⟨m1, g2, g3, -⟩, -⟩ := C242_removed_violated C A P J e { path := [107], remove := true }
    ⟨⟨rfl, rfl, rfl, rfl, rfl⟩, rfl⟩ [97] [98] (exWorld C J) (exWorld C J) _ _ _ (two_keyring C J _ _ _ (by decide) _ _)
    (by decide) (by decide) (by decide) (by simp [twoKeys, Map.set]) (by simp [twoKeys, Map.set]) rfl rfl rfl
  have ho : (main C A P J e { path := [107], remove := true } [[97]] { exWorld C J with fs := (exWorld C J).fs }).2.fs [107] = some (J.enc f1) := by
    show (main C A P J e { path := [107], remove := true } [[97]] (exWorld C J)).2.fs [107] = _
    rw [h1]; exact g1
  have := C242_reads_partial C A P J _ e { path := [107], list := true } [] (exWorld C J) w' r (by simp [Checks]) (by simp [Removes]) (by simp [Imports]) (by simp) (by rw [ho]; simp) h
  exact ⟨f1, m1, this.trans ho, g2, g3⟩

end Verif.Props.MeanwhileKeys
