import Verif.Model.Perms
import Verif.Props.Fcrypt
import Verif.Props.Login
import Verif.Props.Otpc
import Verif.Props.Secrets
import Verif.Props.PasscryptTree
import Verif.Props.Migrate
/-! Permissions of the files that the programs write. -/

namespace Verif.Props.Perms
open Verif Verif.Go Verif.Model.Perms

/-! ### The modes of files -/

theorem write_fs (umask perm : BitVec 9) (o : WriteOutcome) (s : Files) (p : Path) (data : Bytes) :
    (s.write umask perm o p data).1.fs = (Go.writeFile o s.fs p data).1 := rfl

/-- Writing one file. -/
theorem write_after (umask perm : BitVec 9) (o : WriteOutcome) (s : Files) (p : Path) (data : Bytes) :
    (s.write umask perm o p data).1 = s.after umask perm (Go.writeFile o s.fs p data).1 := by
  unfold Files.write Files.after
  simp only [Files.mk.injEq, true_and]
  funext q
  by_cases hq : q = p
  · subst hq; simp
  · have hk : (Go.writeFile o s.fs p data).1 q = s.fs q := by
      unfold Go.writeFile
      cases o with
      | done => exact Fs.set_other _ _ hq
      | openFails => rfl
      | failsAfter k => exact Fs.set_other _ _ hq
    rw [if_neg (by simp [hq]), hk, if_neg (by rintro ⟨h1, h2⟩; exact h2 h1)]

/-- One thing after the other, if no file is removed. -/
theorem after_after (umask perm : BitVec 9) (s : Files) (fs fs' : Fs) (h : ∀ q, fs q ≠ none → fs' q ≠ none) (h0 : ∀ q, s.fs q ≠ none → fs q ≠ none) :
    (s.after umask perm fs).after umask perm fs' = s.after umask perm fs' := by
  unfold Files.after
  simp only [Files.mk.injEq, true_and]
  funext q
  cases h1 : s.fs q with
  | some a =>
    have h2 := h0 q (by rw [h1]; simp)
    rw [if_neg (by rintro ⟨e, -⟩; exact h2 e), if_neg (by simp), if_neg (by simp)]
  | none =>
    cases h2 : fs q with
    | none => simp
    | some b =>
      have h3 := h q (by rw [h2]; simp)
      simp [h3]

theorem after_new {umask perm : BitVec 9} {s : Files} {fs : Fs} {q : Path} (h : s.fs q = none) (h' : fs q ≠ none) :
    (s.after umask perm fs).mode q = perm &&& ~~~umask := if_pos ⟨h, h'⟩

theorem after_old {umask perm : BitVec 9} {s : Files} {fs : Fs} {q : Path} (h : s.fs q ≠ none) :
    (s.after umask perm fs).mode q = s.mode q := if_neg (fun e => h e.1)

/-- No umask adds a permission. -/
theorem owner_only {umask perm : BitVec 9} (h : perm &&& 0o077 = 0) : (perm &&& ~~~umask) &&& 0o077 = 0 := by
  rw [BitVec.and_assoc, BitVec.and_comm (~~~umask), ← BitVec.and_assoc, h]
  exact BitVec.zero_and

theorem readable {umask : BitVec 9} (h : umask &&& 0o044 = 0) : (0o644 &&& ~~~umask) &&& 0o044 = 0o044 := by
  have hb : ∀ i (hi : i < 9), umask[i] = true → (0o044 : BitVec 9)[i] = false := by
    intro i hi hu
    have := congrArg (·[i]) h
    simp only [BitVec.getElem_and, hu, Bool.true_and] at this
    simpa using this
  ext i hi
  have h1 : (0o044 : BitVec 9)[i] = true → (0o644 : BitVec 9)[i] = true := by
    revert i
    decide
  have h2 := hb i hi
  simp only [BitVec.getElem_and, BitVec.getElem_not]
  cases hx : umask[i] <;> cases hy : (0o044 : BitVec 9)[i] <;> simp_all

/-! ### passcrypt -/

section Passcrypt
open Verif.Model.Passcrypt Verif.Proofs.Passcrypt Verif.Props.Passcrypt Verif.Props.PasscryptTree Verif.Spec.Passcrypt

theorem masked_iff (m : BitVec 32) (u : BitVec 9) : m &&& ~~~(u.setWidth 32) = m ↔ m &&& u.setWidth 32 = 0 := by
  constructor
  · intro h
    rw [← h, BitVec.and_assoc, BitVec.and_comm (~~~(u.setWidth 32)), BitVec.and_not_self]
    exact BitVec.and_zero
  · intro h
    ext i hi
    have := congrArg (·[i]) h
    simp only [BitVec.getElem_and, BitVec.getElem_not] at this ⊢
    cases hm : m[i] <;> simp_all

variable (C : Crypto) (P : Pem) (A : FilesAsn1) (Z : Gzip)

/-- C199, what holds: passcrypt -u gives a regular file that it creates no permission it had not when it was packed, and
restores its mode exactly if the umask has none of its bits. Missing: modes with bits of the umask. -/
theorem C199_modes_partial (acc accu : Access) (fuel fuelu : Nat) (f fu : Flags) (args : List Bytes) (w w' wu : World)
    (pass raw path : Bytes) (as asu : List (Option Bytes)) (htree : Tree w.st.disk) (hmodes : Modes w.st.disk)
    (hl : Lists acc.list w.st.disk) (hread : AllListed acc.list w.st.disk w.cwd args) (hcwd : ∃ m, w.st.disk.get w.cwd = some (.dir m))
    (hup : ∀ a ∈ args, NoUp a) (hap : args.Pairwise (fun a b => ¬ namesIn a <+: namesIn b ∧ ¬ namesIn b <+: namesIn a))
    (hf : (f.unpack || f.list) = false) (ha : args ≠ [])
    (hpack : run C P A Z acc fuel f args w = some (.ok (true, w'))) (hans : w.term.answers = some pass :: as)
    (hraw : w'.st.disk.readFile w.cwd f.outFile = some raw) (harm : f.armour = true ∨ P.dec raw = none)
    (hu : fu.unpack = true) (hrd : wu.st.disk.readFile wu.cwd path = some raw)
    (hansu : wu.term.answers = some pass :: asu) (hw : ∀ n, wu.st.ops n = .done) (ht : fu.outDir ≠ [])
    (habove : ∀ q, q <+: resolvePath wu.cwd fu.outDir → q ≠ [] → ∀ m b, wu.st.disk q ≠ some (.file m b))
    (hbelow : ∀ q, resolvePath wu.cwd fu.outDir <+: q → q ≠ resolvePath wu.cwd fu.outDir → wu.st.disk q = none) :
    ∃ wu', run C P A Z accu fuelu fu [path] wu = some (.ok (true, wu')) ∧ ∀ a ∈ args, ∀ ks,
      ∀ m c, w.st.disk.get (resolvePath w.cwd a ++ ks) = some (.file m c) → Plain m →
        ∃ m', wu'.st.disk (resolvePath wu.cwd fu.outDir ++ namesIn a ++ ks) = some (.file m' c) ∧
          m' &&& ~~~m = 0 ∧ (m' = m ↔ m &&& wu.st.umask.setWidth 32 = 0) := by
  obtain ⟨wu', h1, h2⟩ := C102_tree C P A Z acc accu fuel fuelu f fu args w w' wu pass raw path as asu htree hmodes hl hread hcwd
    hup hap hf ha hpack hans hraw harm hu hrd hansu hw ht habove hbelow
  refine ⟨wu', h1, fun a hma ks m c hc hp => ⟨_, (h2 a hma ks).1 m c hc hp, ?_, masked_iff _ _⟩⟩
  rw [BitVec.and_comm m, BitVec.and_assoc, BitVec.and_not_self]
  exact BitVec.and_zero

/-- C199 is false: files of mode 0644 that were packed are unpacked with mode 0600 under the umask 077; and a file of mode
0666 would come back with mode 0644 under 022. -/
theorem C199_umask_violated : ∃ wu wu', wu.st.umask = 0o077 ∧
    exWorld.st.disk [ascii "home", ascii "a", ascii "b"] = some (.file 0o644 [1, 2, 3]) ∧
    (∃ w' raw, main Toy.crypto Pem.toy toyFiles toyGzip { armour := true } [ascii "a"] (exVisits false) exWorld = .ok (true, w') ∧
      w'.st.disk.readFile [ascii "home"] (ascii "passcrypt.enc") = some raw ∧
      wu.st.disk.readFile wu.cwd (ascii "../home/passcrypt.enc") = some raw) ∧
    main Toy.crypto Pem.toy toyFiles toyGzip { unpack := true, outDir := ascii "new/out" } [ascii "../home/passcrypt.enc"] [] wu =
      .ok (true, wu') ∧
    wu'.st.disk [ascii "home", ascii "new", ascii "out", ascii "a", ascii "b"] = some (.file 0o600 [1, 2, 3]) ∧
    ((0o666 : BitVec 32) &&& ~~~((0o022 : BitVec 9).setWidth 32) = 0o644) := by
  obtain ⟨wu, wu', h1, h2, h3, h4⟩ := exRestored 0o077
  exact ⟨wu, wu', h1, by decide, h2, h3, h4, by decide⟩

/-- C199 is false of files that exist: they get the new content and keep their old mode, whatever the mode in the archive. -/
theorem C199_existing_violated (s : DiskState) (cwd : List Bytes) (b top : Bytes) (pre post : List File) (f : File)
    (hA : A.dec b = some (pre ++ f :: post)) (hreg : File.IsDir f = false)
    (hne : ∀ g ∈ pre ++ post, File.IsDir g = false → place cwd top g ≠ place cwd top f)
    (data : Bytes) (cl : Bool) (hz : Z.unzip f.data = some (data, cl)) (m : BitVec 32) (old : Bytes)
    (hold : s.disk (place cwd top f) = some (.file m old)) (hl : old.length ≤ data.length)
    (h : (unpackFiles A Z s cwd b top).2 = true) :
    (unpackFiles A Z s cwd b top).1.disk (place cwd top f) = some (.file m data) := by
  obtain ⟨-, m', old', e1, e2⟩ := unpack_content A Z s cwd b top pre post f hA hreg hne data cl hz h
  rw [hold] at e1
  simp only [Option.some.injEq, Node.file.injEq, reduceCtorEq, false_and, or_false] at e1
  rw [e2, ← e1.1, ← e1.2, List.drop_eq_nil_of_le hl, List.append_nil]

/-- A file of mode 0600 unpacked over one of mode 0644: everybody can read it. -/
example : (unpackEntry toyGzip ⟨exDisk, fun _ => .done, 0o077⟩ [ascii "home"] ⟨ascii "b", 0o600, [9, 9, 9, 9]⟩ (ascii "a")).1.disk
    [ascii "home", ascii "a", ascii "b"] = some (.file 0o644 [9, 9, 9, 9]) := by decide

end Passcrypt

/-! ### Secrets in the clear -/

/-- C200 is false of fcrypt: what it decrypts into a new file everybody can read, unless the umask says otherwise. -/
theorem C200_fcrypt_violated (C : Crypto) (A : Model.KeyStore.Asn1) (P : Model.Fcrypt.Armour) (J : Model.KeyStore.KeyJson)
    (e e' : Model.Fcrypt.Env) (fl fl' : Model.Fcrypt.Flags) (hfl : Spec.Fcrypt.Encrypts fl) (hfl' : Spec.Fcrypt.Decrypts fl')
    (src dst src' dst' : Bytes) (rest rest' : List Bytes) (w : Model.Fcrypt.World) (owner d seed : Bytes) (f : Model.KeyStore.KeyFields)
    (m : Spec.KeyStore.Keys)
    (hk : Spec.Fcrypt.Keyring C J w.fs fl.path owner f m) (hn : Spec.KeyStore.Names owner m fl.label (Spec.KeyStore.ownerOf C d seed))
    (msg : Bytes) (hin : Spec.Fcrypt.Input w src msg) (hm : msg ≠ []) (hl : msg.length < 2 ^ 31) (hr : 56 ≤ w.rng.length)
    (hw : dst ≠ [45] → w.writes 0 = .done) (ha : fl.armour = true) (hd : dst' ≠ [45]) :
    ∃ w1 out, Model.Fcrypt.main C A P J e fl (src :: dst :: rest) w = (.ok, w1) ∧ Spec.Fcrypt.Output w dst out w1 ∧
      ∀ (w2 : Model.Fcrypt.World) f2 m2 pass as umask mode, Spec.Fcrypt.Keyring C J w2.fs fl'.path (Spec.KeyStore.ownerOf C d seed) f2 m2 →
        Spec.Fcrypt.Opens C f2 d seed pass → w2.term.answers = some pass :: as → Spec.Fcrypt.Input w2 src' out → w2.writes 0 = .done →
        w2.fs dst' = none → umask &&& 0o044 = 0 →
        ∃ w3, Model.Fcrypt.main C A P J e' fl' (src' :: dst' :: rest') w2 = (.ok, w3) ∧ w3.fs dst' = some msg ∧
          fcryptModes umask mode w2 w3 dst' &&& 0o044 = 0o044 := by
  obtain ⟨w1, out, h1, h2, h3⟩ := Props.Fcrypt.C125_roundtrip_partial C A P J e e' fl fl' hfl hfl' src dst src' dst' rest rest' w owner d seed f m
    hk hn msg hin hm hl hr hw
  refine ⟨w1, out, h1, h2, fun w2 f2 m2 pass as umask mode k1 k2 k3 k4 k5 k6 k7 => ?_⟩
  obtain ⟨w3, g1, g2⟩ := h3 (.inl ha) w2 f2 m2 pass as k1 k2 k3 k4 (fun _ => k5)
  unfold Spec.Fcrypt.Output at g2
  rw [if_neg hd] at g2
  have hf : w3.fs dst' = some msg := by rw [g2.2]; exact Fs.set_same _ _ _
  refine ⟨w3, g1, hf, ?_⟩
  unfold fcryptModes
  rw [after_new k6 (by simp [hf])]
  exact readable k7

/-- The umask 022 leaves 0644, and 077 makes it 0600. -/
example : (0o022 : BitVec 9) &&& 0o044 = 0 ∧ (0o644 : BitVec 9) &&& ~~~0o022 = 0o644 ∧ (0o644 : BitVec 9) &&& ~~~0o077 = 0o600 := by decide

/-- C200 is false of the login example: everybody can read the QR code with the TOTP key that it writes into a new file qr.png. -/
theorem C200_login_violated (C : Crypto) (J : Model.Login.UserJson) (e : Model.Login.Env) (path : Bytes) (w : Model.Login.World) (m : Model.Login.Users)
    (n png : Bytes) (fuel : Nat)
    (hst : Props.Login.Stored J path w.fs m) (ha : w.term.answers = [some n, some Model.Auth.typeTOTP])
    (hn : ValidUtf8 n) (hne : Go.trimSpace n ≠ []) (hpr : e.provider.length < 2 ^ 31 - 71) (hr : 20 ≤ w.rng.length)
    (hq : e.qr (Spec.Auth.google e.provider (w.rng.take 20)) (ascii "common-auth example login") = some png)
    (hw : w.writes 0 = .done) (hw1 : w.writes 1 = .done) (hp : path ≠ ascii "qr.png") (hnew : w.fs (ascii "qr.png") = none)
    (umask : BitVec 9) (mode : Path → BitVec 9) (hu : umask &&& 0o044 = 0) :
    ∃ w1, Model.Login.main C J e path [ascii "register"] fuel w = some (.stop, w1) ∧ w1.fs (ascii "qr.png") = some png ∧
      loginModes umask mode w w1 (ascii "qr.png") &&& 0o044 = 0o044 := by
  obtain ⟨w1, -, -, h1, -, -, -, h2, -⟩ := Props.Login.C143_totp_partial C J e path w m n png fuel hst ha hn hne hpr hr hq hw hw1
  refine ⟨w1, h1, h2 hp, ?_⟩
  unfold loginModes
  rw [after_new hnew (by simp [h2 hp])]
  exact readable hu

/-- Ann registers for codes under the umask 022. -/
example : ∃ w1, Model.Login.main Toy.crypto Proofs.Login.toyUsers Props.Login.exEnv (ascii "s") [ascii "register"] 1
      (Props.Login.exWorld [some (ascii "ann"), some Model.Auth.typeTOTP]) = some (.stop, w1) ∧ w1.fs (ascii "qr.png") = some [137, 80] ∧
    loginModes 0o022 (fun _ => 0) (Props.Login.exWorld [some (ascii "ann"), some Model.Auth.typeTOTP]) w1 (ascii "qr.png") &&& 0o044 = 0o044 :=
  C200_login_violated Toy.crypto _ Props.Login.exEnv (ascii "s") _ Map.empty (ascii "ann") [137, 80] 1 (.inl ⟨rfl, rfl⟩) rfl (by decide)
    (by decide) (by decide) (by decide) rfl rfl rfl (by decide) rfl _ _ (by decide)

/-- C200, what holds: the QR code that otpc -qr writes into a new file nobody but the owner can access, whatever the umask. Missing:
files that exist already, and fcrypt and the login example. -/
theorem C200_otpc_partial (umask : BitVec 9) (T : Model.Otpc.TwoFactor) (mode : Path → BitVec 9) (w : Model.Secrets.World)
    (ps : Model.SecretStore.SecretStore) (label filename : Bytes) (s : Files) (ok : Bool)
    (h : showQR umask T mode w ps label filename = .ok (ok, s)) (hnew : w.fs filename = none) (hs : s.fs filename ≠ none) :
    s.mode filename &&& 0o077 = 0 := by
  unfold showQR at h
  obtain ⟨⟨ok', w'⟩, h1, h2⟩ := Res.bind_eq_ok.mp h
  simp only [Res.pure_eq, Res.ok.injEq, Prod.mk.injEq] at h2
  obtain ⟨-, rfl⟩ := h2
  refine (congrArg (· &&& 0o077) (after_new (fs := w'.fs) hnew hs)).trans ?_
  exact owner_only (by decide)

/-- C200 is false of existing files: the QR code of otpc -qr replaces the content and not the mode. -/
theorem C200_existing_violated (umask : BitVec 9) (T : Model.Otpc.TwoFactor) (mode : Path → BitVec 9) (w : Model.Secrets.World)
    (ps : Model.SecretStore.SecretStore) (label filename : Bytes) (s : Files)
    (h : showQR umask T mode w ps label filename = .ok (true, s)) (hold : w.fs filename ≠ none) :
    (∃ r o label' png, Spec.SecretStore.lookup ps label = some r ∧ T.fromURL r.secret = some (o, label') ∧ T.qr o label' = some png ∧
      s.fs filename = some png) ∧ s.mode filename = mode filename := by
  unfold showQR at h
  obtain ⟨⟨ok', w'⟩, h1, h2⟩ := Res.bind_eq_ok.mp h
  simp only [Res.pure_eq, Res.ok.injEq, Prod.mk.injEq] at h2
  obtain ⟨rfl, rfl⟩ := h2
  obtain ⟨r, o, label', png, k1, k2, k3, k4⟩ := (Props.Otpc.qr_some T h1).1 rfl
  refine ⟨⟨r, o, label', png, k1, k2, k3, ?_⟩, after_old hold⟩
  show w'.fs filename = _
  rw [k4]
  exact Fs.set_same _ _ _

/-- A QR code in a new file and in an old one. -/
example (umask : BitVec 9) :
    let url := Props.Otpc.toyUrl (.hotp [1, 2] 41 6) [97]
    ∃ s s', showQR umask Props.Otpc.toyTwoFactor (fun _ => 0o666) (Props.Secrets.exWorld [] []) (Props.SecretStore.exStore url 7) [97] [103] =
        .ok (true, s) ∧ s.mode [103] = 0o600 &&& ~~~umask ∧
      showQR umask Props.Otpc.toyTwoFactor (fun _ => 0o666) (Props.Secrets.exWorld [] []) (Props.SecretStore.exStore url 7) [97] [102] =
        .ok (true, s') ∧ s'.mode [102] = 0o666 := by
  intro url
  have hl : Spec.SecretStore.lookup (Props.SecretStore.exStore url 7) [97] = some (Props.SecretStore.exRecord [97] url 7) :=
    Props.SecretStore.exStore_lookup _ _
  have hq : ∀ n, showQR umask Props.Otpc.toyTwoFactor (fun _ => 0o666) (Props.Secrets.exWorld [] []) (Props.SecretStore.exStore url 7) [97] n =
      .ok (true, Files.after umask qrPerm ⟨(Props.Secrets.exWorld [] []).fs, fun _ => 0o666⟩ ((Props.Secrets.exWorld [] []).fs.set n url)) := by
    intro n
    unfold showQR
    simp only [Model.Otpc.showQR, Proofs.Otpc.has_of_lookup hl, Proofs.Secrets.fetch_eq.mpr hl]
    rfl
  exact ⟨_, _, hq [103], after_new rfl (by simp), hq [102], after_old (by simp [Props.Secrets.exWorld])⟩

/-- C200: nobody but the owner can access the temporary file in which a journal entry is edited when the editor is started. -/
theorem C200_journal_partial (umask : BitVec 9) (o : WriteOutcome) (s : Files) (n : Path) (data : Bytes) (hnew : s.fs n = none) :
    (journalTemp umask o s n data).mode n &&& 0o077 = 0 ∧
      (o = .done → (journalTemp umask o s n data).fs n = some data) ∧
      ∀ q, q ≠ n → (journalTemp umask o s n data).mode q = s.mode q ∧ (journalTemp umask o s n data).fs q = s.fs q := by
  unfold journalTemp
  have h1 : (s.write umask tempPerm .done n []).1.fs n = some [] := Fs.set_same _ _ _
  refine ⟨?_, fun ho => ?_, fun q hq => ⟨?_, ?_⟩⟩
  · rw [write_after, after_old (by simp [h1]), write_after, after_new hnew (by simp [Go.writeFile])]
    exact owner_only (by decide)
  · subst ho
    exact Fs.set_same _ _ _
  · simp [Files.write, hq]
  · have h2 : (s.write umask tempPerm .done n []).1.fs q = s.fs q := Fs.set_other _ _ hq
    rw [write_fs]
    unfold Go.writeFile
    cases o with
    | done => exact (Fs.set_other _ _ hq).trans h2
    | openFails => exact h2
    | failsAfter k => exact (Fs.set_other _ _ hq).trans h2

/-- An entry in a temporary file with umask 0. -/
example : (journalTemp 0 .done ⟨fun _ => none, fun _ => 0o777⟩ [116] [1, 2]).mode [116] = 0o600 ∧
    (journalTemp 0 .done ⟨fun _ => none, fun _ => 0o777⟩ [116] [1, 2]).fs [116] = some [1, 2] := by decide

/-! ### Sealed files -/

/-- C201, what holds: a file that `EncryptFile` creates nobody but the owner can access, whatever the umask and even if writing it
failed; the modes of all other files stay. Missing: the stores of the programs. -/
theorem C201_encryptFile_partial (C : Crypto) (umask : BitVec 9) (o : WriteOutcome) (s s' : Files) (filename pass encoded : Bytes)
    (rng : Model.Util.Rng) (ok : Bool) (h : encryptFile umask C o s filename pass encoded rng = .ok (ok, s')) :
    (s.fs filename = none → s'.fs filename ≠ none → s'.mode filename &&& 0o077 = 0) ∧
    (s.fs filename ≠ none → s'.mode filename = s.mode filename) ∧ ∀ q, q ≠ filename → s'.mode q = s.mode q := by
  unfold encryptFile at h
  obtain ⟨r, h1, h2⟩ := Res.bind_eq_ok.mp h
  simp only [Res.pure_eq, Res.ok.injEq, Prod.mk.injEq] at h2
  obtain ⟨rfl, rfl⟩ := h2
  refine ⟨fun hn hs => ?_, fun hn => after_old hn, fun q hq => ?_⟩
  · refine (congrArg (· &&& 0o077) (after_new (fs := r.fs) hn hs)).trans ?_
    exact owner_only (by decide)
  · have hfs : r.fs q = s.fs q := by
      rw [Proofs.Secret.encryptFile_eq] at h1
      split at h1
      · cases h1; rfl
      · split at h1
        · cases h1; rfl
        · cases h1
          simp only
          unfold Go.writeFile
          cases o with
          | done => exact Fs.set_other _ _ hq
          | openFails => rfl
          | failsAfter k => exact Fs.set_other _ _ hq
    show (if s.fs q = none ∧ r.fs q ≠ none then _ else s.mode q) = _
    rw [hfs, if_neg (by rintro ⟨h1, h2⟩; exact h2 h1)]

/-- With a working random number generator and disk there is a new file. -/
example : ∃ s', encryptFile 0o022 Toy.crypto .done ⟨fun _ => none, fun _ => 0o777⟩ [102] [1] [2] (List.replicate 60 4) = .ok (true, s') ∧
    s'.fs [102] ≠ none ∧ s'.mode [102] = 0o600 := by
  unfold encryptFile
  rw [Proofs.Secret.encryptFile_eq, if_neg (by decide), if_neg (by decide)]
  refine ⟨_, rfl, ?_, ?_⟩
  · simp [Files.after, Go.writeFile]
  · rw [after_new rfl (by simp [Go.writeFile])]
    decide

/-- C201 is false of secrets: everybody can read the store that secrets -init creates, unless the umask says otherwise. -/
theorem C201_init_violated (C : Crypto) (J : Model.SecretStore.Json) (P : Pem) (ord : Map (Option Model.SecretStore.SecretRecord) → List Bytes)
    (fuel : Nat) (f : Model.Secrets.Flags) (args : List Bytes) (path : Bytes) (w w' : Model.Secrets.World) (hd : path ≠ Model.Secrets.dash)
    (hf : f.init = true) (h : Model.Secrets.main C J P ord fuel f args path w = some (.ok (0, w'))) (hnew : w.fs path = none)
    (umask : BitVec 9) (mode : Path → BitVec 9) (hu : umask &&& 0o044 = 0) :
    w'.fs path ≠ none ∧ secretsModes umask mode w w' path &&& 0o044 = 0o044 := by
  obtain ⟨pass, s', -, -, ⟨b, hb, -⟩, -⟩ := Props.Secrets.C96_init_partial C J P ord fuel f args path w w' hd hf h
  have hne : w'.fs path ≠ none := by simp [hb]
  refine ⟨hne, ?_⟩
  unfold secretsModes
  rw [after_new hnew hne]
  exact readable hu

end Verif.Props.Perms
