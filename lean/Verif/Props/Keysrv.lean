import Verif.Proofs.Keysrv
import Verif.Props.FcryptKeys
/-!
The key server: which keys it holds and what it publishes (C81, C135-C137).
-/

namespace Verif.Props.Keysrv
open Verif Verif.Go Verif.Model.Util Verif.Model.Public Verif.Model.KeyStore Verif.Model.Keysrv
open Verif.Spec.Public Verif.Spec.KeyStore Verif.Spec.Keysrv Verif.Proofs.KeyStore Verif.Proofs.Keysrv
open Verif.Spec.Fcrypt (Keyring Keyfile Opens)
open Verif.Proofs.Fcrypt (loaded opened opened_sound peerKeys exKeyring loadData_some)
open Verif.Props.KeyTrust Verif.Props.KeyImport

variable (C : Crypto) (A : Asn1) (P : Pem) (J : KeyJson) (sha256 : Bytes → Bytes)

/-! ### C81: which keys the server holds -/

/-- If the server comes up with a key store file in which no record is called "self" and every
record is stored under its own label — whatever the records are otherwise — then in every execution,
for every sequence of requests and every interleaving, every key held has a chain of verified
signatures to the server's key, and no key is called "self". -/
theorem C81_chain_partial (fs fs' : Fs) (path : Path) (ks : KeyStore) (h : Starts C A P J fs path ks fs')
    (ho : Ordered J fs path) (writes : Nat → WriteOutcome) (es : List Event) (s : State)
    (hr : Run C A P J sha256 path (initial ks fs' writes) es s) :
    ∃ owner m, s.ks.publicKey = some owner ∧ ks.publicKey = some owner ∧ s.ks.privateKey = ks.privateKey ∧
      s.ks.keys = some m ∧ m self = none ∧ ∀ l, m l ≠ none → Chain C owner m l := by
  obtain ⟨owner, m0, hs⟩ := starts_sound C h ho
  obtain ⟨m, hm⟩ := run_sound C hr hs
  obtain ⟨m1, -, -, -, -, -, k5, -⟩ := run_kept C hr hs.keys
  refine ⟨owner, m, hm.pub, hs.pub, k5, hm.keys, hm.noSelf, fun l hl => ?_⟩
  cases hml : m l with
  | none => exact absurd hml hl
  | some o => cases o with
    | none => exact absurd hml (hm.noNil l)
    | some r => exact Trust.chain C (hm.trust l r hml)

/-- In every execution from every state, whatever its store, a key once held stays as it is, no
record appears under "self" or under the empty label, and the server's own keys stay. -/
theorem C81_kept (path : Path) (s s' : State) (es : List Event) (hr : Run C A P J sha256 path s es s') (m : Keys)
    (hm : s.ks.keys = some m) :
    ∃ m', s'.ks.keys = some m' ∧ (∀ l, m l ≠ none → m' l = m l) ∧ m' self = m self ∧ m' [] = m [] ∧
      s'.ks.publicKey = s.ks.publicKey ∧ s'.ks.privateKey = s.ks.privateKey := by
  obtain ⟨m', h1, h2, h3, h4, h5, h6, -⟩ := run_kept C hr hm
  exact ⟨m', h1, h2, h3, h4, h5, h6⟩

/-- How an upload is handled, if the records are stored under their own labels: it is refused and
nothing changes, or the label is free and not "self" or empty, the statement is signed, by the
server's key or a key on record, and the key is filed. -/
theorem C81_upload_partial (path : Path) (s s' : State) (n : Nat) (label body : Bytes) (resp : Response) (m : Keys)
    (hm : s.ks.keys = some m) (hlab : Labelled m)
    (h : Step C A P J sha256 path s (.handle (.client n (.upload label body)) resp) s') :
    (resp.err ≠ none ∧ s'.ks = s.ks) ∨
    (resp.err = none ∧ label ≠ self ∧ label ≠ [] ∧ m label = none ∧ ∃ v r, Armoured A P body v ∧
      (v.signer = s.ks.pubBytes ∨ ∃ l r, m l = some (some r) ∧ r.keyBytes = v.signer) ∧
      Signed C v.signer v.pub v.signature v.timestamp ∧
      s'.ks = { s.ks with keys := some (m.set label (some r)) } ∧ r.label = label ∧ r.keys = some v.pub ∧
      r.keySigner = v.signer ∧ r.signatureTime = v.timestamp ∧ r.keySignature = v.signature) := by
  cases h with
  | handle _ rest o clock ks _ hp hq ho hpr =>
    show (_ ∧ ks = _) ∨ (_ ∧ _ ∧ _ ∧ _ ∧ ∃ v r, _ ∧ _ ∧ _ ∧ ks = _ ∧ _)
    have hpr : checkUpload C A P s.ks (Request.upload label body).command o clock = .ok (ks, resp) := Option.some.inj hpr
    unfold checkUpload at hpr
    split at hpr
    · cases hpr
      exact .inl ⟨by simp, rfl⟩
    · rename_i hl
      obtain ⟨⟨ks1, ok⟩, h1, h2⟩ := Res.bind_eq_ok.mp hpr
      unfold KeyStore.importVerifiedKey at h1
      split at h1
      · cases h1
        cases h2
        exact .inl ⟨by simp, rfl⟩
      · rename_i typ b hd
        split at h1
        · cases h1
          cases h2
          exact .inl ⟨by simp, rfl⟩
        · rename_i ht
          have ht := Classical.not_not.mp ht
          subst ht
          rcases C59_import_checked_partial C A s.ks ks1 m hm hlab label b o.first o.second clock ok h1 with
            ⟨e1, e2⟩ | ⟨e1, n1, n2, v, d1, d2, d3, d4⟩
          · subst e1 e2
            cases h2
            exact .inl ⟨by simp, rfl⟩
          · subst e1
            cases h2
            refine .inr ⟨rfl, n1, fun e => hl (.inr e), n2, v, _, ⟨b, type_eq ▸ hd, d1⟩, d2, d3, d4, rfl, rfl, rfl, rfl, rfl⟩

/-- A server with one key on record, and a statement by its holder. -/
theorem exServerAt (label d seed dA seedA pk pass : Bytes) (hlu : ValidUtf8 label) (hls : label ≠ self) (hd : d.length = 32) (hs : seed.length = 32) (path : Path) :
    ∃ (fs : Fs) (ks : KeyStore), Starts C A P J fs path ks fs ∧ Ordered J fs path ∧ Sound C ks (ownerOf C d seed) (peerKeys C d seed label (ownerOf C dA seedA)) ∧
      Armoured A P ((statement C dA seedA pk 5).serialise A P) (statement C dA seedA pk 5) := by
  obtain ⟨f, -, ho, hk⟩ := exKeyring C J d seed label (ownerOf C dA seedA) pass none hd hs hlu hls
  have hk := hk (fun _ => none) path
  have hdist : Distinct (peerKeys C d seed label (ownerOf C dA seedA)) := by
    intro l l' r r' h1 h2 _
    unfold peerKeys at h1 h2
    by_cases hl : l = label
    · by_cases hl' : l' = label
      · rw [hl, hl']
      · rw [Map.set_other _ _ hl'] at h2
        cases h2
    · rw [Map.set_other _ _ hl] at h1
      cases h1
  have hen : (peerKeys C d seed label (ownerOf C dA seedA)).Enumerates [label] := enum_set enum_empty rfl _
  obtain ⟨n, hn⟩ := boot_complete C (A := A) (P := P) hk ho hdist .done [] 1 2 3 (steady [label] 0) hen (fun _ _ => hen)
  refine ⟨_, _, ⟨_, _, _, _, _, _, _, steady_enumerate rfl hen n, hn⟩, ?_, (opened_sound C J hk ho).1, ?_⟩
  · intro data g m h1 h2 h3
    obtain ⟨data', e1, e2⟩ := hk.file
    rw [e1] at h1
    cases h1
    rw [e2] at h2
    cases h2
    have := hk.keys
    rw [h3] at this
    simp only [Option.getD_some] at this
    subst this
    exact ⟨hk.noSelf, hk.labelled⟩
  · exact ⟨_, by rw [← type_eq]; exact P.dec_enc _ _ (by decide) (A.enc_ne _), A.dec_enc _⟩

theorem exServer (d seed dA seedA pk pass : Bytes) (hd : d.length = 32) (hs : seed.length = 32) (path : Path) :
    ∃ (fs : Fs) (ks : KeyStore), Starts C A P J fs path ks fs ∧ Ordered J fs path ∧ Sound C ks (ownerOf C d seed) (peerKeys C d seed [97] (ownerOf C dA seedA)) ∧
      Armoured A P ((statement C dA seedA pk 5).serialise A P) (statement C dA seedA pk 5) :=
  exServerAt C A P J [97] d seed dA seedA pk pass (by decide) (by decide) hd hs path

/-- The hypotheses can be met: a server comes up, and a key is uploaded. -/
example (d seed dA seedA pk : Bytes) (hd : d.length = 32) (hs : seed.length = 32) (hA : seedA.length = 32) (path : Path)
    (writes : Nat → WriteOutcome) :
    ∃ fs ks es s, Starts C A P J fs path ks fs ∧ Ordered J fs path ∧ Run C A P J sha256 path (initial ks fs writes) es s ∧
      ∃ m, s.ks.keys = some m ∧ m [97] ≠ none ∧ m [98] ≠ none := by
  obtain ⟨fs, ks, h1, h2, h3, h4⟩ := exServer C A P J d seed dA seedA pk [112] hd hs path
  have hen : (peerKeys C d seed [97] (ownerOf C dA seedA)).Enumerates [[97]] := enum_set enum_empty rfl _
  have ho := steady_enumerate h3.keys hen 0
  have hp := process_upload C (sha256 := sha256) h3 (by unfold peerKeys; exact Map.set_other _ _ (by decide)) h4 (label := [98])
    (by decide) (by decide) (by unfold peerKeys; exact Map.set_other _ _ (by decide)) (statement_signed C dA seedA pk 5 hA)
    (.inr ⟨[97], _, by unfold peerKeys; exact Map.set_same _ _ _, rfl⟩) ho 9
  refine ⟨fs, ks, _, _, h1, h2, prompt_run C (serve C (s := initial ks fs writes) rfl rfl rfl 0 _ ho hp), _, rfl, ?_, ?_⟩
  · rw [Map.set_other _ _ (by decide)]
    unfold peerKeys
    simp
  · simp

/-- C81 is false of a file with a record called "self": the server comes up, holds and publishes a
key that has no chain to its own. -/
theorem C81_self_record_violated (fs : Fs) (path : Path) (d seed dA seedA pk box pass : Bytes) (t : BitVec 64) (hA : seedA.length = 32)
    (ho : ownerOf C d seed ≠ ownerOf C dA seedA) (hpk : pk ≠ ownerOf C dA seedA)
    (hf : ¬ Signed C (ownerOf C d seed) pk (statement C dA seedA pk t).signature t)
    (hfile : fs path = some (J.enc (hostile (ownerOf C d seed) (ownerOf C dA seedA) (statement C dA seedA pk t) box)))
    (hop : Opens C (hostile (ownerOf C d seed) (ownerOf C dA seedA) (statement C dA seedA pk t) box) d seed pass)
    (writes : Nat → WriteOutcome) :
    ∃ ks m s es, Starts C A P J fs path ks fs ∧ ks.publicKey = some (ownerOf C d seed) ∧ ks.keys = some m ∧
      ¬ Chain C (ownerOf C d seed) m [120] ∧ Prompt C A P J sha256 path (initial ks fs writes) es s ∧
      s.replies = [(0, .pubkey [120], ⟨200, P.enc (ascii "CRYPTUTIL VERIFIED KEY") (A.enc (statement C dA seedA pk t))⟩)] := by
  obtain ⟨s, m, g1, g2, g3, -, g5, g6⟩ := C57_self_record_violated C J (ownerOf C d seed) dA seedA pk box t hA ho hpk hf
  have hdec := J.dec_enc _ (hostile_finite (ownerOf C d seed) (ownerOf C dA seedA) (statement C dA seedA pk t) box)
    (hostile_clean (ownerOf C d seed) (ownerOf C dA seedA) (statement C dA seedA pk t) box)
  obtain ⟨f', k1, k2, -⟩ := loadData_some J g1
  rw [hdec] at k1
  cases k1
  obtain ⟨hk, hs⟩ := FcryptKeys.keyfile_of_load J hfile hdec g1 rfl (ownerOf_length C d seed) g2 (by simp [hostile])
  have hfin : m.Finite := by
    have := (J.dec_finite _ _ hdec m (by rw [← hk.keys]; rfl)).1
    exact this
  obtain ⟨order, hen⟩ := hfin.enumerates
  let x := (statement C d seed (ownerOf C d seed) 3).serialise A P
  let ks := opened C (hostile (ownerOf C d seed) (ownerOf C dA seedA) (statement C dA seedA pk t) box) m d seed x
  have haudit : ks.keyAudit C order (fun _ _ => order) 1 = some (.ok true) := by
    rw [FcryptKeys.audit_congr C (s' := ks.toKeyFields) (s := s.toKeyFields)]
    · exact g5 order (fun _ _ => order) 0 hen (fun _ _ => hen)
    all_goals rw [hs]; rfl
  have hst : Starts C A P J fs path ks fs := by
    refine ⟨.done, some pass, [], 1, 2, 3, steady order 1, steady_enumerate rfl hen 1, ?_⟩
    unfold boot
    rw [load_complete C hk hop]
    simp only
    have e : opened C (hostile (ownerOf C d seed) (ownerOf C dA seedA) (statement C dA seedA pk t) box) m d seed
        ((hostile (ownerOf C d seed) (ownerOf C dA seedA) (statement C dA seedA pk t) box).exportKey.getD x) = ks := rfl
    rw [e]
    have e2 : ks.keyAudit C (steady order 1).audit (steady order 1).walk (steady order 1).fuel = some (.ok true) := haudit
    rw [e2]
  have hmx : m [120] = some (some (recordFor [120] (statement C dA seedA pk t))) := by
    rw [← hk.keys]
    show ((Map.empty.set [120] _).set self _) [120] = _
    rw [Map.set_other _ _ (by decide), Map.set_same]
  have hlook : process C A P sha256 ks (Request.pubkey [120]).command (steady order 1) 0 =
      some (.ok (ks, { out := (statement C dA seedA pk t).serialise A P })) := by
    have hg : ks.get [120] = some (recordFor [120] (statement C dA seedA pk t)) := (get_some rfl).mpr hmx
    simp only [process, Request.command, lookup, hg]
    rfl
  refine ⟨ks, m, _, _, hst, rfl, rfl, g6, serve C (s := initial ks fs writes) rfl rfl rfl 0 (.pubkey [120])
    (steady_enumerate rfl hen 1) hlook, ?_⟩
  rw [← type_eq]
  rfl

/-- The hypotheses can be met. -/
example : ∃ d seed dA seedA box pass : Bytes, seedA.length = 32 ∧ ownerOf Toy.crypto d seed ≠ ownerOf Toy.crypto dA seedA ∧
    [9] ≠ ownerOf Toy.crypto dA seedA ∧
    ¬ Signed Toy.crypto (ownerOf Toy.crypto d seed) [9] (statement Toy.crypto dA seedA [9] 5).signature 5 ∧
    Opens Toy.crypto (hostile (ownerOf Toy.crypto d seed) (ownerOf Toy.crypto dA seedA) (statement Toy.crypto dA seedA [9] 5) box)
      d seed pass := by
  obtain ⟨box, -, -, hb⟩ := (Props.Public.C24_lock_roundtrip Toy.crypto (pairOf Toy.crypto (List.replicate 32 1) (List.replicate 32 2))
    (pairOf_wt Toy.crypto _ _ (by decide) (by decide)) (pairOf_valid Toy.crypto _ _) [112] (List.replicate 56 7)).2 (by simp)
  refine ⟨List.replicate 32 1, List.replicate 32 2, List.replicate 32 3, List.replicate 32 4, box, [112], by decide, by decide,
    by decide, ?_, ⟨by decide, by decide, box, rfl, hb⟩⟩
  rintro ⟨-, -, h⟩
  revert h
  decide

/-! ### C135: an uploaded key is published as uploaded -/

theorem lookup_known {ks : KeyStore} {l : Bytes} {r : PublicKeyRecord} (hl : l ≠ self) (hg : ks.get l = some r) :
    lookup A P ks l = { out := P.enc (ascii "CRYPTUTIL VERIFIED KEY") (A.enc ⟨r.keyBytes, r.keySigner, r.signatureTime, r.keySignature⟩) } := by
  simp only [lookup, if_neg hl, hg, VerifiedKey.serialise, type_eq]

theorem lookup_unknown {ks : KeyStore} {l : Bytes} (hl : l ≠ self) (hg : ks.get l = none) :
    lookup A P ks l = { err := some (ascii "export failed") } := by
  simp only [lookup, if_neg hl, hg]

theorem fingerprint_known {ks : KeyStore} {m : Keys} (hq : ks.validQuick = true) (hm : ks.keys = some m) {l : Bytes}
    {r : PublicKeyRecord} (hl : l ≠ self) (hne : l ≠ []) (hg : m l = some (some r)) :
    fingerprint sha256 ks l = { out := hexEncode (sha256 r.keyBytes) } := by
  have hh : ks.has l = true := (has_iff hq hm l).mpr (.inr (by simp [hg]))
  simp only [fingerprint, if_neg hl, if_neg hne, (get_some hm).mpr hg, hh, Bool.not_true, Bool.false_eq_true, if_false]

theorem fingerprint_unknown {ks : KeyStore} {l : Bytes} (hl : l ≠ self) (hg : ks.get l = none) :
    fingerprint sha256 ks l = { err := some (ascii "fingerprint failed") } := by
  simp only [fingerprint, if_neg hl, hg]

theorem fingerprint_self {ks : KeyStore} (hq : ks.validQuick = true) :
    fingerprint sha256 ks self = { out := hexEncode (sha256 ks.pubBytes) } := by
  have hh : ks.has self = true := by unfold KeyFields.has; rw [hq]; simp
  simp [fingerprint, hh]

/-- What a client is told, given what processing its request yields. -/
theorem step_reply {path : Path} {s s' : State} {n : Nat} {r : Request} {resp : Response}
    (h : Step C A P J sha256 path s (.handle (.client n r) resp) s') :
    s'.replies = s.replies ++ [(n, r, r.reply resp)] ∧
      ∃ o clock ks, process C A P sha256 s.ks r.command o clock = some (.ok (ks, resp)) ∧ s'.ks = ks := by
  cases h with
  | handle _ rest o clock ks _ hp hq ho hpr => exact ⟨rfl, o, clock, ks, hpr, rfl⟩

/-- Once someone has been told that the statement `v`, uploaded under a label, was accepted (status
200), whatever happens then, whoever asks for that label is answered with exactly that statement, and with the fingerprint of the
key in it. Holds if the records were stored under their own labels. -/
theorem C135_published_partial (path : Path) (s s1 s2 s3 : State) (n k : Nat) (label body : Bytes) (v : VerifiedKey) (resp resp' : Response)
    (es : List Event) (m : Keys) (hm : s.ks.keys = some m) (hlab : Labelled m) (hv : Armoured A P body v)
    (h1 : Step C A P J sha256 path s (.handle (.client n (.upload label body)) resp) s1) (text : Bytes)
    (ha : s1.replies = s.replies ++ [(n, .upload label body, ⟨200, text⟩)])
    (h2 : Run C A P J sha256 path s1 es s2) :
    (Step C A P J sha256 path s2 (.handle (.client k (.pubkey label)) resp') s3 →
      s3.replies = s2.replies ++ [(k, .pubkey label, ⟨200, P.enc (ascii "CRYPTUTIL VERIFIED KEY") (A.enc v)⟩)]) ∧
    (Step C A P J sha256 path s2 (.handle (.client k (.fingerprint label)) resp') s3 →
      s3.replies = s2.replies ++ [(k, .fingerprint label, ⟨200, hexEncode (sha256 v.pub)⟩)]) := by
  have ha : resp.err = none := by
    rw [(step_reply C A P J sha256 h1).1, List.append_cancel_left_eq] at ha
    simp only [List.cons.injEq, Prod.mk.injEq, true_and, and_true] at ha
    cases he : resp.err with
    | none => rfl
    | some x => simp [Request.reply, he] at ha
  rcases C81_upload_partial C A P J sha256 path s s1 n label body resp m hm hlab h1 with ⟨e, -⟩ | ⟨-, n1, n2, n3, v', r, d1, d2, d3, d4, d5, d6, d7, d8, d9⟩
  · exact absurd ha e
  obtain ⟨b, b1, b2⟩ := hv
  obtain ⟨b', b1', b2'⟩ := d1
  rw [b1] at b1'
  cases b1'
  rw [b2] at b2'
  cases b2'
  have hq1 : s1.ks.validQuick = true := by
    rcases step_ks C h1 with e | ⟨_, _, _, _, _, _, -, -, -, -, -, hi⟩
    · rw [e] at d4
      have := congrArg (fun x : KeyStore => x.keys) d4
      simp only [hm, Option.some.injEq] at this
      have := congrFun this label
      rw [n3, Map.set_same] at this
      cases this
    · rcases import_true C hi with ⟨e, -⟩ | ⟨-, m0, v0, sl, pk, hq, -, -, -, -, -, -, -, -, -, e⟩
      · cases e
      · obtain ⟨q1, q2, -⟩ := (quick_iff _).mp hq
        rw [e]
        exact (quick_iff _).mpr ⟨q1, q2, _, rfl⟩
  have hk1 : s1.ks.keys = some (m.set label (some r)) := by rw [d4]
  obtain ⟨m2, k0, k1, -, -, -, -, -, -, k2, k3, -⟩ := run_kept C h2 hk1
  have hr2 : m2 label = some (some r) := by rw [k1 label (by rw [Map.set_same]; simp), Map.set_same]
  have hq2 : s2.ks.validQuick = true := by
    obtain ⟨q1, q2, -⟩ := (quick_iff _).mp hq1
    exact (quick_iff _).mpr ⟨by rw [k2]; exact q1, by rw [k3]; exact q2, m2, k0⟩
  have hkb : r.keyBytes = v.pub := by simp [PublicKeyRecord.keyBytes, d6]
  constructor
  · intro h3
    obtain ⟨e1, o, clock, ks, e2, -⟩ := step_reply C A P J sha256 h3
    rw [e1]
    simp only [process, Request.command, lookup_known A P n1 ((get_some k0).mpr hr2), Option.some.injEq, Res.ok.injEq, Prod.mk.injEq] at e2
    rw [← e2.2, hkb, d7, d8, d9]
    rfl
  · intro h3
    obtain ⟨e1, o, clock, ks, e2, -⟩ := step_reply C A P J sha256 h3
    rw [e1]
    simp only [process, Request.command, if_neg n2, fingerprint_known sha256 hq2 k0 n1 n2 hr2, Option.some.injEq, Res.ok.injEq, Prod.mk.injEq] at e2
    rw [← e2.2, hkb]
    rfl

/-- In a sound store an upload is accepted whenever the label is free and proper and the statement
signed by the server's key or a key on record: then those asking afterwards get it. -/
theorem C135_accepted_partial (path : Path) (s : State) (owner : Bytes) (m : Keys) (hs : Sound C s.ks owner m) (he : m [] = none)
    (n k : Nat) (label body : Bytes) (v : VerifiedKey) (hv : Armoured A P body v) (hl : label ≠ self) (hne : label ≠ []) (hf : m label = none)
    (hsig : Signed C v.signer v.pub v.signature v.timestamp)
    (hk : v.signer = owner ∨ ∃ l r, m l = some (some r) ∧ r.keyBytes = v.signer) (resp : Response) (s1 : State)
    (h1 : Step C A P J sha256 path s (.handle (.client n (.upload label body)) resp) s1) :
    resp.err = none ∧ s1.replies = s.replies ++ [(n, .upload label body, ⟨200, ascii "public key added successfully"⟩)] := by
  cases h1 with
  | handle _ rest o clock ks _ hp hq ho hpr =>
    have := process_upload C (sha256 := sha256) hs he hv hl hne hf hsig hk ho clock
    have hpr : process C A P sha256 s.ks (Request.upload label body).command o clock = some (.ok (ks, resp)) := hpr
    rw [hpr] at this
    simp only [Option.some.injEq, Res.ok.injEq, Prod.mk.injEq] at this
    obtain ⟨-, rfl⟩ := this
    exact ⟨rfl, rfl⟩

/-- The hypotheses can be met: a key is uploaded to a server that has just come up, and asked for. -/
example (d seed dA seedA pk : Bytes) (hd : d.length = 32) (hs : seed.length = 32) (hA : seedA.length = 32) (path : Path)
    (writes : Nat → WriteOutcome) :
    ∃ (s s1 s3 : State) (m : Keys) (body : Bytes) (v : VerifiedKey) (resp resp' : Response), s.ks.keys = some m ∧ Labelled m ∧ Armoured A P body v ∧
      Step C A P J sha256 path s (.handle (.client 0 (.upload [98] body)) resp) s1 ∧
      (∃ text, s1.replies = s.replies ++ [(0, .upload [98] body, ⟨200, text⟩)]) ∧
      ∃ s2 es, Run C A P J sha256 path s1 es s2 ∧ Step C A P J sha256 path s2 (.handle (.client 1 (.pubkey [98])) resp') s3 := by
  obtain ⟨fs, ks, h1, h2, h3, h4⟩ := exServer C A P J d seed dA seedA pk [112] hd hs path
  have hen : (peerKeys C d seed [97] (ownerOf C dA seedA)).Enumerates [[97]] := enum_set enum_empty rfl _
  have ho := steady_enumerate h3.keys hen 0
  have hp := process_upload C (sha256 := sha256) h3 (by unfold peerKeys; exact Map.set_other _ _ (by decide)) h4 (label := [98])
    (by decide) (by decide) (by unfold peerKeys; exact Map.set_other _ _ (by decide)) (statement_signed C dA seedA pk 5 hA)
    (.inr ⟨[97], _, by unfold peerKeys; exact Map.set_same _ _ _, rfl⟩) ho 9
  obtain ⟨s1, st1, k1, q1, r1, -⟩ := handle_step C (J := J) (path := path)
    (s := { initial ks fs writes with queue := [.client 0 (.upload [98] ((statement C dA seedA pk 5).serialise A P)), .client 1 (.pubkey [98])] })
    rfl rfl ho hp
  have hen2 : ((peerKeys C d seed [97] (ownerOf C dA seedA)).set [98] (some { label := [98], version := 1, timestamp := 9, keys := some (statement C dA seedA pk 5).pub, keySignature := (statement C dA seedA pk 5).signature, keySigner := (statement C dA seedA pk 5).signer, signatureTime := (statement C dA seedA pk 5).timestamp, metadata := none })).Enumerates [[98], [97]] :=
    enum_set hen (by unfold peerKeys; exact Map.set_other _ _ (by decide)) _
  obtain ⟨s3, st2, -⟩ := handle_step C (A := A) (P := P) (sha256 := sha256) (J := J) (path := path) (clock := 0) r1 q1
    (steady_enumerate (by rw [k1]) hen2 0) rfl
  exact ⟨_, s1, s3, _, _, _, _, _, h3.keys, h3.labelled, h4, st1, ⟨_, (step_reply C A P J sha256 st1).1⟩, s1, [], .nil _, st2⟩

/-! ### C136: what is published is genuine, and asking changes nothing -/

/-- Asking for a key or a fingerprint changes nothing the server holds, whatever its state. -/
theorem C136_read_only (path : Path) (s s' : State) (n : Nat) (r : Request) (resp : Response) (hr : ∀ l b, r ≠ .upload l b)
    (h : Step C A P J sha256 path s (.handle (.client n r) resp) s') : s'.ks = s.ks ∧ s'.fs = s.fs := by
  constructor
  · rcases step_ks C h with e | ⟨_, l, b, _, _, _, e, -⟩
    · exact e
    · simp only [Event.handle.injEq, Sender.client.injEq] at e
      exact absurd e.1.2 (hr l b)
  · cases h with
    | handle => rfl

/-- Asked for the key under a label other than "self", a server with a sound store answers with
status 200 exactly if there is one; and then with a statement on that key signed by the server's key
or by another key on record. Otherwise it answers 400. -/
theorem C136_genuine_partial (path : Path) (s s' : State) (owner : Bytes) (m : Keys) (hs : Sound C s.ks owner m) (n : Nat) (l : Bytes)
    (hl : l ≠ self) (resp : Response) (h : Step C A P J sha256 path s (.handle (.client n (.pubkey l)) resp) s') :
    (m l = none ∧ s'.replies = s.replies ++ [(n, .pubkey l, ⟨400, ascii "export failed"⟩)]) ∨
    ∃ r v, m l = some (some r) ∧ s'.replies = s.replies ++ [(n, .pubkey l, ⟨200, P.enc (ascii "CRYPTUTIL VERIFIED KEY") (A.enc v)⟩)] ∧
      v.pub = r.keyBytes ∧ Signed C v.signer v.pub v.signature v.timestamp ∧
      (v.signer = owner ∨ ∃ l' r', m l' = some (some r') ∧ r'.keyBytes = v.signer) := by
  obtain ⟨e1, o, clock, ks, e2, -⟩ := step_reply C A P J sha256 h
  rw [e1]
  cases hml : m l with
  | none =>
    have hg : s.ks.get l = none := by rw [get_eq hs.keys, hml]; rfl
    simp only [process, Request.command, lookup_unknown A P hl hg, Option.some.injEq, Res.ok.injEq, Prod.mk.injEq] at e2
    rw [← e2.2]
    exact .inl ⟨rfl, rfl⟩
  | some x =>
    cases x with
    | none => exact absurd hml (hs.noNil l)
    | some r =>
      simp only [process, Request.command, lookup_known A P hl ((get_some hs.keys).mpr hml), Option.some.injEq, Res.ok.injEq, Prod.mk.injEq] at e2
      rw [← e2.2]
      obtain ⟨t1, t2⟩ := trust_cases C hml (hs.trust l r hml)
      exact .inr ⟨r, _, rfl, rfl, rfl, t1, t2⟩

/-- Asked for a fingerprint, it answers 200 exactly if the label names a key ("self" and the empty
label the server's own), with the SHA-256 of that key in hexadecimal. -/
theorem C136_fingerprint_partial (path : Path) (s s' : State) (owner : Bytes) (m : Keys) (hs : Sound C s.ks owner m) (n : Nat) (l : Bytes)
    (resp : Response) (h : Step C A P J sha256 path s (.handle (.client n (.fingerprint l)) resp) s') :
    ((l = self ∨ l = []) ∧ s'.replies = s.replies ++ [(n, .fingerprint l, ⟨200, hexEncode (sha256 owner)⟩)]) ∨
    (l ≠ self ∧ l ≠ [] ∧ m l = none ∧ s'.replies = s.replies ++ [(n, .fingerprint l, ⟨400, ascii "fingerprint failed"⟩)]) ∨
    (l ≠ self ∧ l ≠ [] ∧ ∃ r, m l = some (some r) ∧ s'.replies = s.replies ++ [(n, .fingerprint l, ⟨200, hexEncode (sha256 r.keyBytes)⟩)]) := by
  obtain ⟨e1, o, clock, ks, e2, -⟩ := step_reply C A P J sha256 h
  rw [e1]
  simp only [process, Request.command, Option.some.injEq, Res.ok.injEq, Prod.mk.injEq] at e2
  obtain ⟨-, e2⟩ := e2
  have hself := fingerprint_self sha256 (ks := s.ks) hs.quick
  rw [sound_pub C hs] at hself
  by_cases hne : l = []
  · rw [if_pos hne, hself] at e2
    rw [← e2]
    exact .inl ⟨.inr hne, rfl⟩
  · rw [if_neg hne] at e2
    by_cases hl : l = self
    · rw [hl, hself] at e2
      rw [← e2]
      exact .inl ⟨.inl hl, rfl⟩
    · cases hml : m l with
      | none =>
        have hg : s.ks.get l = none := by rw [get_eq hs.keys, hml]; rfl
        rw [fingerprint_unknown sha256 hl hg] at e2
        rw [← e2]
        exact .inr (.inl ⟨hl, hne, rfl, rfl⟩)
      | some x =>
        cases x with
        | none => exact absurd hml (hs.noNil l)
        | some r =>
          rw [fingerprint_known sha256 hs.quick hs.keys hl hne hml] at e2
          rw [← e2]
          exact .inr (.inr ⟨hl, hne, r, rfl, rfl⟩)

/-- The same of every server in service, from the file it started with and over everything that
happened since: what it publishes is signed by its own key or by one on record, and that one's chain of
signatures ends in the server's key. -/
theorem C136_reachable_partial (fs fs' : Fs) (path : Path) (ks : KeyStore) (h0 : Starts C A P J fs path ks fs')
    (ho : Ordered J fs path) (writes : Nat → WriteOutcome) (es : List Event) (s : State)
    (hr : Run C A P J sha256 path (initial ks fs' writes) es s) :
    ∃ owner m, ks.publicKey = some owner ∧ s.ks.keys = some m ∧ ∀ n l resp s', l ≠ self →
      (Step C A P J sha256 path s (.handle (.client n (.pubkey l)) resp) s' →
        (m l = none ∧ s'.replies = s.replies ++ [(n, .pubkey l, ⟨400, ascii "export failed"⟩)]) ∨
        ∃ r v, m l = some (some r) ∧ s'.replies = s.replies ++ [(n, .pubkey l, ⟨200, P.enc (ascii "CRYPTUTIL VERIFIED KEY") (A.enc v)⟩)] ∧
          v.pub = r.keyBytes ∧ Signed C v.signer v.pub v.signature v.timestamp ∧
          (v.signer = owner ∨ ∃ l' r', m l' = some (some r') ∧ r'.keyBytes = v.signer ∧ Chain C owner m l')) ∧
      (l ≠ [] → Step C A P J sha256 path s (.handle (.client n (.fingerprint l)) resp) s' →
        (m l = none ∧ s'.replies = s.replies ++ [(n, .fingerprint l, ⟨400, ascii "fingerprint failed"⟩)]) ∨
        ∃ r, m l = some (some r) ∧ s'.replies = s.replies ++ [(n, .fingerprint l, ⟨200, hexEncode (sha256 r.keyBytes)⟩)]) := by
  obtain ⟨owner, m0, hs⟩ := starts_sound C h0 ho
  obtain ⟨m, hm⟩ := run_sound C hr hs
  refine ⟨owner, m, hs.pub, hm.keys, fun n l resp s' hl => ⟨fun st => ?_, fun hne st => ?_⟩⟩
  · rcases C136_genuine_partial C A P J sha256 path s s' owner m hm n l hl resp st with h | ⟨r, v, h1, h2, h3, h4, h5⟩
    · exact .inl h
    · refine .inr ⟨r, v, h1, h2, h3, h4, ?_⟩
      rcases h5 with h5 | ⟨l', r', h5, h6⟩
      · exact .inl h5
      · exact .inr ⟨l', r', h5, h6, Trust.chain C (hm.trust l' r' h5)⟩
  · rcases C136_fingerprint_partial C A P J sha256 path s s' owner m hm n l resp st with ⟨h, -⟩ | ⟨-, -, h⟩ | ⟨-, -, h⟩
    · rcases h with h | h
      · exact absurd h hl
      · exact absurd h hne
    · exact .inl h
    · exact .inr h

/-- The hypotheses can be met. -/
example (d seed dA seedA : Bytes) (hd : d.length = 32) (hs : seed.length = 32) (path : Path) (writes : Nat → WriteOutcome) :
    ∃ (s s' s'' : State) (m : Keys) (resp resp' : Response), Sound C s.ks (ownerOf C d seed) m ∧ m [97] ≠ none ∧ m [99] = none ∧
      Step C A P J sha256 path s (.handle (.client 1 (.pubkey [97])) resp) s' ∧
      Step C A P J sha256 path s' (.handle (.client 2 (.fingerprint [99])) resp') s'' := by
  obtain ⟨fs, ks, h1, h2, h3, -⟩ := exServer C A P J d seed dA seedA [] [112] hd hs path
  have hen : (peerKeys C d seed [97] (ownerOf C dA seedA)).Enumerates [[97]] := enum_set enum_empty rfl _
  have ho := steady_enumerate h3.keys hen 0
  obtain ⟨s1, st1, k1, q1, r1, -⟩ := handle_step C (A := A) (P := P) (sha256 := sha256) (J := J) (path := path) (clock := 0)
    (s := { initial ks fs writes with queue := [.client 1 (.pubkey [97]), .client 2 (.fingerprint [99])] }) rfl rfl ho rfl
  obtain ⟨s2, st2, -⟩ := handle_step C (A := A) (P := P) (sha256 := sha256) (J := J) (path := path) (clock := 0) r1 q1
    (o := steady [[97]] 0) (by rw [k1]; exact ho) rfl
  exact ⟨_, s1, s2, _, _, _, h3, by unfold peerKeys; simp, by unfold peerKeys; exact Map.set_other _ _ (by decide), st1, st2⟩

/-- A server in service that is asked for a key it has. -/
example (d seed dA seedA : Bytes) (hd : d.length = 32) (hs : seed.length = 32) (path : Path) (writes : Nat → WriteOutcome) :
    ∃ (fs : Fs) (ks : KeyStore) (s s' : State) (m : Keys) (resp : Response), Starts C A P J fs path ks fs ∧ Ordered J fs path ∧
      Run C A P J sha256 path (initial ks fs writes) [.arrive 1 (.pubkey [97]), .send (.client 1 (.pubkey [97]))] s ∧
      s.ks.keys = some m ∧ m [97] ≠ none ∧ [97] ≠ self ∧
      Step C A P J sha256 path s (.handle (.client 1 (.pubkey [97])) resp) s' := by
  obtain ⟨fs, ks, h1, h2, h3, -⟩ := exServer C A P J d seed dA seedA [] [112] hd hs path
  have hen : (peerKeys C d seed [97] (ownerOf C dA seedA)).Enumerates [[97]] := enum_set enum_empty rfl _
  have ho := steady_enumerate h3.keys hen 0
  obtain ⟨s1, st1, -⟩ := handle_step C (A := A) (P := P) (sha256 := sha256) (J := J) (path := path) (clock := 0)
    (s := { initial ks fs writes with sending := [], queue := [.client 1 (.pubkey [97])] }) rfl rfl ho rfl
  refine ⟨fs, ks, _, s1, _, _, h1, h2, .cons (.arrive _ 1 _ (.inl rfl)) (.cons (.send _ [] [] _ (.inl rfl) rfl (by simp [initial])) (.nil _)),
    h3.keys, by unfold peerKeys; simp, by decide, st1⟩

/-! ### C137: the server's own key -/

/-- If the file had no export key, then whoever asks for the server's key, at any time, is answered
with one and the same statement, by the server's key on itself, signed with the private key that was
unlocked. -/
theorem C137_own_key_partial (fs fs' : Fs) (path : Path) (ks : KeyStore) (h : Starts C A P J fs path ks fs')
    (hx : ∀ data f, fs path = some data → J.dec data = some f → f.exportKey = none) :
    ∃ owner v, ks.publicKey = some owner ∧ v.pub = owner ∧ v.signer = owner ∧
      (∃ k, ks.privateKey = some k ∧ Model.Public.sign C (some k) (owner ++ owner ++ be 8 v.timestamp.toNat) = .ok (some v.signature)) ∧
      ∀ writes es s n resp s', Run C A P J sha256 path (initial ks fs' writes) es s →
        Step C A P J sha256 path s (.handle (.client n .server) resp) s' →
        s'.replies = s.replies ++ [(n, .server, ⟨200, P.enc (ascii "CRYPTUTIL VERIFIED KEY") (A.enc v)⟩)] := by
  obtain ⟨write, pass, rng, t1, t2, t3, o, he, hb⟩ := h
  obtain ⟨hl, ha⟩ := boot_ok C hb
  obtain ⟨data, f, p, k, pub, x, f1, f2, -, -, -, u1, u2, -, u4, hq, e⟩ := load_ok C hl
  obtain ⟨sig, g1, g2⟩ := u4 (hx data f f1 f2)
  have hk : ks.keys = some (f.keys.getD Map.empty) := by rw [e]
  refine ⟨pub, ⟨pub, pub, t3, sig⟩, by rw [e], rfl, rfl, ⟨k, by rw [e], g1⟩, ?_⟩
  intro writes es s n resp s' hr hst
  obtain ⟨e1, o', clock, ks', e2, -⟩ := step_reply C A P J sha256 hst
  obtain ⟨m', -, -, -, -, -, -, -, hexp, -⟩ := run_kept C hr hk
  have hexp : s.ks.exportKey = some x := by rw [hexp]; show ks.exportKey = _; rw [e]
  rw [e1]
  simp only [process, Request.command, Option.some.injEq, Res.ok.injEq, Prod.mk.injEq] at e2
  rw [← e2.2]
  simp only [Request.reply, lookup, if_true, hexp, Option.getD_some, g2, VerifiedKey.serialise, type_eq]

/-- With a key pair as `GenerateKey` is meant to make them, that signature verifies. -/
theorem C137_own_key_verifies_partial (fs : Fs) (path : Path) (d seed pass : Bytes) (f : KeyFields) (m : Keys)
    (h : Keyfile J fs path (ownerOf C d seed) f m) (ho : Opens C f d seed pass) (hx : f.exportKey = none)
    (write : WriteOutcome) (rng : Rng) (t1 t2 t3 : BitVec 64) (ks : KeyStore) (fs' : Fs)
    (hl : loadStore C A P J fs path write (some pass) rng t1 t2 t3 = .ok (some ks, fs')) :
    ∃ v, lookup A P ks self = { out := P.enc (ascii "CRYPTUTIL VERIFIED KEY") (A.enc v) } ∧ v.pub = ownerOf C d seed ∧
      v.signer = ownerOf C d seed ∧ Signed C v.signer v.pub v.signature v.timestamp := by
  rw [load_complete C h ho] at hl
  simp only [Res.ok.injEq, Prod.mk.injEq, Option.some.injEq] at hl
  obtain ⟨hl, -⟩ := hl
  have hq : ks.validQuick = true := by
    rw [← hl]
    exact (quick_iff _).mpr ⟨h.version, h.time, m, rfl⟩
  have hh : ks.has self = true := by unfold KeyFields.has; rw [hq]; simp
  refine ⟨statement C d seed (ownerOf C d seed) t3, ?_, rfl, rfl, statement_signed C d seed _ t3 ho.slen⟩
  have hexp : ks.exportKey = some ((statement C d seed (ownerOf C d seed) t3).serialise A P) := by
    rw [← hl, hx]
    rfl
  simp [lookup, hexp, hh, VerifiedKey.serialise, type_eq]

/-- C137 is false of a file with somebody else's export key: the server comes up and hands it out
as its own. -/
theorem C137_foreign_export_violated (d seed dA seedA pk pass x : Bytes) (hd : d.length = 32) (hs : seed.length = 32) (path : Path)
    (writes : Nat → WriteOutcome) :
    ∃ fs ks es s, Starts C A P J fs path ks fs ∧ Ordered J fs path ∧ ks.publicKey = some (ownerOf C d seed) ∧
      Prompt C A P J sha256 path (initial ks fs writes) es s ∧ s.replies = [(0, .server, ⟨200, x⟩)] := by
  obtain ⟨f, hx, ho, hk⟩ := exKeyring C J d seed [97] (ownerOf C dA seedA) pass (some x) hd hs (by decide) (by decide)
  have hk := hk (fun _ => none) path
  have hdist : Distinct (peerKeys C d seed [97] (ownerOf C dA seedA)) := by
    intro l l' r r' h1 h2 _
    unfold peerKeys at h1 h2
    by_cases hl : l = [97]
    · by_cases hl' : l' = [97]
      · rw [hl, hl']
      · rw [Map.set_other _ _ hl'] at h2
        cases h2
    · rw [Map.set_other _ _ hl] at h1
      cases h1
  have hen : (peerKeys C d seed [97] (ownerOf C dA seedA)).Enumerates [[97]] := enum_set enum_empty rfl _
  obtain ⟨n, hn⟩ := boot_complete C (A := A) (P := P) hk ho hdist .done [] 1 2 3 (steady [[97]] 0) hen (fun _ _ => hen)
  have hsd := opened_sound C J (x := f.exportKey.getD ((statement C d seed (ownerOf C d seed) 3).serialise A P)) hk ho
  have hen' := steady_enumerate (ks := opened C f (peerKeys C d seed [97] (ownerOf C dA seedA)) d seed (f.exportKey.getD ((statement C d seed (ownerOf C d seed) 3).serialise A P))) rfl hen n
  refine ⟨_, _, _, _, ⟨_, _, _, _, _, _, _, hen', hn⟩, ?_, hsd.1.pub,
    serve C (s := initial _ _ writes) (clock := 0) rfl rfl rfl 0 .server hen' rfl, ?_⟩
  · intro data g m h1 h2 h3
    obtain ⟨data', e1, e2⟩ := hk.file
    rw [e1] at h1
    cases h1
    rw [e2] at h2
    cases h2
    have := hk.keys
    rw [h3] at this
    simp only [Option.getD_some] at this
    subst this
    exact ⟨hk.noSelf, hk.labelled⟩
  · have : (f.exportKey.getD ((statement C d seed (ownerOf C d seed) 3).serialise A P)) = x := by rw [hx]; rfl
    simp only [initial, List.nil_append, Request.reply, Request.command, lookup, if_true, opened, Option.getD_some, this]

/-- The hypotheses can be met. -/
example (d seed pass : Bytes) (hd : d.length = 32) (hs : seed.length = 32) (path : Path) :
    ∃ (fs : Fs) (f : KeyFields) (m : Keys), Keyfile J fs path (ownerOf C d seed) f m ∧ Opens C f d seed pass ∧ f.exportKey = none ∧
      ∀ data g, fs path = some data → J.dec data = some g → g.exportKey = none := by
  obtain ⟨f, hx, ho, hk⟩ := exKeyring C J d seed [97] [1] pass none hd hs (by decide) (by decide)
  have hk := hk (fun _ => none) path
  refine ⟨_, f, _, hk.keyfile, ho, hx, fun data g h1 h2 => ?_⟩
  obtain ⟨data', e1, e2⟩ := hk.file
  rw [e1] at h1
  cases h1
  rw [e2] at h2
  cases h2
  exact hx

end Verif.Props.Keysrv
