import Verif.Props.FcryptExport
import Verif.Props.Keysrv
/-! fcrypt and the key server: keys that are exported, uploaded, fetched and imported (C229). -/

namespace Verif.Props.TogetherKeys
open Verif Verif.Go Verif.Model.Util Verif.Model.Public Verif.Model.KeyStore Verif.Model.Fcrypt
open Verif.Model.Keysrv (State Request Response Event Step Run initial)
open Verif.Spec.Public Verif.Spec.KeyStore Verif.Spec.Fcrypt
open Verif.Spec.Keysrv (Armoured Starts Ordered)
open Verif.Proofs.Keysrv (process_upload handle_step steady steady_enumerate)
open Verif.Proofs.Public Verif.Proofs.KeyStore Verif.Proofs.Fcrypt Verif.Props.KeyTrust Verif.Props.KeyImport
open Verif.Props.Fcrypt Verif.Props.FcryptFiles Verif.Props.FcryptKeys Verif.Props.FcryptExport Verif.Props.Keysrv

variable (C : Crypto) (A : Asn1) (P : Armour) (J : KeyJson) (sha256 : Bytes → Bytes)

/-- A key that a user exports with fcrypt -export -l is accepted, under every free label, by every key
server whose key is the user's or which has the user's key on record, and from then on whoever asks
for the label is sent what fcrypt wrote, byte for byte, whatever else the server does. Missing from
the property: key stores in which a key is on record twice, and servers whose records are unsound or
have one with the empty label. -/
theorem C229_published_partial (fl : Flags) (hfl : Exports fl) (dst : Bytes) (rest : List Bytes) (w : World) (d seed pass : Bytes)
    (f : KeyFields) (m : Keys) (as : List (Option Bytes)) (hk : Keyring C J w.fs fl.path (ownerOf C d seed) f m) (ho : Opens C f d seed pass)
    (ha : w.term.answers = some pass :: as) (hd : Distinct m) (r : PublicKeyRecord) (hl : m fl.label = some (some r))
    (hw : dst ≠ [45] → w.writes 0 = .done) :
    ∃ n, ∀ e : Env, n ≤ e.fuel → (∀ i, m.Enumerates (e.walk fl.label i m)) →
      ∃ w' out, main C A P J e fl (dst :: rest) w = (.ok, w') ∧ Output (w.print (notice f)) dst out w' ∧
        ∀ (path : Path) (s s1 : State) (owner : Bytes) (mS : Keys) (k : Nat) (label : Bytes) (resp : Response),
          Sound C s.ks owner mS → mS [] = none → label ≠ self → label ≠ [] → mS label = none →
          (ownerOf C d seed = owner ∨ ∃ l r, mS l = some (some r) ∧ r.keyBytes = ownerOf C d seed) →
          Step C A P.toPem J sha256 path s (.handle (.client k (.upload label out)) resp) s1 →
          s1.replies = s.replies ++ [(k, .upload label out, ⟨200, ascii "public key added successfully"⟩)] ∧
          ∀ (es : List Event) (s2 s3 : State) (k' : Nat) (resp' : Response), Run C A P.toPem J sha256 path s1 es s2 →
            Step C A P.toPem J sha256 path s2 (.handle (.client k' (.pubkey label)) resp') s3 →
            s3.replies = s2.replies ++ [(k', .pubkey label, ⟨200, out⟩)] := by
  obtain ⟨n, hn⟩ := C132_export_partial C A P J fl hfl dst rest w d seed pass f m as hk ho ha hd r hl hw
  refine ⟨n, fun e hf h3 => ?_⟩
  obtain ⟨w', t, out, g1, g2, g3⟩ := hn e hf h3
  refine ⟨w', out, g1, g2, fun path s s1 owner mS k label resp hs he n1 n2 n3 hown st => ?_⟩
  have hv : Armoured A P.toPem out (statement C d seed r.keyBytes t) := by
    rw [g3]
    exact enc_holds A P _
  have hacc := (C135_accepted_partial C A P.toPem J sha256 path s owner mS hs he k 0 label out _ hv n1 n2 n3
    (statement_signed C d seed _ t ho.slen) hown resp s1 st).2
  refine ⟨hacc, fun es s2 s3 k' resp' hr st2 => ?_⟩
  have := (C135_published_partial C A P.toPem J sha256 path s s1 s2 s3 k k' label out _ resp resp' es mS hs.keys hs.labelled hv st _ hacc hr).1 st2
  rw [this, g3]

/-- The hypotheses can be met: a user with one key on record, and a server that has just come up with
the user's key on record, to which any statement of the user's on that key can be uploaded. -/
example (pk : Bytes) (path : Path) (writes : Nat → WriteOutcome) : ∃ (fl : Flags) (w : World) (d seed pass : Bytes) (f : KeyFields) (m : Keys) (r : PublicKeyRecord),
    Exports fl ∧ Keyring C J w.fs fl.path (ownerOf C d seed) f m ∧ Opens C f d seed pass ∧ w.term.answers = some pass :: [] ∧
    Distinct m ∧ m fl.label = some (some r) ∧ r.keyBytes = pk ∧ w.writes 0 = .done ∧
    ∀ t, ∃ (s s1 : State) (owner : Bytes) (mS : Keys) (resp : Response), Sound C s.ks owner mS ∧ mS [] = none ∧ mS [98] = none ∧
      (∃ l r, mS l = some (some r) ∧ r.keyBytes = ownerOf C d seed) ∧
      Step C A P.toPem J sha256 path s (.handle (.client 0 (.upload [98] (P.enc (ascii "CRYPTUTIL VERIFIED KEY") (A.enc (statement C d seed pk t))))) resp) s1 := by
  obtain ⟨f, -, ho, hk⟩ := exKeyring C J (List.replicate 32 1) (List.replicate 32 2) [97] pk [112] none (by decide) (by decide) (by decide) (by decide)
  refine ⟨{ path := [107], export_ := true, label := [97] }, exWorld J f [112] [],
    _, _, _, f, _, _, ⟨⟨rfl, rfl, rfl, rfl, rfl⟩, rfl, rfl, rfl⟩, hk _ _, ho, rfl, ?_, Map.set_same _ _ _, rfl, rfl, fun t => ?_⟩
  · intro l l' r r' h1 h2 _
    unfold peerKeys at h1 h2
    by_cases hl : l = [97]
    · by_cases hl' : l' = [97]
      · rw [hl, hl']
      · rw [Map.set_other _ _ hl'] at h2
        cases h2
    · rw [Map.set_other _ _ hl] at h1
      cases h1
  · obtain ⟨fs, ks, -, -, h3, -⟩ := exServer C A P.toPem J (List.replicate 32 3) (List.replicate 32 4) (List.replicate 32 1) (List.replicate 32 2) pk [113]
      (by decide) (by decide) path
    have hen : (peerKeys C (List.replicate 32 3) (List.replicate 32 4) [97] (ownerOf C (List.replicate 32 1) (List.replicate 32 2))).Enumerates [[97]] :=
      enum_set enum_empty rfl _
    have ho := steady_enumerate h3.keys hen 0
    have hown : ∃ l r, peerKeys C (List.replicate 32 3) (List.replicate 32 4) [97] (ownerOf C (List.replicate 32 1) (List.replicate 32 2)) l = some (some r) ∧
        r.keyBytes = ownerOf C (List.replicate 32 1) (List.replicate 32 2) := ⟨[97], _, by unfold peerKeys; exact Map.set_same _ _ _, rfl⟩
    have hp := process_upload C (sha256 := sha256) h3 (by unfold peerKeys; exact Map.set_other _ _ (by decide))
      (show Armoured A P.toPem _ _ from enc_holds A P (statement C (List.replicate 32 1) (List.replicate 32 2) pk t)) (label := [98])
      (by decide) (by decide) (by unfold peerKeys; exact Map.set_other _ _ (by decide))
      (statement_signed C (List.replicate 32 1) (List.replicate 32 2) pk t (by decide)) (.inr hown) ho 9
    obtain ⟨s1, st1, -⟩ := handle_step C (J := J) (path := path)
      (s := { initial ks fs writes with queue := [.client 0 (.upload [98] _)] }) rfl rfl ho hp
    exact ⟨_, s1, _, _, _, h3, by unfold peerKeys; exact Map.set_other _ _ (by decide), by unfold peerKeys; exact Map.set_other _ _ (by decide), hown, st1⟩

/-- What a key server with a sound store sends to someone who asks for the key under a label other
than "self" is, if the status is 200, imported by fcrypt -import for every user who has the signer's
key on record, or whose key it is: their store then holds the key that the server has on record. -/
theorem C229_imported_partial (path : Path) (s s' : State) (owner : Bytes) (mS : Keys) (hs : Sound C s.ks owner mS) (k : Nat) (l : Bytes)
    (hl : l ≠ self) (resp : Response) (st : Step C A P.toPem J sha256 path s (.handle (.client k (.pubkey l)) resp) s') (body : Bytes)
    (hb : s'.replies = s.replies ++ [(k, .pubkey l, ⟨200, body⟩)]) :
    ∃ r signer, mS l = some (some r) ∧ (signer = owner ∨ ∃ l' r', mS l' = some (some r') ∧ r'.keyBytes = signer) ∧
      ∀ (e : Env) (fl : Flags) (src : Bytes) (rest : List Bytes) (w : World) (d seed pass : Bytes) (f : KeyFields) (m : Keys)
        (as : List (Option Bytes)) (label : Bytes),
        Imports fl → fl.untrusted = false → Keyring C J w.fs fl.path (ownerOf C d seed) f m → Opens C f d seed pass →
        w.term.answers = some pass :: as → Input w src body → w.writes 0 = .done → (∀ n, w.term.clock n ≠ 0) →
        (∀ n (m' : Keys), m'.Finite → m'.Enumerates (e.order n m')) →
        Asked fl as label → label ≠ self → m label = none → m [] = none →
        (signer = ownerOf C d seed ∨ ∃ l r, m l = some (some r) ∧ r.keyBytes = signer) →
        ∃ w' rec, main C A P J e fl (src :: rest) w = (.ok, w') ∧ rec.keyBytes = r.keyBytes ∧ rec.keySigner = signer ∧
          Replaced C J w fl.path (ownerOf C d seed) f (m.set label (some rec)) w' := by
  rcases C136_genuine_partial C A P.toPem J sha256 path s s' owner mS hs k l hl resp st with ⟨-, h⟩ | ⟨r, v, h1, h2, h3, h4, h5⟩
  · rw [h, List.append_cancel_left_eq] at hb
    simp at hb
  rw [h2, List.append_cancel_left_eq] at hb
  simp only [List.cons.injEq, Prod.mk.injEq, true_and, and_true, Model.Keysrv.Reply.mk.injEq] at hb
  refine ⟨r, v.signer, h1, h5, ?_⟩
  intro e fl src rest w d seed pass f m as label hfl hu hk ho ha hin hw hclk he hask n1 n2 hz hsig
  have hh : Holds A P body v := by
    rw [← hb]
    exact enc_holds A P _
  obtain ⟨w3, k1⟩ := C130_accepted_partial C A P J e fl hfl hu src rest w d seed pass f m as body hk ho ha hin hw he
    label _ hask n1 n2 hz hh ⟨hsig, h4⟩
  rcases C130_import_partial C A P J e fl hfl hu src rest w w3 .ok d seed pass f m as body hk ho ha hin (by rw [hw]; simp) hclk k1 with
    ⟨q, -⟩ | ⟨-, l, v', rec, q1, q2, q3, q4, -, q5, q6, q7, -, -, q8⟩
  · exact absurd rfl q
  · cases Asked.unique q1 hask
    cases Holds.unique A P q4 hh
    refine ⟨w3, rec, k1, ?_, q7, q8⟩
    rw [← h3]
    unfold PublicKeyRecord.keyBytes
    rw [q6]
    rfl

/-- The hypotheses can be met: someone asks a server for the key it has under "a", and a user with
the server's key on record imports the answer as "c". -/
example (pk : Bytes) (path : Path) (writes : Nat → WriteOutcome) : ∃ (s s' : State) (owner : Bytes) (mS : Keys) (resp : Response) (body : Bytes)
    (fl : Flags) (w : World) (d seed pass : Bytes) (f : KeyFields) (m : Keys) (r : PublicKeyRecord),
    Sound C s.ks owner mS ∧ Step C A P.toPem J sha256 path s (.handle (.client 0 (.pubkey [97])) resp) s' ∧
    s'.replies = s.replies ++ [(0, .pubkey [97], ⟨200, body⟩)] ∧
    Imports fl ∧ fl.untrusted = false ∧ Keyring C J w.fs fl.path (ownerOf C d seed) f m ∧ Opens C f d seed pass ∧
    w.term.answers = some pass :: [] ∧ Input w [105] body ∧ w.writes 0 = .done ∧ Asked fl [] [99] ∧ m [99] = none ∧ m [] = none ∧
    m [98] = some (some r) ∧ r.keyBytes = owner := by
  obtain ⟨fs, ks, -, -, h3, -⟩ := exServer C A P.toPem J (List.replicate 32 3) (List.replicate 32 4) (List.replicate 32 1) (List.replicate 32 2) pk [113]
    (by decide) (by decide) path
  have hen : (peerKeys C (List.replicate 32 3) (List.replicate 32 4) [97] (ownerOf C (List.replicate 32 1) (List.replicate 32 2))).Enumerates [[97]] :=
    enum_set enum_empty rfl _
  obtain ⟨s1, st1, -⟩ := handle_step C (A := A) (P := P.toPem) (sha256 := sha256) (J := J) (path := path) (clock := 0)
    (s := { initial ks fs writes with queue := [.client 0 (.pubkey [97])] }) rfl rfl (steady_enumerate h3.keys hen 0) rfl
  rcases C136_genuine_partial C A P.toPem J sha256 path _ s1 _ _ h3 0 [97] (by decide) _ st1 with ⟨h, -⟩ | ⟨r, v, h1, h2, -⟩
  · unfold peerKeys at h
    rw [Map.set_same] at h
    cases h
  obtain ⟨f2, -, ho2, hk2⟩ := exKeyring C J (List.replicate 32 5) (List.replicate 32 6) [98] (ownerOf C (List.replicate 32 3) (List.replicate 32 4)) [113] none
    (by decide) (by decide) (by decide) (by decide)
  exact ⟨_, s1, _, _, _, _, { path := [107], import_ := true, label := [99] }, exWorld J f2 [113] _, _, _, _, f2, _, _, h3, st1, h2,
    ⟨⟨rfl, rfl, rfl, rfl, rfl⟩, rfl, rfl, rfl, rfl⟩, rfl, hk2 _ _, ho2, rfl, exInput J _ _ _, rfl, Or.inl ⟨by decide, rfl⟩,
    by unfold peerKeys; exact Map.set_other _ _ (by decide), by unfold peerKeys; exact Map.set_other _ _ (by decide), Map.set_same _ _ _, rfl⟩

/-- C229 is false of a user's own key, which -export without -l writes: a server that has not got the
key already, and whose key it is not, refuses it under every label, for the user's own signature is
all that vouches for it. -/
theorem C229_own_violated (e : Env) (fl : Flags) (hfl : Exports fl) (hself : fl.label = self) (dst : Bytes) (rest : List Bytes) (w : World)
    (d seed : Bytes) (f : KeyFields) (m : Keys) (hk : Keyring C J w.fs fl.path (ownerOf C d seed) f m) (t : BitVec 64)
    (hx : f.exportKey = some (P.enc (ascii "CRYPTUTIL VERIFIED KEY") (A.enc (statement C d seed (ownerOf C d seed) t))))
    (hw : dst ≠ [45] → w.writes 0 = .done) :
    ∃ w' out, main C A P J e fl (dst :: rest) w = (.ok, w') ∧ Output w dst out w' ∧
      ∀ (path : Path) (s s1 : State) (mS : Keys) (k : Nat) (label : Bytes) (resp : Response),
        s.ks.keys = some mS → Labelled mS → s.ks.pubBytes ≠ ownerOf C d seed →
        (∀ l r, mS l = some (some r) → r.keyBytes ≠ ownerOf C d seed) →
        Step C A P.toPem J sha256 path s (.handle (.client k (.upload label out)) resp) s1 →
        s1.ks = s.ks ∧ ∃ text, s1.replies = s.replies ++ [(k, .upload label out, ⟨400, text⟩)] := by
  obtain ⟨w', g1, g2⟩ := exportSelf_run C A P J (e := e) (dst := dst) (rest := rest) hfl hself hk hx hw
  refine ⟨w', _, g1, g2, fun path s s1 mS k label resp h1 h2 h3 h4 st => ?_⟩
  rcases C81_upload_partial C A P.toPem J sha256 path s s1 k label _ resp mS h1 h2 st with ⟨q1, q2⟩ | ⟨-, -, -, -, v, r, q1, q2, -⟩
  · refine ⟨q2, ?_⟩
    rw [(step_reply C A P.toPem J sha256 st).1]
    cases he : resp.err with
    | none => exact absurd he q1
    | some x => exact ⟨x, by simp only [Request.reply, he]⟩
  · have hh := enc_holds A P (statement C d seed (ownerOf C d seed) t)
    cases Holds.unique A P (q1 : Holds A P _ v) hh
    rcases q2 with q2 | ⟨l, r', q2, q3⟩
    · exact absurd q2.symm h3
    · exact absurd q3 (h4 l r' q2)

/-- The hypotheses can be met: a user's own key, and a server that knows only somebody else's. -/
example (t : BitVec 64) (path : Path) (writes : Nat → WriteOutcome) : ∃ (fl : Flags) (w : World) (d seed : Bytes) (f : KeyFields) (m : Keys),
    Exports fl ∧ fl.label = self ∧ Keyring Toy.crypto J w.fs fl.path (ownerOf Toy.crypto d seed) f m ∧
    f.exportKey = some (P.enc (ascii "CRYPTUTIL VERIFIED KEY") (A.enc (statement Toy.crypto d seed (ownerOf Toy.crypto d seed) t))) ∧ w.writes 0 = .done ∧
    ∃ (fs : Fs) (ks : KeyStore) (mS : Keys), Starts Toy.crypto A P.toPem J fs path ks fs ∧ (initial ks fs writes).ks.keys = some mS ∧ Labelled mS ∧
      (initial ks fs writes).ks.pubBytes ≠ ownerOf Toy.crypto d seed ∧ mS [97] ≠ none ∧
      ∀ l r, mS l = some (some r) → r.keyBytes ≠ ownerOf Toy.crypto d seed := by
  obtain ⟨f, hx, ho, hk⟩ := exKeyring Toy.crypto J (List.replicate 32 1) (List.replicate 32 2) [97] [8] [112]
    (some (P.enc (ascii "CRYPTUTIL VERIFIED KEY") (A.enc (statement Toy.crypto (List.replicate 32 1) (List.replicate 32 2) (ownerOf Toy.crypto (List.replicate 32 1) (List.replicate 32 2)) t))))
    (by decide) (by decide) (by decide) (by decide)
  obtain ⟨fs, ks, h1, -, h3, -⟩ := exServer Toy.crypto A P.toPem J (List.replicate 32 3) (List.replicate 32 4) (List.replicate 32 5) (List.replicate 32 6) [] [113]
    (by decide) (by decide) path
  refine ⟨{ path := [107], export_ := true }, exWorld J f [112] [], _, _, f, _, ⟨⟨rfl, rfl, rfl, rfl, rfl⟩, rfl, rfl, rfl⟩, rfl, hk _ _, hx, rfl,
    fs, ks, _, h1, h3.keys, h3.labelled, ?_, ?_, fun l r h => ?_⟩
  · show ks.pubBytes ≠ _
    rw [sound_pub Toy.crypto h3]
    decide
  · unfold peerKeys
    rw [Map.set_same]
    simp
  · unfold peerKeys at h
    by_cases hl : l = [97]
    · rw [hl, Map.set_same] at h
      cases h
      show ownerOf Toy.crypto (List.replicate 32 5) (List.replicate 32 6) ≠ _
      decide
    · rw [Map.set_other _ _ hl] at h
      cases h

end Verif.Props.TogetherKeys
