import Verif.Props.Keysrv
import Verif.Proofs.KeysrvHttp
/-! Properties C156-C159: requests for URLs of the key server (exp/keysrv). -/

namespace Verif.Props.KeysrvHttp
open Verif Verif.Go Verif.Model.Util Verif.Model.Public Verif.Model.KeyStore Verif.Model.Keysrv
open Verif.Spec.Public Verif.Spec.KeyStore Verif.Spec.Keysrv Verif.Proofs.KeyStore Verif.Proofs.Keysrv Verif.Proofs.KeysrvHttp
open Verif.Spec.TotpUrl (pctDecode)
open Verif.Proofs.TotpUrl (pctDecode_cons pctDecode_path path_ne mem_pct)
open Verif.Proofs.Fcrypt (peerKeys)
open Verif.Props.KeyTrust Verif.Props.KeyImport Verif.Props.Keysrv

variable (C : Crypto) (A : Asn1) (P : Pem) (J : KeyJson) (sha256 : Bytes → Bytes)

/-! ### URLs -/

/-- The target consists of characters that may be in one, and of a path, which percent-decodes to
`p` (RFC 3986), and perhaps a query. -/
def Asks (target p : Bytes) : Prop :=
  ∃ a q, target = a ++ q ∧ 63 ∉ a ∧ (q = [] ∨ q.head? = some 63) ∧ pctDecode a = some p ∧ a.head? = some slash ∧
    ∀ c ∈ target, 32 < c ∧ c ≠ 127

theorem cut_query {a q : Bytes} (ha : 63 ∉ a) (hq : q = [] ∨ q.head? = some 63) :
    (a ++ q).takeWhile (fun c => decide (c ≠ 63)) = a ∧ (a ++ q).dropWhile (fun c => decide (c ≠ 63)) = q := by
  have hp : ∀ x ∈ a, decide (x ≠ 63) = true := by
    intro x hx
    simp only [decide_eq_true_eq]
    rintro rfl
    exact ha hx
  rw [List.takeWhile_append_of_pos hp, List.dropWhile_append_of_pos hp]
  rcases hq with rfl | hq
  · simp
  · cases q with
    | nil => cases hq
    | cons x q => cases hq; simp

theorem requestPath_iff (target p : Bytes) : requestPath target = some p ↔ Asks target p := by
  unfold requestPath
  constructor
  · intro h
    split at h
    · cases h
    · rename_i h1
      split at h
      · cases h
      · rename_i h2
        have h2 := Classical.not_not.mp h2
        refine ⟨target.takeWhile (fun c => decide (c ≠ 63)), target.dropWhile (fun c => decide (c ≠ 63)), (List.takeWhile_append_dropWhile).symm, ?_, ?_, ?_, ?_, ?_⟩
        · intro hm
          have := List.all_eq_true.mp List.all_takeWhile _ hm
          simp at this
        · cases hd : target.dropWhile (fun c => decide (c ≠ 63)) with
          | nil => exact .inl rfl
          | cons x r =>
            right
            have := List.head?_dropWhile_not (fun c => decide (c ≠ 63)) target
            rw [hd] at this
            simpa using this
        · rw [← pathUnescape_eq]; exact h
        · cases target with
          | nil => cases h2
          | cons x r => cases h2; rfl
        · intro c hc
          have := List.any_eq_false.mp (Bool.not_eq_true _ ▸ h1) c hc
          simp only [Bool.or_eq_true, decide_eq_true_eq, beq_iff_eq, not_or] at this
          exact ⟨UInt8.not_le.mp this.1, this.2⟩
  · rintro ⟨a, q, rfl, ha, hq, hd, hh, hc⟩
    rw [if_neg, if_neg, (cut_query ha hq).1, pathUnescape_eq, hd]
    · rw [List.head?_append, hh]; simp
    · rw [Bool.not_eq_true, List.any_eq_false]
      intro c hm
      obtain ⟨c1, c2⟩ := hc c hm
      simp only [Bool.or_eq_true, decide_eq_true_eq, beq_iff_eq, not_or]
      exact ⟨UInt8.not_le.mpr c1, c2⟩

theorem decode_plain {pre : Bytes} (h : 37 ∉ pre) (seg : Bytes) : pctDecode (pre ++ seg) = (pctDecode seg).map (pre ++ ·) := by
  induction pre with
  | nil => rw [List.nil_append]; cases pctDecode seg <;> rfl
  | cons c pre ih =>
    rw [List.mem_cons, not_or] at h
    rw [List.cons_append, pctDecode_cons _ _ (Ne.symm h.1), ih h.2]
    cases pctDecode seg <;> rfl

/-- A target made of a prefix, an encoding of the label, and a query. -/
theorem asks_label {pre seg q l : Bytes} (h1 : 37 ∉ pre) (h2 : 63 ∉ pre) (h3 : pre.head? = some slash) (hseg : 63 ∉ seg) (hd : pctDecode seg = some l)
    (hq : q = [] ∨ q.head? = some 63) (hc : ∀ c ∈ pre ++ seg ++ q, 32 < c ∧ c ≠ 127) : Asks (pre ++ seg ++ q) (pre ++ l) := by
  refine ⟨pre ++ seg, q, rfl, ?_, hq, ?_, ?_, hc⟩
  · rw [List.mem_append]; exact fun e => e.elim h2 hseg
  · rw [decode_plain h1, hd]; rfl
  · rw [List.head?_append, h3]; rfl

/-! ### C156: labels in URLs -/

theorem serve_public {h : Http} {l : Bytes} (hn : Name l) (ha : Asks h.target (ascii "/public/" ++ l)) : serveHTTP h = .handler (.pubkey l) := by
  have e : ascii "/public/" ++ l = slash :: ascii "public" ++ slash :: l := by rw [public_eq]; simp
  unfold serveHTTP
  rw [(requestPath_iff _ _).mpr ha]
  dsimp only
  rw [if_neg (by rw [e, mux_name name_public hn]; simp), if_neg, routeLabel_iff.mpr ⟨rfl, hn.ne, hn.noSlash⟩]
  exact fun h => hn.ne (List.append_right_eq_self.mp h)

theorem serve_upload {h : Http} {l b : Bytes} (hn : Name l) (hb : h.body = .ok b) (ha : Asks h.target (ascii "/upload/" ++ l)) :
    serveHTTP h = .handler (.upload l b) := by
  have e : ascii "/upload/" ++ l = slash :: ascii "upload" ++ slash :: l := by rw [upload_eq]; simp
  have e1 : ascii "/public/" = 47 :: 112 :: ascii "ublic/" := by decide
  have e2 : ascii "/upload/" = 47 :: 117 :: ascii "pload/" := by decide
  unfold serveHTTP
  rw [(requestPath_iff _ _).mpr ha]
  dsimp only
  rw [if_neg (by rw [e, mux_name name_upload hn]; simp), if_neg (by rw [e1, e2]; simp), route_other (by rw [e1, e2]; simp [List.isPrefixOf]),
    routeLabel_iff.mpr ⟨rfl, hn.ne, hn.noSlash⟩]
  dsimp only
  rw [hb]

theorem serve_fingerprint {h : Http} {l : Bytes} (hn : Name l) (ha : Asks h.target (ascii "/fingerprint/" ++ l)) :
    serveHTTP h = .handler (.fingerprint l) := by
  have e : ascii "/fingerprint/" ++ l = slash :: ascii "fingerprint" ++ slash :: l := by rw [fingerprint_eq]; simp
  have e1 : ascii "/public/" = 47 :: 112 :: ascii "ublic/" := by decide
  have e2 : ascii "/upload/" = 47 :: 117 :: ascii "pload/" := by decide
  have e3 : ascii "/fingerprint/" = 47 :: 102 :: ascii "ingerprint/" := by decide
  unfold serveHTTP
  rw [(requestPath_iff _ _).mpr ha]
  dsimp only
  rw [if_neg (by rw [e, mux_name name_fingerprint hn]; simp), if_neg (by rw [e1, e3]; simp), route_other (by rw [e1, e3]; simp [List.isPrefixOf]),
    route_other (by rw [e2, e3]; simp [List.isPrefixOf]), routeLabel_iff.mpr ⟨rfl, hn.ne, hn.noSlash⟩]

/-- A label that is not empty, contains no slash and is not "." or "..", percent-encoded in any way
and put after /public/, /fingerprint/ or /upload/, gives a URL that is about exactly this label,
whatever the method and the query. Missing: the other labels, see `C156_violated`. -/
theorem C156_label_partial (h : Http) (l : Bytes) (h1 : l ≠ []) (h2 : slash ∉ l) (h3 : l ≠ ascii ".") (h4 : l ≠ ascii "..") :
    (Asks h.target (ascii "/public/" ++ l) → serveHTTP h = .handler (.pubkey l)) ∧
    (Asks h.target (ascii "/fingerprint/" ++ l) → serveHTTP h = .handler (.fingerprint l)) ∧
    (∀ b, h.body = .ok b → Asks h.target (ascii "/upload/" ++ l) → serveHTTP h = .handler (.upload l b)) := by
  have hn : Name l := ⟨h1, h2, h3, h4⟩
  exact ⟨serve_public hn, serve_fingerprint hn, fun b hb => serve_upload hn hb⟩

/-- Conversely a handler gets to work only for such URLs, with the label in the URL. -/
theorem C156_exact (h : Http) (r : Request) (hr : serveHTTP h = .handler r) :
    (r = .server ∧ Asks h.target (ascii "/public/")) ∨ ∃ l, (l ≠ [] ∧ slash ∉ l ∧ l ≠ ascii "." ∧ l ≠ ascii "..") ∧
      (r = .pubkey l ∧ Asks h.target (ascii "/public/" ++ l) ∨ r = .fingerprint l ∧ Asks h.target (ascii "/fingerprint/" ++ l) ∨
        ∃ b, h.body = .ok b ∧ r = .upload l b ∧ Asks h.target (ascii "/upload/" ++ l)) := by
  have fixed : ∀ {w l p : Bytes} (pre : Bytes), Name w → pre = slash :: w ++ [slash] → p = pre ++ l → l ≠ [] → slash ∉ l → muxClean p = p →
      l ≠ [] ∧ slash ∉ l ∧ l ≠ ascii "." ∧ l ≠ ascii ".." := by
    rintro w l p pre hw rfl rfl h1 h2 h3
    rw [show slash :: w ++ [slash] ++ l = slash :: w ++ slash :: l by simp] at h3
    have := mux_fixed hw h2 h1 h3
    exact ⟨this.ne, this.noSlash, this.notDot, this.notDotdot⟩
  unfold serveHTTP at hr
  split at hr
  · cases hr
  · rename_i p hp
    rw [requestPath_iff] at hp
    split at hr
    · cases hr
    · rename_i hm
      have hm := Classical.not_not.mp hm
      split at hr
      · rename_i e
        cases hr
        exact .inl ⟨rfl, e ▸ hp⟩
      · right
        split at hr
        · rename_i l hl
          obtain ⟨rfl, h1, h2⟩ := routeLabel_iff.mp hl
          cases hr
          exact ⟨l, fixed _ name_public public_eq rfl h1 h2 hm, .inl ⟨rfl, hp⟩⟩
        · split at hr
          · rename_i l hl
            obtain ⟨rfl, h1, h2⟩ := routeLabel_iff.mp hl
            cases hb : h.body with
            | error e => rw [hb] at hr; cases hr
            | ok b =>
              rw [hb] at hr
              cases hr
              exact ⟨l, fixed _ name_upload upload_eq rfl h1 h2 hm, .inr (.inr ⟨b, rfl, rfl, hp⟩)⟩
          · split at hr
            · rename_i l hl
              obtain ⟨rfl, h1, h2⟩ := routeLabel_iff.mp hl
              cases hr
              exact ⟨l, fixed _ name_fingerprint fingerprint_eq rfl h1 h2 hm, .inr (.inl ⟨rfl, hp⟩)⟩
            · cases hr

/-- Once an upload of the statement `v` to the URL of a label was answered with status 200, whatever
happens then, whoever asks for the URL of that label gets that statement. -/
theorem C156_served_partial (path : Path) (s s1 s2 s3 : State) (n k : Nat) (up get : Http) (label body : Bytes) (r r' : Request) (v : VerifiedKey)
    (resp resp' : Response) (es : List Event) (m : Keys) (hm : s.ks.keys = some m) (hlab : Labelled m)
    (hup : Asks up.target (ascii "/upload/" ++ label)) (hb : up.body = .ok body) (hv : Armoured A P body v)
    (hget : Asks get.target (ascii "/public/" ++ label)) (hr : serveHTTP up = .handler r) (hr' : serveHTTP get = .handler r')
    (h1 : Step C A P J sha256 path s (.handle (.client n r) resp) s1) (text : Bytes) (ha : s1.replies = s.replies ++ [(n, r, ⟨200, text⟩)])
    (h2 : Run C A P J sha256 path s1 es s2) (h3 : Step C A P J sha256 path s2 (.handle (.client k r') resp') s3) :
    s3.replies = s2.replies ++ [(k, r', ⟨200, P.enc (ascii "CRYPTUTIL VERIFIED KEY") (A.enc v)⟩)] := by
  have asks_inj : ∀ {t p q : Bytes}, Asks t p → Asks t q → p = q := by
    intro t p q hp hq
    have := (requestPath_iff t p).mpr hp
    rw [(requestPath_iff t q).mpr hq] at this
    exact (Option.some.inj this).symm
  have e1 : ascii "/public/" = 47 :: 112 :: ascii "ublic/" := by decide
  have e2 : ascii "/upload/" = 47 :: 117 :: ascii "pload/" := by decide
  have e3 : ascii "/fingerprint/" = 47 :: 102 :: ascii "ingerprint/" := by decide
  have hname : Name label ∧ r = .upload label body := by
    rcases C156_exact up r hr with ⟨-, h⟩ | ⟨l, ⟨n1, n2, n3, n4⟩, ⟨-, h⟩ | ⟨-, h⟩ | ⟨b, b1, b2, h⟩⟩
    · have := asks_inj hup h
      rw [e1, e2] at this
      simp at this
    · have := asks_inj hup h
      rw [e1, e2] at this
      simp at this
    · have := asks_inj hup h
      rw [e3, e2] at this
      simp at this
    · have := List.append_cancel_left (asks_inj hup h)
      subst this
      rw [hb] at b1
      cases b1
      exact ⟨⟨n1, n2, n3, n4⟩, b2⟩
  obtain ⟨hname, rfl⟩ := hname
  rw [serve_public hname hget] at hr'
  cases hr'
  exact (C135_published_partial C A P J sha256 path s s1 s2 s3 n k label body v resp resp' es m hm hlab hv h1 text ha h2).1 h3

/-- A key server comes up with a key on record under the label "a/b", which has a chain to the
server's key. No request at all is about that label, so that nobody gets the key or its fingerprint:
for every other label but "self" the answer is an error. -/
theorem C156_violated (d seed dA seedA : Bytes) (hd : d.length = 32) (hs : seed.length = 32) (path : Path) :
    ∃ (fs : Fs) (ks : KeyStore) (m : Keys), Starts C A P J fs path ks fs ∧ ks.keys = some m ∧ m (ascii "a/b") ≠ none ∧
      Chain C (ownerOf C d seed) m (ascii "a/b") ∧
      ∀ (h : Http) (r : Request), serveHTTP h = .handler r →
        r ≠ .pubkey (ascii "a/b") ∧ r ≠ .fingerprint (ascii "a/b") ∧ ∀ l, l ≠ self → (r = .pubkey l ∨ r = .fingerprint l) →
          ∀ o clock, ∃ resp, process C A P sha256 ks r.command o clock = some (.ok (ks, resp)) ∧ (r.reply resp).status = 400 := by
  obtain ⟨fs, ks, h1, -, h3, -⟩ := exServerAt C A P J (ascii "a/b") d seed dA seedA [] [112] (by decide) (by decide) hd hs path
  have hm : peerKeys C d seed (ascii "a/b") (ownerOf C dA seedA) (ascii "a/b") = some (some (recordFor (ascii "a/b") (statement C d seed (ownerOf C dA seedA) 5))) := by
    unfold peerKeys; exact Map.set_same _ _ _
  refine ⟨fs, ks, _, h1, h3.keys, by rw [hm]; simp, Trust.chain C (h3.trust _ _ hm), fun h r hr => ?_⟩
  have hno : ∀ l, (r = .pubkey l ∨ r = .fingerprint l) → l ≠ [] ∧ slash ∉ l := by
    rintro l hl
    rcases C156_exact h r hr with ⟨rfl, -⟩ | ⟨l', ⟨n1, n2, -⟩, ⟨rfl, -⟩ | ⟨rfl, -⟩ | ⟨b, -, rfl, -⟩⟩
    · rcases hl with e | e <;> cases e
    · rcases hl with e | e <;> cases e
      exact ⟨n1, n2⟩
    · rcases hl with e | e <;> cases e
      exact ⟨n1, n2⟩
    · rcases hl with e | e <;> cases e
  have hs' : slash ∈ ascii "a/b" := by decide
  refine ⟨fun e => (hno _ (.inl e)).2 hs', fun e => (hno _ (.inr e)).2 hs', fun l hl he o clock => ?_⟩
  obtain ⟨hne, hsl⟩ := hno l he
  have hml : ks.get l = none := by
    rw [get_eq h3.keys]
    have : peerKeys C d seed (ascii "a/b") (ownerOf C dA seedA) l = none := by
      unfold peerKeys
      rw [Map.set_other _ _ (by rintro rfl; exact hsl hs')]
      rfl
    rw [this]
    rfl
  rcases he with rfl | rfl
  · exact ⟨_, rfl, by simp only [Request.command]; rw [lookup_unknown A P hl hml]; rfl⟩
  · refine ⟨_, rfl, ?_⟩
    simp only [Request.command, if_neg hne]
    rw [fingerprint_unknown sha256 hl hml]
    rfl

/-- A label of a space and a byte that is not UTF-8, encoded in two ways. -/
example : serveHTTP ⟨ascii "GET", ascii "/public/%20%FF?x=/../", .ok []⟩ = .handler (.pubkey [32, 255]) ∧
    serveHTTP ⟨ascii "PUT", ascii "/public/%20" ++ [255], .ok []⟩ = .handler (.pubkey [32, 255]) :=
  ⟨(C156_label_partial _ [32, 255] (by decide) (by decide) (by decide) (by decide)).1 ((requestPath_iff _ _).mp (by decide)),
    (C156_label_partial _ [32, 255] (by decide) (by decide) (by decide) (by decide)).1 ((requestPath_iff _ _).mp (by decide))⟩

/-- The hypotheses of `C156_served_partial` can be met: a key is uploaded to /upload/b and asked for
at /public/%62. -/
example (d seed dA seedA pk : Bytes) (hd : d.length = 32) (hs : seed.length = 32) (hA : seedA.length = 32) (path : Path)
    (writes : Nat → WriteOutcome) :
    ∃ (s s1 s3 : State) (m : Keys) (body : Bytes) (r r' : Request) (v : VerifiedKey) (resp resp' : Response), s.ks.keys = some m ∧ Labelled m ∧
      Armoured A P body v ∧ serveHTTP ⟨ascii "POST", ascii "/upload/b", .ok body⟩ = .handler r ∧
      serveHTTP ⟨ascii "GET", ascii "/public/%62", .ok []⟩ = .handler r' ∧
      Step C A P J sha256 path s (.handle (.client 0 r) resp) s1 ∧ (∃ text, s1.replies = s.replies ++ [(0, r, ⟨200, text⟩)]) ∧
      ∃ s2 es, Run C A P J sha256 path s1 es s2 ∧ Step C A P J sha256 path s2 (.handle (.client 1 r') resp') s3 ∧
        s3.replies = s2.replies ++ [(1, r', ⟨200, P.enc (ascii "CRYPTUTIL VERIFIED KEY") (A.enc v)⟩)] := by
  obtain ⟨fs, ks, h1, h2, h3, h4⟩ := exServer C A P J d seed dA seedA pk [112] hd hs path
  have hen : (peerKeys C d seed [97] (ownerOf C dA seedA)).Enumerates [[97]] := enum_set enum_empty rfl _
  have ho := steady_enumerate h3.keys hen 0
  have hp := process_upload C (sha256 := sha256) h3 (by unfold peerKeys; exact Map.set_other _ _ (by decide)) h4 (label := [98])
    (by decide) (by decide) (by unfold peerKeys; exact Map.set_other _ _ (by decide)) (statement_signed C dA seedA pk 5 hA)
    (.inr ⟨[97], _, by unfold peerKeys; exact Map.set_same _ _ _, rfl⟩) ho 9
  obtain ⟨s1, st1, k1, q1, r1, -⟩ := handle_step C (J := J) (path := path)
    (s := { initial ks fs writes with queue := [.client 0 (.upload [98] ((statement C dA seedA pk 5).serialise A P)), .client 1 (.pubkey [98])] })
    rfl rfl ho hp
  have hen2 : ((peerKeys C d seed [97] (ownerOf C dA seedA)).set [98] (some { label := [98], version := 1, timestamp := 9, keys := some (statement C dA seedA pk 5).pub, keySignature := (statement C dA seedA pk 5).signature, keySigner := (statement C dA seedA pk 5).signer, signatureTime := (statement C dA seedA pk 5).timestamp, metadata := none })).Enumerates [[98], [97]] :=
    enum_set hen (by unfold peerKeys; exact Map.set_other _ _ (by decide)) _
  obtain ⟨s3, st2, -⟩ := handle_step C (A := A) (P := P) (sha256 := sha256) (J := J) (path := path) (clock := 0) r1 q1
    (steady_enumerate (by rw [k1]) hen2 0) rfl
  have a1 : Asks (ascii "/upload/b") (ascii "/upload/" ++ [98]) := (requestPath_iff _ _).mp (by decide)
  have a2 : Asks (ascii "/public/%62") (ascii "/public/" ++ [98]) := (requestPath_iff _ _).mp (by decide)
  have hb : Name [98] := by constructor <;> decide
  have u1 := serve_upload (h := ⟨ascii "POST", ascii "/upload/b", .ok ((statement C dA seedA pk 5).serialise A P)⟩) hb rfl a1
  have u2 := serve_public (h := ⟨ascii "GET", ascii "/public/%62", .ok []⟩) hb a2
  have hrep := (step_reply C A P J sha256 st1).1
  exact ⟨_, s1, s3, _, _, _, _, _, _, _, h3.keys, h3.labelled, h4, u1, u2, st1, ⟨_, hrep⟩, s1, [], .nil _, st2,
    C156_served_partial C A P J sha256 path _ s1 s1 s3 0 1 _ _ [98] _ _ _ _ _ _ [] _ h3.keys h3.labelled a1 rfl h4 a2 u1 u2 st1 _ hrep (.nil _) st2⟩

/-! ### C157: which requests change the keys -/

/-- Requests for URLs that are not under /upload/, whatever their method, change neither the keys
nor the file. Missing: requests under /upload/ with methods that should not change anything, see
`C157_violated`. -/
theorem C157_partial (path : Path) (s s' : State) (n : Nat) (h : Http) (r : Request) (resp : Response) (hr : serveHTTP h = .handler r)
    (hp : ∀ p, Asks h.target p → ¬ ascii "/upload/" <+: p) (hst : Step C A P J sha256 path s (.handle (.client n r) resp) s') :
    s'.ks = s.ks ∧ s'.fs = s.fs := by
  refine C136_read_only C A P J sha256 path s s' n r resp (fun l b e => ?_) hst
  subst e
  rcases C156_exact h _ hr with ⟨h1, -⟩ | ⟨l', -, ⟨h1, -⟩ | ⟨h1, -⟩ | ⟨b, -, h1, ha⟩⟩
  · cases h1
  · cases h1
  · cases h1
  · exact hp _ ha (List.prefix_append _ _)

/-- An upload whose body cannot be read changes nothing: it is answered with status 400 and the reason, and
nothing is sent to the dispatcher. -/
theorem C157_unreadable (h : Http) (l e : Bytes) (h1 : l ≠ []) (h2 : slash ∉ l) (h3 : l ≠ ascii ".") (h4 : l ≠ ascii "..") (hb : h.body = .error e)
    (ha : Asks h.target (ascii "/upload/" ++ l)) : serveHTTP h = .direct ⟨400, e⟩ none := by
  have hn : Name l := ⟨h1, h2, h3, h4⟩
  have e0 : ascii "/upload/" ++ l = slash :: ascii "upload" ++ slash :: l := by rw [upload_eq]; simp
  have e1 : ascii "/public/" = 47 :: 112 :: ascii "ublic/" := by decide
  have e2 : ascii "/upload/" = 47 :: 117 :: ascii "pload/" := by decide
  unfold serveHTTP
  rw [(requestPath_iff _ _).mpr ha]
  dsimp only
  rw [if_neg (by rw [e0, mux_name name_upload hn]; simp), if_neg (by rw [e1, e2]; simp), route_other (by rw [e1, e2]; simp [List.isPrefixOf]),
    routeLabel_iff.mpr ⟨rfl, hn.ne, hn.noSlash⟩]
  dsimp only
  rw [hb]

/-- A request with the method GET makes the server add a key. -/
theorem C157_violated (d seed dA seedA pk : Bytes) (hd : d.length = 32) (hs : seed.length = 32) (hA : seedA.length = 32) (path : Path)
    (writes : Nat → WriteOutcome) : ∃ fs ks h r es s, Starts C A P J fs path ks fs ∧ h.method = ascii "GET" ∧ serveHTTP h = .handler r ∧
      Prompt C A P J sha256 path (initial ks fs writes) es s ∧ arrived es = [(0, r)] ∧
      ∃ m m', ks.keys = some m ∧ s.ks.keys = some m' ∧ m (ascii "b") = none ∧ m' (ascii "b") ≠ none := by
  obtain ⟨fs, ks, h1, h2, h3, h4⟩ := exServer C A P J d seed dA seedA pk [112] hd hs path
  have hen : (peerKeys C d seed [97] (ownerOf C dA seedA)).Enumerates [[97]] := enum_set enum_empty rfl _
  have ho := steady_enumerate h3.keys hen 0
  have hno : peerKeys C d seed [97] (ownerOf C dA seedA) [98] = none := by unfold peerKeys; exact Map.set_other _ _ (by decide)
  have hp := process_upload C (sha256 := sha256) h3 (by unfold peerKeys; exact Map.set_other _ _ (by decide)) h4 (label := [98])
    (by decide) (by decide) hno (statement_signed C dA seedA pk 5 hA) (.inr ⟨[97], _, by unfold peerKeys; exact Map.set_same _ _ _, rfl⟩) ho 9
  have hb : ascii "b" = [98] := by decide
  rw [hb]
  refine ⟨fs, ks, ⟨ascii "GET", ascii "/upload/b", .ok ((statement C dA seedA pk 5).serialise A P)⟩, .upload [98] ((statement C dA seedA pk 5).serialise A P), _, _, h1, rfl,
    serve_upload (by constructor <;> decide) rfl ((requestPath_iff (ascii "/upload/b") (ascii "/upload/" ++ [98])).mp (by decide)),
    serve C (s := initial ks fs writes) rfl rfl rfl 0 _ ho hp, rfl, _, _, h3.keys, rfl, hno, ?_⟩
  simp

/-- A request that `C157_partial` is about. -/
example : serveHTTP ⟨ascii "POST", ascii "/fingerprint/b", .ok [1, 2]⟩ = .handler (.fingerprint (ascii "b")) ∧
    ∀ p, Asks (ascii "/fingerprint/b") p → ¬ ascii "/upload/" <+: p := by
  have h : requestPath (ascii "/fingerprint/b") = some (ascii "/fingerprint/b") := by decide
  refine ⟨serve_fingerprint (by constructor <;> decide) ((requestPath_iff _ _).mp h), fun p hp => ?_⟩
  rw [(requestPath_iff _ _).mpr hp] at h
  cases h
  decide

/-- A request that `C157_unreadable` is about. -/
example : serveHTTP ⟨ascii "POST", ascii "/upload/b", .error (ascii "unexpected EOF")⟩ = .direct ⟨400, ascii "unexpected EOF"⟩ none :=
  C157_unreadable _ (ascii "b") _ (by decide) (by decide) (by decide) (by decide) rfl ((requestPath_iff _ _).mp (by decide))

/-! ### C158: redirects -/

theorem unreserved_printable {c : UInt8} (h : unreserved c = true) : 32 < c ∧ c ≠ 127 := by
  refine ⟨?_, by rintro rfl; exact absurd h (by decide)⟩
  unfold unreserved at h
  simp only [Bool.or_eq_true, Bool.and_eq_true, decide_eq_true_eq, beq_iff_eq, UInt8.le_iff_toNat_le] at h
  rw [UInt8.lt_iff_toNat_lt]
  rcases h with ((((((h | h) | h) | rfl) | rfl) | rfl) | rfl)
  · have h0 : (48 : UInt8).toNat = 48 := rfl
    have h1 : (32 : UInt8).toNat = 32 := rfl
    omega
  · have h0 : (65 : UInt8).toNat = 65 := rfl
    have h1 : (32 : UInt8).toNat = 32 := rfl
    omega
  · have h0 : (97 : UInt8).toNat = 97 := rfl
    have h1 : (32 : UInt8).toNat = 32 := rfl
    omega
  all_goals decide

theorem pathSafe_printable {c : UInt8} (h : pathSafe c = true) : 32 < c ∧ c ≠ 127 := by
  unfold pathSafe at h
  simp only [Bool.or_eq_true, beq_iff_eq] at h
  rcases h with (((((((rfl | rfl) | rfl) | rfl) | rfl) | rfl) | rfl) | rfl) | rfl
  all_goals decide

theorem escaped_printable {b : Bytes} {c : UInt8} (h : c ∈ escapedPath b) : 32 < c ∧ c ≠ 127 := by
  unfold escapedPath at h
  split at h
  · rename_i e
    subst e
    rw [List.mem_singleton] at h
    subst h
    decide
  · rw [List.mem_flatMap] at h
    obtain ⟨x, -, h⟩ := h
    split at h
    · rename_i hx
      rw [List.mem_singleton] at h
      subst h
      rw [Bool.or_eq_true] at hx
      exact hx.elim unreserved_printable pathSafe_printable
    · rcases mem_pct h with rfl | h
      · decide
      · exact unreserved_printable h

theorem escaped_head {b : Bytes} (h : b.head? = some slash) : (escapedPath b).head? = some slash := by
  cases b with
  | nil => cases h
  | cons c b =>
    cases h
    exact (Proofs.TotpUrl.escapedPath_head 47 b).mpr rfl

theorem resolve_mux {p : Bytes} (hp : p.head? = some slash) : resolvePath [] (muxClean p) = resolvePath [] p := by
  unfold muxClean
  rw [if_neg (by rintro rfl; cases hp)]
  dsimp only
  rw [if_neg (show ¬ p.head? ≠ some slash by rw [hp]; simp)]
  split
  · have h1 : ∀ q : Bytes, resolvePath [] (q ++ [slash]) = resolvePath [] q := by
      intro q
      unfold resolvePath
      rw [Proofs.FilePath.splitSlash_append, List.foldl_append]
      have h0 : splitSlash [] = [[]] := rfl
      rw [h0]
      have h2 : ∀ st, pathStep true st [] = st := fun st => by simp [pathStep]
      simp only [List.foldl_cons, List.foldl_nil, h2, List.reverse_nil, ite_self]
    rw [h1, Proofs.FilePath.resolve_clean]
  · exact Proofs.FilePath.resolve_clean _ _

/-- A redirect goes to a URL with the same query and a path that leads to the same place, and there
the client is not redirected again. -/
theorem C158_redirects (h : Http) (reply : Reply) (loc : Bytes) (hr : serveHTTP h = .direct reply (some loc)) :
    reply.status = 301 ∧ (∀ method body reply' loc', serveHTTP ⟨method, loc, body⟩ ≠ .direct reply' (some loc')) ∧
    ∃ a b q p p', h.target = a ++ q ∧ loc = b ++ q ∧ Asks h.target p ∧ pctDecode a = some p ∧ Asks loc p' ∧ pctDecode b = some p' ∧
      resolvePath [] p' = resolvePath [] p := by
  unfold serveHTTP at hr
  split at hr
  · cases hr
  · rename_i p hp
    rw [requestPath_iff] at hp
    split at hr
    · cases hr
      have hp0 := hp
      obtain ⟨a, q, e, ha, hq, hd, hh, hc⟩ := hp0
      have hq' := (cut_query ha hq).2
      have hloc : Asks (escapedPath (muxClean p) ++ h.target.dropWhile (fun c => decide (c ≠ 63))) (muxClean p) := by
        rw [e, hq']
        refine ⟨_, q, rfl, path_ne _, hq, pctDecode_path _, escaped_head (mux_head p), fun c hm => ?_⟩
        rcases List.mem_append.mp hm with hm | hm
        · exact escaped_printable hm
        · exact hc c (by rw [e]; exact List.mem_append_right _ hm)
      have hph : p.head? = some slash := by
        cases a with
        | nil => cases hh
        | cons x a =>
          cases hh
          rw [pctDecode_cons _ _ (by decide)] at hd
          cases hx : pctDecode a with
          | none => rw [hx] at hd; cases hd
          | some y => rw [hx] at hd; cases hd; rfl
      refine ⟨rfl, fun method body reply' loc' h' => ?_, a, _, q, p, _, e, by rw [e, hq'], hp, hd, hloc, pctDecode_path _, resolve_mux hph⟩
      unfold serveHTTP at h'
      rw [(requestPath_iff _ _).mpr hloc] at h'
      dsimp only at h'
      rw [if_neg (by rw [mux_idem]; simp)] at h'
      split at h'
      · cases h'
      · split at h'
        · cases h'
        · split at h'
          · split at h' <;> cases h'
          · split at h' <;> cases h'
    · split at hr
      · cases hr
      · split at hr
        · cases hr
        · split at hr
          · split at hr <;> cases hr
          · split at hr <;> cases hr

/-- A redirect. -/
example : serveHTTP ⟨ascii "GET", ascii "//public/x%20y/../z?q=//", .ok []⟩ = .direct ⟨301, []⟩ (some (ascii "/public/z?q=//")) := by
  have h : requestPath (ascii "//public/x%20y/../z?q=//") = some (ascii "//public/x y/../z") := by decide
  have h2 : muxClean (ascii "//public/x y/../z") = ascii "/public/z" := by decide
  unfold serveHTTP
  rw [h]
  dsimp only
  rw [h2, if_pos (by decide)]
  exact congrArg (fun l => Front.direct ⟨301, []⟩ (some l)) (by decide)

/-! ### C159: the server's own fingerprint -/

/-- At /fingerprint/self a server with a sound store gives the fingerprint of its own key. -/
theorem C159_self_partial (path : Path) (s s' : State) (owner : Bytes) (m : Keys) (hs : Sound C s.ks owner m) (n : Nat) (h : Http) (r : Request)
    (resp : Response) (ha : Asks h.target (ascii "/fingerprint/self")) (hr : serveHTTP h = .handler r)
    (hst : Step C A P J sha256 path s (.handle (.client n r) resp) s') :
    s'.replies = s.replies ++ [(n, r, ⟨200, hexEncode (sha256 owner)⟩)] := by
  have e : ascii "/fingerprint/self" = ascii "/fingerprint/" ++ self := by decide
  rw [e] at ha
  rw [serve_fingerprint (by constructor <;> decide) ha] at hr
  cases hr
  rcases C136_fingerprint_partial C A P J sha256 path s s' owner m hs n self resp hst with ⟨-, h⟩ | ⟨h, -⟩ | ⟨h, -⟩
  · exact h
  · exact absurd rfl h
  · exact absurd rfl h

/-- At /fingerprint/ there is nothing, although the handler has a default for it; at /public/ there
is the server's key. -/
theorem C159_violated (h : Http) : (Asks h.target (ascii "/fingerprint/") → serveHTTP h = .direct ⟨404, ascii "404 page not found" ++ [10]⟩ none) ∧
    (Asks h.target (ascii "/public/") → serveHTTP h = .handler .server) := by
  constructor
  · intro ha
    unfold serveHTTP
    rw [(requestPath_iff _ _).mpr ha]
    dsimp only
    rw [if_neg (by rw [fingerprint_eq, mux_dir name_fingerprint]; simp), if_neg (by decide)]
    have h1 : routeLabel (ascii "/public/") (ascii "/fingerprint/") = none := by decide
    have h2 : routeLabel (ascii "/upload/") (ascii "/fingerprint/") = none := by decide
    have h3 : routeLabel (ascii "/fingerprint/") (ascii "/fingerprint/") = none := by decide
    rw [h1, h2, h3]
  · intro ha
    unfold serveHTTP
    rw [(requestPath_iff _ _).mpr ha]
    dsimp only
    rw [if_neg (by rw [public_eq, mux_dir name_public]; simp), if_pos rfl]

/-- Requests that `C159_violated` is about. -/
example : Asks (ascii "/fingerprint/") (ascii "/fingerprint/") ∧ Asks (ascii "/public/?") (ascii "/public/") :=
  ⟨(requestPath_iff _ _).mp (by decide), (requestPath_iff _ _).mp (by decide)⟩

/-- The hypotheses of `C159_self_partial` can be met. -/
example (d seed dA seedA : Bytes) (hd : d.length = 32) (hs : seed.length = 32) (path : Path) (writes : Nat → WriteOutcome) :
    ∃ fs ks m r es s, Starts C A P J fs path ks fs ∧ Sound C ks (ownerOf C d seed) m ∧ serveHTTP ⟨ascii "GET", ascii "/fingerprint/self", .ok []⟩ = .handler r ∧
      Prompt C A P J sha256 path (initial ks fs writes) es s ∧ s.replies = [(0, r, ⟨200, hexEncode (sha256 (ownerOf C d seed))⟩)] := by
  obtain ⟨fs, ks, h1, -, h3, -⟩ := exServer C A P J d seed dA seedA [] [112] hd hs path
  have hen : (peerKeys C d seed [97] (ownerOf C dA seedA)).Enumerates [[97]] := enum_set enum_empty rfl _
  have ho := steady_enumerate h3.keys hen 0
  have hself : Name self := by constructor <;> decide
  have hst := serve C (A := A) (P := P) (J := J) (sha256 := sha256) (path := path) (s := initial ks fs writes) rfl rfl rfl 0 (.fingerprint self) (clock := 0) ho rfl
  refine ⟨fs, ks, _, _, _, _, h1, h3, serve_fingerprint hself ((requestPath_iff _ _).mp (by decide)), hst, ?_⟩
  show [] ++ [(0, Request.fingerprint self, _)] = _
  rw [List.nil_append]
  have : fingerprint sha256 ks self = { out := hexEncode (sha256 ks.pubBytes) } := fingerprint_self sha256 h3.quick
  have hp : ks.pubBytes = ownerOf C d seed := by unfold KeyFields.pubBytes; rw [h3.pub]; rfl
  rw [hp] at this
  simp only [Request.command, if_neg (show self ≠ [] by decide)]
  show [(0, Request.fingerprint self, (Request.fingerprint self).reply (fingerprint sha256 ks self))] = _
  rw [this]
  rfl

end Verif.Props.KeysrvHttp
