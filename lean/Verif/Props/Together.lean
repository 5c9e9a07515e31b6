import Verif.Spec.Together
import Verif.Proofs.Fields
import Verif.Props.SecretsOutput
import Verif.Props.SecretscliOutput
import Verif.Props.SecretscliErrors
import Verif.Props.Migrate
/-! C227, C228 and C230: what one program makes of the files of another. -/

namespace Verif.Props.Together
open Verif Verif.Go Verif.Model.Util Verif.Model.SecretStore Verif.Model.Secretscli
open Verif.Model.Secrets (World Flags dash)
open Verif.Model.SecretsOutput (mainText)
open Verif.Model.SecretscliOutput
open Verif.Spec.SecretStore Verif.Spec.Secrets Verif.Spec.SecretsOutput Verif.Spec.Secretscli Verif.Spec.SecretscliOutput Verif.Spec.Together
open Verif.Proofs.SecretStore Verif.Proofs.Fields
open Verif.Props.SecretStore

variable (F : Printf) (C : Crypto) (J : Json) (P : Pem) (ord : Map (Option SecretRecord) → List Bytes) (fuel : Nat)

/-! ### C227: secrets and secretscli -/

theorem fieldsF_last (n : Nat) : ∀ (w cur : Bytes), (∀ t, t <:+ w → spaceLen t = 0) → cur.reverse ++ w ≠ [] → w.length < n →
    fieldsF n cur w = [cur.reverse ++ w] := by
  induction n with
  | zero => intro w cur _ _ h; omega
  | succ n ih =>
    intro w cur hw hne hn
    cases w with
    | nil =>
      have : cur ≠ [] := by simpa using hne
      simp [fieldsF, this]
    | cons b w =>
      rw [fieldsF, if_pos (hw _ (List.suffix_refl _)), ih w (b :: cur) (fun t ht => hw t (ht.trans (List.suffix_cons _ _))) (by simp)
        (by simpa using hn)]
      simp

theorem word_of {l : Bytes} (h : ¬ Spaced l) : Word l := by
  unfold Spaced at h
  rw [not_or] at h
  exact ⟨h.1, fun t ht => by_contra fun hne => h.2 ⟨t, ht, hne⟩⟩

theorem word_show : Word (ascii "show") := by
  refine ⟨by decide, fun t ht => ?_⟩
  have : t ∈ (ascii "show").tails := (List.mem_tails _ _).mpr ht
  exact (show ∀ t ∈ (ascii "show").tails, spaceLen t = 0 by decide) t this

/-- The command line that shows a label. -/
theorem fields_show {l : Bytes} (h : ¬ Spaced l) : fields (ascii "show " ++ l) = [ascii "show", l] := by
  have hw := word_of h
  have e : ascii "show " ++ l = ascii "show" ++ 32 :: l := by simp [ascii]
  rw [e, fields_word (w := ascii "show") word_show (Or.inr (Or.inr rfl)) l]
  unfold fields
  rw [fieldsF_last _ l [] hw.2 (by simpa using hw.1) (Nat.lt_succ_self _)]
  rfl

theorem text_show {e : Env} {line : Bytes} {args : List Bytes} {st : St} (hf : fields line = ascii "show" :: args) :
    commandText F e line st = printed (showSecret id args) st := by
  unfold commandText
  rw [hf]
  simp only [show (ascii "show" = ascii "clear") = False by decide, show (ascii "show" = ascii "help") = False by decide,
    show (ascii "show" = ascii "list") = False by decide, show (ascii "show" = ascii "quit") = False by decide,
    show (ascii "show" = ascii "passwd") = False by decide, show (ascii "show" = ascii "rmeta") = False by decide, if_false, if_true]

theorem start_of {w : World} {writes : Nat → WriteOutcome} {path p : Bytes} {mode : Int} {as : List (Option Bytes)} {s : SecretStore}
    (ha : w.term.answers = some p :: as) (ho : Opens C J w.fs path p mode s) :
    start C J w writes path mode = .ok (some
      { sess := { store := s, path := path, mode := mode, dirty := false }, w := { w with term := { w.term with answers := as } }, writes := writes }) := by
  obtain ⟨b, hb, hu⟩ := ho
  unfold start Term.read
  rw [ha]
  simp only [hb, hu, Res.ok_bind, Res.pure_eq]

/-- A secret that was stored with `secrets -s label` can be shown in secretscli, in a session begun with the same passphrase
and strength, by typing show and the label. Missing from the property: labels with white space, for which it is false. -/
theorem C227_shown_partial (f : Flags) (l : Bytes) (args : List Bytes) (path : Bytes) (w w' : World) (hd : path ≠ dash)
    (hf : f.action = .cmd .store) (hm : f.withMeta = false) (hl : ValidUtf8 l) (hs : ¬ Spaced l)
    (h : Model.Secrets.main C J P ord fuel f (l :: args) path w = some (.ok (0, w'))) :
    ∃ pass pw rest, w.term.answers = some pass :: some pw :: rest ∧ ∀ (w2 : World) (writes : Nat → WriteOutcome) (as : List (Option Bytes)) (e : Env),
      w2.fs path = w'.fs path → w2.term.answers = some pass :: as →
      ∃ st, start C J w2 writes path f.mode = .ok (some st) ∧ st.w.term.answers = as ∧ commandText F e (ascii "show " ++ l) st = pw ++ [10] := by
  obtain ⟨pass, pw, rest, s, s', r', ha, -, -, ⟨b, hb, hu⟩, -, -, hr, rfl, -⟩ := Secrets.C95_store C J P ord fuel f (l :: args) path w w' hd hf hm hl h
  refine ⟨pass, _, rest, ha, fun w2 writes as e hfs ha2 => ⟨_, start_of C J ha2 ⟨b, hfs.trans hb, hu⟩, rfl, ?_⟩⟩
  rw [text_show F (fields_show hs)]
  simp only [List.headD_cons] at hr
  obtain ⟨m, hm1, hm2⟩ := Proofs.Secrets.lookup_get hr
  simp [printed, showSecret, showLine, St.entry, hm1, hm2, St.print]

/-- And the reverse: what was stored or changed in a session of secretscli that does not write before its end is printed by
`secrets label`, with the passphrase of the session and the same strength; labels with white space cannot be stored there. -/
theorem C227_back_partial {e : Env} {w : World} {writes : Nat → WriteOutcome} {path p : Bytes} {i : Bool} {as : List (Option Bytes)} {s0 : SecretStore}
    {st : St} {evs : List Event} {s : Sys} (hd : path ≠ dash) (ha : w.term.answers = some p :: as)
    (ho : Opens C J w.fs path p (if i then 1 else 0) s0) (hg : Good s0)
    (hu : ∀ b, some b ∈ as → ValidUtf8 b) (hc : ∀ n, w.term.clock n ≠ 0) (hw : ∀ n, writes n = .done) (hr : 56 ≤ w.rng.length)
    (hst : start C J w writes path (if i then 1 else 0) = .ok (some st)) (hrun : Run C J e (Sys.init st) evs s) (hx : s.main = .exited)
    (hno : ∀ b ∈ commands evs, fields b ≠ [ascii "write"] ∧ ∀ l l2 ls, fields b ≠ ascii "store" :: l :: l2 :: ls) :
    ∃ v rest, Session (commands evs) ⟨entries s0, p, .clean⟩ as v rest ∧ (v.stage ≠ .clean → ∀ l x md, v.entry l = some (x, md) →
      ∀ (w2 : World) (more : List Bytes) (as2 : List (Option Bytes)) (e2 : Model.SecretsOutput.Env),
        w2.fs path = s.st.w.fs path → w2.term.answers = some v.pass :: as2 →
        (∀ md : Map Bytes, md.Finite → md.Enumerates (e2.metaOrder md)) →
        (∃ w3, Model.Secrets.main C J P ord fuel { interactive := i } (l :: more) path w2 = some (.ok (0, w3))) ∧
        mainText C J ord e2 fuel { interactive := i } (l :: more) path w2 = ascii "Secret: " ++ x ++ [10] ∧
        mainText C J ord e2 fuel { interactive := i, clip := true } (l :: more) path w2 = x) := by
  obtain ⟨v, rest, h1, -, h3⟩ := Secretscli.C69_no_write_partial C J hd (by cases i <;> simp) ha ho hg hu hc hw hr hst hrun hx hno
  refine ⟨v, rest, h1, fun hne l x md hv w2 more as2 e2 hfs ha2 he => ?_⟩
  rcases h3 with ⟨h3, -⟩ | ⟨-, s', ⟨b, hb, hub⟩, h3⟩
  · exact absurd h3 hne
  rw [← h3] at hv
  simp only [entries, Option.map_eq_some_iff, Prod.mk.injEq] at hv
  obtain ⟨r, hl, rfl, -⟩ := hv
  have hop : Opens C J w2.fs path v.pass (if i then 1 else 0) s' := ⟨b, hfs.trans hb, hub⟩
  obtain ⟨h4, -, h5, -⟩ := SecretsOutput.C169_shown C J P ord e2 fuel (clip := false) (m := false) (ow := false) (more := more) hd ha2 hop hl he
  obtain ⟨-, h6, -⟩ := SecretsOutput.C169_shown C J P ord e2 fuel (clip := true) (m := false) (ow := false) (more := more) hd ha2 hop hl he
  refine ⟨⟨_, h4⟩, (h5 rfl rfl).trans ?_, h6 rfl⟩
  simp [Spec.SecretsOutput.line, ascii]

theorem openPart_with (s : SecretStore) (l x : Bytes) : openPart (withSecret s l x) = openPart s := by
  unfold openPart withSecret
  cases s.store with
  | none => rfl
  | some m =>
    simp only [Option.map_some, Option.some.injEq]
    funext k
    by_cases hk : k = l
    · rw [if_pos hk]
      cases m k with
      | none => rfl
      | some r => cases r <;> rfl
    · rw [if_neg hk]

theorem entry_with (st : St) (l x : Bytes) {k : Bytes} (hk : k ≠ l) : (session st l x).entry k = st.entry k := by
  unfold St.entry session withSecret
  cases st.sess.store.store with
  | none => rfl
  | some m => simp [hk]

/-- C227 is false of labels with white space: after a successful `secrets -s label` the session has the secret, but whatever
is typed, what is printed would be the same if the secret were any other. -/
theorem C227_spaces_violated (f : Flags) (l : Bytes) (args : List Bytes) (path : Bytes) (w w' : World) (hd : path ≠ dash)
    (hf : f.action = .cmd .store) (hm : f.withMeta = false) (hl : ValidUtf8 l) (hs : Spaced l)
    (h : Model.Secrets.main C J P ord fuel f (l :: args) path w = some (.ok (0, w'))) :
    ∃ pass pw rest, w.term.answers = some pass :: some pw :: rest ∧ ∀ (w2 : World) (writes : Nat → WriteOutcome) (as : List (Option Bytes)),
      w2.fs path = w'.fs path → w2.term.answers = some pass :: as →
      ∃ st, start C J w2 writes path f.mode = .ok (some st) ∧ secretOf st.sess.store l = some pw ∧
        ∀ (e : Env), ByKeys e.order → ∀ line x, secretOf (session st l x).sess.store l = some x ∧
          commandText F e line (session st l x) = commandText F e line st := by
  obtain ⟨pass, pw, rest, s, s', r', ha, -, -, ⟨b, hb, hu⟩, -, -, hr, rfl, -⟩ := Secrets.C95_store C J P ord fuel f (l :: args) path w w' hd hf hm hl h
  simp only [List.headD_cons] at hr
  refine ⟨pass, _, rest, ha, fun w2 writes as hfs ha2 => ⟨_, start_of C J ha2 ⟨b, hfs.trans hb, hu⟩, ?_, fun e ho line x => ⟨?_, ?_⟩⟩⟩
  · show secretOf s' l = _
    rw [secretOf, hr]; rfl
  · show secretOf (withSecret s' l x) l = _
    obtain ⟨m, hm1, hm2⟩ := Proofs.Secrets.lookup_get hr
    simp [secretOf, lookup, withSecret, hm1, hm2]
  · by_cases hsh : ∀ c, (fields line).head? = some c → c ∉ [ascii "show", ascii "showhex"]
    · exact SecretscliOutput.C185_secrets F ho hsh (openPart_with _ _ _) rfl rfl
    · cases hfl : fields line with
      | nil => exact absurd (fun c hc => by rw [hfl] at hc; cases hc) hsh
      | cons c args =>
        have hc : c = ascii "show" ∨ c = ascii "showhex" := by
          by_contra hn
          refine hsh fun c' hc' => ?_
          rw [hfl] at hc'
          cases hc'
          simpa using hn
        refine SecretscliOutput.C185_named F hfl hc fun k hk => entry_with _ l x ?_
        rintro rfl
        have hword : Word k := fields_words (s := line) (by rw [hfl]; exact List.mem_cons_of_mem _ hk)
        rcases hs with h0 | ⟨t, ht, hne⟩
        · exact hword.1 h0
        · exact hne (hword.2 t ht)

/-- `secrets -s label` of a label that is not in the store. -/
theorem exStored {l : Bytes} (h : l ≠ [97]) : ∃ b w', Model.Secrets.main C J P ord fuel { store := true } [l] [102]
    (Secrets.exWorld b [some [112, 119], some [9]]) = some (.ok (0, w')) := by
  obtain ⟨b, hb⟩ := Secrets.exFile C J 0 (Or.inl rfl)
  have hh : (exStore [1, 2, 3] 7).has l = false := Secrets.exMap_other h _ _
  obtain ⟨w', out, h, -⟩ := Secrets.exRun C J P ord fuel (f := { store := true }) (c := .store) (args := [l]) (rest := [some [9]])
    (b := b) (t := ⟨[], fun n => 1000 + BitVec.ofNat 64 (n + 1)⟩) rfl hb rfl (Nat.le_refl 1)
    (by
      simp only [Model.Secrets.Cmd.run, Model.Secrets.addSecret, Model.Secrets.addPlain, List.headD_cons, hh, Bool.false_eq_true, false_and, if_false, Bool.not_false,
        Term.read, Term.now, Secrets.exWorld]
      rfl) rfl (Secrets.exClock 1 (by decide)) rfl rfl
  exact ⟨b, w', h⟩

/-- "bank" is stored with secrets and shown in secretscli. -/
example (e : Env) : ∃ b w' st, Model.Secrets.main C J P ord fuel { store := true } [ascii "bank"] [102]
      (Secrets.exWorld b [some [112, 119], some [9]]) = some (.ok (0, w')) ∧
    start C J { w' with term := { w'.term with answers := [some [112, 119]] } } (fun _ => .done) [102] 0 = .ok (some st) ∧
    commandText F e (ascii "show bank") st = [9, 10] := by
  obtain ⟨b, w', h⟩ := exStored C J P ord fuel (l := ascii "bank") (by decide)
  have hns : ¬ Spaced (ascii "bank") := by
    rintro (h | ⟨t, ht, hne⟩)
    · exact absurd h (by decide)
    · exact hne ((show ∀ t ∈ (ascii "bank").tails, spaceLen t = 0 by decide) t ((List.mem_tails _ _).mpr ht))
  obtain ⟨pass, pw, rest, ha, hx⟩ := C227_shown_partial F C J P ord fuel { store := true } (ascii "bank") [] [102] _ w' (by decide) rfl rfl (by decide) hns h
  simp only [Secrets.exWorld, List.cons.injEq, Option.some.injEq] at ha
  obtain ⟨rfl, rfl, -⟩ := ha
  obtain ⟨st, h1, -, h3⟩ := hx { w' with term := { w'.term with answers := [some [112, 119]] } } (fun _ => .done) [] e rfl rfl
  exact ⟨b, w', st, h, h1, h3⟩

/-- "my bank" has white space in it, and is stored with secrets. -/
example : Spaced (ascii "my bank") ∧ ValidUtf8 (ascii "my bank") ∧
    ∃ b w', Model.Secrets.main C J P ord fuel { store := true } [ascii "my bank"] [102] (Secrets.exWorld b [some [112, 119], some [9]]) = some (.ok (0, w')) :=
  ⟨Or.inr ⟨ascii " bank", ⟨ascii "my", by decide⟩, by decide⟩, by decide, exStored C J P ord fuel (by decide)⟩

/-- "store b" and "quit" are typed in secretscli, and the secret is shown with `secrets b`. -/
example (e : Env) (e2 : Model.SecretsOutput.Env) (he : ∀ md : Map Bytes, md.Finite → md.Enumerates (e2.metaOrder md)) : ∃ b st evs s,
    start C J (Secrets.exWorld b [some (ascii "pw"), some (ascii "store b"), some [120], some (ascii "quit")]) (fun _ => .done) [102] 0 = .ok (some st) ∧
    Run C J e (Sys.init st) evs s ∧ s.main = .exited ∧
    mainText C J ord e2 fuel {} [[98]] [102] { s.st.w with term := { s.st.w.term with answers := [some (ascii "pw")] } } = ascii "Secret: x\n" := by
  obtain ⟨b, hb⟩ := Secrets.exFile C J 0 (Or.inl rfl)
  have hpw : ascii "pw" = [112, 119] := by decide
  rw [hpw]
  obtain ⟨b2, t2, s2, w2, ws2⟩ := Secretscli.turns_store C J (Turns.nil (e := e) (Secretscli.exSt b 0 [some (ascii "store b"), some [120], some (ascii "quit")]))
    (line := ascii "store b") (l := [98]) (pw := [120]) (as := [some (ascii "quit")]) rfl (by decide) rfl (by decide) (by decide)
  obtain ⟨evs, s, out, r1, -, r3, -, -, r4⟩ := Secretscli.quit_saves C J t2 (z := [112, 119]) (as := []) (by rw [w2]) (by rw [s2]; exact (show ([102] : Bytes) ≠ dash by decide))
    (by rw [s2]; exact Or.inl rfl) (by rw [s2])
    (by rw [s2]; exact Proofs.Secretscli.sound_set (s := exStore [1, 2, 3] 7) ⟨rfl, by show (5 : BitVec 64) ≠ 0; decide, ⟨_, rfl⟩, ⟨_, rfl⟩, exStore_noNil _ _⟩ rfl [98] _ (show (1000 + BitVec.ofNat 64 0 : BitVec 64) ≠ 0 by decide))
    (by rw [s2]; rfl)
    (by rw [s2]; exact Proofs.Secrets.finite_set (exStore_finite [1, 2, 3] 7) rfl [98] _ (fun md (h : none = some md) => nomatch h) _)
    (by rw [s2]; exact Proofs.Secrets.utf8_set (exStore_clean [1, 2, 3] 7) rfl (by decide) (show ValidUtf8 [] by decide) (fun md _ _ (h : none = some md) => nomatch h) _)
    (by rw [ws2]; rfl) (by rw [w2]; show 56 ≤ (List.replicate 200 _).length; rw [List.length_replicate]; decide)
  rw [s2] at r4
  refine ⟨b, _, evs, s, Secretscli.exStart C J hb _ _, r1, r3, ?_⟩
  obtain ⟨-, -, h5, -⟩ := SecretsOutput.C169_shown C J Pem.toy ord e2 fuel (clip := false) (m := false) (ow := false) (more := []) (l := [98]) (i := false)
    (w := { s.st.w with term := { s.st.w.term with answers := [some [112, 119]] } }) (rest := []) (show ([102] : Bytes) ≠ dash by decide) rfl r4 rfl he
  exact (h5 rfl rfl).trans (show _ = ascii "Secret: x\n" from rfl)

/-! ### C228: two copies of a store -/

theorem opens_same {fs fs' : Fs} {path p : Bytes} {mode : Int} {s s' : SecretStore} (h : Opens C J fs path p mode s) (h' : Opens C J fs' path p mode s')
    (e : fs' path = fs path) : s = s' := by
  obtain ⟨b, hb, hu⟩ := h
  obtain ⟨b', hb', hu'⟩ := h'
  rw [e, hb] at hb'
  cases hb'
  rw [hu] at hu'
  simpa using hu'

/-- Two stores are merged, the second into the first and then the first into the second: both then hold the same entries,
the newer one under each label that is in either. Missing from the property: entries removed from one of them, for which it is
false, and stores with null records or with different records of one label and time. -/
theorem C228_converge_partial (f f2 : Flags) (a b : Bytes) (args args2 : List Bytes) (p q : Bytes) (w w1 w2 w3 : World) (r1 r2 : List (Option Bytes))
    (ha : a ≠ dash) (hb : b ≠ dash) (hab : a ≠ b) (hf : f.action = .cmd .merge) (hf2 : f2.action = .cmd .merge) (hm : f2.mode = f.mode)
    (hord : ∀ m : Map (Option SecretRecord), m.Finite → m.Enumerates (ord m))
    (h1 : Model.Secrets.main C J P ord fuel f (b :: args) a w = some (.ok (0, w1))) (hw : w.term.answers = some p :: some q :: r1)
    (hfs : w2.fs = w1.fs) (h2 : Model.Secrets.main C J P ord fuel f2 (a :: args2) b w2 = some (.ok (0, w3)))
    (hw2 : w2.term.answers = some q :: some p :: r2) :
    ∃ s o s' o', Opens C J w.fs a p f.mode s ∧ Opens C J w.fs b q f.mode o ∧ Opens C J w3.fs a p f.mode s' ∧ Opens C J w3.fs b q f.mode o' ∧
      (NoNil s → NoNil o → NoTies s o → ∀ k, lookup s' k = newest (lookup s k) (lookup o k) ∧ lookup o' k = lookup s' k) := by
  obtain ⟨p1, q1, r, s, o, s', e1, hs, ho, hs', hn, hq⟩ := Secrets.C95_merge C J P ord fuel f (b :: args) a w w1 ha hf hb hord h1
  obtain ⟨q2, p2, r', o2, s2, o', e2, ho2, hs2, ho', hn2, hq2⟩ := Secrets.C95_merge C J P ord fuel f2 (a :: args2) b w2 w3 hb hf2 ha hord h2
  simp only [List.headD_cons] at ho hs2
  rw [hw] at e1
  rw [hw2] at e2
  simp only [List.cons.injEq, Option.some.injEq] at e1 e2
  obtain ⟨rfl, rfl, -⟩ := e1
  obtain ⟨rfl, rfl, -⟩ := e2
  rw [hm] at ho2 hs2 ho'
  rw [hfs] at ho2 hs2
  have eo : o = o2 := opens_same C J ho ho2 (hq b (Ne.symm hab))
  have es : s' = s2 := opens_same C J hs' hs2 rfl
  subst eo es
  refine ⟨s, o, s', o', hs, ho, ?_, ho', fun ns no ht k => ?_⟩
  · obtain ⟨x, hx, hu⟩ := hs'
    exact ⟨x, by rw [hq2 a hab, hfs]; exact hx, hu⟩
  · obtain ⟨h3, h4⟩ := hn ns no
    obtain ⟨-, h5⟩ := hn2 no h3
    refine ⟨h4 k, ?_⟩
    rw [h5 k, h4 k, newest_comm (a := lookup s k) (fun x y e1 e2 => ht k x y e1 e2), ← newest_assoc, newest_self]

/-- C228 is false of removed entries: an entry that is removed from one of two equal copies is there again, as it was, when
the other copy is merged. -/
theorem C228_removed_violated (f f2 : Flags) (a b l : Bytes) (args args2 : List Bytes) (p : Bytes) (w w1 w2 w3 : World) (r1 r2 : List (Option Bytes))
    (ha : a ≠ dash) (hb : b ≠ dash) (hf : f.action = .cmd .remove) (hfm : f.withMeta = false) (hf2 : f2.action = .cmd .merge) (hm : f2.mode = f.mode)
    (hord : ∀ m : Map (Option SecretRecord), m.Finite → m.Enumerates (ord m))
    (h1 : Model.Secrets.main C J P ord fuel f (l :: args) a w = some (.ok (0, w1))) (hw : w.term.answers = some p :: r1)
    (hfs : w2.fs a = w1.fs a) (hcopy : w2.fs b = w.fs a) (h2 : Model.Secrets.main C J P ord fuel f2 (b :: args2) a w2 = some (.ok (0, w3)))
    (hw2 : w2.term.answers = some p :: some p :: r2) :
    ∃ s s1 s', Opens C J w.fs a p f.mode s ∧ Opens C J w1.fs a p f.mode s1 ∧ Opens C J w3.fs a p f.mode s' ∧
      lookup s1 l = none ∧ (NoNil s → NoNil s1 → ∃ r, lookup s l = some r ∧ lookup s' l = some r) := by
  obtain ⟨p1, s, s1, e1, hs, hs1, h3, h4, -⟩ := Secrets.C95_remove C J P ord fuel f (l :: args) a w w1 ha hf hfm h1
  obtain ⟨p2, q2, r', s2, o, s', e2, hs2, ho, hs', hn, -⟩ := Secrets.C95_merge C J P ord fuel f2 (b :: args2) a w2 w3 ha hf2 hb hord h2
  simp only [List.headD_cons] at ho h3 h4
  rw [hw] at e1
  rw [hw2] at e2
  simp only [List.head?_cons, List.cons.injEq, Option.some.injEq] at e1 e2
  subst e1
  obtain ⟨rfl, rfl, -⟩ := e2
  rw [hm] at hs2 ho hs'
  have e1 : s1 = s2 := opens_same C J hs1 hs2 hfs
  have e2 : s = o := by
    obtain ⟨x, hx, hu⟩ := hs
    obtain ⟨y, hy, hu'⟩ := ho
    rw [hcopy, hx] at hy
    cases hy
    rw [hu] at hu'
    simpa using hu'
  subst e1 e2
  have hno : lookup s1 l = none := by
    cases hl : lookup s1 l with
    | none => rfl
    | some r => rw [Proofs.SecretsOutput.has_of_lookup hl] at h4; cases h4
  refine ⟨s, s1, s', hs, hs1, hs', hno, fun ns ns1 => ?_⟩
  have hl : ∃ r, lookup s l = some r := by
    cases hst : s.store with
    | none => simp [SecretStore.has, hst] at h3
    | some m =>
      cases hml : m l with
      | none => simp [SecretStore.has, hst, Map.has, hml] at h3
      | some v =>
        cases v with
        | none => exact absurd hml (ns m l hst)
        | some r => exact ⟨r, by simp [lookup, hst, hml]⟩
  obtain ⟨r, hl⟩ := hl
  exact ⟨r, hl, by rw [(hn ns1 ns).2 l, hno, hl]; rfl⟩

/-- A world with two files. -/
def exTwo (fs : Fs) (answers : List (Option Bytes)) : World :=
  { term := { answers := answers, clock := fun n => 1000 + BitVec.ofNat 64 n }, rng := List.replicate 200 7, fs := fs, write := .done, stdin := [], stdout := [] }

theorem exMerge {fs : Fs} {a b : Bytes} {s o : SecretStore} {ms mo : Map (Option SecretRecord)} (ha : a ≠ dash) (hb : b ≠ dash)
    (hord : ∀ m : Map (Option SecretRecord), m.Finite → m.Enumerates (ord m)) (hs : Opens C J fs a [112, 119] 0 s) (ho : Opens C J fs b [112, 119] 0 o)
    (hv : s.version = 1) (hms : s.store = some ms) (hmo : o.store = some mo) (ns : NoNil s) (no : NoNil o) :
    ∃ w' s' ms', Model.Secrets.main C J P ord fuel { merge := true } [b] a (exTwo fs [some [112, 119], some [112, 119]]) = some (.ok (0, w')) ∧
      Opens C J w'.fs a [112, 119] 0 s' ∧ s'.store = some ms' ∧ NoNil s' ∧ (∀ g, g ≠ a → w'.fs g = fs g) ∧ s'.version = 1 := by
  obtain ⟨bs, hbs, hus⟩ := hs
  obtain ⟨bo, hbo, huo⟩ := ho
  obtain ⟨hfin1, hutf1, hpass⟩ := Proofs.Secrets.opens_fields C J hus
  obtain ⟨hfin, hutf, -⟩ := Proofs.Secrets.opens_fields C J huo
  have hm := merge_spec hms hmo ns no (hord _ (hfin _ hmo).1) (1000 + BitVec.ofNat 64 0)
  obtain ⟨-, hfin3, hutf3⟩ := Proofs.Secrets.merge_fields hm hfin1 hfin hutf1 hutf
  obtain ⟨w', out, h, hfs, hfile⟩ := Proofs.Secrets.runCmd_ok C J (ord := ord) (fuel := fuel) (c := .merge) (w := exTwo fs [some [112, 119], some [112, 119]])
    (cfg := { args := [b], clip := false, overwrite := false, withMeta := false }) (mode := 0) (path := a)
    (ps := { s with timestamp := 1000 + BitVec.ofNat 64 0, store := some (fun k => (newest (lookup s k) (lookup o k)).map some) })
    (pass := [112, 119]) (rest := [some [112, 119]]) (t := ⟨[], fun n => 1000 + BitVec.ofNat 64 (n + 1)⟩) ha (Or.inl rfl) (Nat.le_refl 1) rfl ⟨bs, hbs, hus⟩
    (by
      simp only [Model.Secrets.Cmd.run, Model.Secrets.merge, Term.read, Term.now, exTwo, World.readFile, List.headD_cons]
      simp only [hb, if_false, hbo, huo, Res.ok_bind]
      rw [hmo, Option.getD_some, hm]
      rfl) rfl (by show 56 ≤ (List.replicate 200 _).length; rw [List.length_replicate]; decide) rfl hv (Secrets.exClock 1 (by decide)) rfl hpass
  refine ⟨w', _, _, h, ⟨out, by rw [hfs]; simp, Proofs.Secrets.saved_exact C J (Proofs.Secrets.finite_time hfin3 _) (Proofs.Secrets.utf8_time hutf3 _) hfile⟩, rfl, ?_, ?_, hv⟩
  · intro m k hmk
    simp only [Option.some.injEq] at hmk
    subst hmk
    cases newest (lookup s k) (lookup o k) <;> simp
  · intro g hg
    rw [hfs]
    exact Fs.set_other _ _ hg

/-- Two copies of a store; the secret was changed in the second one later. -/
example (hord : ∀ m : Map (Option SecretRecord), m.Finite → m.Enumerates (ord m)) : ∃ fs w1 w3 s' o',
    Opens C J fs [102] [112, 119] 0 (exStore [1, 2, 3] 7) ∧ Opens C J fs [103] [112, 119] 0 (exStore [4] 9) ∧
    Model.Secrets.main C J P ord fuel { merge := true } [[103]] [102] (exTwo fs [some [112, 119], some [112, 119]]) = some (.ok (0, w1)) ∧
    Model.Secrets.main C J P ord fuel { merge := true } [[102]] [103] (exTwo w1.fs [some [112, 119], some [112, 119]]) = some (.ok (0, w3)) ∧
    Opens C J w3.fs [102] [112, 119] 0 s' ∧ Opens C J w3.fs [103] [112, 119] 0 o' ∧ secretOf s' [97] = some [4] ∧ secretOf o' [97] = some [4] := by
  obtain ⟨x, hx⟩ := Secrets.exFile C J 0 (Or.inl rfl)
  obtain ⟨y, hy⟩ := Proofs.Secrets.file_exists C J (Or.inl rfl) (exStore_valid [4] 9) rfl (exStore_finite [4] 9) (exStore_clean [4] 9)
  have h1 : Opens C J (Fs.set (Fs.set (fun _ => none) [102] x) [103] y) [102] [112, 119] 0 (exStore [1, 2, 3] 7) :=
    ⟨x, by rw [Fs.set_other _ _ (by decide)]; simp, hx⟩
  have h2 : Opens C J (Fs.set (Fs.set (fun _ => none) [102] x) [103] y) [103] [112, 119] 0 (exStore [4] 9) := ⟨y, by simp, hy⟩
  obtain ⟨w1, s1, ms1, e1, e2, e3, e4, e5, -⟩ := exMerge C J P ord fuel (by decide) (by decide) hord h1 h2 rfl rfl rfl (exStore_noNil _ _) (exStore_noNil _ _)
  have h3 : Opens C J w1.fs [103] [112, 119] 0 (exStore [4] 9) := by
    obtain ⟨z, hz, hu⟩ := h2
    exact ⟨z, by rw [e5 _ (by decide)]; exact hz, hu⟩
  obtain ⟨w3, s3, ms3, d1, -⟩ := exMerge C J P ord fuel (by decide) (by decide) hord h3 e2 rfl rfl e3 (exStore_noNil _ _) e4
  obtain ⟨s, o, s', o', c1, c2, c3, c4, c5⟩ := C228_converge_partial C J P ord fuel { merge := true } { merge := true } [102] [103] [] [] [112, 119] [112, 119] _ w1 _ w3 [] []
    (by decide) (by decide) (by decide) rfl rfl rfl hord e1 rfl (show (exTwo w1.fs _).fs = w1.fs from rfl) d1 rfl
  have q1 := opens_same C J h1 c1 rfl
  have q2 := opens_same C J h2 c2 rfl
  subst q1 q2
  have ht : NoTies (exStore [1, 2, 3] 7) (exStore [4] 9) := by
    intro k a b ha hb hab
    by_cases hk : k = [97]
    · subst hk
      rw [exStore_lookup] at ha hb
      cases ha; cases hb
      exact absurd hab (by decide)
    · simp [lookup, exStore, Map.set_other _ _ hk, Map.empty] at ha
  obtain ⟨g1, g2⟩ := c5 (exStore_noNil _ _) (exStore_noNil _ _) ht [97]
  have g3 : lookup s' [97] = some (exRecord [97] [4] 9) := g1.trans (by rw [exStore_lookup, exStore_lookup]; rfl)
  exact ⟨_, w1, w3, s', o', h1, h2, e1, d1, c3, c4, by rw [secretOf, g3]; rfl, by rw [secretOf, g2, g3]; rfl⟩

/-- The entry "a" is removed from one of two copies, and is there again after the merge. -/
example (hord : ∀ m : Map (Option SecretRecord), m.Finite → m.Enumerates (ord m)) : ∃ fs w1 w3 s',
    Opens C J fs [102] [112, 119] 0 (exStore [1, 2, 3] 7) ∧ fs [103] = fs [102] ∧
    Model.Secrets.main C J P ord fuel { remove := true } [[97]] [102] (exTwo fs [some [112, 119]]) = some (.ok (0, w1)) ∧
    Model.Secrets.main C J P ord fuel { merge := true } [[103]] [102] (exTwo w1.fs [some [112, 119], some [112, 119]]) = some (.ok (0, w3)) ∧
    Opens C J w3.fs [102] [112, 119] 0 s' ∧ secretOf s' [97] = some [1, 2, 3] := by
  obtain ⟨x, hx⟩ := Secrets.exFile C J 0 (Or.inl rfl)
  have h1 : Opens C J (Fs.set (Fs.set (fun _ => none) [102] x) [103] x) [102] [112, 119] 0 (exStore [1, 2, 3] 7) :=
    ⟨x, by rw [Fs.set_other _ _ (by decide)]; simp, hx⟩
  obtain ⟨w1, out, e1, e2, e3⟩ := Proofs.Secrets.runCmd_ok C J (ord := ord) (fuel := fuel) (c := .remove)
    (w := exTwo (Fs.set (Fs.set (fun _ => none) [102] x) [103] x) [some [112, 119]])
    (cfg := { args := [[97]], clip := false, overwrite := false, withMeta := false }) (mode := 0) (path := [102])
    (ps := { exStore [1, 2, 3] 7 with store := some ((Map.empty.set [97] (some (exRecord [97] [1, 2, 3] 7))).erase [97]) })
    (pass := [112, 119]) (rest := []) (t := ⟨[], fun n => 1000 + BitVec.ofNat 64 n⟩) (by decide) (Or.inl rfl) (by decide) rfl h1
    rfl rfl (by show 56 ≤ (List.replicate 200 _).length; rw [List.length_replicate]; decide) rfl rfl (Secrets.exClock 0 (by decide)) rfl rfl
  have hm : Model.Secrets.main C J P ord fuel { remove := true } [[97]] [102] (exTwo (Fs.set (Fs.set (fun _ => none) [102] x) [103] x) [some [112, 119]]) = some (.ok (0, w1)) := e1
  have h3 : w1.fs [103] = some x := by rw [e2, Fs.set_other _ _ (by decide)]; exact Fs.set_same (Fs.set (fun _ => none) [102] x) [103] x
  have hempty : (Map.empty.set [97] (some (exRecord [97] [1, 2, 3] 7))).erase [97] = Map.empty := by
    funext k
    by_cases hk : k = [97]
    · subst hk; rw [Map.erase_same]; rfl
    · rw [Map.erase_other _ hk, Map.set_other _ _ hk]
  rw [hempty] at e3
  have hs1 := Proofs.Secrets.saved_exact C J (mode := 0) (by rintro m ⟨⟩; exact ⟨Map.finite_empty, fun k r md hk => by cases hk⟩)
    (by rintro m ⟨⟩ k v hk; cases hk) e3
  have h4 : Opens C J w1.fs [102] [112, 119] 0 _ := ⟨out, by rw [e2]; simp, hs1⟩
  have h5 : Opens C J w1.fs [103] [112, 119] 0 (exStore [1, 2, 3] 7) := ⟨x, h3, hx⟩
  have hnn : NoNil { exStore [1, 2, 3] 7 with timestamp := 1000 + BitVec.ofNat 64 0, store := some Map.empty } := by rintro m k ⟨⟩ hk; cases hk
  obtain ⟨w3, -, -, d1, -⟩ := exMerge C J P ord fuel (by decide) (by decide) hord h4 h5 rfl rfl rfl hnn (exStore_noNil _ _)
  obtain ⟨s, s1, s', c1, c2, c3, -, c5⟩ := C228_removed_violated C J P ord fuel { remove := true } { merge := true } [102] [103] [97] [] [] [112, 119] _ w1 (exTwo w1.fs [some [112, 119], some [112, 119]]) w3 [] []
    (by decide) (by decide) rfl rfl rfl rfl hord hm rfl rfl (by show w1.fs [103] = Fs.set (Fs.set (fun _ => none) [102] x) [103] x [102]; rw [h3, Fs.set_other _ _ (by decide), Fs.set_same]) d1 rfl
  have q1 := opens_same C J h1 c1 rfl
  have q2 := opens_same C J h4 c2 rfl
  subst q1 q2
  obtain ⟨r, g1, g2⟩ := c5 (exStore_noNil _ _) hnn
  rw [exStore_lookup] at g1
  cases g1
  exact ⟨_, w1, w3, s', h1, by rw [Fs.set_same, Fs.set_other _ _ (by decide), Fs.set_same], hm, d1, c3, by rw [secretOf, g2]; rfl⟩

/-! ### C230: a migrated store -/

/-- After a run of migrate-store with exit status 0, every file named that held a secret store in the old format, under the
passphrase typed, is a store for secrets and secretscli, with that passphrase and the standard strength: it has the same
entries, and `secrets label` prints the secret. -/
theorem C230_usable (paths : List Path) (w w' : Model.Migrate.World) (hp : paths.Nodup) (hd : ∀ n k, w.disk n ≠ .failsAfter k)
    (h : Model.Migrate.main C w paths = .ok (true, w')) (g : Path) (hg : g ∈ paths) :
    ∃ pass x blob, some pass ∈ w.term.answers ∧ w.fs g = some x ∧ Spec.Migrate.Old C x pass blob ∧ ∀ f, J.dec blob = some f →
      ∀ (w2 : World) (as : List (Option Bytes)), w2.fs g = w'.fs g → w2.term.answers = some pass :: as →
        (∀ writes : Nat → WriteOutcome, ∃ st, start C J w2 writes g 0 = .ok (some st) ∧ st.sess.store = { toFields := f, passphrase := some pass }) ∧
        (g ≠ dash → ∀ l r more (e : Model.SecretsOutput.Env), lookup { toFields := f, passphrase := some pass } l = some r →
          (∀ md : Map Bytes, md.Finite → md.Enumerates (e.metaOrder md)) →
          (∃ w3, Model.Secrets.main C J P ord fuel {} (l :: more) g w2 = some (.ok (0, w3))) ∧
          mainText C J ord e fuel {} (l :: more) g w2 = ascii "Secret: " ++ r.secret ++ [10]) := by
  obtain ⟨x, y, pass, blob, hx, hy, hpass, hold, hnew⟩ := (Migrate.C79_program C paths w w' true hp hd h).2 rfl g hg
  refine ⟨pass, x, blob, hpass, hx, hold, fun f hf w2 as hfs ha => ?_⟩
  have hop : Opens C J w2.fs g pass 0 { toFields := f, passphrase := some pass } := by
    refine ⟨y, hfs.trans hy, (unmarshal_iff C J y pass 0 _).mpr ⟨_, ?_, hf, rfl⟩⟩
    obtain ⟨salt, nonce, h1, h2, h3⟩ := hnew
    exact ⟨salt, nonce, _, h1, h2, Proofs.Secret.deriveKey_eq C pass salt, h3⟩
  refine ⟨fun writes => ⟨_, start_of C J ha hop, rfl⟩, fun hg l r more e hl he => ?_⟩
  obtain ⟨h4, -, h5, -⟩ := SecretsOutput.C169_shown C J P ord e fuel (clip := false) (m := false) (ow := false) (i := false) (more := more) hg ha hop hl he
  refine ⟨⟨_, h4⟩, (h5 rfl rfl).trans ?_⟩
  simp [Spec.SecretsOutput.line, ascii]

/-- An old store with one entry is migrated, and the entry shown. -/
example (e : Model.SecretsOutput.Env) (he : ∀ md : Map Bytes, md.Finite → md.Enumerates (e.metaOrder md)) : ∃ (w w' : Model.Migrate.World),
    Model.Migrate.main C w [[102]] = .ok (true, w') ∧
    mainText C J ord e fuel {} [[97]] [102] { Secrets.exWorld [] [some [112, 119]] with fs := w'.fs } = ascii "Secret: " ++ [1, 2, 3] ++ [10] := by
  obtain ⟨f, hf, hsan⟩ := J.dec_enc (exStore [1, 2, 3] 7).toFields (exStore_finite [1, 2, 3] 7)
  have := fieldsSan_clean (exStore_clean [1, 2, 3] 7) hsan
  subst this
  obtain ⟨w, hw⟩ : ∃ w : Model.Migrate.World, w =
      { term := { answers := [some [112, 119]], clock := fun _ => 5 }, rng := List.replicate 32 4 ++ (List.replicate 24 4 ++ []),
        fs := Fs.set (fun _ => none) [102] (List.replicate 32 7 ++ (List.replicate 24 9 ++
          C.sealBox (C.scrypt [112, 119] (List.replicate 32 7) 32768 8 4 32) (List.replicate 24 9) (J.enc (exStore [1, 2, 3] 7).toFields))),
        disk := fun _ => .done } := ⟨_, rfl⟩
  have hfs := congrArg (fun w => w.fs [102]) hw
  simp only [Fs.set_same] at hfs
  obtain ⟨w', h1, -, -, -⟩ := Migrate.C79_migrates C w [102] _ [112, 119] (J.enc (exStore [1, 2, 3] 7).toFields) (List.replicate 32 4) (List.replicate 24 4) []
    [] (by rw [hw]) hfs ⟨List.replicate 32 7, List.replicate 24 9, by simp, by simp, rfl⟩ (by rw [hw]) (by simp) (by simp) (by rw [hw])
  have hm : Model.Migrate.main C w [[102]] = .ok (true, w') := by simp only [Model.Migrate.main, h1, Res.ok_bind]
  refine ⟨w, w', hm, ?_⟩
  obtain ⟨pass, x, blob, c1, c2, c3, c4⟩ := C230_usable C J Pem.toy ord fuel [[102]] w w' (by simp) (by rw [hw]; simp) hm [102] (by simp)
  simp only [hw, List.mem_singleton, Option.some.injEq] at c1
  subst c1
  rw [hfs, Option.some.injEq] at c2
  subst c2
  have hb : blob = J.enc (exStore [1, 2, 3] 7).toFields := by
    obtain ⟨-, d1⟩ := (Migrate.sealed_open C).mp c3
    obtain ⟨-, d2⟩ := (Migrate.sealed_open C (N := 32768) (r := 8) (p := 4)).mp ⟨List.replicate 32 7, List.replicate 24 9, by simp, by simp, rfl⟩
    rw [d1] at d2
    simpa using d2
  subst hb
  exact ((c4 _ hf { Secrets.exWorld [] [some [112, 119]] with fs := w'.fs } [] rfl rfl).2 (by decide) [97] (exRecord [97] [1, 2, 3] 7) [] e rfl he).2

end Verif.Props.Together
