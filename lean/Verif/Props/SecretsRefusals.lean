import Verif.Props.SecretsErrors
/-! C224-C225: what cmd/secrets refuses to do, and what it says then. -/

namespace Verif.Props.SecretsRefusals
open Verif Verif.Go Verif.Model.Util Verif.Model.SecretStore Verif.Model.Secrets Verif.Model.SecretsErrors
open Verif.Spec.SecretStore Verif.Spec.Secrets Verif.Spec.SecretsErrors Verif.Proofs.SecretStore Verif.Proofs.Secrets Verif.Proofs.SecretsErrors
open Verif.Props.SecretStore Verif.Props.Secrets
open Verif.Model.SecretsOutput (mainText)

variable (T : Texts) (C : Crypto) (J : Json) (P : Pem) (ord : Map (Option SecretRecord) → List Bytes) (fuel : Nat)
variable (e : Model.SecretsOutput.Env)

/-- A run that ends with a failure: exit status 1, the lines `msgs` on standard error, `out` on standard output, the
files as they were, and `rest` not read. -/
def Refuses (f : Flags) (args : List Bytes) (path : Bytes) (w : World) (rest : List (Option Bytes)) (msgs : List Bytes) (out : Bytes) : Prop :=
  main C J P ord fuel f args path w = some (.ok (1, { w with term := { w.term with answers := rest } })) ∧
  mainErr T C J ord P fuel f args path w = msgs ∧ mainText C J ord e fuel f args path w = out

theorem refuses {f : Flags} {c : Cmd} {args : List Bytes} {path pass : Bytes} {w : World} {s ps : SecretStore}
    {rest left : List (Option Bytes)} {msgs : List Bytes} {out : Bytes} (hd : path ≠ dash) (hf : f.action = .cmd c)
    (hargs : c.requiredArgc ≤ args.length) (ha : w.term.answers = some pass :: rest) (ho : Opens C J w.fs path pass f.mode s)
    (hrun : Cmd.run C J ord fuel c { w with term := { w.term with answers := rest } } s
      { args := args, clip := f.clip, overwrite := f.overwrite, withMeta := f.withMeta } f.mode =
        some (.ok (false, ps, { w with term := { w.term with answers := left } })))
    (hm : (cmdErr T fuel c { w with term := { w.term with answers := rest } } s
      { args := args, clip := f.clip, overwrite := f.overwrite, withMeta := f.withMeta }).msgs ++
        [report (ascii "Failed: " ++ (cmdErr T fuel c { w with term := { w.term with answers := rest } } s
          { args := args, clip := f.clip, overwrite := f.overwrite, withMeta := f.withMeta }).error)] = msgs)
    (ht : Model.SecretsOutput.cmdText C J ord e fuel c { w with term := { w.term with answers := rest } } s
      { args := args, clip := f.clip, overwrite := f.overwrite, withMeta := f.withMeta } f.mode = out) :
    Refuses T C J P ord fuel e f args path w left msgs out := by
  have hl := Verif.Proofs.SecretsOutput.load_ok C J hd ha ho
  have hlt : ¬ args.length < c.requiredArgc := by omega
  obtain ⟨b, hb, -⟩ := ho
  have he : loadErr T w path = [] := by
    unfold loadErr Term.read
    simp [ha, World.exist, hb, World.readFile, hd]
  refine ⟨?_, ?_, ?_⟩
  · unfold main
    rw [hf]
    dsimp only
    unfold runCmd
    rw [if_neg hlt, hl]
    dsimp only
    rw [hrun]
  · unfold mainErr
    rw [hf]
    dsimp only
    unfold runErr
    rw [if_neg hlt, hl, he]
    dsimp only
    rw [hrun, ← hm]
    rfl
  · unfold mainText
    rw [hf]
    dsimp only
    unfold Model.SecretsOutput.runText
    rw [if_neg hlt, hl]
    exact ht

/-! ### C224: what is refused -/

/-- A label that is not in the store is neither shown nor removed, with or without its metadata. -/
theorem C224_absent {f : Flags} {c : Cmd} {l path pass : Bytes} {more : List Bytes} {w : World} {s : SecretStore}
    {rest : List (Option Bytes)} (hd : path ≠ dash) (hf : f.action = .cmd c) (hc : c = .show ∨ c = .remove)
    (ha : w.term.answers = some pass :: rest) (ho : Opens C J w.fs path pass f.mode s) (hh : s.has l = false) :
    Refuses T C J P ord fuel e f (l :: more) path w rest [report (ascii "Failed: entry not found")] [] := by
  rcases hc with rfl | rfl
  · exact refuses T C J P ord fuel e hd hf (by simp [Cmd.requiredArgc]) ha ho (left := rest) (ps := s)
      (by simp [Cmd.run, showSecret, hh]) rfl (by simp [Model.SecretsOutput.cmdText, Model.SecretsOutput.showText, hh])
  · refine refuses T C J P ord fuel e hd hf (by simp [Cmd.requiredArgc]) ha ho (left := rest) (ps := s) ?_ ?_ ?_
    · cases hm : f.withMeta <;> simp [Cmd.run, Model.Secrets.remove, removeMeta, hh]
    · simp [cmdErr, removeErr, hh]
      rfl
    · simp [Model.SecretsOutput.cmdText, Model.SecretsOutput.removeText, hh]

/-- A label that is in the store is not stored again without -w, and the secret is not asked for. -/
theorem C224_exists {f : Flags} {l path pass : Bytes} {more : List Bytes} {w : World} {s : SecretStore}
    {rest : List (Option Bytes)} (hd : path ≠ dash) (hf : f.action = .cmd .store) (hm : f.withMeta = false) (how : f.overwrite = false)
    (ha : w.term.answers = some pass :: rest) (ho : Opens C J w.fs path pass f.mode s) (hh : s.has l = true) :
    Refuses T C J P ord fuel e f (l :: more) path w rest [report (ascii "Failed: entry exists, not forcing overwrite")] [] := by
  refine refuses T C J P ord fuel e hd hf (by simp [Cmd.requiredArgc]) ha ho (left := rest) (ps := s) ?_ ?_ ?_
  · simp [Cmd.run, addSecret, addPlain, hm, how, hh]
  · simp [cmdErr, addErr, addPlainErr, hm, how, hh]
    rfl
  · simp [Model.SecretsOutput.cmdText, Model.SecretsOutput.addText, hm]

/-- An empty secret is not stored, and when the input ends before the secret nothing is stored. -/
theorem C224_no_secret {f : Flags} {l path pass : Bytes} {more : List Bytes} {w : World} {s : SecretStore}
    {rest : List (Option Bytes)} (hd : path ≠ dash) (hf : f.action = .cmd .store)
    (ha : w.term.answers = some pass :: rest) (ho : Opens C J w.fs path pass f.mode s)
    (hh : s.has l = true → f.overwrite = true ∧ f.withMeta = false) (hr : ∀ x, rest.head? = some (some x) → x = []) :
    Refuses T C J P ord fuel e f (l :: more) path w rest.tail
      ((if s.has l then [report (ascii "*** WARNING: overwriting password")] else []) ++
        [report (ascii "Failed: " ++ (if rest.head? = some (some []) then ascii "no password entered" else T.prompt))]) [] := by
  have hp : ∀ ow, (s.has l = true → ow = true) →
      addPlain { w with term := { w.term with answers := rest } } s l ow =
        .ok (false, s, { w with term := { w.term with answers := rest.tail } }) := by
    intro ow how
    have hne : ¬ (s.has l && !ow) = true := by
      cases hx : s.has l with
      | false => simp
      | true => simp [how hx]
    unfold addPlain
    dsimp only
    rw [if_neg hne]
    rcases rest with _ | ⟨_ | x, as⟩
    · simp [Term.read]
    · simp [Term.read]
    · obtain rfl := hr x rfl
      simp [Term.read]
  have hq : ∀ ow, (s.has l = true → ow = true) →
      addPlainErr T { w with term := { w.term with answers := rest } } s l ow =
        { msgs := if s.has l then [report (ascii "*** WARNING: overwriting password")] else [],
          error := if rest.head? = some (some []) then ascii "no password entered" else T.prompt } := by
    intro ow how
    have hne : ¬ (s.has l && !ow) = true := by
      cases hx : s.has l with
      | false => simp
      | true => simp [how hx]
    unfold addPlainErr
    dsimp only
    rw [if_neg hne]
    rcases rest with _ | ⟨_ | x, as⟩
    · simp [Term.read]; rfl
    · simp [Term.read]; rfl
    · obtain rfl := hr x rfl
      simp [Term.read]; rfl
  refine refuses T C J P ord fuel e hd hf (by simp [Cmd.requiredArgc]) ha ho (left := rest.tail) (ps := s) ?_ ?_ ?_
  · simp only [Cmd.run, addSecret, List.headD_cons]
    by_cases hm : f.withMeta = true
    · have hno : s.has l = false := by
        cases hx : s.has l with
        | false => rfl
        | true => exact absurd hm (by simp [(hh hx).2])
      rw [if_pos hm]
      simp [addMeta, hno, hp f.overwrite (fun h => by simp [hno] at h)]
    · rw [if_neg hm, hp f.overwrite (fun h => (hh h).1)]
  · simp only [cmdErr, addErr, List.headD_cons]
    by_cases hm : f.withMeta = true
    · have hno : s.has l = false := by
        cases hx : s.has l with
        | false => rfl
        | true => exact absurd hm (by simp [(hh hx).2])
      rw [hp f.overwrite (fun h => by simp [hno] at h), hq f.overwrite (fun h => by simp [hno] at h)]
      simp only [if_pos hm, hno, Bool.false_eq_true, if_false]
    · rw [if_neg hm, hq f.overwrite (fun h => (hh h).1)]
  · simp only [Model.SecretsOutput.cmdText, Model.SecretsOutput.addText, List.headD_cons]
    by_cases hm : f.withMeta = true
    · have hno : s.has l = false := by
        cases hx : s.has l with
        | false => rfl
        | true => exact absurd hm (by simp [(hh hx).2])
      rw [hp f.overwrite (fun h => by simp [hno] at h)]
      simp only [if_pos hm, hno, Bool.false_eq_true, if_false]
    · rw [if_neg hm]

/-- The passphrase is not changed to the empty one, and not when the input ends before it. -/
theorem C224_no_passphrase {f : Flags} {path pass : Bytes} {args : List Bytes} {w : World} {s : SecretStore}
    {rest : List (Option Bytes)} (hd : path ≠ dash) (hf : f.action = .cmd .passwd)
    (ha : w.term.answers = some pass :: rest) (ho : Opens C J w.fs path pass f.mode s) (hr : ∀ x, rest.head? = some (some x) → x = []) :
    Refuses T C J P ord fuel e f args path w rest.tail
      [report (ascii "Failed: " ++ (if rest.head? = some (some []) then ascii "no password entered" else T.prompt))] [] := by
  refine refuses T C J P ord fuel e hd hf (by simp [Cmd.requiredArgc]) ha ho (left := rest.tail) (ps := s) ?_ ?_ rfl
  · rcases rest with _ | ⟨_ | x, as⟩
    · simp [Cmd.run, chpass, Term.read]
    · simp [Cmd.run, chpass, Term.read]
    · obtain rfl := hr x rfl
      simp [Cmd.run, chpass, Term.read]
  · rcases rest with _ | ⟨_ | x, as⟩
    · simp [cmdErr, chpassErr, Term.read]
    · simp [cmdErr, chpassErr, Term.read]
    · obtain rfl := hr x rfl
      simp [cmdErr, chpassErr, Term.read]

/-- Another store is not merged when the input ends before its passphrase, when its file is not there, and when the
passphrase does not open it. -/
theorem C224_merge {f : Flags} {path pass q : Bytes} {more : List Bytes} {w : World} {s : SecretStore}
    {rest : List (Option Bytes)} (hd : path ≠ dash) (hq : q ≠ dash) (hf : f.action = .cmd .merge)
    (ha : w.term.answers = some pass :: rest) (ho : Opens C J w.fs path pass f.mode s)
    (hr : ∀ x, rest.head? = some (some x) → ∀ o, ¬ Opens C J w.fs q x f.mode o) :
    Refuses T C J P ord fuel e f (q :: more) path w rest.tail
      [report (ascii "Failed: " ++ (if rest.head?.join = none then T.prompt else if w.fs q = none then T.read q
        else ascii "failed to open other password store"))] [] := by
  have hun : ∀ x b, rest.head? = some (some x) → w.fs q = some b → unmarshalSecretStore C J b x f.mode = .ok none := by
    intro x b hx hb
    cases h : unmarshalSecretStore C J b x f.mode with
    | panic => exact absurd h (unmarshal_no_panic C J b x f.mode)
    | ok o =>
      cases o with
      | none => rfl
      | some o => exact absurd ⟨b, hb, h⟩ (hr x hx o)
  refine refuses T C J P ord fuel e hd hf (by simp [Cmd.requiredArgc]) ha ho (left := rest.tail) (ps := s) ?_ ?_ ?_
  · rcases rest with _ | ⟨_ | x, as⟩
    · simp [Cmd.run, Model.Secrets.merge, Term.read]
    · simp [Cmd.run, Model.Secrets.merge, Term.read]
    · cases hb : w.fs q with
      | none => simp [Cmd.run, Model.Secrets.merge, Term.read, World.readFile, hq, hb]
      | some b => simp [Cmd.run, Model.Secrets.merge, Term.read, World.readFile, hq, hb, hun x b rfl hb]
  · rcases rest with _ | ⟨_ | x, as⟩
    · simp [cmdErr, mergeErr, Term.read]
    · simp [cmdErr, mergeErr, Term.read]
    · cases hb : w.fs q with
      | none => simp [cmdErr, mergeErr, Term.read, World.readFile, hq, hb]
      | some b => simp [cmdErr, mergeErr, Term.read, World.readFile, hq, hb]
  · rcases rest with _ | ⟨_ | x, as⟩
    · simp [Model.SecretsOutput.cmdText, Model.SecretsOutput.mergeText, Term.read]
    · simp [Model.SecretsOutput.cmdText, Model.SecretsOutput.mergeText, Term.read]
    · cases hb : w.fs q with
      | none => simp [Model.SecretsOutput.cmdText, Model.SecretsOutput.mergeText, Term.read, World.readFile, hq, hb]
      | some b => simp [Model.SecretsOutput.cmdText, Model.SecretsOutput.mergeText, Term.read, World.readFile, hq, hb, hun x b rfl hb]

/-- Listing is never refused: with a passphrase that opens the store it exits with status 0 and writes nothing to
standard error. -/
theorem C224_list {f : Flags} {path pass : Bytes} {args : List Bytes} {w : World} {s : SecretStore}
    {rest : List (Option Bytes)} (hd : path ≠ dash) (hf : f.action = .cmd .list)
    (ha : w.term.answers = some pass :: rest) (ho : Opens C J w.fs path pass f.mode s) :
    main C J P ord fuel f args path w = some (.ok (0, { w with term := { w.term with answers := rest } })) ∧
    mainErr T C J ord P fuel f args path w = [] := by
  have hl := Verif.Proofs.SecretsOutput.load_ok C J hd ha ho
  obtain ⟨b, hb, -⟩ := ho
  have he : loadErr T w path = [] := by
    unfold loadErr Term.read
    simp [ha, World.exist, hb, World.readFile, hd]
  constructor
  · unfold main
    rw [hf]
    dsimp only
    unfold runCmd
    rw [if_neg (by simp [Cmd.requiredArgc]), hl]
    rfl
  · unfold mainErr
    rw [hf]
    dsimp only
    unfold runErr
    rw [if_neg (by simp [Cmd.requiredArgc]), hl, he]
    rfl

/-! ### C225: input that ends before the empty line -/

theorem metaLoop_ended (T : Texts) : ∀ (as : List (Option Bytes)) (md : Map Bytes), some [] ∉ as →
    (∃ md' left, metaLoop md as = (md', false, left)) ∧ (metaLoopErr T as).error = T.prompt
  | [], md, _ => ⟨⟨md, [], rfl⟩, rfl⟩
  | none :: as, md, _ => ⟨⟨md, as, rfl⟩, rfl⟩
  | some line :: as, md, h => by
    have hl : line ≠ [] := by rintro rfl; exact h List.mem_cons_self
    have hn : some [] ∉ as := fun hx => h (List.mem_cons_of_mem _ hx)
    unfold metaLoop metaLoopErr
    rw [if_neg hl, if_neg hl]
    cases splitEq line with
    | none => exact ⟨(metaLoop_ended T as md hn).1, (metaLoop_ended T as md hn).2⟩
    | some kv => exact ⟨(metaLoop_ended T as _ hn).1, (metaLoop_ended T as Map.empty hn).2⟩

theorem multiLoop_ended (T : Texts) (ow : Bool) : ∀ (as : List (Option Bytes)) (ck : Nat → BitVec 64) (ps : SecretStore), some [] ∉ as →
    multiLoop ow as ck ps ≠ .panic →
    (∃ ps' t, multiLoop ow as ck ps = .ok (false, ps', t)) ∧ (multiLoopErr T ow as ck ps).error = T.prompt
  | [], ck, ps, _, _ => ⟨⟨ps, _, rfl⟩, rfl⟩
  | none :: as, ck, ps, _, _ => ⟨⟨ps, _, rfl⟩, rfl⟩
  | some name :: as, ck, ps, h, hp => by
    have hl : name ≠ [] := by rintro rfl; exact h List.mem_cons_self
    have hn : some [] ∉ as := fun hx => h (List.mem_cons_of_mem _ hx)
    unfold multiLoop at hp ⊢
    unfold multiLoopErr
    rw [if_neg hl] at hp ⊢
    rw [if_neg hl]
    by_cases hx : (ps.has name && !ow) = true
    · rw [if_pos hx] at hp ⊢
      rw [if_pos hx]
      exact ⟨(multiLoop_ended T ow as ck ps hn hp).1, (multiLoop_ended T ow as ck ps hn hp).2⟩
    · rw [if_neg hx] at hp ⊢
      rw [if_neg hx]
      match as, hn with
      | [], _ => exact ⟨⟨ps, _, rfl⟩, rfl⟩
      | none :: as, _ => exact ⟨⟨ps, _, rfl⟩, rfl⟩
      | some password :: as, hn =>
        have hl2 : password ≠ [] := by rintro rfl; exact hn List.mem_cons_self
        have hn2 : some [] ∉ as := fun hx => hn (List.mem_cons_of_mem _ hx)
        dsimp only at hp ⊢
        rw [if_neg hl2] at hp ⊢
        rw [if_neg hl2]
        have step : ∀ r : SecretRecord,
            ((assign ps name { r with secret := password, timestamp := ck 0 }).bind fun ps => multiLoop ow as (fun n => ck (n + 1)) ps) ≠ .panic →
            ∃ ps2, assign ps name { r with secret := password, timestamp := ck 0 } = .ok ps2 ∧ multiLoop ow as (fun n => ck (n + 1)) ps2 ≠ .panic := by
          intro r h
          cases h2 : assign ps name { r with secret := password, timestamp := ck 0 } with
          | panic => rw [h2] at h; exact absurd rfl h
          | ok ps2 => rw [h2] at h; exact ⟨ps2, rfl, h⟩
        by_cases hh : ps.has name = true
        · simp only [if_pos hh] at hp ⊢
          cases h1 : fetch ps name with
          | panic => rw [h1] at hp; exact absurd rfl hp
          | ok r =>
            rw [h1] at hp
            simp only [Res.ok_bind] at hp ⊢
            obtain ⟨ps2, h2, h3⟩ := step r hp
            simp only [h2, Res.ok_bind]
            exact ⟨(multiLoop_ended T ow as _ ps2 hn2 h3).1, (multiLoop_ended T ow as _ ps2 hn2 h3).2⟩
        · simp only [if_neg hh, Res.pure_eq, Res.ok_bind] at hp ⊢
          obtain ⟨ps2, h2, h3⟩ := step { label := name, timestamp := 0, secret := [], metadata := none } hp
          simp only [h2, Res.ok_bind]
          exact ⟨(multiLoop_ended T ow as _ ps2 hn2 h3).1, (multiLoop_ended T ow as _ ps2 hn2 h3).2⟩

/-- Neither `secrets -multi` nor `secrets -m -s` saves anything unless an empty line is typed: if the input ends, or
cannot be read, and no empty line came before, then the exit status is 1, the files are as they were, and the last line on
standard error says why. -/
theorem C225_unfinished {f : Flags} {c : Cmd} {args : List Bytes} {path pass : Bytes} {w w' : World} {s : SecretStore} {n : Nat}
    {rest : List (Option Bytes)} (hd : path ≠ dash) (hf : f.action = .cmd c) (hc : c = .multi ∨ c = .store ∧ f.withMeta = true)
    (hargs : c.requiredArgc ≤ args.length) (ha : w.term.answers = some pass :: rest) (ho : Opens C J w.fs path pass f.mode s)
    (hr : some [] ∉ rest) (h : main C J P ord fuel f args path w = some (.ok (n, w'))) :
    n = 1 ∧ w'.fs = w.fs ∧ w'.stdout = w.stdout ∧
      (mainErr T C J ord P fuel f args path w).getLast? = some (report (ascii "Failed: " ++ T.prompt)) := by
  have hl := Verif.Proofs.SecretsOutput.load_ok C J hd ha ho
  have hlt : ¬ args.length < c.requiredArgc := by omega
  have key : ∀ ps w1, Cmd.run C J ord fuel c { w with term := { w.term with answers := rest } } s
      { args := args, clip := f.clip, overwrite := f.overwrite, withMeta := f.withMeta } f.mode = some (.ok (false, ps, w1)) →
      w1.fs = w.fs ∧ w1.stdout = w.stdout → 
      (cmdErr T fuel c { w with term := { w.term with answers := rest } } s
        { args := args, clip := f.clip, overwrite := f.overwrite, withMeta := f.withMeta }).error = T.prompt →
      n = 1 ∧ w'.fs = w.fs ∧ w'.stdout = w.stdout ∧
      (mainErr T C J ord P fuel f args path w).getLast? = some (report (ascii "Failed: " ++ T.prompt)) := by
    intro ps w1 hrun hw he
    have hm : main C J P ord fuel f args path w = some (.ok (1, w1)) := by
      unfold main
      rw [hf]
      dsimp only
      unfold runCmd
      rw [if_neg hlt, hl]
      dsimp only
      rw [hrun]
    rw [hm] at h
    simp only [Option.some.injEq, Res.ok.injEq, Prod.mk.injEq] at h
    obtain ⟨rfl, rfl⟩ := h
    refine ⟨rfl, hw.1, hw.2, ?_⟩
    unfold mainErr
    rw [hf]
    dsimp only
    unfold runErr
    rw [if_neg hlt, hl]
    dsimp only
    rw [hrun]
    dsimp only
    rw [he, ← List.append_assoc, List.getLast?_append]
    rfl
  have nopanic : Cmd.run C J ord fuel c { w with term := { w.term with answers := rest } } s
      { args := args, clip := f.clip, overwrite := f.overwrite, withMeta := f.withMeta } f.mode ≠ some .panic := by
    intro hp
    unfold main at h
    rw [hf] at h
    dsimp only at h
    unfold runCmd at h
    rw [if_neg hlt, hl] at h
    dsimp only at h
    rw [hp] at h
    cases h
  have edit : ∀ (w1 : World) (ps : SecretStore) (l : Bytes), some [] ∉ w1.term.answers → w1.fs = w.fs → w1.stdout = w.stdout →
      editMeta w1 ps l ≠ .panic →
      (∃ ps' w2, editMeta w1 ps l = .ok (false, ps', w2) ∧ w2.fs = w.fs ∧ w2.stdout = w.stdout) ∧ (editMetaErr T w1 ps l).error = T.prompt := by
    intro w1 ps l hn h1 h2 hp
    unfold editMeta at hp ⊢
    unfold editMetaErr
    cases hfe : fetch ps l with
    | panic => rw [hfe] at hp; exact absurd rfl hp
    | ok r =>
      rw [hfe] at hp
      obtain ⟨⟨md, left, hm⟩, he⟩ := metaLoop_ended T w1.term.answers (r.metadata.getD Map.empty) hn
      simp only [Res.ok_bind, hm, Bool.not_false, if_true] at hp ⊢
      refine ⟨?_, he⟩
      cases hs : assign ps l { r with metadata := some md } with
      | panic => rw [hs] at hp; exact absurd rfl hp
      | ok ps2 => exact ⟨ps2, _, rfl, h1, h2⟩
  rcases hc with rfl | ⟨rfl, hm⟩
  · have hp : multiLoop f.overwrite rest w.term.clock s ≠ .panic := by
      intro hp
      exact nopanic (by simp [Cmd.run, Model.Secrets.multi, hp])
    obtain ⟨⟨ps, t, hx⟩, he⟩ := multiLoop_ended T f.overwrite rest w.term.clock s hr hp
    exact key ps { w with term := t } (by simp [Cmd.run, Model.Secrets.multi, hx]) ⟨rfl, rfl⟩ he
  · simp only [Cmd.run, addSecret, hm, if_true, addMeta] at nopanic key
    simp only [cmdErr, addErr, hm, if_true] at key
    generalize args.headD [] = l at nopanic key
    by_cases hh : s.has l = true
    · simp only [if_pos hh] at nopanic key
      obtain ⟨⟨ps, w2, h1, h2, h3⟩, h4⟩ := edit { w with term := { w.term with answers := rest } } s l hr rfl rfl (fun hp => nopanic (by rw [hp]))
      exact key ps w2 (by rw [h1]) ⟨h2, h3⟩ h4
    · simp only [if_neg hh] at nopanic key
      have hno : s.has l = false := by simpa using hh
      rcases rest with _ | ⟨_ | x, as⟩
      · have hap : addPlain { w with term := { w.term with answers := [] } } s l f.overwrite =
            .ok (false, s, { w with term := { w.term with answers := [] } }) := by
          simp [addPlain, hno, Term.read]
        rw [hap] at key
        exact key s _ rfl ⟨rfl, rfl⟩ (by simp [addPlainErr, hno, Term.read])
      · have hap : addPlain { w with term := { w.term with answers := none :: as } } s l f.overwrite =
            .ok (false, s, { w with term := { w.term with answers := as } }) := by
          simp [addPlain, hno, Term.read]
        rw [hap] at key
        exact key s _ rfl ⟨rfl, rfl⟩ (by simp [addPlainErr, hno, Term.read])
      · have hx : x ≠ [] := by rintro rfl; exact hr List.mem_cons_self
        have hn : some [] ∉ as := fun hx => hr (List.mem_cons_of_mem _ hx)
        cases hs : assign s l { label := l, timestamp := w.term.clock 0, secret := x, metadata := none } with
        | panic =>
          refine absurd ?_ nopanic
          have hap : addPlain { w with term := { w.term with answers := some x :: as } } s l f.overwrite = .panic := by
            simp only [addPlain, hno, Term.read, Term.now, Bool.false_and, Bool.false_eq_true, if_false, Res.pure_eq, Res.ok_bind, hs]
            rw [if_neg (by simpa using hx)]
            rfl
          rw [hap]
        | ok ps2 =>
          have hap : addPlain { w with term := { w.term with answers := some x :: as } } s l f.overwrite =
              .ok (true, ps2, { w with term := { answers := as, clock := fun n => w.term.clock (n + 1) } }) := by
            simp only [addPlain, hno, Term.read, Term.now, Bool.false_and, Bool.false_eq_true, if_false, Res.pure_eq, Res.ok_bind, hs]
            rw [if_neg (by simpa using hx)]
          rw [hap] at key nopanic
          obtain ⟨⟨ps, w2, h1, h2, h3⟩, h4⟩ := edit { w with term := { answers := as, clock := fun n => w.term.clock (n + 1) } } ps2 l hn rfl rfl
            (fun hp => nopanic (by dsimp only; rw [hp]))
          exact key ps w2 (by dsimp only; rw [h1]) ⟨h2, h3⟩ h4

/-! ### Examples -/

/-- The store with the one label "a", opened to show the label "b", to store "a" again, to store "b" with an empty secret,
and to change the passphrase to nothing. -/
example : ∃ b, Refuses T C J P ord fuel e {} [[98]] [102] (exWorld b [some [112, 119]]) [] [report (ascii "Failed: entry not found")] [] ∧
    Refuses T C J P ord fuel e { remove := true, withMeta := true } [[98]] [102] (exWorld b [some [112, 119]]) [] [report (ascii "Failed: entry not found")] [] ∧
    Refuses T C J P ord fuel e { store := true } [[97]] [102] (exWorld b [some [112, 119], some [9]]) [some [9]]
      [report (ascii "Failed: entry exists, not forcing overwrite")] [] ∧
    Refuses T C J P ord fuel e { store := true, overwrite := true } [[97]] [102] (exWorld b [some [112, 119], some []]) []
      [report (ascii "*** WARNING: overwriting password"), report (ascii "Failed: no password entered")] [] ∧
    Refuses T C J P ord fuel e { passwd := true } [] [102] (exWorld b [some [112, 119]]) [] [report (ascii "Failed: " ++ T.prompt)] [] ∧
    Refuses T C J P ord fuel e { merge := true } [[103]] [102] (exWorld b [some [112, 119], some [9]]) []
      [report (ascii "Failed: " ++ T.read [103])] [] ∧
    mainErr T C J ord P fuel { list := true } [] [102] (exWorld b [some [112, 119]]) = [] := by
  obtain ⟨b, hb⟩ := exFile C J 0 (Or.inl rfl)
  have ho : ∀ as, Opens C J (exWorld b as).fs [102] [112, 119] 0 (exStore [1, 2, 3] 7) := fun as => ⟨b, by simp [exWorld], hb⟩
  have hno : (exStore [1, 2, 3] 7).has [98] = false := exMap_other (by decide) _ _
  have hyes : (exStore [1, 2, 3] 7).has [97] = true := by simp [SecretStore.has, exStore, Map.has]
  refine ⟨b, ?_, ?_, ?_, ?_, ?_, ?_, ?_⟩
  · exact C224_absent T C J P ord fuel e (by decide) rfl (.inl rfl) rfl (ho _) hno
  · exact C224_absent T C J P ord fuel e (by decide) rfl (.inr rfl) rfl (ho _) hno
  · exact C224_exists T C J P ord fuel e (by decide) rfl rfl rfl rfl (ho _) hyes
  · have := C224_no_secret T C J P ord fuel e (f := { store := true, overwrite := true }) (l := [97]) (path := [102]) (more := [])
      (w := exWorld b [some [112, 119], some []]) (rest := [some []]) (by decide) rfl rfl (ho _) (fun _ => ⟨rfl, rfl⟩) (by simp)
    rw [hyes] at this
    exact this
  · exact C224_no_passphrase T C J P ord fuel e (f := { passwd := true }) (path := [102]) (args := []) (w := exWorld b [some [112, 119]]) (rest := [])
      (by decide) rfl rfl (ho _) (by simp)
  · have hn : (exWorld b [some [112, 119], some [9]]).fs [103] = none := by
      simp only [exWorld]
      rw [Fs.set_other _ _ (show ([103] : Bytes) ≠ [102] by decide)]
    have := C224_merge T C J P ord fuel e (f := { merge := true }) (q := [103]) (path := [102]) (more := [])
      (w := exWorld b [some [112, 119], some [9]]) (rest := [some [9]]) (by decide) (by decide) rfl rfl (ho _) (by
        rintro x - o ⟨b', h1, -⟩
        rw [hn] at h1
        cases h1)
    simp only [hn, List.head?_cons, Option.join_some, if_true] at this
    exact this
  · exact (C224_list T C J P ord fuel (f := { list := true }) (by decide) rfl rfl (ho _)).2

/-- A run to which `C225_unfinished` applies: a name and its secret are typed, then the input ends. -/
example : ∃ b w', main C J P ord fuel { multi := true } [] [102] (exWorld b [some [112, 119], some [98], some [9]]) = some (.ok (1, w')) ∧
    w'.fs [102] = some b := by
  obtain ⟨b, hb⟩ := exFile C J 0 (Or.inl rfl)
  have ho : Opens C J (exWorld b [some [112, 119], some [98], some [9]]).fs [102] [112, 119] 0 (exStore [1, 2, 3] 7) := ⟨b, by simp [exWorld], hb⟩
  have hno : (exStore [1, 2, 3] 7).has [98] = false := exMap_other (by decide) _ _
  have hl := Verif.Proofs.SecretsOutput.load_ok C J (show ([102] : Bytes) ≠ dash by decide) (rest := [some [98], some [9]]) rfl ho
  have hm : ∃ w', main C J P ord fuel { multi := true } [] [102] (exWorld b [some [112, 119], some [98], some [9]]) = some (.ok (1, w')) := by
    unfold main
    simp only [Flags.action, Bool.false_eq_true, if_false, if_true, Flags.mode]
    unfold runCmd
    rw [if_neg (by decide), hl]
    refine ⟨{ exWorld b [] with term := ⟨[], fun n => 1000 + BitVec.ofNat 64 (n + 1)⟩ }, ?_⟩
    simp only [Cmd.run, Model.Secrets.multi, multiLoop, hno]
    simp [assign, exStore, exWorld]
  obtain ⟨w', h⟩ := hm
  obtain ⟨-, h2, -⟩ := C225_unfinished T C J P ord fuel (c := .multi) (by decide) rfl (.inl rfl) (by decide) rfl ho (by decide) h
  exact ⟨b, w', h, by rw [h2]; simp [exWorld]⟩

end Verif.Props.SecretsRefusals
