import Verif.Model.SecretscliTwo
import Verif.Proofs.SecretscliRun
import Verif.Proofs.SecretscliKeeps
/-! A session of secretscli does not look at the files once it has started. -/

namespace Verif.Proofs.Secretscli
open Verif Verif.Go Verif.Model.Util Verif.Model.SecretStore Verif.Model.Secretscli
open Verif.Model.Secrets (World assign metaLoop dash)
open Verif.Proofs.SecretStore

variable (C : Crypto) (J : Json)

/-- Nothing is written, or the file `path` is, once. -/
def Effect (path : Path) (f : Fs → Fs) : Prop := f = id ∨ ∃ o data, f = fun fs => (Go.writeFile o fs path data).1

theorem write_blind (st : St) : ∃ f, Effect st.sess.path f ∧ ∀ fs, writeStore C J (st.sees fs) = ((writeStore C J st).1, (writeStore C J st).2.sees (f fs)) := by
  unfold writeStore
  cases hd : st.sess.dirty with
  | false =>
    refine ⟨id, .inl rfl, fun fs => ?_⟩
    simp only [St.sees, hd]
    rfl
  | true =>
    cases hm : marshalSecretStore C J st.sess.store st.sess.mode st.w.rng with
    | panic =>
      refine ⟨id, .inl rfl, fun fs => ?_⟩
      simp only [St.sees, hd, hm]
      rfl
    | ok x =>
      obtain ⟨o, s, rng⟩ := x
      cases o with
      | none =>
        refine ⟨id, .inl rfl, fun fs => ?_⟩
        simp only [St.sees, hd, hm]
        rfl
      | some data =>
        by_cases hp : st.sess.path = dash
        · refine ⟨id, .inl rfl, fun fs => ?_⟩
          simp only [St.sees, hd, hm, World.writeFile, hp, if_true]
          rfl
        · refine ⟨_, .inr ⟨st.writes 0, data, rfl⟩, fun fs => ?_⟩
          simp only [St.sees, hd, hm, World.writeFile, hp, if_false]
          cases st.writes 0 <;> rfl

/-- What the command does, it does whatever the files are. -/
def Blind (g : St → Ret × St) (st : St) : Prop :=
  ∃ f, Effect st.sess.path f ∧ ∀ fs, g (st.sees fs) = ((g st).1, (g st).2.sees (f fs))

/-- The same of a command that writes nothing. -/
def Idle (g : St → Ret × St) (st : St) : Prop := ∀ fs, g (st.sees fs) = ((g st).1, (g st).2.sees fs)

theorem Idle.blind {g : St → Ret × St} {st : St} (h : Idle g st) : Blind g st := ⟨id, .inl rfl, h⟩

theorem passwd_idle (st : St) : Idle passwd st := by
  intro fs
  obtain ⟨sess, ⟨⟨answers, clock⟩, rng, fs0, write, stdin, stdout⟩, writes⟩ := st
  unfold passwd
  simp only [St.read, St.sees, Term.read]
  match answers with
  | [] => rfl
  | none :: as => rfl
  | [some a] => rfl
  | some a :: none :: as => rfl
  | some a :: some b :: as =>
    by_cases h : b = a
    · simp [h]
    · simp [h]

theorem line_idle (f : Bytes → Bytes) (named : Bool) (l : Bytes) (st : St) : Idle (showLine f named l) st := by
  intro fs
  have : (st.sees fs).entry l = st.entry l := rfl
  unfold showLine
  rw [this]
  match st.entry l with
  | none => rfl
  | some none => rfl
  | some (some r) => rfl

theorem loop_idle (f : Bytes → Bytes) (ls : List Bytes) : ∀ st, Idle (showLoop f ls) st := by
  induction ls with
  | nil => intro st fs; rfl
  | cons l ls ih =>
    intro st fs
    have h := line_idle f true l st fs
    unfold showLoop
    rw [h]
    obtain ⟨r, st1⟩ := showLine f true l st
    cases r with
    | ok => exact ih st1 fs
    | _ => rfl

theorem show_idle (f : Bytes → Bytes) (args : List Bytes) (st : St) : Idle (showSecret f args) st := by
  intro fs
  unfold showSecret
  match args with
  | [] => rfl
  | [l] => exact line_idle f false l st fs
  | l :: l2 :: ls => exact loop_idle f _ st fs

theorem metaLines_idle (e : Env) (ls : List Bytes) : ∀ st, Idle (metaLines e ls) st := by
  induction ls with
  | nil => intro st fs; rfl
  | cons l ls ih =>
    intro st fs
    have : (st.sees fs).entry l = st.entry l := rfl
    unfold metaLines
    rw [this]
    match st.entry l with
    | none => exact ih (st.print (ascii "[!] " ++ l ++ ascii " not found." ++ [10])) fs
    | some none => rfl
    | some (some r) => exact ih (st.print (metaText e l r)) fs

theorem readMeta_idle (e : Env) (args : List Bytes) (st : St) : Idle (readMeta e args) st := by
  intro fs
  unfold readMeta
  match args with
  | [] => rfl
  | l :: ls => exact metaLines_idle e _ st fs

theorem touch_idle (l : Bytes) (r : SecretRecord) (st : St) : Idle (fun st => touch st l r) st := by
  intro fs
  simp only [touch, St.sees, Term.now]
  cases assign { st.sess.store with timestamp := st.w.term.clock 0 } l { r with timestamp := st.w.term.clock 0 } <;> rfl

theorem writeMeta_idle (args : List Bytes) (st : St) : Idle (writeMeta args) st := by
  intro fs
  match args with
  | [] => rfl
  | [l] =>
    have : (st.sees fs).entry l = st.entry l := rfl
    unfold writeMeta
    dsimp only
    rw [this]
    match st.entry l with
    | none => rfl
    | some none => rfl
    | some (some r) =>
      have ha : (st.sees fs).w.term.answers = st.w.term.answers := rfl
      dsimp only
      rw [ha]
      generalize metaLoop (r.metadata.getD Map.empty) st.w.term.answers = x
      obtain ⟨md, ok, as⟩ := x
      cases ok with
      | false =>
        dsimp only [Bool.not_false, if_true]
        have hs : (st.sees fs).sess.store = st.sess.store := rfl
        rw [hs]
        simp only [Bool.not_false, if_true]
        cases assign st.sess.store l { r with metadata := some md } <;> rfl
      | true => exact touch_idle l { r with metadata := some md } (st.rest as) fs
  | _ :: _ :: _ => rfl

theorem put_idle (l : Bytes) (r : Option SecretRecord) (st : St) : Idle (putSecret l r) st := by
  intro fs
  unfold putSecret
  have h : (st.sees fs).read = (st.read.1, st.read.2.sees fs) := rfl
  rw [h]
  obtain ⟨a, st1⟩ := st.read
  cases a with
  | none => rfl
  | some pw =>
    simp only
    by_cases h0 : pw.length = 0
    · simp only [h0, if_true]
    · simp only [h0, if_false]
      cases r with
      | none => rfl
      | some r => exact touch_idle l { r with secret := pw } st1 fs

theorem single_idle (l : Bytes) (st : St) : Idle (storeSingleSecret l) st := by
  intro fs
  have h0 : (st.sees fs).entry l = st.entry l := rfl
  unfold storeSingleSecret
  rw [h0]
  match st.entry l with
  | none => exact put_idle l _ st fs
  | some r =>
    have h : (st.sees fs).read = (st.read.1, st.read.2.sees fs) := rfl
    simp only
    rw [h]
    obtain ⟨a, st1⟩ := st.read
    cases a with
    | none => rfl
    | some pw =>
      simp only
      split
      · rfl
      · exact put_idle l r st1 fs

theorem storeLoop_blind (ls : List Bytes) : ∀ i st, Blind (storeLoop C J i ls) st := by
  induction ls with
  | nil => exact fun i st => ⟨id, .inl rfl, fun fs => rfl⟩
  | cons l ls ih =>
    intro i st
    have h : ∀ fs, _ := single_idle l st
    have hp : (storeSingleSecret l st).2.sess.path = st.sess.path := (keeps_single l st).path
    unfold Blind storeLoop
    simp only [h]
    clear h
    generalize storeSingleSecret l st = x at hp ⊢
    obtain ⟨r, st1⟩ := x
    have hp : st1.sess.path = st.sess.path := hp
    cases r with
    | ok =>
      have := ih (i + 1) st1
      unfold Blind at this
      rw [hp] at this
      exact this
    | err =>
      simp only
      by_cases hi : i > 0
      · simp only [hi, if_true]
        obtain ⟨f, h1, h2⟩ := write_blind C J st1
        exact ⟨f, hp ▸ h1, fun fs => by rw [h2]⟩
      · simp only [hi, if_false]
        exact ⟨id, .inl rfl, fun fs => rfl⟩
    | _ => exact ⟨id, .inl rfl, fun fs => rfl⟩

theorem shutdown_blind (st : St) : ∃ f, Effect st.sess.path f ∧ ∀ fs, shutdown C J (st.sees fs) = (shutdown C J st).sees (f fs) := by
  obtain ⟨f, h1, h2⟩ := write_blind C J st
  refine ⟨f, h1, fun fs => ?_⟩
  unfold shutdown
  rw [h2]
  rfl

theorem process_blind (e : Env) (line : Bytes) (st : St) : Blind (processCommands C J e line) st := by
  unfold processCommands
  cases fields line with
  | nil => exact ⟨id, .inl rfl, fun fs => rfl⟩
  | cons c args =>
    dsimp only
    split
    · exact ⟨id, .inl rfl, fun fs => rfl⟩
    split
    · refine Idle.blind fun fs => ?_
      unfold help
      cases helpText args <;> rfl
    split
    · exact ⟨id, .inl rfl, fun fs => rfl⟩
    split
    · obtain ⟨f, h1, h2⟩ := shutdown_blind C J st
      refine ⟨f, h1, fun fs => ?_⟩
      show (Ret.exit, shutdown C J (st.sees fs)) = _
      rw [h2]
      rfl
    split
    · exact (passwd_idle st).blind
    split
    · exact (readMeta_idle e args st).blind
    split
    · exact (show_idle _ args st).blind
    split
    · exact (show_idle _ args st).blind
    split
    · unfold storeSecret Blind
      by_cases h : args.length = 0
      · simp only [h, if_true]
        exact ⟨id, .inl rfl, fun fs => rfl⟩
      · simp only [h, if_false]
        exact storeLoop_blind C J args 0 st
    split
    · exact (writeMeta_idle args st).blind
    split
    · obtain ⟨f, h1, h2⟩ := write_blind C J st
      unfold cmdWriteStore Blind
      by_cases h : args.length ≠ 0
      · simp only [if_pos h]
        exact ⟨id, .inl rfl, fun fs => rfl⟩
      · simp only [if_neg h]
        refine ⟨f, h1, fun fs => ?_⟩
        rw [h2]
        obtain ⟨b, st1⟩ := writeStore C J st
        cases b <;> rfl
    · exact ⟨id, .inl rfl, fun fs => rfl⟩

theorem step_blind {e : Env} {s s' : Sys} {ev : Event} (h : Step C J e s ev s') :
    ∃ f, Effect s.st.sess.path f ∧ s'.st.w.fs = f s.st.w.fs ∧ ∀ fs, Step C J e (s.sees fs) ev (s'.sees (f fs)) := by
  cases h with
  | readLine line as h1 h2 h3 h4 => exact ⟨id, .inl rfl, rfl, fun fs => .readLine (s.sees fs) line as h1 h2 h3 h4⟩
  | readBlank as h1 h2 h3 => exact ⟨id, .inl rfl, rfl, fun fs => .readBlank (s.sees fs) as h1 h2 h3⟩
  | readError as h1 h2 h3 => exact ⟨id, .inl rfl, rfl, fun fs => .readError (s.sees fs) as h1 h2 h3⟩
  | readEof h1 h2 h3 => exact ⟨id, .inl rfl, rfl, fun fs => .readEof (s.sees fs) h1 h2 h3⟩
  | handOver line h1 h2 h3 => exact ⟨id, .inl rfl, rfl, fun fs => .handOver (s.sees fs) line h1 h2 h3⟩
  | handOverQuit line h1 h2 h3 => exact ⟨id, .inl rfl, rfl, fun fs => .handOverQuit (s.sees fs) line h1 h2 h3⟩
  | closed h1 h2 => exact ⟨id, .inl rfl, rfl, fun fs => .closed (s.sees fs) h1 h2⟩
  | timeout h1 => exact ⟨id, .inl rfl, rfl, fun fs => .timeout (s.sees fs) h1⟩
  | command line r st h1 h2 =>
    obtain ⟨f, h3, h4⟩ := process_blind C J e line s.st
    rw [h2] at h4
    have h5 : (r, st) = (r, st.sees (f s.st.w.fs)) := by rw [← h2]; exact h4 s.st.w.fs
    exact ⟨f, h3, congrArg (fun x : Ret × St => x.2.w.fs) h5, fun fs => .command (s.sees fs) line r (st.sees (f fs)) h1 (h4 fs)⟩
  | proceed h1 h2 h3 => exact ⟨id, .inl rfl, rfl, fun fs => .proceed (s.sees fs) h1 h2 h3⟩
  | readerDone h1 h2 h3 => exact ⟨id, .inl rfl, rfl, fun fs => .readerDone (s.sees fs) h1 h2 h3⟩
  | shutdown h1 =>
    obtain ⟨f, h3, h4⟩ := shutdown_blind C J s.st
    have h5 : Verif.Model.Secretscli.shutdown C J s.st = (Verif.Model.Secretscli.shutdown C J s.st).sees (f s.st.w.fs) := h4 s.st.w.fs
    refine ⟨f, h3, congrArg (fun x : St => x.w.fs) h5, fun fs => ?_⟩
    have := Step.shutdown (C := C) (J := J) (e := e) (s.sees fs) h1
    rw [show (s.sees fs).st = s.st.sees fs from rfl, h4] at this
    exact this

/-- The file `p` is left alone, or gets contents that do not depend on what there was. -/
def Puts (p : Path) (f : Fs → Fs) : Prop := (∀ fs, f fs p = fs p) ∨ ∀ fs fs', f fs p = f fs' p

theorem Effect.puts {p : Path} {f : Fs → Fs} (h : Effect p f) : Puts p f := by
  rcases h with rfl | ⟨o, data, rfl⟩
  · exact .inl fun fs => rfl
  · cases o with
    | openFails => exact .inl fun fs => rfl
    | done => exact .inr fun fs fs' => by simp [Go.writeFile]
    | failsAfter k => exact .inr fun fs fs' => by simp [Go.writeFile]

theorem Effect.other {p q : Path} {f : Fs → Fs} (h : Effect p f) (hq : q ≠ p) (fs : Fs) : f fs q = fs q := by
  rcases h with rfl | ⟨o, data, rfl⟩
  · rfl
  · cases o <;> simp [Go.writeFile, Fs.set_other, hq]

theorem Puts.comp {p : Path} {f g : Fs → Fs} (hf : Puts p f) (hg : Puts p g) : Puts p (g ∘ f) := by
  rcases hg with hg | hg
  · rcases hf with hf | hf
    · exact .inl fun fs => (hg _).trans (hf fs)
    · exact .inr fun fs fs' => by simp only [Function.comp, hg]; exact hf _ _
  · exact .inr fun fs fs' => hg _ _

theorem run_blind {e : Env} {s s' : Sys} {evs : List Event} (h : Run C J e s evs s') :
    ∃ f, Puts s.st.sess.path f ∧ s'.st.w.fs = f s.st.w.fs ∧ ∀ fs, Run C J e (s.sees fs) evs (s'.sees (f fs)) := by
  induction h with
  | nil s => exact ⟨id, .inl fun _ => rfl, rfl, fun fs => .nil _⟩
  | cons h1 _ ih =>
    obtain ⟨f, f1, f2, f3⟩ := step_blind C J h1
    obtain ⟨g, g1, g2, g3⟩ := ih
    rw [(keeps_step C J h1).path] at g1
    exact ⟨g ∘ f, f1.puts.comp g1, by rw [g2, f2]; rfl, fun fs => .cons (f3 fs) (g3 (f fs))⟩

/-- How the two processes stand to the same processes when each is alone: the file is as one of
them would have it. -/
structure Apart (p : Path) (fs : Fs) (t : Two) (a b : Sys) : Prop where
  left : t.a = a.sees t.a.st.w.fs
  right : t.b = b.sees t.a.st.w.fs
  pathA : a.st.sess.path = p
  pathB : b.st.sess.path = p
  file : t.a.st.w.fs p = a.st.w.fs p ∨ t.a.st.w.fs p = b.st.w.fs p
  rest : ∀ q, q ≠ p → t.a.st.w.fs q = fs q

theorem apart_step {e : Env} {p : Path} {fs : Fs} {t t' : Two} {a b : Sys} {ev : Event ⊕ Event} (h : Apart p fs t a b) (hs : Two.Step C J e t ev t') :
    ∃ a' b', Run C J e a (lefts [ev]) a' ∧ Run C J e b (rights [ev]) b' ∧ Apart p fs t' a' b' := by
  cases hs with
  | @left ev x hs =>
    obtain ⟨f, f1, f2, f3⟩ := step_blind C J hs
    have h1 : t.a.sees a.st.w.fs = a := by rw [h.left]; rfl
    have hp : t.a.st.sess.path = p := by rw [h.left]; exact h.pathA
    have st := f3 a.st.w.fs
    rw [h1] at st
    rw [hp] at f1
    refine ⟨_, b, .cons st (.nil _), .nil _, rfl, ?_, ((keeps_step C J st).path).trans h.pathA, h.pathB, ?_, ?_⟩
    · show t.b.sees x.st.w.fs = b.sees x.st.w.fs
      rw [h.right]
      rfl
    · show x.st.w.fs p = f a.st.w.fs p ∨ x.st.w.fs p = b.st.w.fs p
      rw [f2]
      rcases f1.puts with hf | hf
      · rw [hf, hf]; exact h.file
      · exact .inl (hf _ _)
    · intro q hq
      show x.st.w.fs q = fs q
      rw [f2, f1.other hq, h.rest q hq]
  | @right ev x hs =>
    obtain ⟨f, f1, f2, f3⟩ := step_blind C J hs
    have h1 : t.b.sees b.st.w.fs = b := by rw [h.right]; rfl
    have hp : t.b.st.sess.path = p := by rw [h.right]; exact h.pathB
    have hfs : t.b.st.w.fs = t.a.st.w.fs := by rw [h.right]; rfl
    have st := f3 b.st.w.fs
    rw [h1] at st
    rw [hp] at f1
    refine ⟨a, _, .nil _, .cons st (.nil _), ?_, rfl, h.pathA, ((keeps_step C J st).path).trans h.pathB, ?_, ?_⟩
    · show t.a.sees x.st.w.fs = a.sees x.st.w.fs
      rw [h.left]
      rfl
    · show x.st.w.fs p = a.st.w.fs p ∨ x.st.w.fs p = f b.st.w.fs p
      rw [f2, hfs]
      rcases f1.puts with hf | hf
      · rw [hf, hf]; exact h.file
      · exact .inr (hf _ _)
    · intro q hq
      show x.st.w.fs q = fs q
      rw [f2, f1.other hq, hfs, h.rest q hq]

theorem apart_run {e : Env} {p : Path} {fs : Fs} {t t' : Two} {evs : List (Event ⊕ Event)} (hr : Two.Run C J e t evs t') : ∀ {a b : Sys}, Apart p fs t a b →
    ∃ a' b', Run C J e a (lefts evs) a' ∧ Run C J e b (rights evs) b' ∧ Apart p fs t' a' b' := by
  induction hr with
  | nil t => exact fun h => ⟨_, _, .nil _, .nil _, h⟩
  | @cons t t1 t2 ev evs h1 _ ih =>
    intro a b h
    obtain ⟨a1, b1, r1, r2, h2⟩ := apart_step C J h h1
    obtain ⟨a2, b2, r3, r4, h3⟩ := ih h2
    refine ⟨a2, b2, ?_, ?_, h3⟩
    · have := run_append C J r1 r3
      cases ev <;> exact this
    · have := run_append C J r2 r4
      cases ev <;> exact this

/-- Only the first process does anything. -/
theorem run_left {e : Env} {a a' : Sys} {evs : List Event} (h : Run C J e a evs a') (b : Sys) :
    Two.Run C J e ⟨a, b.sees a.st.w.fs⟩ (evs.map .inl) ⟨a', b.sees a'.st.w.fs⟩ := by
  induction h with
  | nil => exact .nil _
  | cons h1 _ ih => exact .cons (.left h1) ih

/-- Only the second process does anything. -/
theorem run_right {e : Env} {b b' : Sys} {evs : List Event} (h : Run C J e b evs b') (a : Sys) :
    Two.Run C J e ⟨a.sees b.st.w.fs, b⟩ (evs.map .inr) ⟨a.sees b'.st.w.fs, b'⟩ := by
  induction h with
  | nil => exact .nil _
  | cons h1 _ ih => exact .cons (.right h1) ih

theorem two_append {e : Env} {t t1 t2 : Two} {evs evs' : List (Event ⊕ Event)} (h : Two.Run C J e t evs t1) (h2 : Two.Run C J e t1 evs' t2) :
    Two.Run C J e t (evs ++ evs') t2 := by
  induction h with
  | nil => exact h2
  | cons h1 _ ih => exact .cons h1 (ih h2)

end Verif.Proofs.Secretscli
