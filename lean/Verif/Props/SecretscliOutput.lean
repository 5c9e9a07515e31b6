import Verif.Proofs.SecretscliOutput
import Verif.Props.SecretscliMore
/-! C185-C187: what cmd/secretscli prints on standard output. -/

namespace Verif.Props.SecretscliOutput
open Verif Verif.Go Verif.Model.Util Verif.Model.SecretStore Verif.Model.Secretscli Verif.Model.SecretscliOutput
open Verif.Model.Secrets (metaLoop)
open Verif.Spec.SecretStore Verif.Spec.Secrets Verif.Spec.SecretsOutput Verif.Spec.SecretscliOutput Verif.Spec.Journal
open Verif.Proofs.SecretscliOutput Verif.Props.SecretStore Verif.Props.Secretscli

variable (F : Printf) (C : Crypto) (J : Json)

/-- An instance of the laws assumed of `fmt.Printf`: `flag` and `dir` say whether a flag, or a percent sign, has been read. -/
def toyRun (flag dir : Bool) : Bytes → Bytes
  | [] => if dir then ascii "%!(NOVERB)" else []
  | b :: s =>
    if dir then
      if b = 37 then 37 :: toyRun false false s
      else if b = 32 ∧ flag = false then toyRun true true s
      else ascii "%!" ++ b :: ascii "(MISSING)" ++ toyRun false false s
    else if b = 37 then toyRun false true s else b :: toyRun false false s

theorem toyRun_append {p : Bytes} (s : Bytes) (h : (37 : UInt8) ∉ p) : toyRun false false (p ++ s) = p ++ toyRun false false s := by
  induction p with
  | nil => rfl
  | cons b p ih =>
    rw [List.mem_cons, not_or] at h
    simp only [List.cons_append, toyRun, if_neg (Ne.symm h.1), Bool.false_eq_true, if_false, ih h.2]

def toyPrintf : Printf where
  run := toyRun false false
  plain s h := by have := toyRun_append [] h; simpa [toyRun] using this
  percent p s h := by rw [toyRun_append _ h]; simp [toyRun]
  missing p c s h h1 _ := by
    rw [toyRun_append _ h]
    have : c ≠ 37 := by rintro rfl; revert h1; decide
    simp [toyRun, this]

/-! ### C185: what is shown by which commands -/

/-- What is printed in response to any command but show, showhex, rmeta and wmeta depends on the labels in the
store and on whether there are changes to save, not on the secrets, the metadata, the times or the passphrase; nor
on the secrets and passphrases typed in answer to the command. -/
theorem C185_quiet {e : Env} (ho : ByKeys e.order) {line : Bytes} {st st' : St}
    (hc : ∀ c, (fields line).head? = some c → c ∉ [ascii "show", ascii "showhex", ascii "rmeta", ascii "wmeta"])
    (hl : labels st.sess.store = labels st'.sess.store) (hd : st.sess.dirty = st'.sess.dirty)
    (ht : TypedAlike st.w.term.answers st'.w.term.answers)
    (hr : Repeated st.w.term.answers ↔ Repeated st'.w.term.answers) :
    commandText F e line st = commandText F e line st' := by
  unfold commandText
  cases hf : fields line with
  | nil => rfl
  | cons cmd args =>
    have hc := hc cmd (by rw [hf]; rfl)
    simp only [List.mem_cons, List.not_mem_nil, or_false, not_or] at hc
    obtain ⟨n1, n2, n3, n4⟩ := hc
    simp only [if_neg n1, if_neg n2, if_neg n3, if_neg n4]
    by_cases h1 : cmd = ascii "clear"
    · rw [if_pos h1, if_pos h1]; rfl
    rw [if_neg h1, if_neg h1]
    by_cases h2 : cmd = ascii "help"
    · rw [if_pos h2, if_pos h2]; exact help_alike args st st'
    rw [if_neg h2, if_neg h2]
    by_cases h3 : cmd = ascii "list"
    · rw [if_pos h3, if_pos h3]; exact list_alike ho hl args
    rw [if_neg h3, if_neg h3]
    by_cases h4 : cmd = ascii "quit"
    · rw [if_pos h4, if_pos h4]; exact writeText_alike hd
    rw [if_neg h4, if_neg h4]
    by_cases h5 : cmd = ascii "passwd"
    · rw [if_pos h5, if_pos h5]
      by_cases hp : Repeated st.w.term.answers
      · rw [(passwdText_eq st).1 hp, (passwdText_eq st').1 (hr.mp hp)]
      · rw [(passwdText_eq st).2 hp, (passwdText_eq st').2 (fun h => hp (hr.mpr h))]
    rw [if_neg h5, if_neg h5]
    by_cases h6 : cmd = ascii "store"
    · rw [if_pos h6, if_pos h6]; exact storeLoopText_alike F args 0 ⟨hl, hd, ht⟩
    rw [if_neg h6, if_neg h6, writeText_alike hd]

/-- What is printed in response to any command but show and showhex does not depend on the secrets in the store,
nor on its passphrase. -/
theorem C185_secrets {e : Env} (ho : ByKeys e.order) {line : Bytes} {st st' : St}
    (hc : ∀ c, (fields line).head? = some c → c ∉ [ascii "show", ascii "showhex"])
    (hl : openPart st.sess.store = openPart st'.sess.store) (hd : st.sess.dirty = st'.sess.dirty)
    (ha : st.w.term.answers = st'.w.term.answers) :
    commandText F e line st = commandText F e line st' := by
  by_cases hq : ∀ c, (fields line).head? = some c → c ∉ [ascii "show", ascii "showhex", ascii "rmeta", ascii "wmeta"]
  · refine C185_quiet F ho hq (labels_of_open hl) hd ?_ (by rw [ha])
    rw [ha]; exact typedAlike_refl _
  · cases hf : fields line with
    | nil => exact absurd (fun c h => by rw [hf] at h; cases h) hq
    | cons cmd args =>
      have hcmd : cmd = ascii "rmeta" ∨ cmd = ascii "wmeta" := by
        have h1 := hc cmd (by rw [hf]; rfl)
        by_cases h2 : cmd = ascii "rmeta"
        · exact .inl h2
        by_cases h3 : cmd = ascii "wmeta"
        · exact .inr h3
        refine absurd (fun c h => ?_) hq
        rw [hf] at h
        cases h
        simp only [List.mem_cons, List.not_mem_nil, or_false, not_or] at h1 ⊢
        exact ⟨h1.1, h1.2, h2, h3⟩
      unfold commandText
      rw [hf]
      rcases hcmd with rfl | rfl
      · simp only [show (ascii "rmeta" = ascii "clear") = False by decide, show (ascii "rmeta" = ascii "help") = False by decide,
          show (ascii "rmeta" = ascii "list") = False by decide, show (ascii "rmeta" = ascii "quit") = False by decide,
          show (ascii "rmeta" = ascii "passwd") = False by decide, if_false, if_true]
        exact readMeta_open e hl args
      · simp only [show (ascii "wmeta" = ascii "clear") = False by decide, show (ascii "wmeta" = ascii "help") = False by decide,
          show (ascii "wmeta" = ascii "list") = False by decide, show (ascii "wmeta" = ascii "quit") = False by decide,
          show (ascii "wmeta" = ascii "passwd") = False by decide, show (ascii "wmeta" = ascii "rmeta") = False by decide,
          show (ascii "wmeta" = ascii "show") = False by decide, show (ascii "wmeta" = ascii "showhex") = False by decide,
          show (ascii "wmeta" = ascii "store") = False by decide, if_false, if_true]
        exact writeMeta_open hl ha args

/-- show and showhex print nothing that depends on other records than those named. -/
theorem C185_named {e : Env} {line c : Bytes} {args : List Bytes} {st st' : St} (hf : fields line = c :: args)
    (hc : c = ascii "show" ∨ c = ascii "showhex") (hl : ∀ l ∈ args, st.entry l = st'.entry l) :
    commandText F e line st = commandText F e line st' := by
  unfold commandText
  rw [hf]
  rcases hc with rfl | rfl
  · simp only [show (ascii "show" = ascii "clear") = False by decide, show (ascii "show" = ascii "help") = False by decide,
      show (ascii "show" = ascii "list") = False by decide, show (ascii "show" = ascii "quit") = False by decide,
      show (ascii "show" = ascii "passwd") = False by decide, show (ascii "show" = ascii "rmeta") = False by decide,
      if_false, if_true]
    exact show_same id hl
  · simp only [show (ascii "showhex" = ascii "clear") = False by decide, show (ascii "showhex" = ascii "help") = False by decide,
      show (ascii "showhex" = ascii "list") = False by decide, show (ascii "showhex" = ascii "quit") = False by decide,
      show (ascii "showhex" = ascii "passwd") = False by decide, show (ascii "showhex" = ascii "rmeta") = False by decide,
      show (ascii "showhex" = ascii "show") = False by decide, if_false, if_true]
    exact show_same hexEncode hl

/-- A session with a store that holds `secret` and value `v` under "a". -/
def exSess (secret v : Bytes) (as : List (Option Bytes)) : St :=
  { sess := { store := { version := 1, timestamp := 5, passphrase := some secret,
                         store := some (Map.empty.set [97] (some { label := [97], timestamp := 7, secret := secret, metadata := some (Map.empty.set [117] v) })) },
              path := [102], mode := 0, dirty := true },
    w := Props.Secrets.exWorld [] as, writes := fun _ => .done }

theorem exSess_labels (x v y u : Bytes) (as bs : List (Option Bytes)) :
    labels (exSess x v as).sess.store = labels (exSess y u bs).sess.store := by
  simp only [labels, exSess, Option.map_some, Option.some.injEq]
  funext k
  by_cases hk : k = [97]
  · subst hk; simp
  · rw [Map.set_other _ _ hk, Map.set_other _ _ hk]

/-- A secret is overwritten in two sessions: other secrets before and after, the same text. -/
example (e : Env) (ho : ByKeys e.order) :
    commandText F e (ascii "store a") (exSess [1] [2] [some (ascii "y"), some [3]]) =
      commandText F e (ascii "store a") (exSess [4] [5] [some (ascii "Yes"), some [6, 7]]) := by
  refine C185_quiet F ho (by decide) (exSess_labels _ _ _ _ _ _) rfl ?_ ?_
  · refine ⟨⟨?_, ?_, ?_⟩, ⟨?_, ?_, ?_⟩, trivial⟩
    · simp
    · constructor <;> intro h <;> simp [ascii] at h
    · exact ⟨fun _ => .inr (by decide), fun _ => .inl (by decide)⟩
    · simp
    · simp
    · constructor <;> intro h <;> rcases h with h | h <;> simp [lower, lowerByte] at h
  · constructor <;> rintro ⟨p, r, h⟩ <;> simp [exSess, Props.Secrets.exWorld] at h <;> (obtain ⟨h1, h2, -⟩ := h; rw [← h1] at h2; simp [ascii] at h2)

example (x y : Bytes) : openPart (exSess x [2] []).sess.store = openPart (exSess y [2] []).sess.store := by
  simp only [openPart, exSess, Option.map_some, Option.some.injEq]
  funext k
  by_cases hk : k = [97]
  · subst hk; simp
  · rw [Map.set_other _ _ hk, Map.set_other _ _ hk]

example : fields (ascii "show b c") = ascii "show" :: [[98], [99]] ∧
    ∀ l ∈ [[98], [99]], (exSess [1] [2] []).entry l = (exSess [4] [5] []).entry l := by
  refine ⟨by decide, ?_⟩
  intro l hl
  have : l ≠ [97] := by rintro rfl; revert hl; decide
  simp only [St.entry, exSess, Option.bind_some]
  rw [Map.set_other _ _ this, Map.set_other _ _ this]

/-! ### C186: the questions -/

theorem text_store {e : Env} {line : Bytes} {args : List Bytes} {st : St} (hf : fields line = ascii "store" :: args) :
    commandText F e line st = storeLoopText F 0 args st := by
  unfold commandText
  rw [hf]
  simp only [show (ascii "store" = ascii "clear") = False by decide, show (ascii "store" = ascii "help") = False by decide,
    show (ascii "store" = ascii "list") = False by decide, show (ascii "store" = ascii "quit") = False by decide,
    show (ascii "store" = ascii "passwd") = False by decide, show (ascii "store" = ascii "rmeta") = False by decide,
    show (ascii "store" = ascii "show") = False by decide, show (ascii "store" = ascii "showhex") = False by decide, if_false, if_true]

/-- What `store` prints about a label that exists and is not to be overwritten. -/
theorem text_kept {e : Env} {line l a : Bytes} {st : St} {r : Option SecretRecord} {rest : List (Option Bytes)}
    (hf : fields line = [ascii "store", l]) (hr : st.entry l = some r) (ha : st.w.term.answers = some a :: rest) (hy : ¬ Yes a) :
    commandText F e line st = Spec.SecretsOutput.line (ascii "[+] Storing secret for " ++ l) ++
      F.run (l ++ ascii " exists. Overwrite secret (y/n)? ") ++ Spec.SecretsOutput.line (ascii "Not overwriting.") := by
  have na : lower a ≠ ascii "y" ∧ lower a ≠ ascii "yes" := ⟨fun x => hy (.inl x), fun x => hy (.inr x)⟩
  rw [text_store F hf, storeLoopText, storeSingleText, storeSingleSecret, hr]
  simp only [St.read, Term.read, ha]
  rw [if_pos na, if_pos na]
  simp only [storeLoopText, List.append_nil, Spec.SecretsOutput.line, List.append_assoc]
  rfl

/-- Before a secret is overwritten, the question names its label, if there is no percent sign in it; the prompt names the
file of the store, if there is none in that. Missing from the property: names with percent signs. -/
theorem C186_asked_partial {e : Env} {line l a : Bytes} {st : St} {r : Option SecretRecord} {rest : List (Option Bytes)}
    (hf : fields line = [ascii "store", l]) (hr : st.entry l = some r) (ha : st.w.term.answers = some a :: rest) (hy : ¬ Yes a)
    (hl : (37 : UInt8) ∉ l) :
    commandText F e line st = Spec.SecretsOutput.line (ascii "[+] Storing secret for " ++ l) ++
      (l ++ ascii " exists. Overwrite secret (y/n)? ") ++ Spec.SecretsOutput.line (ascii "Not overwriting.") ∧
    processCommands C J e line st = (.ok, st.rest rest) := by
  constructor
  · rw [text_kept F hf hr ha hy, F.plain]
    intro h
    rcases List.mem_append.1 h with h | h
    · exact hl h
    · revert h; decide
  · have na : lower a ≠ ascii "y" ∧ lower a ≠ ascii "yes" := ⟨fun x => hy (.inl x), fun x => hy (.inr x)⟩
    unfold processCommands
    rw [hf]
    simp only [show (ascii "store" = ascii "clear") = False by decide, show (ascii "store" = ascii "help") = False by decide,
      show (ascii "store" = ascii "list") = False by decide, show (ascii "store" = ascii "quit") = False by decide,
      show (ascii "store" = ascii "passwd") = False by decide, show (ascii "store" = ascii "rmeta") = False by decide,
      show (ascii "store" = ascii "show") = False by decide, show (ascii "store" = ascii "showhex") = False by decide, if_false, if_true]
    simp only [storeSecret, List.length_cons, List.length_nil, storeLoop, storeSingleSecret, hr, St.read, Term.read, ha]
    rw [if_neg (by decide), if_pos na]
    rfl

@[inherit_doc C186_asked_partial]
theorem C186_prompt_partial {path : Bytes} (h : (37 : UInt8) ∉ path) : promptText F path = path ++ ascii " command> " := by
  unfold promptText
  rw [F.plain]
  intro h'
  rcases List.mem_append.1 h' with h' | h'
  · exact h h'
  · revert h'; decide

/-- C186 is false: label and file name are used as format strings. Of a label that ends with a percent sign, the question
makes an error message of package fmt; and so does the prompt of such a file name. -/
theorem C186_violated {e : Env} {line l a : Bytes} {st : St} {r : Option SecretRecord} {rest : List (Option Bytes)}
    (hf : fields line = [ascii "store", l ++ ascii "%"]) (hr : st.entry (l ++ ascii "%") = some r)
    (ha : st.w.term.answers = some a :: rest) (hy : ¬ Yes a) (hl : (37 : UInt8) ∉ l) :
    commandText F e line st = Spec.SecretsOutput.line (ascii "[+] Storing secret for " ++ (l ++ ascii "%")) ++
      (l ++ ascii "%!e(MISSING)xists. Overwrite secret (y/n)? ") ++ Spec.SecretsOutput.line (ascii "Not overwriting.") ∧
    promptText F (l ++ ascii "%") = l ++ ascii "%!c(MISSING)ommand> " := by
  constructor
  · rw [text_kept F hf hr ha hy]
    congr 2
    have := F.missing l 101 (ascii "xists. Overwrite secret (y/n)? ") hl (by decide) (by decide)
    rw [F.plain (ascii "xists. Overwrite secret (y/n)? ") (by decide)] at this
    rw [show l ++ ascii "%" ++ ascii " exists. Overwrite secret (y/n)? " =
      l ++ 37 :: 32 :: 101 :: ascii "xists. Overwrite secret (y/n)? " by rw [List.append_assoc]; rfl, this]
    simp only [List.append_assoc]
    rfl
  · unfold promptText
    have := F.missing l 99 (ascii "ommand> ") hl (by decide) (by decide)
    rw [F.plain (ascii "ommand> ") (by decide)] at this
    rw [show l ++ ascii "%" ++ ascii " command> " = l ++ 37 :: 32 :: 99 :: ascii "ommand> " by rw [List.append_assoc]; rfl, this]
    simp only [List.append_assoc]
    rfl

/-- Two percent signs are shown as one. -/
theorem C186_percent_violated {p : Bytes} (h : (37 : UInt8) ∉ p) :
    promptText F (p ++ ascii "%%") = p ++ ascii "% command> " ∧ promptText F (p ++ ascii "%%") ≠ p ++ ascii "%%" ++ ascii " command> " := by
  have : promptText F (p ++ ascii "%%") = p ++ ascii "% command> " := by
    unfold promptText
    rw [show p ++ ascii "%%" ++ ascii " command> " = p ++ 37 :: 37 :: ascii " command> " by rw [List.append_assoc]; rfl,
      F.percent _ _ h, F.plain (ascii " command> ") (by decide)]
    rfl
  refine ⟨this, ?_⟩
  rw [this, List.append_assoc]
  intro hc
  have := List.append_cancel_left hc
  revert this; decide

example : fields (ascii "store 50%") = [ascii "store", ascii "50" ++ ascii "%"] ∧ (37 : UInt8) ∉ ascii "50" ∧ ¬ Yes (ascii "n") :=
  ⟨by decide, by decide, by rintro (h | h) <;> revert h <;> decide⟩

example : fields (ascii "store a") = [ascii "store", [97]] ∧ (∃ r, (exSess [1] [2] []).entry [97] = some r) ∧ (37 : UInt8) ∉ ([97] : Bytes) :=
  ⟨by decide, ⟨_, rfl⟩, by decide⟩

/-! ### C187: wmeta -/

theorem text_wmeta {e : Env} {line l : Bytes} {st : St} {r : SecretRecord} (hf : fields line = [ascii "wmeta", l])
    (hr : st.entry l = some (some r)) :
    commandText F e line st = Spec.SecretsOutput.line (ascii "Enter metadata; use an empty line to indicate that you are done.") ++
      metaLoopText (r.metadata.getD Map.empty) st.w.term.answers := by
  unfold commandText
  rw [hf]
  simp only [show (ascii "wmeta" = ascii "clear") = False by decide, show (ascii "wmeta" = ascii "help") = False by decide,
    show (ascii "wmeta" = ascii "list") = False by decide, show (ascii "wmeta" = ascii "quit") = False by decide,
    show (ascii "wmeta" = ascii "passwd") = False by decide, show (ascii "wmeta" = ascii "rmeta") = False by decide,
    show (ascii "wmeta" = ascii "show") = False by decide, show (ascii "wmeta" = ascii "showhex") = False by decide,
    show (ascii "wmeta" = ascii "store") = False by decide, if_false, if_true, writeMetaText, hr]
  rfl

theorem wmeta_after {e : Env} {line l : Bytes} {st st' : St} {r r' : SecretRecord} {ret : Ret} (hf : fields line = [ascii "wmeta", l])
    (hr : st.entry l = some (some r)) (h : processCommands C J e line st = (ret, st')) (hr' : st'.entry l = some (some r')) :
    r'.metadata = some (metaLoop (r.metadata.getD Map.empty) st.w.term.answers).1 := by
  unfold processCommands at h
  rw [hf] at h
  simp only [show (ascii "wmeta" = ascii "clear") = False by decide, show (ascii "wmeta" = ascii "help") = False by decide,
    show (ascii "wmeta" = ascii "list") = False by decide, show (ascii "wmeta" = ascii "quit") = False by decide,
    show (ascii "wmeta" = ascii "passwd") = False by decide, show (ascii "wmeta" = ascii "rmeta") = False by decide,
    show (ascii "wmeta" = ascii "show") = False by decide, show (ascii "wmeta" = ascii "showhex") = False by decide,
    show (ascii "wmeta" = ascii "store") = False by decide, if_false, if_true, writeMeta, hr] at h
  obtain ⟨m, hm⟩ : ∃ m, st.sess.store.store = some m := by
    unfold St.entry at hr
    cases hs : st.sess.store.store with
    | none => rw [hs] at hr; cases hr
    | some m => exact ⟨m, rfl⟩
  cases hk : (metaLoop (r.metadata.getD Map.empty) st.w.term.answers).2.1 with
  | false =>
    simp only [hk, Model.Secrets.assign, hm, Bool.not_false, if_true, Prod.mk.injEq] at h
    rw [← h.2] at hr'
    simp [St.entry] at hr'
    rw [← hr']
  | true =>
    simp only [hk, Bool.not_true, Bool.false_eq_true, if_false, touch, Term.now, Model.Secrets.assign, hm, Prod.mk.injEq] at h
    rw [← h.2] at hr'
    simp [St.entry] at hr'
    rw [← hr']

/-- When wmeta replaces a value of metadata, it displays the value in a note; also when it fails in the end. -/
theorem C187_noted {e : Env} {line l k v : Bytes} {st st' : St} {r r' : SecretRecord} {ret : Ret} (hf : fields line = [ascii "wmeta", l])
    (hr : st.entry l = some (some r)) (h : processCommands C J e line st = (ret, st')) (hr' : st'.entry l = some (some r'))
    (hk : (r.metadata.getD Map.empty) k = some v) (hk' : (r'.metadata.getD Map.empty) k ≠ some v) :
    note v <:+: commandText F e line st := by
  rw [wmeta_after C J hf hr h hr'] at hk'
  rw [text_wmeta F hf hr]
  exact (loop_notes _ _ k v hk hk').trans (List.suffix_append _ _).isInfix

/-- Besides the heading, wmeta prints a prompt for every line, and behind it at most a note about a value that was in the
metadata of this record, or was typed. -/
theorem C187_only {e : Env} {line l : Bytes} {st : St} {r : SecretRecord} (hf : fields line = [ascii "wmeta", l])
    (hr : st.entry l = some (some r)) :
    ∃ ps : List Bytes, commandText F e line st =
      Spec.SecretsOutput.line (ascii "Enter metadata; use an empty line to indicate that you are done.") ++
        ((ps.map (fun p => ascii "key = value: " ++ p)).flatten ++ ascii "key = value: ") ∧
      ∀ p ∈ ps, p = [] ∨ ∃ v, p = note v ∧
        ((∃ k, (r.metadata.getD Map.empty) k = some v) ∨ ∃ a, some a ∈ st.w.term.answers ∧ v <:+: a) := by
  rw [text_wmeta F hf hr]
  obtain ⟨ps, h1, h2⟩ := loop_pieces st.w.term.answers (r.metadata.getD Map.empty)
  exact ⟨ps, by rw [h1], h2⟩

/-- An example: the value [2] of "u" is replaced. -/
example (e : Env) : ∃ st st' r r' ret, st = exSess [1] [2] [some (ascii "u = x"), some []] ∧
    fields (ascii "wmeta a") = [ascii "wmeta", [97]] ∧ st.entry [97] = some (some r) ∧
    processCommands C J e (ascii "wmeta a") st = (ret, st') ∧ st'.entry [97] = some (some r') ∧
    (r.metadata.getD Map.empty) [117] = some [2] ∧ (r'.metadata.getD Map.empty) [117] ≠ some [2] := by
  refine ⟨_, _, _, _, _, rfl, by decide, rfl, rfl, rfl, rfl, ?_⟩
  decide

end Verif.Props.SecretscliOutput
