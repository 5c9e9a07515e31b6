import Verif.Model.KeysrvLog
import Verif.Props.KeysrvHttp
import Verif.Props.ReadLine
/-! Properties C196-C198: the log of the key server (exp/keysrv). -/

namespace Verif.Props.KeysrvLog
open Verif Verif.Go Verif.Model.Util Verif.Model.Public Verif.Model.KeyStore Verif.Model.Keysrv
open Verif.Spec.Public Verif.Spec.KeyStore Verif.Spec.Keysrv Verif.Proofs.KeyStore Verif.Proofs.Keysrv Verif.Proofs.KeysrvHttp
open Verif.Spec.ReadLine (lines)
open Verif.Props.ReadLine (lines_none lines_line takeWhile_split)
open Verif.Proofs.Fcrypt (peerKeys)
open Verif.Props.KeyTrust Verif.Props.KeyImport Verif.Props.Keysrv Verif.Props.KeysrvHttp

variable (C : Crypto) (A : Asn1) (P : Pem) (J : KeyJson) (sha256 : Bytes → Bytes)

/-- A line that begins with a date and a time as the log writes them. -/
def Stamped (line : Bytes) : Prop := ∃ t : Stamp, t.text <+: line

/-- Every request that arrives does so over HTTP. -/
def OverHttp (es : List Event) : Prop := ∀ n r, Event.arrive n r ∈ es → ∃ h, serveHTTP h = .handler r

theorem slash_eq : slash = 47 := rfl

/-! ### Entries and lines -/

theorem pad_digit {w n : Nat} {c : UInt8} (h : c ∈ decimalPad w n) : 48 ≤ c.toNat ∧ c.toNat ≤ 57 := by
  unfold decimalPad at h
  rcases List.mem_append.mp h with h | h
  · rw [List.eq_of_mem_replicate h]; decide
  · exact decimalF_digits _ _ c h

theorem stamp_line (t : Stamp) : (10 : UInt8) ∉ t.text := by
  unfold Stamp.text
  simp only [List.mem_append, List.mem_singleton, not_or]
  have h : ∀ w n, (10 : UInt8) ∉ decimalPad w n := fun w n hm => absurd (pad_digit hm).1 (by decide)
  refine ⟨⟨⟨⟨⟨⟨⟨⟨⟨⟨⟨h _ _, ?_⟩, h _ _⟩, ?_⟩, h _ _⟩, ?_⟩, h _ _⟩, ?_⟩, h _ _⟩, ?_⟩, h _ _⟩, ?_⟩ <;> decide

theorem stamped_slash {l : Bytes} (h : Stamped l) : slash ∈ l := by
  obtain ⟨t, ht⟩ := h
  refine ht.subset ?_
  unfold Stamp.text
  simp [slash_eq]

/-- A text that is empty or ends with a newline. -/
def Ended (b : Bytes) : Prop := b = [] ∨ b.getLast? = some 10

theorem ended_tail {a b : Bytes} (h : Ended (a ++ 10 :: b)) : Ended b := by
  rcases h with h | h
  · simp at h
  · by_cases hb : b = []
    · exact .inl hb
    · right
      rw [List.getLast?_append] at h
      rw [List.getLast?_cons] at h
      cases hl : b.getLast? with
      | none => exact absurd (List.getLast?_eq_none_iff.mp hl) hb
      | some x => simpa [hl] using h

theorem ended_mem {b : Bytes} (h : Ended b) (hb : b ≠ []) : (10 : UInt8) ∈ b := by
  rcases h with h | h
  · exact absurd h hb
  · exact List.mem_of_getLast? h

open Classical in
/-- Lines without a slash do not count. -/
theorem skip_lines (t : Bytes) : ∀ n, ∀ b : Bytes, b.length ≤ n → slash ∉ b → Ended b →
    (lines (b ++ t)).1.filter (fun l => decide (Stamped l)) = (lines t).1.filter (fun l => decide (Stamped l)) ∧
    (lines (b ++ t)).2 = (lines t).2 := by
  intro n
  induction n with
  | zero =>
    intro b hl _ _
    have : b = [] := List.length_eq_zero_iff.mp (by omega)
    subst this
    exact ⟨rfl, rfl⟩
  | succ n ih =>
    intro b hl hs he
    by_cases hb : b = []
    · subst hb; exact ⟨rfl, rfl⟩
    · obtain ⟨r, h1, h2⟩ := takeWhile_split (ended_mem he hb)
      generalize hc : b.takeWhile (· ≠ 10) = c at h1 h2
      subst h1
      have hs' : slash ∉ c ++ [10] ∧ slash ∉ r := by
        simp only [List.mem_append, List.mem_cons, not_or] at hs
        refine ⟨?_, hs.2.2⟩
        simp only [List.mem_append, List.mem_singleton, not_or]
        exact ⟨hs.1, hs.2.1⟩
      obtain ⟨i1, i2⟩ := ih r (by simp at hl; omega) hs'.2 (ended_tail he)
      rw [List.append_assoc, List.cons_append, lines_line c h2]
      simp only
      rw [List.filter_cons_of_neg, i1, i2]
      · exact ⟨rfl, rfl⟩
      · simp only [decide_eq_true_eq]
        exact fun h => hs'.1 (stamped_slash h)

/-- A message as the server makes them: a text without newlines, then perhaps a label, of which `Q` holds. -/
def Tame (Q : Bytes → Prop) (msg : Bytes) : Prop := ∃ pre l, msg = pre ++ l ∧ (10 : UInt8) ∉ pre ∧ Q l

/-- An entry is a line with its stamp, and perhaps lines without a slash. -/
theorem entry_lines (t : Stamp) {msg : Bytes} (h : Tame (slash ∉ ·) msg) :
    ∃ r, logEntry t msg = (t.text ++ msg.takeWhile (· ≠ 10)) ++ 10 :: r ∧ slash ∉ r ∧ Ended r ∧
      (10 : UInt8) ∉ t.text ++ msg.takeWhile (· ≠ 10) := by
  have hno : ∀ b : Bytes, (10 : UInt8) ∉ b.takeWhile (· ≠ 10) := by
    intro b hm
    have := List.all_eq_true.mp List.all_takeWhile _ hm
    simp at this
  have hst : (10 : UInt8) ∉ t.text ++ msg.takeWhile (· ≠ 10) := by
    rw [List.mem_append, not_or]
    exact ⟨stamp_line t, hno _⟩
  by_cases hm : (10 : UInt8) ∈ msg
  · obtain ⟨r, h1, h2⟩ := takeWhile_split hm
    have hsr : slash ∉ r := by
      obtain ⟨pre, l, h3, h4, h5⟩ := h
      -- the newline is in `l`
      intro hr
      apply h5
      have : ∀ (pre c : Bytes), (10 : UInt8) ∉ pre → c ++ 10 :: r = pre ++ l → (10 : UInt8) ∉ c → slash ∈ l := by
        intro pre
        induction pre with
        | nil =>
          intro c _ e _
          rw [List.nil_append] at e
          rw [← e]
          simp [hr]
        | cons x pre ih =>
          intro c hp e hc
          cases c with
          | nil =>
            simp only [List.nil_append, List.cons_append, List.cons.injEq] at e
            exact absurd (by rw [← e.1]; simp) hp
          | cons y c =>
            simp only [List.cons_append, List.cons.injEq] at e
            exact ih c (fun hx => hp (List.mem_cons_of_mem _ hx)) e.2 (fun hx => hc (List.mem_cons_of_mem _ hx))
      exact this pre _ h4 (h1.symm.trans h3) h2
    refine ⟨r ++ (if msg.getLast? = some 10 then [] else [10]), ?_, ?_, ?_, hst⟩
    · unfold logEntry
      generalize msg.takeWhile (· ≠ 10) = c at h1
      generalize (if msg.getLast? = some 10 then ([] : Bytes) else [10]) = z
      rw [h1]
      simp
    · rw [List.mem_append, not_or]
      refine ⟨hsr, ?_⟩
      split <;> simp [slash_eq]
    · split
      · rename_i hl
        rw [List.append_nil]
        rw [h1] at hl
        exact ended_tail (.inr hl)
      · right; simp
  · have htw : msg.takeWhile (· ≠ 10) = msg := by
      have := List.takeWhile_append_of_pos (p := fun c : UInt8 => decide (c ≠ 10)) (l₁ := msg) (l₂ := []) (by
        intro x hx
        simp only [ne_eq, decide_eq_true_eq]
        rintro rfl
        exact hm hx)
      simpa using this
    refine ⟨[], ?_, by simp, .inl rfl, hst⟩
    rw [htw]
    unfold logEntry
    rw [if_neg]
    exact fun hl => hm (List.mem_of_getLast? hl)

open Classical in
/-- The stamped lines of a log of such messages. -/
theorem log_lines (log : List (Stamp × Bytes)) (h : ∀ x ∈ log, Tame (slash ∉ ·) x.2) :
    (lines (logText log)).1.filter (fun l => decide (Stamped l)) =
      log.map (fun x => x.1.text ++ x.2.takeWhile (· ≠ 10) ++ [10]) ∧ (lines (logText log)).2 = [] := by
  induction log with
  | nil => exact ⟨rfl, rfl⟩
  | cons x log ih =>
    obtain ⟨r, h1, h2, h3, h4⟩ := entry_lines x.1 (h x (by simp))
    obtain ⟨i1, i2⟩ := ih (fun y hy => h y (List.mem_cons_of_mem _ hy))
    obtain ⟨s1, s2⟩ := skip_lines (logText log) r.length r (Nat.le_refl _) h2 h3
    have e : logText (x :: log) = (x.1.text ++ x.2.takeWhile (· ≠ 10)) ++ 10 :: (r ++ logText log) := by
      show logEntry x.1 x.2 ++ logText log = _
      rw [h1]; simp
    rw [e, lines_line _ h4]
    simp only [List.map_cons]
    rw [List.filter_cons_of_pos, s1, s2, i1]
    · exact ⟨rfl, i2⟩
    · simp only [decide_eq_true_eq]
      exact ⟨x.1, by rw [List.append_assoc]; exact List.prefix_append _ _⟩

/-! ### What the server logs -/

variable {Q : Bytes → Prop} (hQ0 : Q [])

include hQ0 in
theorem tame_fixed {b : Bytes} (h : (10 : UInt8) ∉ b) : Tame Q b := ⟨b, [], by simp, h, hQ0⟩

theorem tame_label {pre l : Bytes} (h : (10 : UInt8) ∉ pre) (hl : Q l) : Tame Q (pre ++ l) := ⟨pre, l, rfl, h, hl⟩

include hQ0 in
theorem process_tame (ks : KeyStore) (cmd : Command) (hl : Q cmd.label) : ∀ x ∈ processLog ks cmd, Tame Q x := by
  intro x hx
  unfold processLog at hx
  split at hx
  · simp only [List.mem_append, List.mem_singleton] at hx
    rcases hx with ((rfl | hx) | hx) | hx
    · exact tame_fixed hQ0 (by decide)
    · split at hx
      · cases List.mem_singleton.mp hx; exact tame_fixed hQ0 (by decide)
      · cases hx
    · split at hx
      · cases List.mem_singleton.mp hx; exact tame_label (by decide) hl
      · cases hx
    · split at hx
      · cases List.mem_singleton.mp hx; exact tame_fixed hQ0 (by decide)
      · cases hx
  · simp only [List.mem_append, List.mem_singleton] at hx
    rcases hx with ((rfl | hx) | hx) | hx
    · exact tame_fixed hQ0 (by decide)
    · split at hx
      · cases List.mem_singleton.mp hx; exact tame_fixed hQ0 (by decide)
      · cases hx
    · split at hx
      · cases List.mem_singleton.mp hx; exact tame_label (by decide) hl
      · cases hx
    · split at hx
      · cases List.mem_singleton.mp hx; exact tame_fixed hQ0 (by decide)
      · cases hx
  · cases List.mem_singleton.mp hx; exact tame_fixed hQ0 (by decide)
  · cases List.mem_singleton.mp hx; exact tame_fixed hQ0 (by decide)
  · cases hx

theorem op_line (o : Model.Keysrv.Op) : (10 : UInt8) ∉ ascii "received command for " ++ o.text := by cases o <;> decide

include hQ0 in
theorem command_tame (ks : KeyStore) (x : Sender) (hl : Q x.command.label) : ∀ y ∈ commandLog ks x, Tame Q y := by
  intro y hy
  rcases List.mem_cons.mp hy with rfl | hy
  · exact tame_fixed hQ0 (op_line _)
  · exact process_tame hQ0 ks _ hl y hy

/-- What holds of the state while only requests over HTTP arrive. -/
structure Meek (Q : Bytes → Prop) (s : State) : Prop where
  sending : ∀ x ∈ s.sending, Q x.command.label
  queue : ∀ x ∈ s.queue, Q x.command.label
  mailbox : ∀ resp, s.mailbox = some resp → resp.err = none ∨ resp.err = some (ascii "audit failure")

theorem http_label {h : Http} {r : Request} (hr : serveHTTP h = .handler r) : slash ∉ r.command.label := by
  rcases C156_exact h r hr with ⟨rfl, -⟩ | ⟨l, ⟨-, hl, -, -⟩, ⟨rfl, -⟩ | ⟨rfl, -⟩ | ⟨b, -, rfl, -⟩⟩
  · decide
  · exact hl
  · show slash ∉ (if l = [] then self else l)
    split
    · decide
    · exact hl
  · exact hl

theorem meek_initial (ks : KeyStore) (fs : Fs) (writes : Nat → WriteOutcome) : Meek Q (initial ks fs writes) :=
  ⟨(fun _ h => nomatch h), (fun _ h => nomatch h), (fun _ h => nomatch h)⟩

include hQ0 in
theorem meek_step {path : Path} {s s' : State} {e : Event} (hs : Meek Q s)
    (ha : ∀ n r, e = .arrive n r → Q r.command.label) (h : Step C A P J sha256 path s e s') : Meek Q s' := by
  obtain ⟨h1, h2, h3⟩ := hs
  cases h with
  | arrive n r _ =>
    refine ⟨fun x hx => ?_, h2, h3⟩
    rcases List.mem_append.mp hx with hx | hx
    · exact h1 x hx
    · cases List.mem_singleton.mp hx; exact ha n r rfl
  | send a b x _ hq _ =>
    refine ⟨fun y hy => h1 y ?_, fun y hy => ?_, h3⟩
    · rw [hq]
      rcases List.mem_append.mp hy with hy | hy
      · exact List.mem_append_left _ hy
      · exact List.mem_append_right _ (List.mem_cons_of_mem _ hy)
    · rcases List.mem_append.mp hy with hy | hy
      · exact h2 y hy
      · cases List.mem_singleton.mp hy; exact h1 _ (by rw [hq]; simp)
  | handle x rest o clock ks resp _ hq _ hp =>
    have hrest : ∀ y ∈ rest, Q y.command.label := fun y hy => h2 y (by rw [hq]; exact List.mem_cons_of_mem _ hy)
    cases x with
    | client n r => exact ⟨h1, hrest, h3⟩
    | auditor =>
      refine ⟨h1, hrest, fun resp' e => ?_⟩
      cases Option.some.inj e
      simp only [Sender.command, process] at hp
      split at hp
      · cases hp
      · cases hp
      · rename_i ok _
        simp only [Option.some.injEq, Res.ok.injEq, Prod.mk.injEq] at hp
        rw [← hp.2]
        cases ok
        · exact .inr rfl
        · exact .inl rfl
  | crash x rest o clock _ hq _ _ =>
    exact ⟨h1, fun y hy => h2 y (by rw [hq]; exact List.mem_cons_of_mem _ hy), h3⟩
  | hang x rest o clock _ hq _ _ =>
    exact ⟨h1, fun y hy => h2 y (by rw [hq]; exact List.mem_cons_of_mem _ hy), h3⟩
  | dump _ _ => exact ⟨h1, h2, h3⟩
  | wake t _ _ _ =>
    refine ⟨fun x hx => ?_, h2, h3⟩
    rcases List.mem_append.mp hx with hx | hx
    · exact h1 x hx
    · cases List.mem_singleton.mp hx; exact hQ0
  | told resp _ _ _ => exact ⟨h1, h2, fun _ h => by cases h⟩
  | fatal resp _ _ _ => exact ⟨h1, h2, h3⟩
  | tick d _ => exact ⟨h1, h2, h3⟩

include hQ0 in
theorem event_tame {path : Path} {why : Bytes} (hw : (10 : UInt8) ∉ why) {s s' : State} {e : Event} (hs : Meek Q s)
    (h : Step C A P J sha256 path s e s') : ∀ x ∈ eventLog why s e, Tame Q x := by
  obtain ⟨h1, h2, h3⟩ := hs
  intro y hy
  cases h with
  | arrive n r _ => cases hy
  | send a b x _ hq _ => cases hy
  | handle x rest o clock ks resp _ hq _ hp => exact command_tame hQ0 _ x (h2 x (by rw [hq]; simp)) y hy
  | crash x rest o clock _ hq _ _ => exact command_tame hQ0 _ x (h2 x (by rw [hq]; simp)) y hy
  | hang x rest o clock _ hq _ _ => exact command_tame hQ0 _ x (h2 x (by rw [hq]; simp)) y hy
  | dump _ _ =>
    have hwarn : Tame Q (ascii "WARNING: failed to write keystore: " ++ why) := by
      refine tame_fixed hQ0 ?_
      rw [List.mem_append, not_or]
      exact ⟨by decide, hw⟩
    rcases List.mem_cons.mp hy with rfl | hy
    · exact tame_fixed hQ0 (by decide)
    · cases hwr : s.writes 0 <;> rw [hwr] at hy
      · cases hy
      · cases List.mem_singleton.mp hy; exact hwarn
      · cases List.mem_singleton.mp hy; exact hwarn
  | wake t _ _ _ => cases List.mem_singleton.mp hy; exact tame_fixed hQ0 (by decide)
  | told resp _ _ _ => cases List.mem_singleton.mp hy; exact tame_fixed hQ0 (by decide)
  | fatal resp _ hm _ =>
    cases List.mem_singleton.mp hy
    refine tame_fixed hQ0 ?_
    rw [hm]
    simp only [Option.bind_some]
    rcases h3 resp hm with h | h <;> rw [h] <;> decide
  | tick d _ => cases hy

include hQ0 in
theorem logged_tame {path : Path} {why : Bytes} (hw : (10 : UInt8) ∉ why) {s s' : State} {es : List Event}
    {log : List (Stamp × Bytes)} (h : Logged C A P J sha256 path why s es s' log) :
    Meek Q s → (∀ n r, Event.arrive n r ∈ es → Q r.command.label) → ∀ x ∈ log, Tame Q x.2 := by
  induction h with
  | nil s => intro _ _ x hx; cases hx
  | cons hst hl hr ih =>
    intro hm ho x hx
    rcases List.mem_append.mp hx with hx | hx
    · refine event_tame C A P J sha256 hQ0 hw hm hst x.2 ?_
      rw [← hl]
      exact List.mem_map_of_mem hx
    · refine ih (meek_step C A P J sha256 hQ0 hm ?_ hst) (fun n r hm => ho n r (List.mem_cons_of_mem _ hm)) x hx
      rintro n r rfl
      exact ho n r (by simp)

open Classical in
/-- C196: whatever requests arrive, over HTTP, and whatever labels they name, the lines of the log that begin with
a date and a time are the messages of the server, one line for each, in order, up to the first newline in the
message; and the log ends with a newline. `why`, the reason why the file could not be written, has no newline. -/
theorem C196_stamped (path : Path) (why : Bytes) (hw : (10 : UInt8) ∉ why) (ks : KeyStore) (fs : Fs)
    (writes : Nat → WriteOutcome) (es : List Event) (s : State) (log : List (Stamp × Bytes)) (ho : OverHttp es)
    (h : Logged C A P J sha256 path why (initial ks fs writes) es s log) :
    (lines (logText log)).1.filter (fun l => decide (Stamped l)) =
      log.map (fun x => x.1.text ++ x.2.takeWhile (· ≠ 10) ++ [10]) ∧ (lines (logText log)).2 = [] :=
  log_lines log (logged_tame C A P J sha256 (Q := (slash ∉ ·)) (by simp) hw h (meek_initial ks fs writes) (by
    intro n r hm
    obtain ⟨h, hh⟩ := ho n r hm
    exact http_label hh))

/-- The log of a request that is served, whatever the times. -/
theorem serve_logged {path : Path} {why : Bytes} {ks ks' : KeyStore} {fs : Fs} {writes : Nat → WriteOutcome} (r : Request)
    {o : Orders} {clock : BitVec 64} {resp : Response} (ho : o.Enumerate ks)
    (hp : process C A P sha256 ks r.command o clock = some (.ok (ks', resp))) (log : List (Stamp × Bytes))
    (hl : log.map Prod.snd = commandLog ks (.client 0 r)) :
    Logged C A P J sha256 path why (initial ks fs writes) [.arrive 0 r, .send (.client 0 r), .handle (.client 0 r) resp]
      { initial ks fs writes with ks := ks', deadline := 600, replies := [(0, r, r.reply resp)] } log := by
  have h1 : Step C A P J sha256 path (initial ks fs writes) (.arrive 0 r) _ := .arrive _ 0 r (.inl rfl)
  refine .cons (l := []) (log := log) h1 rfl ?_
  refine .cons (l := []) (log := log) (.send _ [] [] (.client 0 r) (.inl rfl) rfl (by show 0 < 16; decide)) rfl ?_
  rw [← List.append_nil log]
  exact .cons (.handle _ (.client 0 r) [] o clock ks' resp rfl rfl ho hp) hl (.nil _)

/-- C197, what holds: as long as no request names a label with a newline, every message is one line of the log,
in order. Missing: labels with newlines. -/
theorem C197_lines_partial (path : Path) (why : Bytes) (hw : (10 : UInt8) ∉ why) (ks : KeyStore) (fs : Fs)
    (writes : Nat → WriteOutcome) (es : List Event) (s : State) (log : List (Stamp × Bytes))
    (hn : ∀ n r, Event.arrive n r ∈ es → (10 : UInt8) ∉ r.command.label)
    (h : Logged C A P J sha256 path why (initial ks fs writes) es s log) :
    lines (logText log) = (log.map (fun x => x.1.text ++ x.2 ++ [10]), []) := by
  have ht := logged_tame C A P J sha256 (Q := ((10 : UInt8) ∉ ·)) (by simp) hw h (meek_initial ks fs writes) hn
  clear h
  induction log with
  | nil => rfl
  | cons x log ih =>
    have hx : (10 : UInt8) ∉ x.2 := by
      obtain ⟨pre, l, h1, h2, h3⟩ := ht x (by simp)
      rw [h1, List.mem_append, not_or]
      exact ⟨h2, h3⟩
    have e : logText (x :: log) = (x.1.text ++ x.2) ++ 10 :: logText log := by
      show logEntry x.1 x.2 ++ logText log = _
      unfold logEntry
      rw [if_neg (fun hl => hx (List.mem_of_getLast? hl))]
      simp
    rw [e, lines_line _ (by rw [List.mem_append, not_or]; exact ⟨stamp_line _, hx⟩),
      ih (fun y hy => ht y (List.mem_cons_of_mem _ hy))]
    rfl

/-- The label with a newline in it. -/
def twoLines : Bytes := ascii "x" ++ 10 :: ascii "server stopped"

theorem has_none {ks : KeyStore} {l : Bytes} (hl : l ≠ self) (h : ∀ m, ks.keys = some m → m l = none) : ks.has l = false := by
  unfold KeyFields.has
  split
  · rfl
  · split
    · rfl
    · rename_i m hm
      simp [Map.has, h m hm]

/-- What follows a newline is lines of its own. -/
theorem lines_after (a t : Bytes) : ∃ l ls, (lines (a ++ 10 :: t)).1 = l :: (ls ++ (lines t).1) := by
  induction a with
  | nil => exact ⟨[10], [], by simp [lines]⟩
  | cons b a ih =>
    obtain ⟨l, ls, h⟩ := ih
    rw [List.cons_append, lines]
    by_cases hb : b = 10
    · subst hb
      refine ⟨[10], l :: ls, ?_⟩
      simp [h]
    · refine ⟨b :: l, ls, ?_⟩
      simp [h, hb]

theorem line_mem (a w t : Bytes) (hw : (10 : UInt8) ∉ w) : w ++ [10] ∈ (lines (a ++ 10 :: (w ++ 10 :: t))).1 := by
  obtain ⟨l, ls, h⟩ := lines_after a (w ++ 10 :: t)
  rw [h, lines_line w hw]
  simp

/-- C197 is false: whoever asks any server for the key at this URL makes it write a line of their choice. -/
theorem C197_violated : ∃ h : Http, h.target = ascii "/public/x%0Aserver%20stopped" ∧ serveHTTP h = .handler (.pubkey twoLines) ∧
    ∀ (path : Path) (why : Bytes) (ks : KeyStore) (fs : Fs) (writes : Nat → WriteOutcome) (o : Orders), o.Enumerate ks →
      (∀ m, ks.keys = some m → m twoLines = none) →
      ∃ es s log, Logged C A P J sha256 path why (initial ks fs writes) es s log ∧
        arrived es = [(0, .pubkey twoLines)] ∧ ascii "server stopped" ++ [10] ∈ (lines (logText log)).1 := by
  have hb : Name twoLines := by constructor <;> decide
  have ha : Asks (ascii "/public/x%0Aserver%20stopped") (ascii "/public/" ++ twoLines) := (requestPath_iff _ _).mp (by decide)
  refine ⟨⟨ascii "GET", ascii "/public/x%0Aserver%20stopped", .ok []⟩, rfl, serve_public hb ha, ?_⟩
  intro path why ks fs writes o ho hno
  let t : Stamp := ⟨2026, 11, 17, 12, 0, 0⟩
  have hh := has_none (ks := ks) (l := twoLines) (by decide) hno
  let log := (commandLog ks (.client 0 (.pubkey twoLines))).map (fun m => (t, m))
  refine ⟨_, _, log, serve_logged C A P J sha256 (.pubkey twoLines) ho (clock := 0) rfl log (by simp [log, Function.comp_def]), rfl, ?_⟩
  have hm : (t, ascii "keystore doesn't have key with label " ++ twoLines) ∈ log := by
    refine List.mem_map_of_mem (List.mem_cons_of_mem _ ?_)
    simp [processLog, Sender.command, Request.command, hh]
  obtain ⟨l1, l2, hs⟩ := List.append_of_mem hm
  rw [hs]
  have e : logText (l1 ++ (t, ascii "keystore doesn't have key with label " ++ twoLines) :: l2) =
      (logText l1 ++ t.text ++ ascii "keystore doesn't have key with label " ++ ascii "x") ++
        10 :: (ascii "server stopped" ++ 10 :: logText l2) := by
    have : logEntry t (ascii "keystore doesn't have key with label " ++ twoLines) =
        t.text ++ (ascii "keystore doesn't have key with label " ++ twoLines) ++ [10] := by
      unfold logEntry
      rw [if_neg (by decide)]
    have e1 : logText (l1 ++ (t, ascii "keystore doesn't have key with label " ++ twoLines) :: l2) =
        logText l1 ++ (logEntry t (ascii "keystore doesn't have key with label " ++ twoLines) ++ logText l2) := by
      unfold logText
      rw [List.flatMap_append, List.flatMap_cons]
    rw [e1, this, twoLines]
    generalize logText l1 = a
    generalize logText l2 = b
    generalize t.text = c
    simp only [List.append_assoc, List.cons_append, List.nil_append]
  rw [e]
  exact line_mem _ _ _ (by decide)

/-! ### What the log tells -/

/-- The name of the operation in a request. -/
def asked : Sender → Bytes
  | .client _ .server => ascii "public"
  | .client _ (.pubkey _) => ascii "public"
  | .client _ (.fingerprint _) => ascii "fingerprint"
  | .client _ (.upload _ _) => ascii "upload"
  | .auditor => ascii "audit"

theorem op_asked (x : Sender) : x.command.op.text = asked x := by
  rcases x with ⟨n, r⟩ | _
  · cases r <;> rfl
  · rfl

/-- A message that announces a command. -/
def announces (msg : Bytes) : Bool := (ascii "received command for ").isPrefixOf msg

theorem announces_head {c : UInt8} (h : c ≠ 114) (b : Bytes) : announces (c :: b) = false := by
  have e : ascii "received command for " = 114 :: ascii "eceived command for " := by decide
  unfold announces
  rw [e, List.isPrefixOf_cons₂]
  have : ((114 : UInt8) == c) = false := beq_false_of_ne (Ne.symm h)
  rw [this]; rfl

theorem announces_label (l : Bytes) : announces (ascii "keystore doesn't have key with label " ++ l) = false := by
  rw [show ascii "keystore doesn't have key with label " = 107 :: ascii "eystore doesn't have key with label " by decide]
  exact announces_head (by decide) _

theorem process_silent (ks : KeyStore) (cmd : Command) : (processLog ks cmd).filter announces = [] := by
  rw [List.filter_eq_nil_iff]
  intro x hx
  rw [Bool.not_eq_true]
  unfold processLog at hx
  split at hx
  · simp only [List.mem_append, List.mem_singleton] at hx
    rcases hx with ((rfl | hx) | hx) | hx
    · decide
    · split at hx
      · cases List.mem_singleton.mp hx; decide
      · cases hx
    · split at hx
      · cases List.mem_singleton.mp hx; exact announces_label _
      · cases hx
    · split at hx
      · cases List.mem_singleton.mp hx; decide
      · cases hx
  · simp only [List.mem_append, List.mem_singleton] at hx
    rcases hx with ((rfl | hx) | hx) | hx
    · decide
    · split at hx
      · cases List.mem_singleton.mp hx; decide
      · cases hx
    · split at hx
      · cases List.mem_singleton.mp hx; exact announces_label _
      · cases hx
    · split at hx
      · cases List.mem_singleton.mp hx; decide
      · cases hx
  · cases List.mem_singleton.mp hx; decide
  · cases List.mem_singleton.mp hx; decide
  · cases hx

theorem command_announced (ks : KeyStore) (x : Sender) :
    (commandLog ks x).filter announces = [ascii "received command for " ++ asked x] := by
  unfold commandLog
  rw [List.filter_cons_of_pos, process_silent, op_asked]
  unfold announces
  rw [List.isPrefixOf_iff_prefix]
  exact List.prefix_append _ _

theorem event_announced (why : Bytes) (s : State) (e : Event) :
    (eventLog why s e).filter announces = (taken [e]).map (fun x => ascii "received command for " ++ asked x) := by
  cases e with
  | handle x _ => exact command_announced _ x
  | crash x => exact command_announced _ x
  | hang x => exact command_announced _ x
  | dump =>
    have hwarn : announces (ascii "WARNING: failed to write keystore: " ++ why) = false := by
      rw [show ascii "WARNING: failed to write keystore: " = 87 :: ascii "ARNING: failed to write keystore: " by decide]
      exact announces_head (by decide) _
    simp only [eventLog]
    rw [List.filter_cons_of_neg (by decide)]
    cases s.writes 0 <;> simp [hwarn, taken]
  | fatal =>
    simp only [eventLog]
    rw [show ascii "FATAL: audit failed (" = 70 :: ascii "ATAL: audit failed (" by decide]
    rw [List.cons_append, List.cons_append, List.filter_cons_of_neg (by rw [announces_head (by decide)]; decide)]
    rfl
  | arrive _ _ => rfl
  | send _ => rfl
  | wake => simp only [eventLog]; rw [List.filter_cons_of_neg (by decide)]; rfl
  | told => simp only [eventLog]; rw [List.filter_cons_of_neg (by decide)]; rfl
  | tick _ => rfl

theorem taken_cons (e : Event) (es : List Event) : taken (e :: es) = taken [e] ++ taken es := by
  cases e <;> rfl

/-- C198, what holds: the messages that announce a command are, in order, those of the commands the dispatcher
took, with the operation of each. Missing: what the operation was about, and what came of it. -/
theorem C198_operations_partial (path : Path) (why : Bytes) (s s' : State) (es : List Event) (log : List (Stamp × Bytes))
    (h : Logged C A P J sha256 path why s es s' log) :
    (log.map Prod.snd).filter (fun m => (ascii "received command for ").isPrefixOf m) =
      (taken es).map (fun x => ascii "received command for " ++ asked x) := by
  show (log.map Prod.snd).filter announces = _
  induction h with
  | nil => rfl
  | @cons s s' s'' e es l log hst hl hr ih =>
    rw [List.map_append, List.filter_append, ih, hl, event_announced, taken_cons e es, List.map_append]

/-- C198, what holds: when a public key or a fingerprint is asked for that is not on record, the log names the
label, and the answer is an error. -/
theorem C198_unknown_partial (path : Path) (why : Bytes) (s s' : State) (n : Nat) (l : Bytes) (r : Request) (resp : Response)
    (log : List (Stamp × Bytes)) (hr : r = .pubkey l ∨ r = .fingerprint l) (hl0 : l ≠ []) (hls : l ≠ self)
    (hno : ∀ m, s.ks.keys = some m → m l = none)
    (h : Logged C A P J sha256 path why s [.handle (.client n r) resp] s' log) :
    ascii "keystore doesn't have key with label " ++ l ∈ log.map Prod.snd ∧ (r.reply resp).status = 400 := by
  have hh := has_none (ks := s.ks) hls hno
  have hg : s.ks.get l = none := by
    unfold KeyFields.get
    split
    · rfl
    · rename_i m hm
      rw [hno m hm]; rfl
  cases h with
  | cons hst hl hnil =>
    cases hnil
    rw [List.append_nil, hl]
    cases hst with
    | handle _ rest o clock ks _ _ _ _ hp =>
      rcases hr with rfl | rfl
      · refine ⟨?_, ?_⟩
        · simp [eventLog, commandLog, processLog, Sender.command, Request.command, hh]
        · simp only [Sender.command, Request.command, process, lookup, hg, if_neg hls, Option.some.injEq, Res.ok.injEq,
            Prod.mk.injEq] at hp
          rw [← hp.2]; rfl
      · refine ⟨?_, ?_⟩
        · simp [eventLog, commandLog, processLog, Sender.command, Request.command, hh, hl0]
        · simp only [Sender.command, Request.command, process, fingerprint, hg, if_neg hls, if_neg hl0, Option.some.injEq,
            Res.ok.injEq, Prod.mk.injEq] at hp
          rw [← hp.2]; rfl

theorem logged_run {path : Path} {why : Bytes} {s s' : State} {es : List Event} {log : List (Stamp × Bytes)}
    (h : Logged C A P J sha256 path why s es s' log) : Run C A P J sha256 path s es s' := by
  induction h with
  | nil => exact .nil _
  | cons hst _ _ ih => exact .cons hst ih

/-- The announcement of a lookup. -/
def lookupHead : Request → List Bytes
  | .fingerprint _ => [ascii "received command for fingerprint", ascii "fingerprint lookup"]
  | _ => [ascii "received command for public", ascii "public key lookup"]

/-- C198, what holds: when a server that came up with a key store file in which every record is stored under its own
label, and none under "self", is asked for a public key or a fingerprint by label, what is logged is the operation,
and if the label is not on record the label and that the lookup failed, and nothing else; the answer is an error just
if the label is not on record. -/
theorem C198_lookup_partial (fs fs' : Fs) (path : Path) (ks : KeyStore) (hst : Starts C A P J fs path ks fs')
    (hord : Ordered J fs path) (writes : Nat → WriteOutcome) (why : Bytes) (es : List Event) (s s' : State)
    (log log' : List (Stamp × Bytes)) (n : Nat) (l : Bytes) (r : Request) (resp : Response)
    (hr : r = .pubkey l ∨ r = .fingerprint l) (hl0 : l ≠ [])
    (h : Logged C A P J sha256 path why (initial ks fs' writes) es s log)
    (h' : Logged C A P J sha256 path why s [.handle (.client n r) resp] s' log') :
    ∃ m, s.ks.keys = some m ∧
      (l = self ∨ m l ≠ none → log'.map Prod.snd = lookupHead r ∧ (r.reply resp).status = 200) ∧
      (l ≠ self ∧ m l = none → log'.map Prod.snd = lookupHead r ++
          [ascii "keystore doesn't have key with label " ++ l, ascii "keystore lookup failed"] ∧
        r.reply resp = ⟨400, if r = .pubkey l then ascii "export failed" else ascii "fingerprint failed"⟩) := by
  obtain ⟨owner, m0, hs0⟩ := starts_sound C hst hord
  obtain ⟨m, hm⟩ := run_sound C (logged_run C A P J sha256 h) hs0
  refine ⟨m, hm.keys, ?_, ?_⟩
  · intro hk
    have hh : s.ks.has l = true := (has_iff hm.quick hm.keys l).mpr hk
    have hg : ¬ (l ≠ self ∧ s.ks.get l = none) := by
      rintro ⟨h1, h2⟩
      rcases hk with hk | hk
      · exact h1 hk
      · cases hml : m l with
        | none => exact hk hml
        | some o => cases o with
          | none => exact hm.noNil l hml
          | some rec => rw [(get_some hm.keys).mpr hml] at h2; cases h2
    cases h' with
    | cons hst hl hnil =>
      cases hnil
      rw [List.append_nil, hl]
      obtain ⟨-, o, clock, ks1, e2, -⟩ := step_reply C A P J sha256 hst
      rcases hr with rfl | rfl
      · refine ⟨?_, ?_⟩
        · show commandLog s.ks _ = _
          unfold commandLog
          rw [show (Sender.client n (.pubkey l)).command = { op := .pubkey, label := l } from rfl]
          simp only [processLog, hh, lookupHead]
          rw [if_neg hl0, if_neg hg]
          rfl
        · simp only [process, Request.command, lookup, hh, Option.some.injEq, Res.ok.injEq, Prod.mk.injEq] at e2
          rw [← e2.2]
          by_cases hls : l = self
          · simp [hls, Request.reply, show self ≠ [] by decide]
          · cases hgl : s.ks.get l with
            | none => exact absurd ⟨hls, hgl⟩ hg
            | some rec => simp [hls, Request.reply]
      · have e : Request.command (.fingerprint l) = { op := .fingerprint, label := l } := by
          simp only [Request.command]
          rw [if_neg hl0]
        refine ⟨?_, ?_⟩
        · simp only [eventLog, commandLog, processLog, Sender.command, e, hh, lookupHead]
          rw [if_neg hl0, if_neg hg]
          rfl
        · simp only [process, e, fingerprint, hh, Option.some.injEq, Res.ok.injEq, Prod.mk.injEq] at e2
          rw [← e2.2]
          by_cases hls : l = self
          · simp [hls, Request.reply, show self ≠ [] by decide]
          · cases hgl : s.ks.get l with
            | none => exact absurd ⟨hls, hgl⟩ hg
            | some rec => simp [hls, Request.reply, hl0]
  · rintro ⟨hls, hno⟩
    have hno' : ∀ m, s.ks.keys = some m → m l = none := by
      intro m' hm'
      rw [hm.keys] at hm'
      cases hm'
      exact hno
    have hh := has_none (ks := s.ks) hls hno'
    have hg : s.ks.get l = none := by
      unfold KeyFields.get
      rw [hm.keys]
      simp [hno]
    cases h' with
    | cons hst hl hnil =>
      cases hnil
      rw [List.append_nil, hl]
      obtain ⟨-, o, clock, ks1, e2, -⟩ := step_reply C A P J sha256 hst
      rcases hr with rfl | rfl
      · refine ⟨?_, ?_⟩
        · show commandLog s.ks _ = _
          unfold commandLog
          rw [show (Sender.client n (.pubkey l)).command = { op := .pubkey, label := l } from rfl]
          simp only [processLog, hh, lookupHead]
          rw [if_neg hl0, if_pos (show (!false) = true from rfl), if_pos (show l ≠ self ∧ s.ks.get l = none from ⟨hls, hg⟩)]
          rfl
        · simp only [process, Request.command, lookup_unknown A P hls hg, Option.some.injEq, Res.ok.injEq, Prod.mk.injEq] at e2
          rw [← e2.2, if_pos rfl]
          rfl
      · have e : Request.command (.fingerprint l) = { op := .fingerprint, label := l } := by
          simp only [Request.command]
          rw [if_neg hl0]
        refine ⟨?_, ?_⟩
        · simp only [eventLog, commandLog, processLog, Sender.command, e, hh, lookupHead]
          rw [if_neg hl0, if_pos (show (!false) = true from rfl), if_pos (show l ≠ self ∧ s.ks.get l = none from ⟨hls, hg⟩)]
          rfl
        · simp only [process, e, fingerprint_unknown sha256 hls hg, Option.some.injEq, Res.ok.injEq, Prod.mk.injEq] at e2
          rw [← e2.2, if_neg (by simp)]
          rfl

/-- C198 is false: a server adds a key, or refuses one, and the log is the same. -/
theorem C198_upload_violated (d seed dA seedA pk : Bytes) (hd : d.length = 32) (hs : seed.length = 32) (hA : seedA.length = 32)
    (path : Path) (why : Bytes) (writes : Nat → WriteOutcome) :
    ∃ fs ks body es es' s s' log m, Starts C A P J fs path ks fs ∧
      Logged C A P J sha256 path why (initial ks fs writes) es s log ∧ arrived es = [(0, .upload (ascii "b") body)] ∧
      s.replies = [(0, .upload (ascii "b") body, ⟨200, ascii "public key added successfully"⟩)] ∧
      s.ks.keys = some m ∧ m (ascii "b") ≠ none ∧
      Logged C A P J sha256 path why (initial ks fs writes) es' s' log ∧ arrived es' = [(0, .upload self body)] ∧
      s'.replies = [(0, .upload self body, ⟨400, ascii "invalid label"⟩)] ∧ s'.ks = ks := by
  obtain ⟨fs, ks, h1, h2, h3, h4⟩ := exServer C A P J d seed dA seedA pk [112] hd hs path
  have hen : (peerKeys C d seed [97] (ownerOf C dA seedA)).Enumerates [[97]] := enum_set enum_empty rfl _
  have ho := steady_enumerate h3.keys hen 0
  have hno : peerKeys C d seed [97] (ownerOf C dA seedA) [98] = none := by unfold peerKeys; exact Map.set_other _ _ (by decide)
  have hp := process_upload C (sha256 := sha256) h3 (by unfold peerKeys; exact Map.set_other _ _ (by decide)) h4 (label := [98])
    (by decide) (by decide) hno (statement_signed C dA seedA pk 5 hA) (.inr ⟨[97], _, by unfold peerKeys; exact Map.set_same _ _ _, rfl⟩) ho 9
  have hb : ascii "b" = [98] := by decide
  rw [hb]
  let t : Stamp := ⟨2026, 11, 17, 12, 0, 0⟩
  refine ⟨fs, ks, (statement C dA seedA pk 5).serialise A P, _, _, _, _, [(t, ascii "received command for upload"), (t, ascii "upload request")], _, h1,
    serve_logged C A P J sha256 (.upload [98] _) ho hp _ rfl, rfl, rfl, rfl, ?_,
    serve_logged C A P J sha256 (.upload self _) ho (clock := 9) (ks' := ks) (resp := { err := some (ascii "invalid label") }) ?_ _ rfl, rfl, rfl, rfl⟩
  · simp
  · rfl

/-! ### Examples -/

/-- The runs of the theorems: a server with a key called "a" is asked for the fingerprint of "b". -/
example (d seed dA seedA pk : Bytes) (hd : d.length = 32) (hs : seed.length = 32) (path : Path) (writes : Nat → WriteOutcome) :
    ∃ fs ks es s log n resp, Starts C A P J fs path ks fs ∧ Ordered J fs path ∧ OverHttp es ∧
      (∀ n r, Event.arrive n r ∈ es → (10 : UInt8) ∉ r.command.label) ∧
      Logged C A P J sha256 path (ascii "no space left") (initial ks fs writes) es s log ∧ log.length = 4 ∧
      es.getLast? = some (.handle (.client n (.fingerprint (ascii "b"))) resp) ∧
      ∀ m, ks.keys = some m → m (ascii "b") = none := by
  obtain ⟨fs, ks, h1, h2, h3, h4⟩ := exServer C A P J d seed dA seedA pk [112] hd hs path
  have hen : (peerKeys C d seed [97] (ownerOf C dA seedA)).Enumerates [[97]] := enum_set enum_empty rfl _
  have ho := steady_enumerate h3.keys hen 0
  have hno : ∀ m, ks.keys = some m → m (ascii "b") = none := by
    intro m hm
    rw [h3.keys] at hm
    cases hm
    unfold peerKeys; exact Map.set_other _ _ (by decide)
  have hh := has_none (ks := ks) (l := ascii "b") (by decide) hno
  have hg : ks.get (ascii "b") = none := by
    unfold KeyFields.get
    split
    · rfl
    · rename_i m hm
      rw [hno m hm]; rfl
  let t : Stamp := ⟨2026, 11, 17, 12, 0, 0⟩
  refine ⟨fs, ks, _, _, (commandLog ks (.client 0 (.fingerprint (ascii "b")))).map (fun m => (t, m)), _, _, h1, h2, ?_, ?_,
    serve_logged C A P J sha256 (.fingerprint (ascii "b")) ho (clock := 0) rfl _ (by simp [Function.comp_def]), ?_, rfl, hno⟩
  · intro n r hm
    simp only [List.mem_cons, Event.arrive.injEq, reduceCtorEq, List.not_mem_nil, or_false] at hm
    obtain ⟨-, rfl⟩ := hm
    exact ⟨⟨ascii "GET", ascii "/fingerprint/b", .ok []⟩, serve_fingerprint (by constructor <;> decide)
      ((requestPath_iff (ascii "/fingerprint/b") (ascii "/fingerprint/" ++ ascii "b")).mp (by decide))⟩
  · intro n r hm
    simp only [List.mem_cons, Event.arrive.injEq, reduceCtorEq, List.not_mem_nil, or_false] at hm
    obtain ⟨-, rfl⟩ := hm
    decide
  · rw [List.length_map]
    have e : Request.command (.fingerprint (ascii "b")) = { op := .fingerprint, label := ascii "b" } := by
      simp only [Request.command]
      rw [if_neg (by decide)]
    simp only [commandLog, processLog, Sender.command, e, hh, hg]
    rw [if_neg (by decide), if_pos (by decide), if_pos ⟨by decide, trivial⟩]
    rfl

/-- The server of `C197_violated`. -/
example (d seed dA seedA pk : Bytes) (hd : d.length = 32) (hs : seed.length = 32) (path : Path) :
    ∃ fs ks o, Starts C A P J fs path ks fs ∧ Orders.Enumerate o ks ∧ ∀ m, ks.keys = some m → m twoLines = none := by
  obtain ⟨fs, ks, h1, h2, h3, h4⟩ := exServer C A P J d seed dA seedA pk [112] hd hs path
  have hen : (peerKeys C d seed [97] (ownerOf C dA seedA)).Enumerates [[97]] := enum_set enum_empty rfl _
  refine ⟨fs, ks, _, h1, steady_enumerate h3.keys hen 0, fun m hm => ?_⟩
  rw [h3.keys] at hm
  cases hm
  unfold peerKeys; exact Map.set_other _ _ (by decide)

example : (⟨2026, 1, 2, 3, 4, 5⟩ : Stamp).text = ascii "2026/01/02 03:04:05 " := by decide

end Verif.Props.KeysrvLog
