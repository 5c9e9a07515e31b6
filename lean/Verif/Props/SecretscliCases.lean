import Verif.Props.SecretscliRun
/-! Sessions of secretscli that meet the hypotheses of C69 and C70, however their steps interleave. -/

namespace Verif.Props.SecretscliCases
open Verif Verif.Go Verif.Model.Util Verif.Model.SecretStore Verif.Model.Secretscli
open Verif.Model.Secrets (World assign metaLoop dash)
open Verif.Spec.SecretStore Verif.Spec.Secrets Verif.Spec.Journal Verif.Spec.Secretscli
open Verif.Proofs.SecretStore Verif.Proofs.Strings Verif.Proofs.Secretscli
open Verif.Props.SecretStore Verif.Props.Secretscli Verif.Props.SecretscliRun
open Verif.Props.Secrets (exWorld exFile)

variable (C : Crypto) (J : Json)

/-- The store of the examples, at noon; what is typed after the passphrase. -/
def noon (b : Bytes) (as : List (Option Bytes)) : World := { exWorld b [] with term := ⟨some [112, 119] :: as, fun _ => 12⟩ }

theorem commands_read {e : Env} {st : St} {evs : List Event} {s : Sys} (h : Run C J e (Sys.init st) evs s) {l : Bytes} (hl : l ∈ commands evs) :
    some l ∈ st.w.term.answers := by
  obtain ⟨h1, h2, -, h3, -⟩ := C71_order C J h
  have h4 : l ∈ processed evs := by
    unfold commands at hl
    obtain ⟨ev, e1, e2⟩ := List.mem_flatMap.mp hl
    unfold processed
    refine List.mem_filterMap.mpr ⟨ev, e1, ?_⟩
    cases ev with
    | command line r => cases r <;> simp [ran] at e2 ⊢ <;> exact e2.symm
    | _ => cases e2
  have h5 := h1.subset (h2.subset (h3.subset h4))
  obtain ⟨o, e1, e2⟩ := List.mem_filterMap.mp h5
  cases o with
  | none => cases e2
  | some x => cases e2; exact e1

theorem noon_start {b : Bytes} (hb : unmarshalSecretStore C J b [112, 119] 0 = .ok (some (exStore [1, 2, 3] 7))) (as : List (Option Bytes)) :
    Opens C J (noon b as).fs [102] [112, 119] 0 (exStore [1, 2, 3] 7) ∧
    ∃ st, start C J (noon b as) (fun _ => .done) [102] 0 = .ok (some st) ∧ st.w.term.answers = as ∧ st.w.fs = (noon b as).fs := by
  have ho : Opens C J (noon b as).fs [102] [112, 119] 0 (exStore [1, 2, 3] 7) := ⟨b, by simp [noon, exWorld, Fs.set], hb⟩
  exact ⟨ho, _, start_ok C J rfl ho, rfl, rfl⟩

/-- The passphrase is changed, twice typed, and the secrets are listed: whatever the timing of such a
session, and whether it is ended by quit or by the timer, the file is as it was. -/
example (e : Env) : ∃ b st, start C J (noon b [some (ascii "passwd"), some (ascii "new"), some (ascii "new"), some (ascii "list"), some (ascii "quit")]) (fun _ => .done) [102] 0 = .ok (some st) ∧
    (∃ evs s, Run C J e (Sys.init st) evs s ∧ s.main = .exited) ∧ ∀ evs s, Run C J e (Sys.init st) evs s → s.main = .exited → s.st.w.fs = st.w.fs := by
  obtain ⟨b, hb⟩ := exFile C J 0 (Or.inl rfl)
  obtain ⟨ho, st, h1, h2, h3⟩ := noon_start C J hb [some (ascii "passwd"), some (ascii "new"), some (ascii "new"), some (ascii "list"), some (ascii "quit")]
  refine ⟨b, st, h1, ?_, fun evs s hr hx => ?_⟩
  · obtain ⟨evs, s, h4, -, h5⟩ := C71_completes C J (e := e) (st := st) (Run.nil _)
    exact ⟨evs, s, h4, h5⟩
  · rw [h3]
    refine C70_unsaved_violated C J (by decide) (Or.inl rfl) rfl ho exGood ?_ (fun _ => by show (12 : BitVec 64) ≠ 0; decide) (fun _ => rfl)
      (by show 56 ≤ (List.replicate 200 _).length; rw [List.length_replicate]; decide) h1 hr hx ?_
    · intro l hl
      simp only [List.mem_cons, Option.some.injEq, List.not_mem_nil, or_false] at hl
      rcases hl with rfl | rfl | rfl | rfl | rfl <;> decide
    · intro l hl c hc
      have := commands_read C J hr hl
      rw [h2] at this
      have key : ∀ x ∈ [ascii "passwd", ascii "new", ascii "new", ascii "list", ascii "quit"], (fields x).head? ≠ some (ascii "store") ∧ (fields x).head? ≠ some (ascii "wmeta") := by decide
      have hx : l ∈ [ascii "passwd", ascii "new", ascii "new", ascii "list", ascii "quit"] := by simpa using this
      obtain ⟨k1, k2⟩ := key l hx
      exact ⟨fun h => k1 (by rw [hc, h]), fun h => k2 (by rw [hc, h])⟩

/-- A secret is stored and its metadata shown: such a session, whatever its timing, leaves the file
alone or leaves one that opens with the passphrase and holds what the user expects. -/
example (e : Env) : ∃ b st, start C J (noon b [some (ascii "store b"), some [120], some (ascii "meta b"), some (ascii "quit")]) (fun _ => .done) [102] 0 = .ok (some st) ∧
    (∃ evs s, Run C J e (Sys.init st) evs s ∧ s.main = .exited) ∧ ∀ evs s, Run C J e (Sys.init st) evs s → s.main = .exited →
      s.st.w.fs = st.w.fs ∨ ∃ v rest s', Session (commands evs) ⟨entries (exStore [1, 2, 3] 7), [112, 119], .clean⟩ [some (ascii "store b"), some [120], some (ascii "meta b"), some (ascii "quit")] v rest ∧
        Opens C J s.st.w.fs [102] v.pass 0 s' ∧ entries s' = v.entry := by
  obtain ⟨b, hb⟩ := exFile C J 0 (Or.inl rfl)
  obtain ⟨ho, st, h1, h2, h3⟩ := noon_start C J hb [some (ascii "store b"), some [120], some (ascii "meta b"), some (ascii "quit")]
  refine ⟨b, st, h1, ?_, fun evs s hr hx => ?_⟩
  · obtain ⟨evs, s, h4, -, h5⟩ := C71_completes C J (e := e) (st := st) (Run.nil _)
    exact ⟨evs, s, h4, h5⟩
  · rw [h3]
    obtain ⟨v, rest, g1, -, g2⟩ := C69_no_write_partial C J (by decide) (Or.inl rfl) rfl ho exGood (by
        intro l hl
        simp only [List.mem_cons, Option.some.injEq, List.not_mem_nil, or_false] at hl
        rcases hl with rfl | rfl | rfl | rfl <;> decide) (fun _ => by show (12 : BitVec 64) ≠ 0; decide) (fun _ => rfl)
      (by show 56 ≤ (List.replicate 200 _).length; rw [List.length_replicate]; decide) h1 hr hx (by
        intro l hl
        have := commands_read C J hr hl
        rw [h2] at this
        have key : ∀ x ∈ [ascii "store b", [120], ascii "meta b", ascii "quit"], fields x ≠ [ascii "write"] ∧ (fields x).length ≤ 2 := by decide
        have hx : l ∈ [ascii "store b", [120], ascii "meta b", ascii "quit"] := by simpa using this
        obtain ⟨k1, k2⟩ := key l hx
        refine ⟨k1, fun a b c h => ?_⟩
        rw [h] at k2
        simp at k2)
    rcases g2 with ⟨-, g2⟩ | ⟨-, s', g2, g3⟩
    · exact .inl g2
    · exact .inr ⟨v, rest, s', g1, g2, g3⟩

end Verif.Props.SecretscliCases
