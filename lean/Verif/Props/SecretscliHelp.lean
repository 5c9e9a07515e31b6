import Verif.Props.SecretscliMore
/-! Property C154: the help of secretscli (cmd/secretscli/help.go). -/

namespace Verif.Props.SecretscliHelp
open Verif Verif.Go Verif.Model.SecretStore Verif.Model.Secretscli
open Verif.Proofs.Secretscli Verif.Props.Secretscli

variable (C : Crypto) (J : Json)

/-- The word is a command: some line that begins with it does more than fail. -/
def Command (e : Env) (w : Bytes) : Prop :=
  ∃ line args st, fields line = w :: args ∧ processCommands C J e line st ≠ (.err, st)

theorem helped : ∀ c ∈ dispatchKeys, (helpFor c).isSome = true := by
  unfold dispatchKeys
  decide

theorem documented {w : Bytes} (h : helpFor w ≠ none) : w ∈ dispatchKeys := by
  refine Decidable.byContradiction fun hw => h ?_
  unfold dispatchKeys at hw
  simp only [List.mem_cons, List.not_mem_nil, or_false, not_or] at hw
  obtain ⟨h1, h2, h3, h4, h5, h6, h7, h8, h9, h10, h11⟩ := hw
  unfold helpFor helpTable
  simp only [List.lookup_cons, beq_eq_false_iff_ne.mpr h1, beq_eq_false_iff_ne.mpr h2, beq_eq_false_iff_ne.mpr h3, beq_eq_false_iff_ne.mpr h4,
    beq_eq_false_iff_ne.mpr h5, beq_eq_false_iff_ne.mpr h6, beq_eq_false_iff_ne.mpr h7, beq_eq_false_iff_ne.mpr h8, beq_eq_false_iff_ne.mpr h9,
    beq_eq_false_iff_ne.mpr h10, beq_eq_false_iff_ne.mpr h11, List.lookup_nil]

theorem command_iff (e : Env) (w : Bytes) : Command C J e w ↔ w ∈ dispatchKeys := by
  constructor
  · rintro ⟨line, args, st, hf, hp⟩
    refine Decidable.byContradiction fun hw => hp ?_
    unfold dispatchKeys at hw
    simp only [List.mem_cons, List.not_mem_nil, or_false, not_or] at hw
    obtain ⟨h1, h2, h3, h4, h5, h6, h7, h8, h9, h10, h11⟩ := hw
    unfold processCommands
    rw [hf]
    dsimp only
    rw [if_neg h1, if_neg h2, if_neg h3, if_neg h4, if_neg h5, if_neg h6, if_neg h7, if_neg h8, if_neg h9, if_neg h10, if_neg h11]
  · intro h
    have go : ∀ line args as, fields line = w :: args → (processCommands C J e line (exSt [] 0 as)).1 ≠ .err → Command C J e w :=
      fun line args as h1 h2 => ⟨line, args, _, h1, fun h => h2 (by rw [h])⟩
    simp only [dispatchKeys, List.mem_cons, List.not_mem_nil, or_false] at h
    have run : ∀ (line c : Bytes) args as, fields line = c :: args → (processCommands C J e line (exSt [] 0 as)) =
        (if c = ascii "clear" then clearTerm (exSt [] 0 as)
        else if c = ascii "help" then help args (exSt [] 0 as)
        else if c = ascii "list" then listSecrets e args (exSt [] 0 as)
        else if c = ascii "quit" then quitProgram C J (exSt [] 0 as)
        else if c = ascii "passwd" then passwd (exSt [] 0 as)
        else if c = ascii "rmeta" then readMeta e args (exSt [] 0 as)
        else if c = ascii "show" then showSecret id args (exSt [] 0 as)
        else if c = ascii "showhex" then showSecret hexEncode args (exSt [] 0 as)
        else if c = ascii "store" then storeSecret C J args (exSt [] 0 as)
        else if c = ascii "wmeta" then writeMeta args (exSt [] 0 as)
        else if c = ascii "write" then cmdWriteStore C J args (exSt [] 0 as)
        else (.err, exSt [] 0 as)) := by
      intro line c args as hf
      unfold processCommands
      rw [hf]
    rcases h with rfl | rfl | rfl | rfl | rfl | rfl | rfl | rfl | rfl | rfl | rfl
    · exact go (ascii "clear") [] [] (by decide) (by rw [run _ (ascii "clear") [] _ (by decide)]; simp [clearTerm])
    · exact go (ascii "help") [] [] (by decide) (by rw [run _ (ascii "help") [] _ (by decide), if_neg (by decide), if_pos rfl]; simp [help, helpText])
    · exact go (ascii "list") [] [] (by decide) (by
        rw [run _ (ascii "list") [] _ (by decide), if_neg (by decide), if_neg (by decide), if_pos rfl]; simp [listSecrets])
    · exact go (ascii "quit") [] [] (by decide) (by
        rw [run _ (ascii "quit") [] _ (by decide), if_neg (by decide), if_neg (by decide), if_neg (by decide), if_pos rfl]; simp [quitProgram])
    · exact go (ascii "passwd") [] [some [1], some [1]] (by decide) (by
        rw [run _ (ascii "passwd") [] _ (by decide), if_neg (by decide), if_neg (by decide), if_neg (by decide), if_neg (by decide), if_pos rfl]
        exact (by decide : Ret.ok ≠ Ret.err))
    · exact go (ascii "rmeta a") [[97]] [] (by decide) (by
        rw [run _ (ascii "rmeta") [[97]] _ (by decide), if_neg (by decide), if_neg (by decide), if_neg (by decide), if_neg (by decide), if_neg (by decide), if_pos rfl]
        exact (by decide : Ret.ok ≠ Ret.err))
    · exact go (ascii "show a") [[97]] [] (by decide) (by
        rw [run _ (ascii "show") [[97]] _ (by decide), if_neg (by decide), if_neg (by decide), if_neg (by decide), if_neg (by decide), if_neg (by decide),
          if_neg (by decide), if_pos rfl]
        exact (by decide : Ret.ok ≠ Ret.err))
    · exact go (ascii "showhex a") [[97]] [] (by decide) (by
        rw [run _ (ascii "showhex") [[97]] _ (by decide), if_neg (by decide), if_neg (by decide), if_neg (by decide), if_neg (by decide), if_neg (by decide),
          if_neg (by decide), if_neg (by decide), if_pos rfl]
        exact (by decide : Ret.ok ≠ Ret.err))
    · exact go (ascii "store b") [[98]] [some [120]] (by decide) (by
        rw [run _ (ascii "store") [[98]] _ (by decide), if_neg (by decide), if_neg (by decide), if_neg (by decide), if_neg (by decide), if_neg (by decide),
          if_neg (by decide), if_neg (by decide), if_neg (by decide), if_pos rfl]
        exact (by decide : Ret.ok ≠ Ret.err))
    · exact go (ascii "wmeta a") [[97]] [some []] (by decide) (by
        rw [run _ (ascii "wmeta") [[97]] _ (by decide), if_neg (by decide), if_neg (by decide), if_neg (by decide), if_neg (by decide), if_neg (by decide),
          if_neg (by decide), if_neg (by decide), if_neg (by decide), if_neg (by decide), if_pos rfl]
        exact (by decide : Ret.ok ≠ Ret.err))
    · exact go (ascii "write") [] [] (by decide) (by
        rw [run _ (ascii "write") [] _ (by decide), if_neg (by decide), if_neg (by decide), if_neg (by decide), if_neg (by decide), if_neg (by decide),
          if_neg (by decide), if_neg (by decide), if_neg (by decide), if_neg (by decide), if_neg (by decide), if_pos rfl]
        exact (by decide : Ret.ok ≠ Ret.err))

theorem process_help {e : Env} {line : Bytes} {args : List Bytes} (hf : fields line = ascii "help" :: args) (st : St) :
    processCommands C J e line st = help args st := by
  unfold processCommands
  rw [hf]
  dsimp only
  rw [if_neg (by decide), if_pos rfl]

/-- `help` prints one line for each command and no other word, in order. -/
theorem C154_listed (e : Env) : ∃ table : List (Bytes × Bytes), (table.map Prod.fst).Pairwise (· < ·) ∧
    (∀ w, Command C J e w ↔ ∃ d, d ≠ [] ∧ (w, d) ∈ table) ∧ ∃ before after,
    ∀ line st, fields line = [ascii "help"] → processCommands C J e line st =
      (.ok, st.print (before ++ [10] ++ table.flatMap (fun x => 9 :: x.1 ++ ascii ": " ++ x.2 ++ [10]) ++ after)) := by
  have hmem : ∀ w, w ∈ commandList ↔ w ∈ dispatchKeys := by
    intro w
    unfold commandList
    rw [(List.mergeSort_perm _ _).mem_iff, List.mem_filter]
    exact ⟨fun h => h.1, fun h => ⟨h, helped w h⟩⟩
  have hd : ∀ c ∈ dispatchKeys, ((helpFor c).elim [] (·.old)) ≠ [] := by
    unfold dispatchKeys
    decide
  refine ⟨commandList.map (fun c => (c, (helpFor c).elim [] (·.old))), ?_, ?_, ascii "Commands:",
    ascii "Use help command (e.g. help list) to read more detailed help messages." ++ [10], ?_⟩
  · rw [List.map_map, show (Prod.fst ∘ fun c => (c, (helpFor c).elim [] (·.old))) = (id : Bytes → Bytes) from rfl, List.map_id]
    unfold commandList
    exact Verif.Props.SecretscliMore.sorted_keys _ ((by unfold dispatchKeys; decide : dispatchKeys.Nodup).filter _)
  · intro w
    rw [command_iff]
    simp only [List.mem_map, Prod.mk.injEq]
    constructor
    · intro h
      exact ⟨_, hd w h, w, (hmem w).mpr h, rfl, rfl⟩
    · rintro ⟨d, -, c, hc, rfl, -⟩
      exact (hmem c).mp hc
  · intro line st hf
    rw [process_help C J hf]
    show (Ret.ok, st.print commandsText) = _
    unfold commandsText
    rw [List.flatMap_map]
    simp only [List.append_assoc]

/-- `help` with the name of a command explains it, and fails with any other word. -/
theorem C154_explained (e : Env) (line w : Bytes) (args : List Bytes) (hf : fields line = ascii "help" :: w :: args) (st : St) :
    (Command C J e w → ∃ text, text ≠ [] ∧ processCommands C J e line st = (.ok, st.print (w ++ ascii ": " ++ text))) ∧
    (¬ Command C J e w → processCommands C J e line st = (.err, st)) := by
  rw [command_iff, process_help C J hf]
  unfold help helpText
  dsimp only
  constructor
  · intro h
    have h1 := helped w h
    cases hh : helpFor w with
    | none => rw [hh] at h1; cases h1
    | some x =>
      refine ⟨x.old ++ 10 :: 9 :: ascii "Arguments: " ++ x.args ++ 10 :: x.desc ++ [10, 10], by simp, ?_⟩
      simp only [List.append_assoc]
  · intro h
    cases hh : helpFor w with
    | none => rfl
    | some x => exact absurd (documented (by rw [hh]; simp)) h

/-- quit is a command, and bye is not. -/
example (e : Env) (st : St) : (∃ text, text ≠ [] ∧ processCommands C J e (ascii "help quit") st = (.ok, st.print (ascii "quit: " ++ text))) ∧
    processCommands C J e (ascii "help bye") st = (.err, st) := by
  obtain ⟨h1, -⟩ := C154_explained C J e (ascii "help quit") (ascii "quit") [] (by decide) st
  obtain ⟨-, h2⟩ := C154_explained C J e (ascii "help bye") (ascii "bye") [] (by decide) st
  obtain ⟨t, ht, h1⟩ := h1 ((command_iff C J e _).mpr (by unfold dispatchKeys; decide))
  exact ⟨⟨t, ht, h1⟩, h2 (fun h => absurd ((command_iff C J e _).mp h) (by unfold dispatchKeys; decide))⟩

/-- A line that asks for the list. -/
example : fields (ascii "  help ") = [ascii "help"] := by decide

end Verif.Props.SecretscliHelp
