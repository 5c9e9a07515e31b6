import Verif.Model.CommandLine
import Verif.Proofs.CommandLine
import Verif.Props.PasscryptTree
import Verif.Props.SecretscliTime
/-! Properties C163-C168: what the programs make of their command lines. -/

namespace Verif.Props.CommandLine
open Verif Verif.Go Verif.Go.Flag Verif.Model.SecretStore Verif.Model.CommandLine
open Verif.Spec.Flag Verif.Spec.CommandLine Verif.Proofs.Flag Verif.Proofs.CommandLine

/-- The options of secrets that switch something on. -/
def secretsOns : List Bytes :=
  ["init", "merge", "export", "import", "multi", "c", "l", "m", "r", "s", "x", "w", "i"].map ascii
/-- Those of journal. -/
def journalOns : List Bytes := ["init", "e", "l", "w", "i"].map ascii
/-- Those of otpc. -/
def otpcOns : List Bytes := ["init", "s", "qr", "i"].map ascii
/-- Those of passcrypt. -/
def passcryptOns : List Bytes := ["a", "l", "u", "v"].map ascii
/-- Those of fcrypt. -/
def fcryptOns : List Bytes := ["check", "export", "import", "a", "d", "e", "k", "r", "s", "u", "v"].map ascii
/-- -V -/
def version : Bytes := ascii "V"

theorem table_perm {ons ons' sets : List Bytes} (h : ons.Perm ons') : table ons sets = declared ons' sets [] := by
  funext n
  simp [table, declared, h.mem_iff]

theorem secretsDecl_eq : secretsDecl = declared (version :: secretsOns) [ascii "f"] [] :=
  table_perm (by decide)

theorem journalDecl_eq : journalDecl = declared (version :: journalOns) [ascii "editor", ascii "f"] [] :=
  table_perm (by decide)

theorem otpcDecl_eq : otpcDecl = declared (version :: otpcOns) [ascii "f", ascii "t"] [] :=
  table_perm (by decide)

theorem passcryptDecl_eq : passcryptDecl = declared (version :: passcryptOns) [ascii "o", ascii "f"] [] :=
  table_perm (by decide)

theorem fcryptDecl_eq : fcryptDecl = declared fcryptOns [ascii "f", ascii "l"] [] := table_perm (List.Perm.refl _)

theorem secretscliDecl_eq : secretscliDecl = declared [ascii "i"] [ascii "f"] [ascii "t"] := by
  funext n
  unfold secretscliDecl table declared
  by_cases h : n = ascii "t"
  · subst h; decide
  · simp [h]

theorem parse_none {dur : Bytes → Option Int} {decl : Bytes → Option Kind} {argv : List Bytes} (h : ∀ s as, ¬ Reads dur decl argv s as) :
    parse dur decl argv = none := by
  cases hp : parse dur decl argv with
  | none => rfl
  | some p => exact absurd (parse_iff.mp hp) (h _ _)

section
variable (C : Crypto) (J : Json) (P : Pem) (ord : Map (Option SecretRecord) → List Bytes) (fuel : Nat) (home : Bytes)
variable {items items' : List Item} {tail args : List Bytes}

/-! ### C163: options in any order -/

/-- The options of secrets, in any order and number, and then the arguments. -/
theorem C163_secrets (hi : Among secretsOns [ascii "f"] items) (hr : Rest tail args) (w : Model.Secrets.World) :
    secrets C J P ord fuel home (options items ++ tail) w =
      Model.Secrets.main C J P ord fuel
        { init := decide (.on (ascii "init") ∈ items), passwd := decide (.on (ascii "c") ∈ items), store := decide (.on (ascii "s") ∈ items),
          remove := decide (.on (ascii "r") ∈ items), list := decide (.on (ascii "l") ∈ items), multi := decide (.on (ascii "multi") ∈ items),
          merge := decide (.on (ascii "merge") ∈ items), «export» := decide (.on (ascii "export") ∈ items),
          «import» := decide (.on (ascii "import") ∈ items), withMeta := decide (.on (ascii "m") ∈ items),
          clip := decide (.on (ascii "x") ∈ items), overwrite := decide (.on (ascii "w") ∈ items),
          interactive := decide (.on (ascii "i") ∈ items) }
        args (value (ascii "f") (joinPath home (ascii ".secrets.db")) items) w := by
  unfold secrets secretsLine
  rw [parse_items (ons := secretsOns) (sets := [ascii "f"]) (by decide) (by decide) hi hr]
  have hV : Item.on (ascii "V") ∉ items := fun h => absurd (hi _ h) (by decide)
  dsimp only
  simp (disch := decide) only [boolOf_items hi, strOf_items hi, hV, decide_false, Bool.false_eq_true, if_false]

/-- secrets -w -f f -s -- -a -/
example (w : Model.Secrets.World) : secrets C J P ord fuel home [ascii "-w", ascii "-f", ascii "f", ascii "-s", ascii "--", ascii "-a"] w =
    Model.Secrets.main C J P ord fuel { store := true, overwrite := true } [ascii "-a"] (ascii "f") w :=
  C163_secrets C J P ord fuel home (items := [.on (ascii "w"), .set (ascii "f") (ascii "f"), .on (ascii "s")]) (by simp [Among, secretsOns]) (Or.inl rfl) w

/-- The options of secretscli; what is left of the command line is not used. -/
theorem C163_secretscli (dur : Bytes → Option Int) (hi : Among [ascii "i"] [ascii "f", ascii "t"] items)
    (hv : ∀ v, .set (ascii "t") v ∈ items → dur v ≠ none) (hr : Rest tail args) (w : Model.Secrets.World) (writes : Nat → WriteOutcome) :
    secretscli C J dur home (options items ++ tail) w writes =
      Model.Secretscli.startFor C J (((given (ascii "t") items).bind dur).getD (300 * 1000000000)) w writes
        (value (ascii "f") (joinPath home (ascii ".secrets.db")) items) (if .on (ascii "i") ∈ items then 1 else 0) := by
  unfold secretscli secretscliLine
  rw [parse_itemsD (ons := [ascii "i"]) (sets := [ascii "f"]) (durs := [ascii "t"]) (by decide) (by decide) (by decide) hi
    (by intro n hn v; rw [List.mem_singleton] at hn; subst hn; exact hv v) hr]
  dsimp only
  rw [boolOf_itemsD hi (by decide), strOf_itemsD hi (by decide) (by decide), durOf_itemsD hi (by decide) (by decide) hv]
  simp only [decide_eq_true_eq]
  rfl

/-- Without -t the limit of a session is five minutes. -/
theorem C161_default (dur : Bytes → Option Int) (hi : Among [ascii "i"] [ascii "f"] items) (hr : Rest tail args) (w : Model.Secrets.World)
    (writes : Nat → WriteOutcome) :
    secretscli C J dur home (options items ++ tail) w writes =
      Model.Secretscli.startFor C J (5 * 60 * 1000000000) w writes
        (value (ascii "f") (joinPath home (ascii ".secrets.db")) items) (if .on (ascii "i") ∈ items then 1 else 0) := by
  have hno : ∀ v, Item.set (ascii "t") v ∉ items := fun v hm => absurd (hi _ hm) (by show ascii "t" ∉ [ascii "f"]; decide)
  have hg : given (ascii "t") items = none := by
    unfold given
    rw [List.getLast?_eq_none_iff, List.filterMap_eq_nil_iff]
    intro i him
    cases i with
    | on n => rfl
    | set n v =>
      by_cases hn : n = ascii "t"
      · subst hn; exact absurd him (hno v)
      · simp [hn]
  refine (C163_secretscli C J home dur (fun i him => ?_) (fun v hm => absurd hm (hno v)) hr w writes).trans (by rw [hg]; rfl)
  have := hi i him
  cases i with
  | on n => exact this
  | set n v => exact List.mem_cons.mpr (Or.inl (List.mem_singleton.mp this))

/-- secretscli -f f -/
example (dur : Bytes → Option Int) (w : Model.Secrets.World) (writes : Nat → WriteOutcome) :
    secretscli C J dur home [ascii "-f", ascii "f"] w writes = Model.Secretscli.startFor C J 300000000000 w writes (ascii "f") 0 :=
  C161_default C J home (items := [.set (ascii "f") (ascii "f")]) (tail := []) dur (by simp [Among]) (Or.inr ⟨rfl, by simp⟩) w writes

/-- secretscli -t 1m -f f -t 2m -/
example (dur : Bytes → Option Int) (h1 : dur (ascii "1m") = some 60000000000) (h2 : dur (ascii "2m") = some 120000000000)
    (w : Model.Secrets.World) (writes : Nat → WriteOutcome) :
    secretscli C J dur home [ascii "-t", ascii "1m", ascii "-f", ascii "f", ascii "-t", ascii "2m"] w writes =
      Model.Secretscli.startFor C J 120000000000 w writes (ascii "f") 0 := by
  refine (C163_secretscli C J home (items := [.set (ascii "t") (ascii "1m"), .set (ascii "f") (ascii "f"), .set (ascii "t") (ascii "2m")])
    (tail := []) dur (by simp [Among]) (fun v hv => ?_) (Or.inr ⟨rfl, by simp⟩) w writes).trans ?_
  · simp only [List.mem_cons, Item.set.injEq, List.not_mem_nil, or_false, true_and] at hv
    rcases hv with rfl | ⟨h, -⟩ | rfl
    · simp [h1]
    · exact absurd h (by decide)
    · simp [h2]
  · rw [show given (ascii "t") [.set (ascii "t") (ascii "1m"), .set (ascii "f") (ascii "f"), .set (ascii "t") (ascii "2m")] = some (ascii "2m") by decide]
    simp only [Option.bind_some, h2, Option.getD_some]
    rfl

/-- The options of journal. -/
theorem C163_journal (e : List Bytes → Model.Journal.Env) (editor : Bytes) (hi : Among journalOns [ascii "editor", ascii "f"] items)
    (hr : Rest tail args) (w : Model.Secrets.World) :
    journal C J ord e home editor (options items ++ tail) w =
      Model.Journal.main C J ord (e (editorCommand (value (ascii "editor") editor items)))
        { init := decide (.on (ascii "init") ∈ items), edit := decide (.on (ascii "e") ∈ items), list := decide (.on (ascii "l") ∈ items),
          write := decide (.on (ascii "w") ∈ items), interactive := decide (.on (ascii "i") ∈ items) }
        args (value (ascii "f") (joinPath home (ascii ".cu_journal")) items) w := by
  unfold journal journalLine
  rw [parse_items (ons := journalOns) (sets := [ascii "editor", ascii "f"]) (by decide) (by decide) hi hr]
  have hV : Item.on (ascii "V") ∉ items := fun h => absurd (hi _ h) (by decide)
  dsimp only
  simp (disch := decide) only [boolOf_items hi, strOf_items hi, hV, decide_false, Bool.false_eq_true, if_false]

/-- journal -w -editor ed x -/
example (e : List Bytes → Model.Journal.Env) (w : Model.Secrets.World) :
    journal C J ord e home (ascii "vi") [ascii "-w", ascii "-editor", ascii "ed", ascii "x"] w =
      Model.Journal.main C J ord (e [ascii "ed"]) { write := true } [ascii "x"] (joinPath home (ascii ".cu_journal")) w :=
  C163_journal C J ord home (items := [.on (ascii "w"), .set (ascii "editor") (ascii "ed")]) (tail := [ascii "x"]) e _ (by simp [Among, journalOns])
    (Or.inr ⟨rfl, by decide⟩) w

/-- The options of otpc. -/
theorem C163_otpc (T : Model.Otpc.TwoFactor) (U : Model.Otpc.Case) (hi : Among otpcOns [ascii "f", ascii "t"] items)
    (hr : Rest tail args) (w : Model.Secrets.World) :
    otpc C J T U home (options items ++ tail) w =
      Model.Otpc.main C J T U
        { init := decide (.on (ascii "init") ∈ items), store := decide (.on (ascii "s") ∈ items), qr := decide (.on (ascii "qr") ∈ items),
          kind := value (ascii "t") [] items, interactive := decide (.on (ascii "i") ∈ items) }
        args (value (ascii "f") (joinPath home (ascii ".otpc.db")) items) w := by
  unfold otpc otpcLine
  rw [parse_items (ons := otpcOns) (sets := [ascii "f", ascii "t"]) (by decide) (by decide) hi hr]
  have hV : Item.on (ascii "V") ∉ items := fun h => absurd (hi _ h) (by decide)
  dsimp only
  simp (disch := decide) only [boolOf_items hi, strOf_items hi, hV, decide_false, Bool.false_eq_true, if_false]

/-- otpc -s -t hotp x -/
example (T : Model.Otpc.TwoFactor) (U : Model.Otpc.Case) (w : Model.Secrets.World) :
    otpc C J T U home [ascii "-s", ascii "-t", ascii "hotp", ascii "x"] w =
      Model.Otpc.main C J T U { store := true, kind := ascii "hotp" } [ascii "x"] (joinPath home (ascii ".otpc.db")) w :=
  C163_otpc C J home (items := [.on (ascii "s"), .set (ascii "t") (ascii "hotp")]) (tail := [ascii "x"]) T U (by simp [Among, otpcOns])
    (Or.inr ⟨rfl, by decide⟩) w

/-- The options of passcrypt. -/
theorem C163_passcrypt (A : Model.Passcrypt.FilesAsn1) (Z : Model.Passcrypt.Gzip) (acc : Model.Passcrypt.Access)
    (hi : Among passcryptOns [ascii "o", ascii "f"] items) (hr : Rest tail args) (w : Model.Passcrypt.World) :
    passcrypt C P A Z acc fuel (options items ++ tail) w =
      Model.Passcrypt.run C P A Z acc fuel
        { armour := decide (.on (ascii "a") ∈ items), outDir := value (ascii "o") (ascii ".") items,
          outFile := value (ascii "f") (ascii "passcrypt.enc") items, list := decide (.on (ascii "l") ∈ items),
          unpack := decide (.on (ascii "u") ∈ items) } args w := by
  unfold passcrypt passcryptLine
  rw [parse_items (ons := passcryptOns) (sets := [ascii "o", ascii "f"]) (by decide) (by decide) hi hr]
  have hV : Item.on (ascii "V") ∉ items := fun h => absurd (hi _ h) (by decide)
  dsimp only
  simp (disch := decide) only [boolOf_items hi, strOf_items hi, hV, decide_false, Bool.false_eq_true, if_false]
  rfl

/-- passcrypt -v -f x -u -/
example (A : Model.Passcrypt.FilesAsn1) (Z : Model.Passcrypt.Gzip) (acc : Model.Passcrypt.Access) (w : Model.Passcrypt.World) :
    passcrypt C P A Z acc fuel [ascii "-v", ascii "-f", ascii "x", ascii "-u"] w =
      Model.Passcrypt.run C P A Z acc fuel { unpack := true, outFile := ascii "x" } [] w :=
  C163_passcrypt C P fuel (items := [.on (ascii "v"), .set (ascii "f") (ascii "x"), .on (ascii "u")]) (tail := []) A Z acc (by simp [Among, passcryptOns])
    (Or.inr ⟨rfl, by decide⟩) w

/-- The options of fcrypt. -/
theorem C163_fcrypt (A : Model.KeyStore.Asn1) (R : Model.Fcrypt.Armour) (K : Model.KeyStore.KeyJson) (e : Model.Fcrypt.Env)
    (hi : Among fcryptOns [ascii "f", ascii "l"] items) (hr : Rest tail args) (w : Model.Fcrypt.World) :
    fcrypt C A R K e home (options items ++ tail) w =
      Model.Fcrypt.main C A R K e
        { check := decide (.on (ascii "check") ∈ items), export_ := decide (.on (ascii "export") ∈ items),
          import_ := decide (.on (ascii "import") ∈ items), armour := decide (.on (ascii "a") ∈ items),
          decrypt := decide (.on (ascii "d") ∈ items), encrypt := decide (.on (ascii "e") ∈ items),
          path := value (ascii "f") (joinPath home (ascii ".cukeystore.db")) items, list := decide (.on (ascii "k") ∈ items),
          label := value (ascii "l") (ascii "self") items, remove := decide (.on (ascii "r") ∈ items), sign := decide (.on (ascii "s") ∈ items),
          untrusted := decide (.on (ascii "u") ∈ items), verify := decide (.on (ascii "v") ∈ items) } args w := by
  unfold fcrypt fcryptLine
  rw [parse_items (ons := fcryptOns) (sets := [ascii "f", ascii "l"]) (by decide) (by decide) hi hr]
  dsimp only
  simp (disch := decide) only [boolOf_items hi, strOf_items hi]

/-- fcrypt -f f -d x y -/
example (A : Model.KeyStore.Asn1) (R : Model.Fcrypt.Armour) (K : Model.KeyStore.KeyJson) (e : Model.Fcrypt.Env) (w : Model.Fcrypt.World) :
    fcrypt C A R K e home [ascii "-f", ascii "f", ascii "-d", ascii "x", ascii "y"] w =
      Model.Fcrypt.main C A R K e { decrypt := true, path := ascii "f" } [ascii "x", ascii "y"] w :=
  C163_fcrypt C home (items := [.set (ascii "f") (ascii "f"), .on (ascii "d")]) (tail := [ascii "x", ascii "y"]) A R K e (by simp [Among, fcryptOns])
    (Or.inr ⟨rfl, by decide⟩) w

/-- keysrv, login and migrate-store. -/
theorem C163_others (A : Model.KeyStore.Asn1) (K : Model.KeyStore.KeyJson) (L : Model.Login.UserJson) (e : Model.Login.Env)
    (hr : Rest tail args) :
    (Among [] [ascii "a", ascii "f", ascii "k", ascii "c"] items → ∀ fs write pass rng t1 t2 t3 o,
      keysrv C A P K (options items ++ tail) fs write pass rng t1 t2 t3 o =
        Model.Keysrv.boot C A P K fs (value (ascii "f") (ascii "keystore.db") items) write pass rng t1 t2 t3 o) ∧
    (Among [] [ascii "f"] items → ∀ w, login C L e fuel (options items ++ tail) w =
      Model.Login.main C L e (value (ascii "f") (ascii "store.json") items) args fuel w) ∧
    ∀ w, migrate C tail w = Model.Migrate.main C w args := by
  refine ⟨fun hi fs write pass rng t1 t2 t3 o => ?_, fun hi w => ?_, fun w => ?_⟩
  · unfold keysrv keysrvLine
    rw [parse_items (ons := []) (sets := [ascii "a", ascii "f", ascii "k", ascii "c"]) (by simp) (by decide) hi hr]
    dsimp only
    rw [strOf_items hi (n := ascii "f") (by simp)]
  · unfold login
    rw [parse_items (ons := []) (sets := [ascii "f"]) (by simp) (by decide) hi hr]
    dsimp only
    rw [strOf_items hi (n := ascii "f") (by simp)]
  · unfold migrate
    rw [parse_of_reads (reads_rest hr)]

/-- keysrv -k x -f y -/
example (A : Model.KeyStore.Asn1) (K : Model.KeyStore.KeyJson) (L : Model.Login.UserJson) (e : Model.Login.Env) fs write pass rng t1 t2 t3 o :
    keysrv C A P K [ascii "-k", ascii "x", ascii "-f", ascii "y"] fs write pass rng t1 t2 t3 o =
      Model.Keysrv.boot C A P K fs (ascii "y") write pass rng t1 t2 t3 o :=
  (C163_others C P 0 (items := [.set (ascii "k") (ascii "x"), .set (ascii "f") (ascii "y")]) (tail := []) A K L e (Or.inr ⟨rfl, by decide⟩)).1
    (by simp [Among]) fs write pass rng t1 t2 t3 o

/-- Two command lines that give the same values to options, in the same order, and have the same arguments, do the
same, however the options are written. -/
theorem C163_spelling (A : Model.KeyStore.Asn1) (R : Model.Fcrypt.Armour) (K : Model.KeyStore.KeyJson) (dur : Bytes → Option Int)
    (F : Model.Passcrypt.FilesAsn1) (Z : Model.Passcrypt.Gzip) (acc : Model.Passcrypt.Access)
    (T : Model.Otpc.TwoFactor) (U : Model.Otpc.Case) (e : List Bytes → Model.Journal.Env) (editor : Bytes) (ef : Model.Fcrypt.Env)
    {argv argv' as : List Bytes} {s : List (Bytes × Val)} :
    (Reads noDur (declared (version :: secretsOns) [ascii "f"] []) argv s as →
      Reads noDur (declared (version :: secretsOns) [ascii "f"] []) argv' s as →
      secrets C J P ord fuel home argv = secrets C J P ord fuel home argv') ∧
    (Reads dur (declared [ascii "i"] [ascii "f"] [ascii "t"]) argv s as → Reads dur (declared [ascii "i"] [ascii "f"] [ascii "t"]) argv' s as →
      secretscli C J dur home argv = secretscli C J dur home argv') ∧
    (Reads noDur (declared (version :: journalOns) [ascii "editor", ascii "f"] []) argv s as →
      Reads noDur (declared (version :: journalOns) [ascii "editor", ascii "f"] []) argv' s as →
      journal C J ord e home editor argv = journal C J ord e home editor argv') ∧
    (Reads noDur (declared (version :: otpcOns) [ascii "f", ascii "t"] []) argv s as →
      Reads noDur (declared (version :: otpcOns) [ascii "f", ascii "t"] []) argv' s as →
      otpc C J T U home argv = otpc C J T U home argv') ∧
    (Reads noDur (declared (version :: passcryptOns) [ascii "o", ascii "f"] []) argv s as →
      Reads noDur (declared (version :: passcryptOns) [ascii "o", ascii "f"] []) argv' s as →
      passcrypt C P F Z acc fuel argv = passcrypt C P F Z acc fuel argv') ∧
    (Reads noDur (declared fcryptOns [ascii "f", ascii "l"] []) argv s as → Reads noDur (declared fcryptOns [ascii "f", ascii "l"] []) argv' s as →
      fcrypt C A R K ef home argv = fcrypt C A R K ef home argv') := by
  rw [← secretsDecl_eq, ← secretscliDecl_eq, ← journalDecl_eq, ← otpcDecl_eq, ← passcryptDecl_eq, ← fcryptDecl_eq]
  simp only [← parse_iff]
  refine ⟨fun h1 h2 => ?_, fun h1 h2 => ?_, fun h1 h2 => ?_, fun h1 h2 => ?_, fun h1 h2 => ?_, fun h1 h2 => ?_⟩ <;> funext w
  · unfold secrets secretsLine; rw [h1, h2]
  · unfold secretscli secretscliLine; rw [h1, h2]
  · unfold journal journalLine; rw [h1, h2]
  · unfold otpc otpcLine; rw [h1, h2]
  · unfold passcrypt passcryptLine; rw [h1, h2]
  · unfold fcrypt fcryptLine; rw [h1, h2]

/-- secrets -f x --l and secrets --f=x -l=T -/
example : ∃ s, Reads noDur (declared (version :: secretsOns) [ascii "f"] []) [ascii "-f", ascii "x", ascii "--l"] s [] ∧
    Reads noDur (declared (version :: secretsOns) [ascii "f"] []) [ascii "--f=x", ascii "-l=T"] s [] :=
  ⟨[(ascii "f", .str (ascii "x")), (ascii "l", .bool true)],
    .apart (d := ascii "-") (n := ascii "f") (Or.inl rfl) (by decide) (k := .str) (by decide) (by decide) (.str _)
      (.on (d := ascii "--") (n := ascii "l") (Or.inr rfl) (by decide) (by decide) .nil),
    .joined (d := ascii "--") (n := ascii "f") (v := ascii "x") (Or.inr rfl) (by decide) (k := .str) (by decide) (.str _)
      (.joined (d := ascii "-") (n := ascii "l") (v := ascii "T") (Or.inl rfl) (by decide) (k := .bool) (by decide) (.bool (by unfold Truth; decide)) .nil)⟩

/-! ### C167: a command line that cannot be read -/

/-- A command line with an option that does not exist, with one that lacks its value or has one that
cannot be read: nothing is done. -/
theorem C167_unreadable (A : Model.KeyStore.Asn1) (R : Model.Fcrypt.Armour) (K : Model.KeyStore.KeyJson) (dur : Bytes → Option Int)
    (F : Model.Passcrypt.FilesAsn1) (Z : Model.Passcrypt.Gzip) (acc : Model.Passcrypt.Access)
    (T : Model.Otpc.TwoFactor) (U : Model.Otpc.Case) (e : List Bytes → Model.Journal.Env) (editor : Bytes) (ef : Model.Fcrypt.Env)
    (L : Model.Login.UserJson) (el : Model.Login.Env) (argv : List Bytes) :
    ((∀ s as, ¬ Reads noDur (declared (version :: secretsOns) [ascii "f"] []) argv s as) →
      ∀ w, secrets C J P ord fuel home argv w = some (.ok (2, w))) ∧
    ((∀ s as, ¬ Reads dur (declared [ascii "i"] [ascii "f"] [ascii "t"]) argv s as) →
      ∀ w writes, secretscli C J dur home argv w writes = .ok none) ∧
    ((∀ s as, ¬ Reads noDur (declared (version :: journalOns) [ascii "editor", ascii "f"] []) argv s as) →
      ∀ w, journal C J ord e home editor argv w = .ok (2, .nothing, w)) ∧
    ((∀ s as, ¬ Reads noDur (declared (version :: otpcOns) [ascii "f", ascii "t"] []) argv s as) →
      ∀ w, otpc C J T U home argv w = .ok (.exit 2 [], w)) ∧
    ((∀ s as, ¬ Reads noDur (declared (version :: passcryptOns) [ascii "o", ascii "f"] []) argv s as) →
      ∀ w, passcrypt C P F Z acc fuel argv w = some (.ok (false, w))) ∧
    ((∀ s as, ¬ Reads noDur (declared fcryptOns [ascii "f", ascii "l"] []) argv s as) →
      ∀ w, fcrypt C A R K ef home argv w = (.err, w)) ∧
    ((∀ s as, ¬ Reads noDur (declared [] [ascii "a", ascii "f", ascii "k", ascii "c"] []) argv s as) →
      ∀ fs write pass rng t1 t2 t3 o, keysrv C A P K argv fs write pass rng t1 t2 t3 o = some (.ok (none, fs))) ∧
    ((∀ s as, ¬ Reads noDur (declared [] [ascii "f"] []) argv s as) → ∀ w, login C L el fuel argv w = some (.fatal, w)) ∧
    ((∀ s as, ¬ Reads noDur (declared [] [] []) argv s as) → ∀ w, migrate C argv w = .ok (false, w)) := by
  rw [← secretsDecl_eq, ← secretscliDecl_eq, ← journalDecl_eq, ← otpcDecl_eq, ← passcryptDecl_eq, ← fcryptDecl_eq,
    ← table_declared, ← table_declared, ← table_declared]
  refine ⟨fun h w => ?_, fun h w writes => ?_, fun h w => ?_, fun h w => ?_, fun h w => ?_, fun h w => ?_,
    fun h fs write pass rng t1 t2 t3 o => ?_, fun h w => ?_, fun h w => ?_⟩
  · unfold secrets secretsLine; rw [parse_none h]
  · unfold secretscli secretscliLine; rw [parse_none h]
  · unfold journal journalLine; rw [parse_none h]
  · unfold otpc otpcLine; rw [parse_none h]
  · unfold passcrypt passcryptLine; rw [parse_none h]
  · unfold fcrypt fcryptLine; rw [parse_none h]
  · unfold keysrv keysrvLine; rw [parse_none h]
  · unfold login; rw [parse_none h]
  · unfold migrate; rw [parse_none h]

/-- secrets -l -f lacks a value, and secrets -l=maybe has one that cannot be read. -/
example : (∀ s as, ¬ Reads noDur (declared (version :: secretsOns) [ascii "f"] []) [ascii "-l", ascii "-f"] s as) ∧
    ∀ s as, ¬ Reads noDur (declared (version :: secretsOns) [ascii "f"] []) [ascii "-l=maybe"] s as := by
  constructor <;> intro s as h <;> rw [← parse_iff, ← secretsDecl_eq] at h
  · exact absurd h (by rw [show parse noDur secretsDecl [ascii "-l", ascii "-f"] = none by decide]; simp)
  · exact absurd h (by rw [show parse noDur secretsDecl [ascii "-l=maybe"] = none by decide]; simp)

/-- With -V among the options, nothing is done, and the exit status is 0. -/
theorem C167_version (F : Model.Passcrypt.FilesAsn1) (Z : Model.Passcrypt.Gzip) (acc : Model.Passcrypt.Access)
    (T : Model.Otpc.TwoFactor) (U : Model.Otpc.Case) (e : List Bytes → Model.Journal.Env) (editor : Bytes)
    (hV : .on version ∈ items) (hr : Rest tail args) :
    (Among (version :: secretsOns) [ascii "f"] items → ∀ w, secrets C J P ord fuel home (options items ++ tail) w = some (.ok (0, w))) ∧
    (Among (version :: journalOns) [ascii "editor", ascii "f"] items →
      ∀ w, journal C J ord e home editor (options items ++ tail) w = .ok (0, .nothing, w)) ∧
    (Among (version :: otpcOns) [ascii "f", ascii "t"] items → ∀ w, otpc C J T U home (options items ++ tail) w = .ok (.exit 0 [], w)) ∧
    (Among (version :: passcryptOns) [ascii "o", ascii "f"] items →
      ∀ w, passcrypt C P F Z acc fuel (options items ++ tail) w = some (.ok (true, w))) := by
  refine ⟨fun hi w => ?_, fun hi w => ?_, fun hi w => ?_, fun hi w => ?_⟩
  · unfold secrets secretsLine
    rw [parse_items (by decide) (by decide) hi hr]
    dsimp only
    rw [if_pos (by rw [boolOf_items hi (by decide)]; exact decide_eq_true hV)]
  · unfold journal journalLine
    rw [parse_items (by decide) (by decide) hi hr]
    dsimp only
    rw [if_pos (by rw [boolOf_items hi (by decide)]; exact decide_eq_true hV)]
  · unfold otpc otpcLine
    rw [parse_items (by decide) (by decide) hi hr]
    dsimp only
    rw [if_pos (by rw [boolOf_items hi (by decide)]; exact decide_eq_true hV)]
  · unfold passcrypt passcryptLine
    rw [parse_items (by decide) (by decide) hi hr]
    dsimp only
    rw [if_pos (by rw [boolOf_items hi (by decide)]; exact decide_eq_true hV)]

/-- secrets -r -V a -/
example (F : Model.Passcrypt.FilesAsn1) (Z : Model.Passcrypt.Gzip) (acc : Model.Passcrypt.Access) (T : Model.Otpc.TwoFactor) (U : Model.Otpc.Case)
    (e : List Bytes → Model.Journal.Env) (w : Model.Secrets.World) :
    secrets C J P ord fuel home [ascii "-r", ascii "-V", ascii "a"] w = some (.ok (0, w)) :=
  (C167_version C J P ord fuel home (items := [.on (ascii "r"), .on version]) (tail := [ascii "a"]) F Z acc T U e []
    (by simp) (Or.inr ⟨rfl, by decide⟩)).1 (by simp [Among, secretsOns, version]) w

/-! ### C164: the examples in the documentation -/

/-- Command lines from the READMEs of the programs, for labels and files that do not begin with a dash. Missing
from the property: see the two theorems below. -/
theorem C164_secrets_partial (w : Model.Secrets.World) (l g : Bytes) (hl : Plain l) :
    secrets C J P ord fuel home [ascii "-init"] w = Model.Secrets.main C J P ord fuel { init := true } [] (joinPath home (ascii ".secrets.db")) w ∧
    secrets C J P ord fuel home [ascii "-init", ascii "-f", g] w = Model.Secrets.main C J P ord fuel { init := true } [] g w ∧
    secrets C J P ord fuel home [ascii "-init", ascii "-i"] w =
      Model.Secrets.main C J P ord fuel { init := true, interactive := true } [] (joinPath home (ascii ".secrets.db")) w ∧
    secrets C J P ord fuel home [ascii "-f", g, ascii "-i", ascii "-init"] w =
      Model.Secrets.main C J P ord fuel { init := true, interactive := true } [] g w ∧
    secrets C J P ord fuel home [ascii "-s", l] w = Model.Secrets.main C J P ord fuel { store := true } [l] (joinPath home (ascii ".secrets.db")) w ∧
    secrets C J P ord fuel home [l] w = Model.Secrets.main C J P ord fuel {} [l] (joinPath home (ascii ".secrets.db")) w ∧
    secrets C J P ord fuel home [ascii "-x", l] w = Model.Secrets.main C J P ord fuel { clip := true } [l] (joinPath home (ascii ".secrets.db")) w ∧
    secrets C J P ord fuel home [ascii "-s", ascii "-w", l] w =
      Model.Secrets.main C J P ord fuel { store := true, overwrite := true } [l] (joinPath home (ascii ".secrets.db")) w ∧
    secrets C J P ord fuel home [ascii "-r", l] w = Model.Secrets.main C J P ord fuel { remove := true } [l] (joinPath home (ascii ".secrets.db")) w ∧
    secrets C J P ord fuel home [ascii "-c"] w = Model.Secrets.main C J P ord fuel { passwd := true } [] (joinPath home (ascii ".secrets.db")) w ∧
    secrets C J P ord fuel home [ascii "-s", ascii "-m", l] w =
      Model.Secrets.main C J P ord fuel { store := true, withMeta := true } [l] (joinPath home (ascii ".secrets.db")) w ∧
    secrets C J P ord fuel home [ascii "-r", ascii "-m", l] w =
      Model.Secrets.main C J P ord fuel { remove := true, withMeta := true } [l] (joinPath home (ascii ".secrets.db")) w ∧
    secrets C J P ord fuel home [ascii "-f", g, ascii "-m", l] w = Model.Secrets.main C J P ord fuel { withMeta := true } [l] g w ∧
    secrets C J P ord fuel home [ascii "-multi"] w = Model.Secrets.main C J P ord fuel { multi := true } [] (joinPath home (ascii ".secrets.db")) w ∧
    secrets C J P ord fuel home [ascii "-l"] w = Model.Secrets.main C J P ord fuel { list := true } [] (joinPath home (ascii ".secrets.db")) w ∧
    secrets C J P ord fuel home [ascii "-export", l] w =
      Model.Secrets.main C J P ord fuel { «export» := true } [l] (joinPath home (ascii ".secrets.db")) w ∧
    secrets C J P ord fuel home [ascii "-import", l] w =
      Model.Secrets.main C J P ord fuel { «import» := true } [l] (joinPath home (ascii ".secrets.db")) w := by
  have r0 : Rest [] [] := Or.inr ⟨rfl, by simp⟩
  have r1 : Rest [l] [l] := Or.inr ⟨rfl, by simp [hl]⟩
  have key := fun items tail args hi hr => C163_secrets C J P ord fuel home (items := items) (tail := tail) (args := args) hi hr w
  refine ⟨?_, ?_, ?_, ?_, ?_, ?_, ?_, ?_, ?_, ?_, ?_, ?_, ?_, ?_, ?_, ?_, ?_⟩
  · exact key [.on (ascii "init")] [] [] (by simp [Among, secretsOns]) r0
  · exact key [.on (ascii "init"), .set (ascii "f") g] [] [] (by simp [Among, secretsOns]) r0
  · exact key [.on (ascii "init"), .on (ascii "i")] [] [] (by simp [Among, secretsOns]) r0
  · exact key [.set (ascii "f") g, .on (ascii "i"), .on (ascii "init")] [] [] (by simp [Among, secretsOns]) r0
  · exact key [.on (ascii "s")] [l] [l] (by simp [Among, secretsOns]) r1
  · exact key [] [l] [l] (by simp [Among]) r1
  · exact key [.on (ascii "x")] [l] [l] (by simp [Among, secretsOns]) r1
  · exact key [.on (ascii "s"), .on (ascii "w")] [l] [l] (by simp [Among, secretsOns]) r1
  · exact key [.on (ascii "r")] [l] [l] (by simp [Among, secretsOns]) r1
  · exact key [.on (ascii "c")] [] [] (by simp [Among, secretsOns]) r0
  · exact key [.on (ascii "s"), .on (ascii "m")] [l] [l] (by simp [Among, secretsOns]) r1
  · exact key [.on (ascii "r"), .on (ascii "m")] [l] [l] (by simp [Among, secretsOns]) r1
  · exact key [.set (ascii "f") g, .on (ascii "m")] [l] [l] (by simp [Among, secretsOns]) r1
  · exact key [.on (ascii "multi")] [] [] (by simp [Among, secretsOns]) r0
  · exact key [.on (ascii "l")] [] [] (by simp [Among, secretsOns]) r0
  · exact key [.on (ascii "export")] [l] [l] (by simp [Among, secretsOns]) r1
  · exact key [.on (ascii "import")] [l] [l] (by simp [Among, secretsOns]) r1

/-- The same for the other programs. -/
theorem C164_others_partial (A : Model.KeyStore.Asn1) (R : Model.Fcrypt.Armour) (K : Model.KeyStore.KeyJson) (dur : Bytes → Option Int)
    (F : Model.Passcrypt.FilesAsn1) (Z : Model.Passcrypt.Gzip) (acc : Model.Passcrypt.Access)
    (T : Model.Otpc.TwoFactor) (U : Model.Otpc.Case) (e : List Bytes → Model.Journal.Env) (editor : Bytes) (ef : Model.Fcrypt.Env)
    (w : Model.Secrets.World) (wf : Model.Fcrypt.World) (wp : Model.Passcrypt.World) (wm : Model.Migrate.World) (writes : Nat → WriteOutcome)
    (a b l : Bytes) (ha : Plain a) :
    secretscli C J dur home [ascii "-f", l, ascii "-i"] w writes = Model.Secretscli.start C J w writes l 1 ∧
    journal C J ord e home editor [ascii "-init"] w =
      Model.Journal.main C J ord (e (editorCommand editor)) { init := true } [] (joinPath home (ascii ".cu_journal")) w ∧
    journal C J ord e home editor [ascii "-w", a] w =
      Model.Journal.main C J ord (e (editorCommand editor)) { write := true } [a] (joinPath home (ascii ".cu_journal")) w ∧
    journal C J ord e home editor [ascii "-l"] w =
      Model.Journal.main C J ord (e (editorCommand editor)) { list := true } [] (joinPath home (ascii ".cu_journal")) w ∧
    journal C J ord e home editor [a] w =
      Model.Journal.main C J ord (e (editorCommand editor)) {} [a] (joinPath home (ascii ".cu_journal")) w ∧
    otpc C J T U home [ascii "-t", ascii "google", ascii "-s", a] w =
      Model.Otpc.main C J T U { store := true, kind := ascii "google" } [a] (joinPath home (ascii ".otpc.db")) w ∧
    otpc C J T U home [a] w = Model.Otpc.main C J T U {} [a] (joinPath home (ascii ".otpc.db")) w ∧
    otpc C J T U home [ascii "-qr", a, b] w = Model.Otpc.main C J T U { qr := true } [a, b] (joinPath home (ascii ".otpc.db")) w ∧
    passcrypt C P F Z acc fuel [a, b] wp = Model.Passcrypt.run C P F Z acc fuel {} [a, b] wp ∧
    passcrypt C P F Z acc fuel [ascii "-a", a, b] wp = Model.Passcrypt.run C P F Z acc fuel { armour := true } [a, b] wp ∧
    passcrypt C P F Z acc fuel [ascii "-v", ascii "-u", ascii "-o", l, a] wp =
      Model.Passcrypt.run C P F Z acc fuel { unpack := true, outDir := l } [a] wp ∧
    fcrypt C A R K ef home [ascii "-export", a] wf =
      Model.Fcrypt.main C A R K ef { export_ := true, path := joinPath home (ascii ".cukeystore.db") } [a] wf ∧
    fcrypt C A R K ef home [ascii "-import", a] wf =
      Model.Fcrypt.main C A R K ef { import_ := true, path := joinPath home (ascii ".cukeystore.db") } [a] wf ∧
    fcrypt C A R K ef home [ascii "-u", ascii "-import", a] wf =
      Model.Fcrypt.main C A R K ef { import_ := true, untrusted := true, path := joinPath home (ascii ".cukeystore.db") } [a] wf ∧
    fcrypt C A R K ef home [ascii "-k"] wf =
      Model.Fcrypt.main C A R K ef { list := true, path := joinPath home (ascii ".cukeystore.db") } [] wf ∧
    fcrypt C A R K ef home [ascii "-e", a, b] wf =
      Model.Fcrypt.main C A R K ef { encrypt := true, path := joinPath home (ascii ".cukeystore.db") } [a, b] wf ∧
    fcrypt C A R K ef home [ascii "-e", ascii "-l", l, a, b] wf =
      Model.Fcrypt.main C A R K ef { encrypt := true, label := l, path := joinPath home (ascii ".cukeystore.db") } [a, b] wf ∧
    fcrypt C A R K ef home [ascii "-a", ascii "-e", a, b] wf =
      Model.Fcrypt.main C A R K ef { encrypt := true, armour := true, path := joinPath home (ascii ".cukeystore.db") } [a, b] wf ∧
    fcrypt C A R K ef home [ascii "-d", a, b] wf =
      Model.Fcrypt.main C A R K ef { decrypt := true, path := joinPath home (ascii ".cukeystore.db") } [a, b] wf ∧
    fcrypt C A R K ef home [ascii "-s", a, b] wf =
      Model.Fcrypt.main C A R K ef { sign := true, path := joinPath home (ascii ".cukeystore.db") } [a, b] wf ∧
    fcrypt C A R K ef home [ascii "-v", ascii "-l", l, a, b] wf =
      Model.Fcrypt.main C A R K ef { verify := true, label := l, path := joinPath home (ascii ".cukeystore.db") } [a, b] wf ∧
    fcrypt C A R K ef home [ascii "-s", ascii "-e", ascii "-l", l, a, b] wf =
      Model.Fcrypt.main C A R K ef { sign := true, encrypt := true, label := l, path := joinPath home (ascii ".cukeystore.db") } [a, b] wf ∧
    fcrypt C A R K ef home [ascii "-check"] wf =
      Model.Fcrypt.main C A R K ef { check := true, path := joinPath home (ascii ".cukeystore.db") } [] wf ∧
    migrate C [a, b] wm = Model.Migrate.main C wm [a, b] := by
  have r0 : Rest [] [] := Or.inr ⟨rfl, by simp⟩
  have r1 : Rest [a] [a] := Or.inr ⟨rfl, by simp [ha]⟩
  have r2 : Rest [a, b] [a, b] := Or.inr ⟨rfl, by simp [ha]⟩
  have kj := fun items tail args hi hr => C163_journal C J ord home (items := items) (tail := tail) (args := args) e editor hi hr w
  have ko := fun items tail args hi hr => C163_otpc C J home (items := items) (tail := tail) (args := args) T U hi hr w
  have kp := fun items tail args hi hr => C163_passcrypt C P fuel (items := items) (tail := tail) (args := args) F Z acc hi hr wp
  have kf := fun items tail args hi hr => C163_fcrypt C home (items := items) (tail := tail) (args := args) A R K ef hi hr wf
  refine ⟨?_, ?_, ?_, ?_, ?_, ?_, ?_, ?_, ?_, ?_, ?_, ?_, ?_, ?_, ?_, ?_, ?_, ?_, ?_, ?_, ?_, ?_, ?_, ?_⟩
  · refine (C163_secretscli C J home (items := [.set (ascii "f") l, .on (ascii "i")]) (tail := []) dur (by simp [Among]) (fun v h => ?_) r0 w writes).trans
      ((SecretscliTime.C161_limit C J _ _ _ _ _).2 (by show (300 * 1000000000 : Int) ≤ _; decide))
    simp only [List.mem_cons, Item.set.injEq, reduceCtorEq, List.not_mem_nil, or_false, or_self] at h
    exact absurd h.1 (by decide)
  · exact kj [.on (ascii "init")] [] [] (by simp [Among, journalOns]) r0
  · exact kj [.on (ascii "w")] [a] [a] (by simp [Among, journalOns]) r1
  · exact kj [.on (ascii "l")] [] [] (by simp [Among, journalOns]) r0
  · exact kj [] [a] [a] (by simp [Among]) r1
  · exact ko [.set (ascii "t") (ascii "google"), .on (ascii "s")] [a] [a] (by simp [Among, otpcOns]) r1
  · exact ko [] [a] [a] (by simp [Among]) r1
  · exact ko [.on (ascii "qr")] [a, b] [a, b] (by simp [Among, otpcOns]) r2
  · exact kp [] [a, b] [a, b] (by simp [Among]) r2
  · exact kp [.on (ascii "a")] [a, b] [a, b] (by simp [Among, passcryptOns]) r2
  · exact kp [.on (ascii "v"), .on (ascii "u"), .set (ascii "o") l] [a] [a] (by simp [Among, passcryptOns]) r1
  · exact kf [.on (ascii "export")] [a] [a] (by simp [Among, fcryptOns]) r1
  · exact kf [.on (ascii "import")] [a] [a] (by simp [Among, fcryptOns]) r1
  · exact kf [.on (ascii "u"), .on (ascii "import")] [a] [a] (by simp [Among, fcryptOns]) r1
  · exact kf [.on (ascii "k")] [] [] (by simp [Among, fcryptOns]) r0
  · exact kf [.on (ascii "e")] [a, b] [a, b] (by simp [Among, fcryptOns]) r2
  · exact kf [.on (ascii "e"), .set (ascii "l") l] [a, b] [a, b] (by simp [Among, fcryptOns]) r2
  · exact kf [.on (ascii "a"), .on (ascii "e")] [a, b] [a, b] (by simp [Among, fcryptOns]) r2
  · exact kf [.on (ascii "d")] [a, b] [a, b] (by simp [Among, fcryptOns]) r2
  · exact kf [.on (ascii "s")] [a, b] [a, b] (by simp [Among, fcryptOns]) r2
  · exact kf [.on (ascii "v"), .set (ascii "l") l] [a, b] [a, b] (by simp [Among, fcryptOns]) r2
  · exact kf [.on (ascii "s"), .on (ascii "e"), .set (ascii "l") l] [a, b] [a, b] (by simp [Among, fcryptOns]) r2
  · exact kf [.on (ascii "check")] [] [] (by simp [Among, fcryptOns]) r0
  · unfold migrate; rw [parse_of_reads (reads_rest r2)]

/-- The README of passcrypt gives passcrypt -o tmp passcrypt.enc for unpacking. It unpacks nothing, and replaces the archive
with one that holds only the old archive, under any password typed. -/
theorem C164_unpack_violated (A : Model.Passcrypt.FilesAsn1) (Z : Model.Passcrypt.Gzip) (acc : Model.Passcrypt.Access)
    (w : Model.Passcrypt.World) (m : BitVec 32) (old pass : Bytes) (as : List (Option Bytes))
    (hf : w.st.disk.get (resolvePath w.cwd (ascii "passcrypt.enc")) = some (.file m old)) (hm : Spec.Passcrypt.Plain m)
    (hl : acc.look (resolvePath w.cwd (ascii "passcrypt.enc")) = true) (hr : acc.read (resolvePath w.cwd (ascii "passcrypt.enc")) = true)
    (ha : w.term.answers = some pass :: as) (hg : 56 ≤ w.rng.length) (ho : w.st.ops 0 = .done) :
    ∃ w' b body, passcrypt C P A Z acc (fuel + 1) [ascii "-o", ascii "tmp", ascii "passcrypt.enc"] w = some (.ok (true, w')) ∧
      (∀ q, q ≠ resolvePath w.cwd (ascii "passcrypt.enc") → w'.st.disk q = w.st.disk q) ∧
      w'.st.disk.readFile w.cwd (ascii "passcrypt.enc") = some body ∧ Spec.Migrate.New C body pass b ∧
      A.dec b = some [{ path := ascii "passcrypt.enc", mode := m.setWidth 64, data := Z.zip old }] := by
  obtain ⟨hm1, hm2⟩ := PasscryptTree.plain_regular hm
  have hcmd := C163_passcrypt C P (fuel + 1) (items := [.set (ascii "o") (ascii "tmp")]) (tail := [ascii "passcrypt.enc"]) (args := [ascii "passcrypt.enc"])
    A Z acc (by simp [Among]) (Or.inr ⟨rfl, by decide⟩) w
  let f : Model.Passcrypt.Flags := { outDir := ascii "tmp" }
  have hcmd : passcrypt C P A Z acc (fuel + 1) [ascii "-o", ascii "tmp", ascii "passcrypt.enc"] w =
    Model.Passcrypt.run C P A Z acc (fuel + 1) f [ascii "passcrypt.enc"] w := hcmd
  let v : Model.Passcrypt.Visit := { path := ascii "passcrypt.enc", info := some m, readable := true }
  have hwalk : Model.Passcrypt.walkArgs acc w.st.disk w.cwd (fuel + 1) [ascii "passcrypt.enc"] = some [v] := by
    have h1 : Model.Passcrypt.lstat acc w.st.disk w.cwd (ascii "passcrypt.enc") = some m := by
      unfold Model.Passcrypt.lstat
      rw [if_neg (by rw [hl]; decide), hf]
      rfl
    simp only [Model.Passcrypt.walkArgs, Model.Passcrypt.walkRoot, h1, Model.Passcrypt.walk, hm1, Bool.not_false, if_true,
      Model.Passcrypt.visit, hr]
    rfl
  have hpack : Model.Passcrypt.packVisits Z w.st.disk w.cwd [] [v] =
      some [{ path := ascii "passcrypt.enc", mode := m.setWidth 64, data := Z.zip old }] := by
    simp only [Model.Passcrypt.packVisits, Model.Passcrypt.packVisit, v, hm1, hm2, Model.Passcrypt.packFile, hf]
    rfl
  obtain ⟨b, hb1, hb2⟩ := A.dec_enc [{ path := ascii "passcrypt.enc", mode := m.setWidth 64, data := Z.zip old }] (by
    intro g hg
    rw [List.mem_singleton] at hg
    subst hg
    exact (by decide : ValidUtf8 (ascii "passcrypt.enc")))
  obtain ⟨w', hw'⟩ := PasscryptTree.pack_succeeds C P A Z (f := f) (args := [ascii "passcrypt.enc"]) rfl (by simp) hpack hb1 ha hg ho
    (show ascii "passcrypt.enc" ≠ [] by decide) (show w.st.disk.openCreate (resolvePath w.cwd (ascii "passcrypt.enc")) (w.st.allow 0o644) = some (m, old) by
      unfold Disk.openCreate; rw [hf])
  obtain ⟨pass', as', files, b', body, m', g1, g2, g3, g4, -, g6, g7⟩ := Passcrypt.pack_ok C P A Z (f := f) rfl (by simp) hw'
  rw [ha] at g1
  cases g1
  rw [hpack] at g2
  cases g2
  rw [hb1] at g3
  cases g3
  refine ⟨w', b, body, ?_, g7, g6, g4, hb2⟩
  rw [hcmd]
  exact PasscryptTree.run_of_walk C P A Z rfl hwalk hw'

/-- There is such an archive. -/
example : ∃ w : Model.Passcrypt.World, w.st.disk.get (resolvePath w.cwd (ascii "passcrypt.enc")) = some (.file 0o644 [1, 2, 3]) ∧
    Spec.Passcrypt.Plain 0o644 ∧ w.term.answers = [some (ascii "x")] ∧ 56 ≤ w.rng.length ∧ w.st.ops 0 = .done :=
  ⟨{ Passcrypt.exWorld with
      term := ⟨[some (ascii "x")], fun _ => 5⟩
      st := ⟨Passcrypt.exDisk.set [ascii "home", ascii "passcrypt.enc"] (.file 0o644 [1, 2, 3]), fun _ => .done, 0⟩ },
    by decide, by unfold Spec.Passcrypt.Plain; decide, rfl, by decide, rfl⟩

/-- The README of fcrypt says that -r asks for a label. It does not: without an argument it is refused. -/
theorem C164_remove_violated (A : Model.KeyStore.Asn1) (R : Model.Fcrypt.Armour) (K : Model.KeyStore.KeyJson) (e : Model.Fcrypt.Env)
    (w : Model.Fcrypt.World) : fcrypt C A R K e home [ascii "-r"] w = (.err, w) := by
  rw [show [ascii "-r"] = options [.on (ascii "r")] ++ [] from rfl,
    C163_fcrypt C home A R K e (by simp [Among, fcryptOns]) (Or.inr ⟨rfl, by simp⟩ : Rest [] []) w]
  rfl

/-! ### C165: options are not misunderstood -/

/-- A word that begins with a dash, and names none of these options. -/
def Unknown (ons sets durs : List Bytes) (x : Bytes) : Prop :=
  x.head? = some 45 ∧ x ≠ ascii "-" ∧ x ≠ ascii "--" ∧
  ∀ d n, Dashes d → (x = d ++ n ∨ ∃ v, x = d ++ n ++ ascii "=" ++ v) → n ∉ ons ∧ n ∉ sets ∧ n ∉ durs

theorem unknown_of {ons sets durs : List Bytes} {y : Bytes} (h0 : y ≠ []) (h1 : y.head? ≠ some 45) (h2 : (61 : UInt8) ∉ y)
    (h3 : y ∉ ons ∧ y ∉ sets ∧ y ∉ durs) : Unknown ons sets durs (45 :: y) := by
  refine ⟨rfl, ?_, ?_, ?_⟩
  · intro h; exact h0 (List.cons.inj h).2
  · intro h; rw [(List.cons.inj h).2] at h1; exact h1 rfl
  · rintro d n (rfl | rfl) (h | ⟨v, h⟩)
    · have h : y = n := (List.cons.inj h).2
      rw [← h]; exact h3
    · rw [List.append_assoc, List.append_assoc] at h
      have h : y = n ++ (61 :: v) := (List.cons.inj h).2
      rw [h] at h2; simp at h2
    · have h : y = 45 :: n := (List.cons.inj h).2
      rw [h] at h1; simp at h1
    · rw [List.append_assoc, List.append_assoc] at h
      have h : y = 45 :: (n ++ (61 :: v)) := (List.cons.inj h).2
      rw [h] at h1; simp at h1

theorem unknown_reads {dur : Bytes → Option Int} {ons sets durs : List Bytes} {x : Bytes} (h : Unknown ons sets durs x) {rest : List Bytes}
    {s : List (Bytes × Val)} {as : List Bytes} : ¬ Reads dur (declared ons sets durs) (x :: rest) s as := by
  obtain ⟨h1, h2, h3, h4⟩ := h
  have key : ∀ {d n : Bytes} {k : Kind}, Dashes d → (x = d ++ n ∨ ∃ v, x = d ++ n ++ ascii "=" ++ v) → declared ons sets durs n = some k → False := by
    intro d n k hd hx hk
    obtain ⟨a1, a2, a3⟩ := h4 d n hd hx
    simp [declared, a1, a2, a3] at hk
  intro hr
  cases hr with
  | args hp => exact hp.elim h2 (fun h => h h1)
  | stop => exact h3 rfl
  | on hd hn hk _ => exact key hd (Or.inl rfl) hk
  | joined hd hn hk _ _ => exact key hd (Or.inr ⟨_, rfl⟩) hk
  | apart hd hn hk _ _ _ => exact key hd (Or.inl rfl) hk

/-- After options that were read, what follows is read on its own. -/
theorem reads_after {dur : Bytes → Option Int} {decl : Bytes → Option Kind} {ons sets : List Bytes}
    (hb : ∀ n ∈ ons, Name n ∧ decl n = some .bool) (hs : ∀ n ∈ sets, Name n ∧ decl n = some .str) (hi : Among ons sets items)
    {rest as : List Bytes} {s : List (Bytes × Val)} (h : Reads dur decl (options items ++ rest) s as) : ∃ s', Reads dur decl rest s' as := by
  rw [← parse_iff] at h
  induction items generalizing s with
  | nil => exact ⟨s, parse_iff.mp h⟩
  | cons i items ih =>
    have ih := fun s h => ih (s := s) (fun j hj => hi j (List.mem_cons_of_mem _ hj)) h
    have h1 := hi i List.mem_cons_self
    cases i with
    | on n =>
      simp only [options, List.flatMap_cons, Item.words, List.cons_append, List.nil_append] at h
      unfold parse at h
      rw [word_on (Or.inl rfl) (hb n h1).1] at h
      simp only [(hb n h1).2] at h
      rw [show parseBool ((none : Option Bytes).getD (ascii "true")) = some true by decide] at h
      simp only [Option.map_eq_some_iff] at h
      obtain ⟨⟨s', as'⟩, h2, h3⟩ := h
      cases h3
      exact ih _ h2
    | set n v =>
      simp only [options, List.flatMap_cons, Item.words, List.cons_append, List.nil_append] at h
      unfold parse at h
      rw [word_on (Or.inl rfl) (hs n h1).1] at h
      simp only [(hs n h1).2, convert, Option.map_eq_some_iff] at h
      obtain ⟨⟨s', as'⟩, h2, h3⟩ := h
      cases h3
      exact ih _ h2

/-- Before the first argument, a word that begins with a dash and is no option makes the programs refuse. Missing
from the property: words after the first argument, and values of switches, see below. -/
theorem C165_partial (A : Model.KeyStore.Asn1) (R : Model.Fcrypt.Armour) (K : Model.KeyStore.KeyJson)
    (F : Model.Passcrypt.FilesAsn1) (Z : Model.Passcrypt.Gzip) (acc : Model.Passcrypt.Access)
    (T : Model.Otpc.TwoFactor) (U : Model.Otpc.Case) (e : List Bytes → Model.Journal.Env) (editor : Bytes) (ef : Model.Fcrypt.Env)
    (x : Bytes) (rest : List Bytes) :
    (Among (version :: secretsOns) [ascii "f"] items → Unknown (version :: secretsOns) [ascii "f"] [] x →
      ∀ w, secrets C J P ord fuel home (options items ++ x :: rest) w = some (.ok (2, w))) ∧
    (Among (version :: journalOns) [ascii "editor", ascii "f"] items → Unknown (version :: journalOns) [ascii "editor", ascii "f"] [] x →
      ∀ w, journal C J ord e home editor (options items ++ x :: rest) w = .ok (2, .nothing, w)) ∧
    (Among (version :: otpcOns) [ascii "f", ascii "t"] items → Unknown (version :: otpcOns) [ascii "f", ascii "t"] [] x →
      ∀ w, otpc C J T U home (options items ++ x :: rest) w = .ok (.exit 2 [], w)) ∧
    (Among (version :: passcryptOns) [ascii "o", ascii "f"] items → Unknown (version :: passcryptOns) [ascii "o", ascii "f"] [] x →
      ∀ w, passcrypt C P F Z acc fuel (options items ++ x :: rest) w = some (.ok (false, w))) ∧
    (Among fcryptOns [ascii "f", ascii "l"] items → Unknown fcryptOns [ascii "f", ascii "l"] [] x →
      ∀ w, fcrypt C A R K ef home (options items ++ x :: rest) w = (.err, w)) := by
  have key : ∀ {ons sets : List Bytes}, (∀ n ∈ ons, Name n ∧ declared ons sets [] n = some .bool) →
      (∀ n ∈ sets, Name n ∧ declared ons sets [] n = some .str) → Among ons sets items → Unknown ons sets [] x →
      parse noDur (declared ons sets []) (options items ++ x :: rest) = none := by
    intro ons sets hb hs hi hx
    refine parse_none (fun s as h => ?_)
    obtain ⟨s', h⟩ := reads_after hb hs hi h
    exact unknown_reads hx h
  refine ⟨fun hi hx w => ?_, fun hi hx w => ?_, fun hi hx w => ?_, fun hi hx w => ?_, fun hi hx w => ?_⟩
  · unfold secrets secretsLine; rw [secretsDecl_eq, key (by decide) (by decide) hi hx]
  · unfold journal journalLine; rw [journalDecl_eq, key (by decide) (by decide) hi hx]
  · unfold otpc otpcLine; rw [otpcDecl_eq, key (by decide) (by decide) hi hx]
  · unfold passcrypt passcryptLine; rw [passcryptDecl_eq, key (by decide) (by decide) hi hx]
  · unfold fcrypt fcryptLine; rw [fcryptDecl_eq, key (by decide) (by decide) hi hx]

/-- -z is unknown to secrets, and so is -force. -/
example : Unknown (version :: secretsOns) [ascii "f"] [] (ascii "-z") ∧ Unknown (version :: secretsOns) [ascii "f"] [] (ascii "-force") :=
  ⟨unknown_of (y := ascii "z") (by decide) (by decide) (by decide) (by decide), unknown_of (y := ascii "force") (by decide) (by decide) (by decide) (by decide)⟩

/-- Options after the first argument are arguments: secrets -f f -r a -f g, with exit status 0, removes a from
the file f, and ignores g. -/
theorem C165_after_violated : ∃ b w' s s', secrets C J P ord fuel home [ascii "-f", ascii "f", ascii "-r", ascii "a", ascii "-f", ascii "g"]
      (Secrets.exWorld b [some (ascii "pw")]) = some (.ok (0, w')) ∧
    Spec.Secrets.Opens C J (Secrets.exWorld b [some (ascii "pw")]).fs (ascii "f") (ascii "pw") 0 s ∧ s.has (ascii "a") = true ∧
    Spec.Secrets.Opens C J w'.fs (ascii "f") (ascii "pw") 0 s' ∧ s'.has (ascii "a") = false := by
  obtain ⟨b, hb⟩ := Secrets.exFile C J 0 (Or.inl rfl)
  have hpw : ascii "pw" = [112, 119] := by decide
  have hf : ascii "f" = [102] := by decide
  have ha : ascii "a" = [97] := by decide
  obtain ⟨w', out, h, -⟩ := Secrets.exRun C J P ord fuel (f := { remove := true }) (c := .remove) (args := [ascii "a", ascii "-f", ascii "g"]) (rest := [])
    (b := b) (t := ⟨[], fun n => 1000 + BitVec.ofNat 64 n⟩) rfl hb rfl (by decide) (by rw [ha]; rfl) rfl (Secrets.exClock 0 (by decide)) rfl rfl
  obtain ⟨pass, s, s', h1, h2, h3, h4, h5, -⟩ := Secrets.C95_remove C J P ord fuel _ _ _ _ _ (by decide) rfl rfl h
  have h1 : (some (some [112, 119]) : Option (Option Bytes)) = some (some pass) := h1
  cases h1
  refine ⟨b, w', s, s', ?_, ?_, h4, ?_, h5⟩
  · rw [hpw]
    rw [← h, ← hf]
    exact C163_secrets C J P ord fuel home (items := [.set (ascii "f") (ascii "f"), .on (ascii "r")]) (tail := [ascii "a", ascii "-f", ascii "g"])
      (args := [ascii "a", ascii "-f", ascii "g"]) (by simp [Among, secretsOns]) (Or.inr ⟨rfl, by decide⟩) _
  · rw [hpw, hf]; exact h2
  · rw [hpw, hf]; exact h3

/-- A value after a switch is an argument: secrets -i false switches -i on and looks for the secret false. -/
theorem C165_value_violated (w : Model.Secrets.World) : secrets C J P ord fuel home [ascii "-i", ascii "false"] w =
    Model.Secrets.main C J P ord fuel { interactive := true } [ascii "false"] (joinPath home (ascii ".secrets.db")) w :=
  C163_secrets C J P ord fuel home (items := [.on (ascii "i")]) (tail := [ascii "false"]) (args := [ascii "false"]) (by simp [Among, secretsOns])
    (Or.inr ⟨rfl, by decide⟩) w

/-- secretscli other.db opens the default store: its arguments are ignored. -/
theorem C165_ignored_violated (dur : Bytes → Option Int) (a : Bytes) (ha : Plain a) (w : Model.Secrets.World) (writes : Nat → WriteOutcome) :
    secretscli C J dur home [a] w writes = secretscli C J dur home [] w writes := by
  rw [show [a] = options [] ++ [a] from rfl, C163_secretscli C J home (items := []) dur (by simp [Among]) (by simp) (Or.inr ⟨rfl, by simp [ha]⟩) w writes,
    show ([] : List Bytes) = options [] ++ [] from rfl, C163_secretscli C J home (items := []) dur (by simp [Among]) (by simp) (Or.inr ⟨rfl, by simp⟩) w writes]

/-! ### C166: options that contradict each other -/

/-- The order of the options and how often they are given makes no difference. Missing from the property:
the programs do not refuse when several actions are asked for, see below. -/
theorem C166_partial (A : Model.KeyStore.Asn1) (R : Model.Fcrypt.Armour) (K : Model.KeyStore.KeyJson)
    (F : Model.Passcrypt.FilesAsn1) (Z : Model.Passcrypt.Gzip) (acc : Model.Passcrypt.Access)
    (T : Model.Otpc.TwoFactor) (U : Model.Otpc.Case) (e : List Bytes → Model.Journal.Env) (editor : Bytes) (ef : Model.Fcrypt.Env)
    (hon : ∀ n, .on n ∈ items ↔ .on n ∈ items') (hset : ∀ n d, value n d items = value n d items') (hr : Rest tail args) :
    (Among secretsOns [ascii "f"] items → Among secretsOns [ascii "f"] items' →
      secrets C J P ord fuel home (options items ++ tail) = secrets C J P ord fuel home (options items' ++ tail)) ∧
    (Among journalOns [ascii "editor", ascii "f"] items → Among journalOns [ascii "editor", ascii "f"] items' →
      journal C J ord e home editor (options items ++ tail) = journal C J ord e home editor (options items' ++ tail)) ∧
    (Among otpcOns [ascii "f", ascii "t"] items → Among otpcOns [ascii "f", ascii "t"] items' →
      otpc C J T U home (options items ++ tail) = otpc C J T U home (options items' ++ tail)) ∧
    (Among passcryptOns [ascii "o", ascii "f"] items → Among passcryptOns [ascii "o", ascii "f"] items' →
      passcrypt C P F Z acc fuel (options items ++ tail) = passcrypt C P F Z acc fuel (options items' ++ tail)) ∧
    (Among fcryptOns [ascii "f", ascii "l"] items → Among fcryptOns [ascii "f", ascii "l"] items' →
      fcrypt C A R K ef home (options items ++ tail) = fcrypt C A R K ef home (options items' ++ tail)) := by
  refine ⟨fun h1 h2 => ?_, fun h1 h2 => ?_, fun h1 h2 => ?_, fun h1 h2 => ?_, fun h1 h2 => ?_⟩ <;> funext w
  · rw [C163_secrets C J P ord fuel home h1 hr, C163_secrets C J P ord fuel home h2 hr]; simp only [hon, hset]
  · rw [C163_journal C J ord home e editor h1 hr, C163_journal C J ord home e editor h2 hr]; simp only [hon, hset]
  · rw [C163_otpc C J home T U h1 hr, C163_otpc C J home T U h2 hr]; simp only [hon, hset]
  · rw [C163_passcrypt C P fuel F Z acc h1 hr, C163_passcrypt C P fuel F Z acc h2 hr]; simp only [hon, hset]
  · rw [C163_fcrypt C home A R K ef h1 hr, C163_fcrypt C home A R K ef h2 hr]; simp only [hon, hset]

/-- secrets -s -w -f f a, secrets -f g -w -f f -s -w a -/
example (A : Model.KeyStore.Asn1) (R : Model.Fcrypt.Armour) (K : Model.KeyStore.KeyJson)
    (F : Model.Passcrypt.FilesAsn1) (Z : Model.Passcrypt.Gzip) (acc : Model.Passcrypt.Access)
    (T : Model.Otpc.TwoFactor) (U : Model.Otpc.Case) (e : List Bytes → Model.Journal.Env) (ef : Model.Fcrypt.Env) :
    secrets C J P ord fuel home [ascii "-s", ascii "-w", ascii "-f", ascii "f", ascii "a"] =
    secrets C J P ord fuel home [ascii "-f", ascii "g", ascii "-w", ascii "-f", ascii "f", ascii "-s", ascii "-w", ascii "a"] := by
  refine (C166_partial C J P ord fuel home (items := [.on (ascii "s"), .on (ascii "w"), .set (ascii "f") (ascii "f")])
    (items' := [.set (ascii "f") (ascii "g"), .on (ascii "w"), .set (ascii "f") (ascii "f"), .on (ascii "s"), .on (ascii "w")])
    (tail := [ascii "a"]) A R K F Z acc T U e [] ef (fun n => ?_) (fun n d => ?_) (Or.inr ⟨rfl, by decide⟩)).1
    (by simp [Among, secretsOns]) (by simp [Among, secretsOns])
  · simp only [List.mem_cons, Item.on.injEq, reduceCtorEq, List.not_mem_nil, or_false, false_or]
    constructor
    · rintro (h | h)
      · exact Or.inr (Or.inl h)
      · exact Or.inl h
    · rintro (h | h | h)
      · exact Or.inr h
      · exact Or.inl h
      · exact Or.inr h
  · simp only [value]
    split <;> rfl

/-- secrets -r -s b does not refuse, and removes nothing: it is secrets -s b. -/
theorem C166_secrets_violated : ∃ b w', secrets C J P ord fuel home [ascii "-f", ascii "f", ascii "-r", ascii "-s", ascii "b"]
      (Secrets.exWorld b [some (ascii "pw"), some [9]]) = some (.ok (0, w')) ∧
    secrets C J P ord fuel home [ascii "-f", ascii "f", ascii "-s", ascii "b"]
      (Secrets.exWorld b [some (ascii "pw"), some [9]]) = some (.ok (0, w')) := by
  obtain ⟨b, hb⟩ := Secrets.exFile C J 0 (Or.inl rfl)
  have hpw : ascii "pw" = [112, 119] := by decide
  have hf : ascii "f" = [102] := by decide
  have hl : ascii "b" = [98] := by decide
  have hh : (SecretStore.exStore [1, 2, 3] 7).has [98] = false := Secrets.exMap_other (by decide) _ _
  have hx : ∃ w' out, Model.Secrets.main C J P ord fuel { remove := true, store := true } [[98]] [102] (Secrets.exWorld b (some [112, 119] :: [some [9]])) =
      some (.ok (0, w')) ∧ w'.fs [102] = some out ∧ _ := Secrets.exRun C J P ord fuel (f := { remove := true, store := true }) (c := .store) (args := [[98]]) (rest := [some [9]])
    (b := b) (t := ⟨[], fun n => 1000 + BitVec.ofNat 64 (n + 1)⟩) rfl hb rfl (by decide)
    (by simp [Model.Secrets.Cmd.run, Model.Secrets.addSecret, Model.Secrets.addPlain, Term.read, Term.now, Secrets.exWorld, Model.Secrets.assign, SecretStore.exStore]; rfl)
    rfl (Secrets.exClock 1 (by decide)) rfl rfl
  obtain ⟨w', out, h, -⟩ := hx
  refine ⟨b, w', ?_, ?_⟩ <;> rw [hpw]
  · rw [← h, ← hf, ← hl]
    exact C163_secrets C J P ord fuel home (items := [.set (ascii "f") (ascii "f"), .on (ascii "r"), .on (ascii "s")]) (tail := [ascii "b"])
      (args := [ascii "b"]) (by simp [Among, secretsOns]) (Or.inr ⟨rfl, by decide⟩) _
  · rw [← h, ← hf, ← hl]
    exact C163_secrets C J P ord fuel home (items := [.set (ascii "f") (ascii "f"), .on (ascii "s")]) (tail := [ascii "b"])
      (args := [ascii "b"]) (by simp [Among, secretsOns]) (Or.inr ⟨rfl, by decide⟩) _

/-- fcrypt -d -e is fcrypt -e. -/
theorem C166_fcrypt_violated (A : Model.KeyStore.Asn1) (R : Model.Fcrypt.Armour) (K : Model.KeyStore.KeyJson) (e : Model.Fcrypt.Env)
    (a b : Bytes) (ha : Plain a) (w : Model.Fcrypt.World) :
    fcrypt C A R K e home [ascii "-d", ascii "-e", a, b] w = fcrypt C A R K e home [ascii "-e", a, b] w := by
  have r2 : Rest [a, b] [a, b] := Or.inr ⟨rfl, by simp [ha]⟩
  rw [show [ascii "-d", ascii "-e", a, b] = options [.on (ascii "d"), .on (ascii "e")] ++ [a, b] from rfl,
    show [ascii "-e", a, b] = options [.on (ascii "e")] ++ [a, b] from rfl,
    C163_fcrypt C home A R K e (by simp [Among, fcryptOns]) r2, C163_fcrypt C home A R K e (by simp [Among, fcryptOns]) r2]
  rfl

/-! ### C168: the editor -/

theorem splitSpace_word {v : Bytes} (h : (32 : UInt8) ∉ v) : splitSpace v = [v] := by
  induction v with
  | nil => rfl
  | cons b v ih =>
    rw [List.mem_cons, not_or] at h
    unfold splitSpace
    rw [if_neg (Ne.symm h.1), ih h.2]

theorem splitSpace_cons {v s : Bytes} (h : (32 : UInt8) ∉ v) : splitSpace (v ++ 32 :: s) = v :: splitSpace s := by
  induction v with
  | nil => show splitSpace (32 :: s) = _; rw [splitSpace]; exact if_pos rfl
  | cons b v ih =>
    rw [List.mem_cons, not_or] at h
    show splitSpace (b :: (v ++ 32 :: s)) = _
    rw [splitSpace, if_neg (Ne.symm h.1), ih h.2]

theorem splitSpace_join {ws : List Bytes} (h : ws ≠ []) (hs : ∀ v ∈ ws, (32 : UInt8) ∉ v) : splitSpace (List.intercalate [32] ws) = ws := by
  induction ws with
  | nil => exact absurd rfl h
  | cons v ws ih =>
    cases ws with
    | nil => rw [List.intercalate_singleton]; exact splitSpace_word (hs v List.mem_cons_self)
    | cons u ws =>
      rw [List.intercalate_cons_of_ne_nil (by simp)]
      have := ih (by simp) (fun x hx => hs x (List.mem_cons_of_mem _ hx))
      rw [List.append_assoc]
      exact (splitSpace_cons (hs v List.mem_cons_self)).trans (congrArg _ this)

/-- An editor given as words with one space between them is run with these words: the editor of the option -editor if there is
one, else that of the environment, else vim. Missing from the property: other blanks, see below. -/
theorem C168_partial (e : List Bytes → Model.Journal.Env) (editor : Bytes) (hi : Among journalOns [ascii "editor", ascii "f"] items)
    (hr : Rest tail args) (w : Model.Secrets.World) (ws : List Bytes)
    (hw : ws ≠ []) (hs : ∀ v ∈ ws, (32 : UInt8) ∉ v)
    (hv : value (ascii "editor") editor items = List.intercalate [32] ws ∧ ws ≠ [[]] ∨
      value (ascii "editor") editor items = [] ∧ ws = [ascii "vim", ascii "-f", ascii "-n", ascii "-i", ascii "NONE", ascii "+star"]) :
    journal C J ord e home editor (options items ++ tail) w =
      journal C J ord (fun _ => e ws) home editor (options items ++ tail) w := by
  rw [C163_journal C J ord home e editor hi hr, C163_journal C J ord home (fun _ => e ws) editor hi hr]
  have : editorCommand (value (ascii "editor") editor items) = ws := by
    unfold editorCommand
    rcases hv with ⟨h, hne⟩ | ⟨h, rfl⟩
    · rw [h, if_neg, splitSpace_join hw hs]
      intro h0
      have := splitSpace_join hw hs
      rw [h0] at this
      exact hne this.symm
    · rw [h, if_pos rfl]
      decide
  rw [this]

/-- EDITOR="ed -s" journal -l -/
example (e : List Bytes → Model.Journal.Env) (w : Model.Secrets.World) :
    journal C J ord e home (ascii "ed -s") [ascii "-l"] w = journal C J ord (fun _ => e [ascii "ed", ascii "-s"]) home (ascii "ed -s") [ascii "-l"] w :=
  C168_partial C J ord home (items := [.on (ascii "l")]) (tail := []) e (ascii "ed -s") (by simp [Among, journalOns]) (Or.inr ⟨rfl, by decide⟩) w
    [ascii "ed", ascii "-s"] (by decide) (by decide) (Or.inl ⟨by decide, by decide⟩)

/-- Two spaces, or one at the end, give the editor an empty argument, which editors take for the name of a file. -/
theorem C168_violated (e : List Bytes → Model.Journal.Env) (editor : Bytes) (a : Bytes) (ha : Plain a) (w : Model.Secrets.World) :
    journal C J ord e home (ascii "ed  -s") [ascii "-w", a] w =
      Model.Journal.main C J ord (e [ascii "ed", [], ascii "-s"]) { write := true } [a] (joinPath home (ascii ".cu_journal")) w ∧
    journal C J ord e home editor [ascii "-editor", ascii "ed ", ascii "-w", a] w =
      Model.Journal.main C J ord (e [ascii "ed", []]) { write := true } [a] (joinPath home (ascii ".cu_journal")) w := by
  have r1 : Rest [a] [a] := Or.inr ⟨rfl, by simp [ha]⟩
  constructor
  · refine (C163_journal C J ord home (items := [.on (ascii "w")]) e (ascii "ed  -s") (by simp [Among, journalOns]) r1 w).trans ?_
    rw [show editorCommand (value (ascii "editor") (ascii "ed  -s") [.on (ascii "w")]) = [ascii "ed", [], ascii "-s"] by decide]
    rfl
  · refine (C163_journal C J ord home (items := [.set (ascii "editor") (ascii "ed "), .on (ascii "w")]) e editor (by simp [Among, journalOns]) r1 w).trans ?_
    rw [show editorCommand (value (ascii "editor") editor [.set (ascii "editor") (ascii "ed "), .on (ascii "w")]) = [ascii "ed", []] from
      (by decide : editorCommand (ascii "ed ") = [ascii "ed", []])]
    rfl

end
end Verif.Props.CommandLine
