import Verif.Proofs.Flag
import Verif.Spec.CommandLine
/-! What `flag.Parse` makes of options in some order. -/

namespace Verif.Proofs.CommandLine
open Verif Verif.Go Verif.Go.Flag Verif.Spec.Flag Verif.Spec.CommandLine Verif.Proofs.Flag

/-- The value that an option sets. -/
def setting : Item → Bytes × Val
  | .on n => (n, .bool true)
  | .set n v => (n, .str v)

instance (n : Bytes) : Decidable (Name n) := by unfold Name; exact inferInstance
instance (n : Bytes) : Decidable (Plain n) := by unfold Plain; exact inferInstance

theorem reads_rest {dur : Bytes → Option Int} {decl : Bytes → Option Kind} {tail args : List Bytes} (h : Rest tail args) :
    Reads dur decl tail [] args := by
  rcases h with rfl | ⟨rfl, h⟩
  · exact .stop
  · cases tail with
    | nil => exact .nil
    | cons a as => exact .args (h a rfl)

theorem reads_items {dur : Bytes → Option Int} {decl : Bytes → Option Kind} {ons sets tail args : List Bytes} {items : List Item}
    (hb : ∀ n ∈ ons, Name n ∧ decl n = some .bool) (hs : ∀ n ∈ sets, Name n ∧ decl n = some .str)
    (hi : Among ons sets items) (hr : Rest tail args) : Reads dur decl (options items ++ tail) (items.map setting) args := by
  induction items with
  | nil => exact reads_rest hr
  | cons i items ih =>
    have ih := ih (fun j hj => hi j (List.mem_cons_of_mem _ hj))
    have h1 := hi i List.mem_cons_self
    cases i with
    | on n => exact .on (Or.inl rfl) (hb n h1).1 (hb n h1).2 ih
    | set n v => exact .apart (Or.inl rfl) (hs n h1).1 (hs n h1).2 (by simp) (.str v) ih

theorem parse_items {dur : Bytes → Option Int} {decl : Bytes → Option Kind} {ons sets tail args : List Bytes} {items : List Item}
    (hb : ∀ n ∈ ons, Name n ∧ decl n = some .bool) (hs : ∀ n ∈ sets, Name n ∧ decl n = some .str)
    (hi : Among ons sets items) (hr : Rest tail args) : parse dur decl (options items ++ tail) = some (items.map setting, args) :=
  parse_of_reads (reads_items hb hs hi hr)

theorem last_on {ons sets : List Bytes} {items : List Item} {n : Bytes} (hi : Among ons sets items) (hn : n ∉ sets) :
    last (items.map setting) n = if .on n ∈ items then some (.bool true) else none := by
  suffices ∀ v, (items.map setting).foldl (fun v p => if p.1 = n then some p.2 else v) v = if .on n ∈ items then some (.bool true) else v from this none
  induction items with
  | nil => intro v; simp
  | cons i items ih =>
    intro v
    have ih := ih (fun j hj => hi j (List.mem_cons_of_mem _ hj))
    have h1 := hi i List.mem_cons_self
    simp only [List.map_cons, List.foldl_cons]
    rw [ih]
    cases i with
    | on m =>
      simp only [setting, List.mem_cons, Item.on.injEq]
      by_cases h : n = m
      · subst h; simp
      · simp [h, Ne.symm h]
    | set m u =>
      have : m ≠ n := fun h => hn (h ▸ h1)
      simp [setting, this]

theorem boolOf_items {ons sets : List Bytes} {items : List Item} {n : Bytes} (hi : Among ons sets items) (hn : n ∉ sets) :
    boolOf (items.map setting) n = decide (.on n ∈ items) := by
  unfold boolOf
  rw [last_on hi hn]
  by_cases h : Item.on n ∈ items <;> simp [h]

theorem strOf_items {ons sets : List Bytes} {items : List Item} {n : Bytes} (hi : Among ons sets items) (hn : n ∉ ons) (default : Bytes) :
    strOf (items.map setting) n default = value n default items := by
  suffices ∀ v : Option Bytes, (match (items.map setting).foldl (fun v p => if p.1 = n then some p.2 else v) (v.map Val.str) with
      | some (.str v) => v
      | _ => default) = value n (v.getD default) items from this none
  induction items with
  | nil => intro v; cases v <;> rfl
  | cons i items ih =>
    intro v
    have ih := ih (fun j hj => hi j (List.mem_cons_of_mem _ hj))
    have h1 := hi i List.mem_cons_self
    simp only [List.map_cons, List.foldl_cons]
    cases i with
    | on m =>
      have : m ≠ n := fun h => hn (h ▸ h1)
      simp only [setting, this, if_false, value]
      exact ih v
    | set m u =>
      simp only [setting, value]
      by_cases h : m = n
      · simp only [h, if_true]
        exact ih (some u)
      · simp only [h, if_false]
        exact ih v

theorem table_declared (ons sets : List Bytes) : table ons sets = declared ons sets [] := by
  funext n
  simp [table, declared]

/-! ### With durations -/

/-- The value that an option sets, if the ones in `durs` are durations. -/
def settingD (dur : Bytes → Option Int) (durs : List Bytes) : Item → Bytes × Val
  | .on n => (n, .bool true)
  | .set n v => if n ∈ durs then (n, .dur ((dur v).getD 0)) else (n, .str v)

theorem settingD_name (dur : Bytes → Option Int) (durs : List Bytes) (m u : Bytes) : (settingD dur durs (.set m u)).1 = m := by
  simp only [settingD]
  split <;> rfl

theorem parse_itemsD {dur : Bytes → Option Int} {decl : Bytes → Option Kind} {ons sets durs tail args : List Bytes} {items : List Item}
    (hb : ∀ n ∈ ons, Name n ∧ decl n = some .bool) (hs : ∀ n ∈ sets, Name n ∧ n ∉ durs ∧ decl n = some .str)
    (hd : ∀ n ∈ durs, Name n ∧ decl n = some .dur) (hi : Among ons (sets ++ durs) items)
    (hv : ∀ n ∈ durs, ∀ v, .set n v ∈ items → dur v ≠ none) (hr : Rest tail args) :
    parse dur decl (options items ++ tail) = some (items.map (settingD dur durs), args) := by
  refine parse_of_reads ?_
  induction items with
  | nil => exact reads_rest hr
  | cons i items ih =>
    have ih := ih (fun j hj => hi j (List.mem_cons_of_mem _ hj)) (fun n hn v hm => hv n hn v (List.mem_cons_of_mem _ hm))
    have h1 := hi i List.mem_cons_self
    cases i with
    | on n => exact .on (Or.inl rfl) (hb n h1).1 (hb n h1).2 ih
    | set n v =>
      rw [List.map_cons, settingD]
      by_cases hn : n ∈ durs
      · rw [if_pos hn]
        obtain ⟨d, hdv⟩ := Option.ne_none_iff_exists'.mp (hv n hn v List.mem_cons_self)
        exact .apart (Or.inl rfl) (hd n hn).1 (hd n hn).2 (by simp) (.dur (by rw [hdv]; rfl)) ih
      · rw [if_neg hn]
        have := (List.mem_append.mp h1).resolve_right hn
        exact .apart (Or.inl rfl) (hs n this).1 (hs n this).2.2 (by simp) (.str v) ih

theorem boolOf_itemsD {dur : Bytes → Option Int} {ons sets durs : List Bytes} {items : List Item} {n : Bytes}
    (hi : Among ons sets items) (hn : n ∉ sets) : boolOf (items.map (settingD dur durs)) n = decide (.on n ∈ items) := by
  suffices ∀ v : Option Bool, (match (items.map (settingD dur durs)).foldl (fun v p => if p.1 = n then some p.2 else v) (v.map Val.bool) with
      | some (.bool b) => b
      | _ => false) = (decide (.on n ∈ items) || v.getD false) from (this none).trans (by simp)
  induction items with
  | nil => intro v; cases v <;> simp
  | cons i items ih =>
    intro v
    have ih := ih (fun j hj => hi j (List.mem_cons_of_mem _ hj))
    have h1 := hi i List.mem_cons_self
    simp only [List.map_cons, List.foldl_cons]
    cases i with
    | on m =>
      by_cases h : m = n
      · subst h
        simp only [settingD, if_true]
        exact (ih (some true)).trans (by simp)
      · simp only [settingD, h, if_false]
        exact (ih v).trans (by simp [Ne.symm h])
    | set m u =>
      have : m ≠ n := fun h => hn (h ▸ h1)
      have hs := settingD_name dur durs m u
      rw [hs, if_neg this]
      exact (ih v).trans (by simp)

theorem strOf_itemsD {dur : Bytes → Option Int} {ons sets durs : List Bytes} {items : List Item} {n : Bytes}
    (hi : Among ons sets items) (hn : n ∉ ons) (hd : n ∉ durs) (default : Bytes) :
    strOf (items.map (settingD dur durs)) n default = value n default items := by
  suffices ∀ v : Option Bytes, (match (items.map (settingD dur durs)).foldl (fun v p => if p.1 = n then some p.2 else v) (v.map Val.str) with
      | some (.str v) => v
      | _ => default) = value n (v.getD default) items from this none
  induction items with
  | nil => intro v; cases v <;> rfl
  | cons i items ih =>
    intro v
    have ih := ih (fun j hj => hi j (List.mem_cons_of_mem _ hj))
    have h1 := hi i List.mem_cons_self
    simp only [List.map_cons, List.foldl_cons]
    cases i with
    | on m =>
      have : m ≠ n := fun h => hn (h ▸ h1)
      simp only [settingD, this, if_false, value]
      exact ih v
    | set m u =>
      by_cases h : m = n
      · subst h
        simp only [settingD, hd, value, if_true, if_false]
        exact ih (some u)
      · have hs := settingD_name dur durs m u
        rw [hs, if_neg h]
        simp only [value, if_neg h]
        exact ih v

theorem durOf_itemsD {dur : Bytes → Option Int} {ons sets durs : List Bytes} {items : List Item} {n : Bytes}
    (hi : Among ons sets items) (hn : n ∉ ons) (hd : n ∈ durs) (hv : ∀ v, .set n v ∈ items → dur v ≠ none) (default : Int) :
    durOf (items.map (settingD dur durs)) n default = ((given n items).bind dur).getD default := by
  suffices ∀ v : Option Bytes, (∀ u, v = some u → dur u ≠ none) →
      (match (items.map (settingD dur durs)).foldl (fun v p => if p.1 = n then some p.2 else v) (v.map (fun u => Val.dur ((dur u).getD 0))) with
      | some (.dur v) => v
      | _ => default) = (((given n items).or v).bind dur).getD default from (this none (by simp)).trans (by simp)
  induction items with
  | nil =>
    intro v h
    cases v with
    | none => rfl
    | some u =>
      obtain ⟨d, hu⟩ := Option.ne_none_iff_exists'.mp (h u rfl)
      simp [given, hu]
  | cons i items ih =>
    intro v hvv
    have ih := ih (fun j hj => hi j (List.mem_cons_of_mem _ hj)) (fun v hm => hv v (List.mem_cons_of_mem _ hm))
    have h1 := hi i List.mem_cons_self
    simp only [List.map_cons, List.foldl_cons]
    cases i with
    | on m =>
      have : m ≠ n := fun h => hn (h ▸ h1)
      simp only [settingD, this, if_false]
      exact (ih v hvv).trans (by simp [given])
    | set m u =>
      by_cases h : m = n
      · subst h
        simp only [settingD, hd, if_true]
        refine (ih (some u) (fun x hx => by cases hx; exact hv u List.mem_cons_self)).trans ?_
        simp only [given, List.filterMap_cons, if_true, List.getLast?_cons]
        cases (List.filterMap (fun i => match i with | .set k v => if k = m then some v else none | _ => none) items).getLast? <;> rfl
      · have hs := settingD_name dur durs m u
        rw [hs, if_neg h]
        exact (ih v hvv).trans (by simp [given, h])

end Verif.Proofs.CommandLine
