import Verif.Go.Disk
/-! What passcrypt promises, stated without the model. -/

namespace Verif.Spec.Passcrypt
open Verif.Go

/-- Permissions of a file, with search permission added for each class that has any. -/
def searchable (m : BitVec 9) : BitVec 9 :=
  m ||| (if m &&& 0o7 ≠ 0 then 0o1 else 0) ||| (if m &&& 0o70 ≠ 0 then 0o10 else 0) |||
    (if m &&& 0o700 ≠ 0 then 0o100 else 0)

/-- The names in a path. -/
def namesIn (p : Bytes) : List Bytes := (splitSlash p).filter (fun c => !(c == [] || c == dot))

/-- The path does not go up. -/
def NoUp (p : Bytes) : Prop := dotdot ∉ splitSlash p

/-- A name that a file can have in a directory. -/
def Name (n : Bytes) : Prop := slash ∉ n ∧ n ≠ [] ∧ n ≠ dot ∧ n ≠ dotdot

/-- What is on the disk is in directories, under names. -/
def Tree (d : Disk) : Prop := ∀ p n, d (p ++ [n]) ≠ none → Name n ∧ ∃ m, d.get p = some (.dir m)

/-- What is not a directory has not the mode bit of directories. -/
def Modes (d : Disk) : Prop := ∀ p m c, d p = some (.file m c) → m &&& 0x80000000 = 0

/-- The mode is that of a regular file: none of the type bits is set. -/
def Plain (m : BitVec 32) : Prop := m &&& 0x8f280000 = 0

/-- Directories that can be listed are listed completely, each name once. -/
def Lists (list : List Bytes → Option (List Bytes)) (d : Disk) : Prop :=
  ∀ p ns, list p = some ns → ns.Nodup ∧ ∀ n, n ∈ ns ↔ d (p ++ [n]) ≠ none

end Verif.Spec.Passcrypt
