import Verif.Model.Secretscli
/-! Two processes of cmd/secretscli on one machine. -/

namespace Verif.Model.Secretscli
open Verif Verif.Go Verif.Model.SecretStore

/-- The session, when the files are `fs`. -/
def St.sees (st : St) (fs : Fs) : St := { st with w := { st.w with fs := fs } }

@[inherit_doc St.sees] def Sys.sees (s : Sys) (fs : Fs) : Sys := { s with st := s.st.sees fs }

/-- Two processes that share nothing but the files. Each has its own terminal. -/
structure Two where
  a : Sys
  b : Sys

variable (C : Crypto) (J : Json)

/-- Either process does a step, and the other one finds the files changed. There are no locks: the
file is opened, read and closed when a session starts (cmd/secretscli/secretscli.go:175) and opened,
written and closed when it is saved (131; common/util/util.go:128-134). A write is one step. -/
inductive Two.Step (e : Env) : Two → (Event ⊕ Event) → Two → Prop
  | left {t : Two} {ev : Event} {a : Sys} : Secretscli.Step C J e t.a ev a → Two.Step e t (.inl ev) ⟨a, t.b.sees a.st.w.fs⟩
  | right {t : Two} {ev : Event} {b : Sys} : Secretscli.Step C J e t.b ev b → Two.Step e t (.inr ev) ⟨t.a.sees b.st.w.fs, b⟩

/-- A run of the two. -/
inductive Two.Run (e : Env) : Two → List (Event ⊕ Event) → Two → Prop
  | nil (t : Two) : Two.Run e t [] t
  | cons {t t1 t2 : Two} {ev : Event ⊕ Event} {evs : List (Event ⊕ Event)} :
      Two.Step C J e t ev t1 → Two.Run e t1 evs t2 → Two.Run e t (ev :: evs) t2

/-- What the first process did. -/
def lefts (evs : List (Event ⊕ Event)) : List Event := evs.filterMap (fun x => x.elim some (fun _ => none))

/-- What the second process did. -/
def rights (evs : List (Event ⊕ Event)) : List Event := evs.filterMap (fun x => x.elim (fun _ => none) some)

end Verif.Model.Secretscli
