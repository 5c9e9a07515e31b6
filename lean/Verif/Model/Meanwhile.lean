import Verif.Model.Journal
/-!
Runs of cmd/secrets, cmd/otpc and cmd/journal during which other programs change files. Each of these programs reads its store once, at the beginning
(`loadStore`), then asks its questions or runs the editor, and writes the store at the end; it holds no lock. `other` is what happens to the files in
between. Simplification: all of it happens right after the store has been read. Since the programs look at no file again before they write, except
at the other store of `secrets -merge` and at the temporary file of journal, this stands for changes at any time up to the write.
-/

namespace Verif.Model.Meanwhile
open Verif Verif.Go Verif.Model.Util Verif.Model.SecretStore
open Verif.Model.Secrets (World loadStore writeStore)

/-- The files are changed. -/
def change (other : Fs → Fs) (w : World) : World := { w with fs := other w.fs }

variable (C : Crypto) (J : Json)

/-- The rest of `main` of cmd/secrets after the store has been read (cmd/secrets/secrets.go:490-503). -/
def secretsRest (ord : Map (Option SecretRecord) → List Bytes) (fuel : Nat) (c : Secrets.Cmd) (cfg : Secrets.Config) (mode : Int) (path : Bytes)
    (ps : SecretStore) (w : World) : Option (Res (Nat × World)) :=
  match Secrets.Cmd.run C J ord fuel c w ps cfg mode with
  | none => none
  | some .panic => some .panic
  | some (.ok (false, _, w)) => some (.ok (1, w))
  | some (.ok (true, ps, w)) =>
    if c.shouldWrite then some (do
      let (now, t) := w.term.now
      let (w, ok) ← writeStore C J { w with term := t } { ps with timestamp := now } path mode
      pure (if ok then 0 else 1, w))
    else some (.ok (0, w))

/-- `main` of cmd/secrets (cmd/secrets/secrets.go:395-504) for the commands that read the store (479-503). -/
def secrets (ord : Map (Option SecretRecord) → List Bytes) (fuel : Nat) (other : Fs → Fs) (c : Secrets.Cmd) (f : Secrets.Flags) (args : List Bytes)
    (path : Bytes) (w : World) : Option (Res (Nat × World)) :=
  if args.length < c.requiredArgc then some (.ok (1, w))
  else match loadStore C J w path f.mode with
    | .panic => some .panic
    | .ok (none, w) => some (.ok (1, change other w))
    | .ok (some ps, w) => secretsRest C J ord fuel c { args := args, clip := f.clip, overwrite := f.overwrite, withMeta := f.withMeta } f.mode path ps (change other w)

variable (T : Otpc.TwoFactor) (U : Otpc.Case)

/-- The rest of `main` of cmd/otpc after the store has been read (cmd/otpc/otpc.go:453-472). -/
def otpcRest (f : Otpc.Flags) (args : List Bytes) (path : Bytes) (ps : SecretStore) (w : World) : Res (Otpc.Outcome × World) :=
  let label := args.headD []
  if f.store then do
    match ← Otpc.addSecret T U w ps ⟨args, Otpc.parseOTPKind f.kind, false⟩ label with
    | (none, _, w) => pure (.exit 1 [], w)
    | (some code, ps, w) => Otpc.save C J w ps path f.mode [code]
  else if f.qr then do
    let (ok, w) ← Otpc.showQR T w ps label (args.tail.headD [])
    pure (.exit (if ok then 0 else 1) [], w)
  else do
    match ← Otpc.showSecret T w ps label with
    | (.failed, _, w) => pure (.exit 1 [], w)
    | (.forever first, _, w) => pure (.forever first, w)
    | (.once code, ps, w) => Otpc.save C J w ps path f.mode [code]

/-- `main` of cmd/otpc (cmd/otpc/otpc.go:402-473) without -V and -init. -/
def otpc (other : Fs → Fs) (f : Otpc.Flags) (args : List Bytes) (path : Bytes) (w : World) : Res (Otpc.Outcome × World) :=
  if args.length < (if f.store then 1 else if f.qr then 2 else 1) then .ok (.exit 1 [], w)
  else do
    match ← loadStore C J w path f.mode with
    | (none, w) => pure (.exit 1 [], change other w)
    | (some ps, w) => otpcRest C J T U f args path ps (change other w)

/-- `main` of cmd/journal (cmd/journal/journal.go:296-371) without -V and -init. -/
def journal (ord : Map (Option SecretRecord) → List Bytes) (other : Fs → Fs) (e : Journal.Env) (f : Journal.Flags) (args : List Bytes) (path : Bytes)
    (w : World) : Res (Nat × Journal.Output × World) :=
  if args.length < (if f.edit then 1 else if f.list then 0 else 1) then .ok (1, .nothing, w)
  else do
    match ← loadStore C J w path f.mode with
    | (none, w) => pure (1, .nothing, change other w)
    | (some ps, w) => Journal.run C J ord e f args path (change other w) ps

end Verif.Model.Meanwhile
