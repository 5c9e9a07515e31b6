import Verif.Model.Fcrypt
/-!
Runs of exp/fcrypt during which other programs change files. fcrypt reads its key store once, at the beginning (`loadStore`), asks for the passphrase,
carries out its command, and writes the store at the end; it holds no lock. `other` is what happens to the files in between. Simplification: all of it
happens right after the store has been read. Of the store, fcrypt only asks again, at the end, whether there is a file
(exp/fcrypt/fcrypt.go:579), so that this stands for changes at any time before that.
-/

namespace Verif.Model.MeanwhileKeys
open Verif Verif.Go Verif.Model.Util Verif.Model.KeyStore Verif.Model.Fcrypt

/-- The files are changed. -/
def change (other : Fs → Fs) (w : World) : World := { w with fs := other w.fs }

/-- `main` of exp/fcrypt (exp/fcrypt/fcrypt.go:493-593). -/
def fcrypt (C : Crypto) (A : Asn1) (P : Armour) (J : KeyJson) (other : Fs → Fs) (e : Env) (f : Flags) (args : List Bytes) (w : World) : Ret × World :=
  match select C A P e f with
  | none => (.ok, change other w)
  | some cmd =>
    if args.length < cmd.argc then (.err, change other w)
    else match loadStore C A P J w f.path with
      | .panic => (.panic, change other w)
      | .ok (none, w) => (.err, change other w)
      | .ok (some ks, w) => execute C A P J f cmd (config f args) ks (change other w)

end Verif.Model.MeanwhileKeys
