import Verif.Spec.Fcrypt
/-! Vocabulary for the properties of fcrypt in the hands of two people. -/

namespace Verif.Spec.TogetherMessages
open Verif Verif.Go Verif.Model.Util Verif.Model.Public Verif.Model.KeyStore Verif.Model.Fcrypt
open Verif.Spec.Public Verif.Spec.KeyStore Verif.Spec.Fcrypt

/-- The holder of the key pair of `d` and `seed` has exported their public key with fcrypt -export,
and someone else, whose pair is that of `d2` and `seed2`, has imported what that wrote with fcrypt
-import -u under `label`, a label that is UTF-8 text. Their key store is at `path`, it is opened
with `pass2`, it had the keys `m2` before, and `fs` is what their disk holds now. -/
inductive Acquired (C : Crypto) (A : Asn1) (P : Armour) (J : KeyJson) (d seed label d2 seed2 pass2 : Bytes) (m2 : Keys) (path : Bytes) (fs : Fs) : Prop
  | intro (e e2 : Env) (fl fl2 : Flags) (dst src out : Bytes) (rest rest2 : List Bytes) (w w' w2 w3 : World) (f f2 : KeyFields) (m : Keys)
      (as2 as3 : List (Option Bytes)) :
      Exports fl → fl.label = self → Keyring C J w.fs fl.path (ownerOf C d seed) f m →
      (∃ t, f.exportKey = some (P.enc (ascii "CRYPTUTIL VERIFIED KEY") (A.enc (statement C d seed (ownerOf C d seed) t)))) →
      (dst ≠ [45] → w.writes 0 = .done) → main C A P J e fl (dst :: rest) w = (.ok, w') → Output w dst out w' →
      Imports fl2 → fl2.untrusted = true → fl2.path = path →
      Keyring C J w2.fs fl2.path (ownerOf C d2 seed2) f2 m2 → Opens C f2 d2 seed2 pass2 →
      w2.term.answers = some pass2 :: as2 → Confirmed as2 as3 → Asked fl2 as3 label → ValidUtf8 label → (∀ n, w2.term.clock n ≠ 0) →
      (∀ k, w2.writes 0 ≠ .failsAfter k) → Input w2 src out → main C A P J e2 fl2 (src :: rest2) w2 = (.ok, w3) → fs = w3.fs →
      Acquired C A P J d seed label d2 seed2 pass2 m2 path fs

end Verif.Spec.TogetherMessages
