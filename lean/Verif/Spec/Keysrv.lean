import Verif.Model.Keysrv
import Verif.Spec.KeyStore
/-! Vocabulary for the properties of the key server. -/

namespace Verif.Spec.Keysrv
open Verif Verif.Go Verif.Model.Util Verif.Model.Public Verif.Model.KeyStore Verif.Model.Keysrv Verif.Spec.KeyStore

variable (C : Crypto) (A : Asn1) (P : Pem) (J : KeyJson)

/-- Started with the files `fs`, the server comes up with the store `ks` and the files `fs'`. -/
def Starts (fs : Fs) (path : Path) (ks : KeyStore) (fs' : Fs) : Prop :=
  ∃ write pass rng t1 t2 t3 o, o.Enumerate ks ∧ boot C A P J fs path write pass rng t1 t2 t3 o = some (.ok (some ks, fs'))

/-- The file holds a key store in which no record is called "self" and each carries the label it is
stored under. Nothing is said about the signatures. -/
def Ordered (fs : Fs) (path : Path) : Prop :=
  ∀ data f m, fs path = some data → J.dec data = some f → f.keys = some m → m self = none ∧ Labelled m

/-- `body` is an armoured statement `v`. -/
def Armoured (body : Bytes) (v : VerifiedKey) : Prop :=
  ∃ b, P.dec body = some (ascii "CRYPTUTIL VERIFIED KEY", b) ∧ A.dec b = some v

/-- The requests that have arrived. -/
def arrived : List Event → List (Nat × Request)
  | [] => []
  | .arrive n r :: es => (n, r) :: arrived es
  | _ :: es => arrived es

/-- Those who have sent a command, in order. -/
def sent : List Event → List Sender
  | [] => []
  | .send x :: es => x :: sent es
  | _ :: es => sent es

/-- Those whose command the dispatcher has taken, in order. -/
def taken : List Event → List Sender
  | [] => []
  | .handle x _ :: es => x :: taken es
  | .crash x :: es => x :: taken es
  | .hang x :: es => x :: taken es
  | _ :: es => taken es

/-- The requests among some senders. -/
def clients : List Sender → List (Nat × Request)
  | [] => []
  | .client n r :: xs => (n, r) :: clients xs
  | .auditor :: xs => clients xs

/-- The requests that have been answered. -/
def answered (s : State) : List (Nat × Request) := s.replies.map (fun x => (x.1, x.2.1))

end Verif.Spec.Keysrv
