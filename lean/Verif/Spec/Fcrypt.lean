import Verif.Spec.KeyStore
import Verif.Model.Fcrypt
/-! Vocabulary for the properties of fcrypt. -/

namespace Verif.Spec.Fcrypt
open Verif Verif.Go Verif.Model.Util Verif.Model.Public Verif.Model.KeyStore Verif.Model.Fcrypt
open Verif.Spec.Public Verif.Spec.KeyStore

/-- The file at `path` is a key store as fcrypt writes them: it has a version and a time, its
owner's public key, a locked private key, and records with trusted keys. -/
structure Keyring (C : Crypto) (J : KeyJson) (fs : Fs) (path owner : Bytes) (f : KeyFields) (m : Keys) : Prop where
  file : ∃ data, fs path = some data ∧ J.dec data = some f
  version : f.version = 1
  time : f.timestamp ≠ 0
  pub : f.publicKey = some owner
  len : owner.length = 64
  keys : f.keys.getD Map.empty = m
  noNil : NoNil m
  labelled : Labelled m
  noSelf : m self = none
  trust : ∀ l r, m l = some (some r) → Trust C owner m l
  locked : f.lockedKey ≠ none

/-- The file at `path` is a key store of `owner`, with whatever keys. -/
structure Keyfile (J : KeyJson) (fs : Fs) (path owner : Bytes) (f : KeyFields) (m : Keys) : Prop where
  file : ∃ data, fs path = some data ∧ J.dec data = some f
  version : f.version = 1
  time : f.timestamp ≠ 0
  pub : f.publicKey = some owner
  len : owner.length = 64
  keys : f.keys.getD Map.empty = m
  locked : f.lockedKey ≠ none

/-- The passphrase opens the locked key, and that is the pair of `d` and `seed`. -/
structure Opens (C : Crypto) (f : KeyFields) (d seed pass : Bytes) : Prop where
  dlen : d.length = 32
  slen : seed.length = 32
  key : ∃ box, f.lockedKey = some box ∧ unlockKey C box pass = .ok (some (pairOf C d seed))

/-- What is read from the path: the file, or standard input for "-". -/
def Input (w : World) (path data : Bytes) : Prop :=
  if path = [45] then w.stdin = data else w.fs path = some data

/-- All of `data` went to the path, and nothing else to any file or to standard output. -/
def Output (w : World) (path data : Bytes) (w' : World) : Prop :=
  if path = [45] then w'.stdout = w.stdout ++ data ∧ w'.fs = w.fs
  else w'.stdout = w.stdout ∧ w'.fs = w.fs.set path data

/-- What fcrypt may print on standard output before a command begins: nothing, or one of these. -/
def Notice (n : Bytes) : Prop :=
  n = [] ∨ n = ascii "Building export key.\n" ∨ n = ascii "error in LoadKeyStore" ∨ n = ascii "keystore not valid\n"

/-- What is printed when a key store is unlocked. Stores without an export key are those of earlier versions. -/
def notice (f : KeyFields) : Bytes := if f.exportKey = none then ascii "Building export key.\n" else []

/-- Nothing was written, except a notice on standard output. -/
def Silent (w w' : World) : Prop := (∃ n, Notice n ∧ w'.stdout = w.stdout ++ n) ∧ w'.fs = w.fs

/-- A file begins like armour. -/
def BeginsArmour (b : Bytes) : Prop := ∃ rest, rest ≠ [] ∧ b = ascii "-----BEGIN" ++ rest

/-- The signature that a signature file holds, armoured or not. -/
def SignatureIn (P : Armour) (input sig : Bytes) : Prop :=
  (BeginsArmour input ∧ P.dec input = some (ascii "CRYPTUTIL SIGNATURE", sig)) ∨ (¬ BeginsArmour input ∧ sig = input)

/-- `sig` is a signature of `msg` by the key that the label stands for. -/
def SignedBy (C : Crypto) (owner : Bytes) (m : Keys) (label msg sig : Bytes) : Prop :=
  ∃ k, Names owner m label k ∧ k.length = 64 ∧ sig.length = 64 ∧ C.verify (k.drop 32) msg sig = true

/-- No attempt between `w` and `w'` to write a file failed. -/
def AllWritten (w w' : World) : Prop := w'.failed = w.failed

/-- The verification key that a label stands for: half of the pair `k` for "self", and half of the
key on record for other labels. -/
inductive VerificationKey (k : PrivateKey) (m : Keys) : Bytes → Bytes → Prop
  | owner {e v : Bytes} : k.pub = some { E := some e, V := some v } → VerificationKey k m self v
  | peer {l : Bytes} {r : PublicKeyRecord} {b : Bytes} : l ≠ self → m l = some (some r) → r.keys = some b → b.length = 64 →
      VerificationKey k m l (b.drop 32)

/-- Some of `data` went to the path, all of it if `ok`. -/
def Written (w : World) (path data : Bytes) (ok : Bool) (w' : World) : Prop :=
  Output w path data w' ∨
  (path ≠ [45] ∧ ok = false ∧ w'.stdout = w.stdout ∧ (w'.fs = w.fs ∨ ∃ n, w'.fs = w.fs.set path (data.take n)))

/-! What the flags ask for. -/

/-- `fcrypt -check` -/
def Checks (f : Flags) : Prop := f.check = true
/-- `fcrypt -s -e` -/
def SignsEncrypted (f : Flags) : Prop := f.check = false ∧ f.sign = true ∧ f.encrypt = true
/-- `fcrypt -s` -/
def Signs (f : Flags) : Prop := f.check = false ∧ f.sign = true ∧ f.encrypt = false
/-- `fcrypt -v` -/
def Verifies (f : Flags) : Prop := f.check = false ∧ f.sign = false ∧ f.verify = true
/-- `fcrypt -e` -/
def Encrypts (f : Flags) : Prop := f.check = false ∧ f.sign = false ∧ f.verify = false ∧ f.encrypt = true
/-- `fcrypt -d` -/
def Decrypts (f : Flags) : Prop := f.check = false ∧ f.sign = false ∧ f.verify = false ∧ f.encrypt = false ∧ f.decrypt = true
/-- No flag that stands before -r. -/
def NoMessage (f : Flags) : Prop := f.check = false ∧ f.sign = false ∧ f.verify = false ∧ f.encrypt = false ∧ f.decrypt = false
/-- `fcrypt -r` -/
def Removes (f : Flags) : Prop := NoMessage f ∧ f.remove = true
/-- `fcrypt -k` -/
def Lists (f : Flags) : Prop := NoMessage f ∧ f.remove = false ∧ f.list = true
/-- `fcrypt -export` -/
def Exports (f : Flags) : Prop := NoMessage f ∧ f.remove = false ∧ f.list = false ∧ f.export_ = true
/-- `fcrypt -import` -/
def Imports (f : Flags) : Prop := NoMessage f ∧ f.remove = false ∧ f.list = false ∧ f.export_ = false ∧ f.import_ = true

/-- The files that the flags and arguments allow to be changed. -/
inductive MayChange (f : Flags) : List Bytes → Bytes → Prop
  | output {src dst : Bytes} {rest : List Bytes} : SignsEncrypted f ∨ Signs f ∨ Encrypts f ∨ Decrypts f → dst ≠ [45] →
      MayChange f (src :: dst :: rest) dst
  | export_ {dst : Bytes} {rest : List Bytes} : Exports f → dst ≠ [45] → MayChange f (dst :: rest) dst
  | store {args : List Bytes} : Checks f ∨ Removes f ∨ Imports f → MayChange f args f.path

/-- The label under which a key is to be imported: the one given with -l, or the next line typed if
that is "self". -/
def Asked (f : Flags) (answers : List (Option Bytes)) (label : Bytes) : Prop :=
  (f.label ≠ self ∧ label = f.label) ∨ (f.label = self ∧ ∃ rest, answers = some label :: rest)

/-- The input holds the statement `v`. -/
def Holds (A : Asn1) (P : Armour) (input : Bytes) (v : VerifiedKey) : Prop :=
  ∃ body, P.dec input = some (ascii "CRYPTUTIL VERIFIED KEY", body) ∧ A.dec body = some v

/-- The owner or someone whose key is on record vouches for the key in `v`. -/
def Vouched (C : Crypto) (owner : Bytes) (m : Keys) (v : VerifiedKey) : Prop :=
  (v.signer = owner ∨ ∃ l r, m l = some (some r) ∧ r.keyBytes = v.signer) ∧ Signed C v.signer v.pub v.signature v.timestamp

/-- The run asked for "yes" and was told, after lines that are neither "yes" nor "no". -/
def Confirmed (answers rest : List (Option Bytes)) : Prop :=
  ∃ pre : List Bytes, answers = pre.map some ++ some (ascii "yes") :: rest ∧ ∀ x ∈ pre, x ≠ ascii "yes" ∧ x ≠ ascii "no"

/-- The input ended, or could not be read, before "yes" or "no" was given. -/
def Unanswered (answers : List (Option Bytes)) : Prop :=
  ∃ pre : List Bytes, (∀ x ∈ pre, x ≠ ascii "yes" ∧ x ≠ ascii "no") ∧ (answers = pre.map some ∨ ∃ t, answers = pre.map some ++ none :: t)

/-- The key store file was replaced: it now holds the keys of `m'`, and what unlocks it is as it
was. If the strings are UTF-8 it can be read again. -/
def Replaced (C : Crypto) (J : KeyJson) (w : World) (path owner : Bytes) (f : KeyFields) (m' : Keys) (w' : World) : Prop :=
  ∃ f', w'.fs = w.fs.set path (J.enc f') ∧ f'.keys = some m' ∧ f'.lockedKey = f.lockedKey ∧ f'.publicKey = some owner ∧
    ((∀ l, m' l ≠ none → ValidUtf8 l) → Keyring C J w'.fs path owner f' m')

end Verif.Spec.Fcrypt
