import Verif.Spec.Fcrypt
import Verif.Model.FcryptOutput
/-! Vocabulary for the properties of what fcrypt prints. -/

namespace Verif.Spec.FcryptOutput
open Verif Verif.Go Verif.Model.KeyStore Verif.Model.Fcrypt Verif.Model.FcryptOutput Verif.Spec.KeyStore Verif.Spec.Fcrypt

/-- A line on standard error, in the form that all the programs share. -/
def IsError (x : Piece) : Prop := ∃ text, x = .err (ascii "[!] " ++ text ++ ascii "\n")

/-- Something on standard output. -/
def IsOutput (x : Piece) : Prop := ∃ text, x = .out text

/-- One of the flags that stand for a command was given. -/
def Commanded (f : Flags) : Prop :=
  f.check = true ∨ f.sign = true ∨ f.verify = true ∨ f.encrypt = true ∨ f.decrypt = true ∨ f.remove = true ∨ f.list = true ∨
    f.export_ = true ∨ f.import_ = true

/-- The key in the statement is signed with the key itself. -/
def SelfSigned (C : Crypto) (v : VerifiedKey) : Prop := Signed C v.pub v.pub v.signature v.timestamp ∧ v.signer = v.pub

/-- What is to be shown before the first question: the warning, a line on the signature, and the fingerprint of the key. -/
def announced (line fingerprint : Bytes) : List Piece :=
  [.out (ascii "*****************************************\n"), .out (ascii "*** WARNING: IMPORTING UNTRUSTED KEYS ***\n"),
   .out (ascii "*****************************************\n"), .out line, .out (ascii "Fingerprint: " ++ fingerprint ++ ascii "\n")]

/-- What is said first, when the key store has no export key yet. -/
def noticed (f : KeyFields) : List Piece := if f.exportKey = none then [.out (ascii "Building export key.\n")] else []

/-- If the key store file holds a key store at all, then it is of this version, and has a time. -/
def Loads (J : KeyJson) (fs : Fs) (path : Bytes) : Prop :=
  ∀ data f, fs path = some data → J.dec data = some f → f.version = 1 ∧ f.timestamp ≠ 0

/-- Bytes as numbers, in brackets, with spaces between them. -/
def listed (b : Bytes) : Bytes := ascii "[" ++ (ascii " ").intercalate (b.map fun x => decimal x.toNat) ++ ascii "]"

/-- The question. -/
def asked : Piece := .out (ascii "\nAre you sure you want to import this key? (yes or no) ")

/-- A question that had some other answer. -/
def askedAgain : List Piece := [asked, .out (ascii "Please enter either 'yes' or 'no'.\n")]

/-- `fcrypt -s -e`, `-s`, `-v`, `-e`, `-d` -/
def Works (f : Flags) : Prop := SignsEncrypted f ∨ Signs f ∨ Verifies f ∨ Encrypts f ∨ Decrypts f

/-- All that these commands may print when they write to a file. `T` stands for the text of any error of the operating system or of the terminal. -/
def fixedText (T : Bytes) : List Piece :=
  [.err (ascii "[!] Failed to generate key.\n"), .out (ascii "Building export key.\n"), .out (ascii "error in LoadKeyStore"), .out (ascii "keystore not valid\n"), .out (ascii "Writing keystore.\n"),
   .out (ascii "Valid signature.\n"), .out (ascii "Signature: OK\n"), .out (ascii "Signature: INVALID\n"),
   .err (ascii "[!] " ++ T ++ ascii "\n"), .err (ascii "[!] Failed: " ++ T ++ ascii "\n"),
   .err (ascii "[!] Failed to set initial passphrase.\n"), .err (ascii "[!] Flushing keystore failed.\n"),
   .err (ascii "[!] Failed to load keystore.\n"), .err (ascii "[!] Unlock failed (bad passphrase?)\n"),
   .err (ascii "[!] Failed to encrypt message.\n"), .err (ascii "[!] Failed: encryption failed\n"),
   .err (ascii "[!] Failed: decrypt failed\n"), .err (ascii "[!] Failed: decrypt and verify failed\n"),
   .err (ascii "[!] Failed: signing failed\n"), .err (ascii "[!] Failed: signcryption failed\n"),
   .err (ascii "[!] Failed: failed to decode PEM file\n"), .err (ascii "[!] Failed: invalid message\n")]

end Verif.Spec.FcryptOutput
