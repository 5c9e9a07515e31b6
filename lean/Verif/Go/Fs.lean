import Verif.Go.Basic
/-!
Files: contents by path. Directories, permissions and links are not modelled here.
-/

namespace Verif.Go

abbrev Path := Bytes

/-- File contents; `none` means the file does not exist. -/
abbrev Fs := Path → Option Bytes

def Fs.set (fs : Fs) (p : Path) (b : Bytes) : Fs := fun q => if q = p then some b else fs q

@[simp] theorem Fs.set_same (fs : Fs) (p : Path) (b : Bytes) : fs.set p b p = some b := by
  simp [Fs.set]

theorem Fs.set_other (fs : Fs) {p q : Path} (b : Bytes) (h : q ≠ p) : fs.set p b q = fs q := by
  simp [Fs.set, h]

/-- What the operating system lets `ioutil.WriteFile` do: succeed, fail to open the file, or
fail after `k` bytes. -/
inductive WriteOutcome where
  | done
  | openFails
  | failsAfter (k : Nat)
deriving DecidableEq, Repr

/-- `ioutil.WriteFile(p, data, perm)`: open with `O_TRUNC`, then write. Returns whether
the error is nil. -/
def writeFile (o : WriteOutcome) (fs : Fs) (p : Path) (data : Bytes) : Fs × Bool :=
  match o with
  | .done => (fs.set p data, true)
  | .openFails => (fs, false)
  | .failsAfter k => (fs.set p (data.take k), false)

/-- The states the disk passes through during `ioutil.WriteFile`: untouched, truncated, and
then longer and longer prefixes. A crash leaves one of them. -/
inductive CrashState (fs : Fs) (p : Path) (data : Bytes) : Fs → Prop where
  | before : CrashState fs p data fs
  | during (k : Nat) : CrashState fs p data (fs.set p (data.take k))

end Verif.Go
