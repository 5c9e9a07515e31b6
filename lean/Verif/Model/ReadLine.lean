import Verif.Go.Strings
/-! Model of `ReadLine` (common/util/util.go:136-146). -/

namespace Verif.Model.Util
open Verif.Go

/-- `ReadString('\n')` of a fresh `bufio.Reader` on standard input. The input is the list of what
successive `read` system calls will return, none of them empty; how it is cut up is up to the
operating system and what is at the other end. `acc` is what has been read already. The result is
the text up to and including the newline, whether the error is nil, and what standard input holds
afterwards: what the reader has buffered beyond the newline is lost with it. -/
def readString : (acc : Bytes) → List Bytes → Bytes × Bool × List Bytes
  | acc, [] => (acc, false, [])
  | acc, c :: cs =>
    if (10 : UInt8) ∈ c then (acc ++ c.takeWhile (· ≠ 10) ++ [10], true, cs)
    else readString (acc ++ c) cs

/-- `ReadLine` (common/util/util.go:136-146): line, whether the error is nil, and the rest of the
input. The line is trimmed only if there was no error. -/
def readLine (input : List Bytes) : Bytes × Bool × List Bytes :=
  match readString [] input with
  | (line, false, rest) => (line, false, rest)
  | (line, true, rest) => (trimSpace line, true, rest)

end Verif.Model.Util
