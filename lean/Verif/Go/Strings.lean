import Verif.Go.Utf8
/-! The functions of Go's `strings` package that the commands use. -/

namespace Verif.Go

/-- Length of the white-space rune at the front, 0 if there is none (`unicode.IsSpace`). -/
def spaceLen : Bytes → Nat
  | [] => 0
  | b0 :: r =>
    if b0 == 0x20 || (0x09 ≤ b0 && b0 ≤ 0x0D) then 1
    else match r with
      | [] => 0
      | b1 :: r =>
        if b0 == 0xC2 && (b1 == 0x85 || b1 == 0xA0) then 2
        else match r with
          | [] => 0
          | b2 :: _ =>
            if b0 == 0xE1 && b1 == 0x9A && b2 == 0x80 then 3
            else if b0 == 0xE2 && b1 == 0x80 && ((0x80 ≤ b2 && b2 ≤ 0x8A) || b2 == 0xA8 || b2 == 0xA9 || b2 == 0xAF) then 3
            else if b0 == 0xE2 && b1 == 0x81 && b2 == 0x9F then 3
            else if b0 == 0xE3 && b1 == 0x80 && b2 == 0x80 then 3
            else 0

/-- Length of the white-space rune at the back, 0 if there is none. -/
def spaceLenBack (s : Bytes) : Nat :=
  if s.length ≥ 1 && spaceLen (s.drop (s.length - 1)) == 1 then 1
  else if s.length ≥ 2 && spaceLen (s.drop (s.length - 2)) == 2 then 2
  else if s.length ≥ 3 && spaceLen (s.drop (s.length - 3)) == 3 then 3
  else 0

def trimLeftF : Nat → Bytes → Bytes
  | 0, s => s
  | n + 1, s => if spaceLen s = 0 then s else trimLeftF n (s.drop (spaceLen s))

def trimRightF : Nat → Bytes → Bytes
  | 0, s => s
  | n + 1, s => if spaceLenBack s = 0 then s else trimRightF n (s.take (s.length - spaceLenBack s))

/-- `strings.TrimSpace` -/
def trimSpace (s : Bytes) : Bytes :=
  let s := trimLeftF s.length s
  trimRightF s.length s

/-- `strings.Fields`: `cur` is the word being read, in reverse. -/
def fieldsF : Nat → Bytes → Bytes → List Bytes
  | 0, cur, _ => if cur = [] then [] else [cur.reverse]
  | _ + 1, cur, [] => if cur = [] then [] else [cur.reverse]
  | n + 1, cur, b :: s =>
    if spaceLen (b :: s) = 0 then fieldsF n (b :: cur) s
    else (if cur = [] then [] else [cur.reverse]) ++ fieldsF n [] ((b :: s).drop (spaceLen (b :: s)))

def fields (s : Bytes) : List Bytes := fieldsF (s.length + 1) [] s

/-- `strings.SplitN(s, "=", 2)` when there are two parts. -/
def splitEq (s : Bytes) : Option (Bytes × Bytes) :=
  if (61 : UInt8) ∈ s then some (s.takeWhile (· ≠ 61), (s.dropWhile (· ≠ 61)).drop 1) else none

/-- ASCII lower case. The strings that `strings.ToLower` turns into one of the ASCII words the
programs compare with ("y", "yes", "totp", "totp-google", "google", "hotp") are the ASCII strings
for which this function does, since no other rune has a lower case among their letters. -/
def lowerByte (b : UInt8) : UInt8 := if 0x41 ≤ b && b ≤ 0x5A then b + 32 else b
def lower (s : Bytes) : Bytes := s.map lowerByte

/-- ASCII upper case. -/
def upperByte (b : UInt8) : UInt8 := if 0x61 ≤ b && b ≤ 0x7A then b - 32 else b
def upper (s : Bytes) : Bytes := s.map upperByte

/-- The bytes of an ASCII literal. -/
def ascii (s : String) : Bytes := s.toList.map (fun c => UInt8.ofNat c.toNat)

example : trimSpace (ascii " \tab c\u000a") = ascii "ab c" := by decide
example : trimSpace [0xC2, 0xA0, 0x41, 0xE3, 0x80, 0x80] = [0x41] := by decide
example : fields (ascii " show  a b ") = [ascii "show", ascii "a", ascii "b"] := by decide
example : splitEq (ascii "k=v=w") = some (ascii "k", ascii "v=w") := by decide
example : lower (ascii "YeS") = ascii "yes" := by decide

end Verif.Go
