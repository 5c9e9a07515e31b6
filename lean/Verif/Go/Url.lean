import Verif.Go.Text
import Verif.Go.Strings
/-! The parts of net/url that the code uses: escaping, `Values.Encode` and `URL.String`. -/

namespace Verif.Go

/-- An upper-case hexadecimal digit. -/
def upperHex (n : Nat) : UInt8 := UInt8.ofNat (if n < 10 then 48 + n else 55 + n)

/-- `%XY` for a byte. -/
def pct (c : UInt8) : Bytes := [37, upperHex (c.toNat / 16), upperHex (c.toNat % 16)]

/-- Letters, digits and `-_.~`, which are never escaped. -/
def unreserved (c : UInt8) : Bool :=
  (48 ≤ c && c ≤ 57) || (65 ≤ c && c ≤ 90) || (97 ≤ c && c ≤ 122) || c == 45 || c == 95 || c == 46 || c == 126

/-- Left alone in a path besides: `$&+,/:;=@`. -/
def pathSafe (c : UInt8) : Bool :=
  c == 36 || c == 38 || c == 43 || c == 44 || c == 47 || c == 58 || c == 59 || c == 61 || c == 64

/-- `url.QueryEscape`. -/
def queryEscape (b : Bytes) : Bytes :=
  b.flatMap (fun c => if unreserved c then [c] else if c == 32 then [43] else pct c)

/-- `URL.EscapedPath` for a URL without `RawPath`. -/
def escapedPath (b : Bytes) : Bytes :=
  if b = [42] then b else b.flatMap (fun c => if unreserved c || pathSafe c then [c] else pct c)

/-- `Values.Encode` for values with one string per key, given in the order of their keys. -/
def encodeValues : List (Bytes × Bytes) → Bytes
  | [] => []
  | [(k, v)] => queryEscape k ++ 61 :: queryEscape v
  | (k, v) :: r => queryEscape k ++ 61 :: (queryEscape v ++ 38 :: encodeValues r)

/-- `URL.String` for a URL with scheme, host, path and query only, the scheme and host being
non-empty and made of letters. -/
def urlString (scheme host path query : Bytes) : Bytes :=
  let p := escapedPath path
  scheme ++ 58 :: 47 :: 47 :: (host ++
    ((if p ≠ [] ∧ p.head? ≠ some 47 then 47 :: p else p) ++ if query ≠ [] then 63 :: query else []))

/-- `unescape` of net/url in the modes for paths; `none` is an error. -/
def pathUnescape : Bytes → Option Bytes
  | [] => some []
  | [a] => if a = 37 then none else some [a]
  | [a, b] => if a = 37 ∨ b = 37 then none else some [a, b]
  | a :: b :: c :: r =>
    if a = 37 then
      match hexVal b, hexVal c with
      | some x, some y => (pathUnescape r).map (UInt8.ofNat (16 * x + y) :: ·)
      | _, _ => none
    else (pathUnescape (b :: c :: r)).map (a :: ·)

/-- `fmt.Sprintf("%d", i)`. -/
def decimalInt (i : Int) : Bytes := if i < 0 then 45 :: decimal i.natAbs else decimal i.natAbs

end Verif.Go
