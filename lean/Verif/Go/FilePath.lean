import Verif.Go.Strings
/-!
Paths: path/filepath on Unix, and how the operating system resolves a path when there are no
symbolic links.
-/

namespace Verif.Go

/-- '/' -/
abbrev slash : UInt8 := 47
/-- "." -/
abbrev dot : Bytes := [46]
/-- ".." -/
abbrev dotdot : Bytes := [46, 46]

/-- `strings.Split(p, "/")`; `cur` is the component being read, in reverse. -/
def splitSlashF : Bytes → Bytes → List Bytes
  | cur, [] => [cur.reverse]
  | cur, b :: p => if b = slash then cur.reverse :: splitSlashF [] p else splitSlashF (b :: cur) p

def splitSlash (p : Bytes) : List Bytes := splitSlashF [] p

/-- `strings.Join(cs, "/")` -/
def joinSlash : List Bytes → Bytes
  | [] => []
  | [c] => c
  | c :: cs => c ++ slash :: joinSlash cs

/-- What one component does to the stack of components seen so far (top first). In a relative
path ".." is kept when there is nothing to remove. -/
def pathStep (rooted : Bool) (stack : List Bytes) (c : Bytes) : List Bytes :=
  if c = [] ∨ c = dot then stack
  else if c = dotdot then
    match stack with
    | [] => if rooted then [] else [dotdot]
    | t :: r => if t = dotdot then dotdot :: stack else r
  else c :: stack

/-- Does the path start with a slash? -/
def rootedPath (p : Bytes) : Bool := p.head? == some slash

/-- The components of `filepath.Clean(p)`. -/
def cleanComps (p : Bytes) : List Bytes := ((splitSlash p).foldl (pathStep (rootedPath p)) []).reverse

/-- A cleaned path as a string. -/
def renderPath (rooted : Bool) (cs : List Bytes) : Bytes :=
  if rooted then slash :: joinSlash cs else if cs = [] then dot else joinSlash cs

/-- `filepath.Clean` -/
def cleanPath (p : Bytes) : Bytes := renderPath (rootedPath p) (cleanComps p)

/-- `filepath.Join` of two elements: empty ones are left out. -/
def joinPath (a b : Bytes) : Bytes :=
  if a = [] then if b = [] then [] else cleanPath b
  else if b = [] then cleanPath a
  else cleanPath (a ++ slash :: b)

/-- The part of a path up to and including the last slash. -/
def dirPart (p : Bytes) : Bytes := (p.reverse.dropWhile (· ≠ slash)).reverse

/-- `filepath.Dir` -/
def dirPath (p : Bytes) : Bytes := cleanPath (dirPart p)

/-- The place (components from the root) that the operating system finds for path `p` when the
working directory is `cwd`, if there are no symbolic links. -/
def resolvePath (cwd : List Bytes) (p : Bytes) : List Bytes :=
  ((splitSlash p).foldl (pathStep true) (if rootedPath p then [] else cwd.reverse)).reverse

example : cleanPath (ascii "abc//def/./../x/") = ascii "abc/x" := by decide
example : cleanPath (ascii "../../abc/..") = ascii "../.." := by decide
example : cleanPath (ascii "/../abc") = ascii "/abc" := by decide
example : cleanPath [] = ascii "." := by decide
example : joinPath (ascii "/tmp/out") (ascii "../x") = ascii "/tmp/x" := by decide
example : joinPath (ascii "a") (ascii "/b") = ascii "a/b" := by decide
example : dirPath (ascii "a/b/c") = ascii "a/b" := by decide
example : dirPath (ascii "c") = ascii "." := by decide
example : dirPath (ascii "/c") = ascii "/" := by decide
example : resolvePath [ascii "home", ascii "u"] (ascii "../v/./w") = [ascii "home", ascii "v", ascii "w"] := by decide

end Verif.Go
