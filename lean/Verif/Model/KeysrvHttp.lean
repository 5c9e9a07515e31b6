import Verif.Model.Keysrv
import Verif.Go.FilePath
import Verif.Go.Url
/-!
How an HTTP request reaches the handlers of exp/keysrv/keysrv.go: the routes of `main` (312-315) as
gorilla/mux 1.8.1 (go.mod:9) reads them, and what net/http does with the request target before.
-/

namespace Verif.Model.Keysrv
open Verif Verif.Go Verif.Model.Util Verif.Model.KeyStore

/-- A request. `target` is in origin form: a path and perhaps a query. `body` is what reading the
body yields, or the text of the error. -/
structure Http where
  method : Bytes
  target : Bytes
  body : Except Bytes Bytes

/-- What becomes of a request: an answer at once, perhaps with a header "Location", or the handler
gets to send its command to the dispatcher. -/
inductive Front where
  | direct (reply : Reply) (location : Option Bytes)
  | handler (r : Request)

/-- The path of the target, decoded: `url.ParseRequestURI`, which net/http calls. Control characters
and spaces make a request malformed. A `#` is a character like any other. -/
def requestPath (target : Bytes) : Option Bytes :=
  if target.any (fun c => c ≤ 32 || c == 127) then none
  else if target.head? ≠ some slash then none
  else pathUnescape (target.takeWhile (· ≠ 63))

/-- `cleanPath` of mux: path.Clean, but a slash at the end is kept. -/
def muxClean (p : Bytes) : Bytes :=
  if p = [] then [slash]
  else
    let p := if p.head? ≠ some slash then slash :: p else p
    let np := cleanPath p
    if p.getLast? = some slash ∧ np ≠ [slash] then np ++ [slash] else np

/-- The value of `{label}` in a route `pre{label}`: what matches the regular expression `[^/]+`. -/
def routeLabel (pre p : Bytes) : Option Bytes :=
  if pre.isPrefixOf p then
    let l := p.drop pre.length
    if l = [] ∨ slash ∈ l then none else some l
  else none

/-- The router and the handlers up to `dispatch <- cmd` (exp/keysrv/keysrv.go:312-315, 34-38, 48-56,
74-79, 82-97). No route asks for a method. A path that is not clean is redirected to the clean one;
the query, which nothing else depends on, is kept. The text of the answer to a malformed request is
that of net/http for HTTP/1.1. -/
def serveHTTP (h : Http) : Front :=
  match requestPath h.target with
  | none => .direct ⟨400, ascii "400 Bad Request"⟩ none
  | some p =>
    if muxClean p ≠ p then .direct ⟨301, []⟩ (some (escapedPath (muxClean p) ++ h.target.dropWhile (· ≠ 63)))
    else if p = ascii "/public/" then .handler .server
    else match routeLabel (ascii "/public/") p with
      | some l => .handler (.pubkey l)
      | none => match routeLabel (ascii "/upload/") p with
        | some l => match h.body with
          | .error e => .direct ⟨400, e⟩ none
          | .ok b => .handler (.upload l b)
        | none => match routeLabel (ascii "/fingerprint/") p with
          | some l => .handler (.fingerprint l)
          | none => .direct ⟨404, ascii "404 page not found" ++ [10]⟩ none

end Verif.Model.Keysrv
