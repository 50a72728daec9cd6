import Verif.Model.Service
import Verif.Model.Inputs
import Verif.Model.JsonText
/-
  The target of a request (the text after `GET`), as `net/http` and `net/url` read it for pkg/service/http.go:269 (`request.URL.Path`) and
  pkg/service/http.go:280 (`url.Query()`). Written from the sources of these packages.
-/
namespace Rodb

/-- url.go `unescape`, of a component of the query string (`query`) or of the path. Used by pkg/service/http.go:269 and 280. -/
def unescape (query : Bool) : Bytes → Option Bytes
  | [] => some []
  | b :: rest =>
    if b = 37 then
      match rest with
      | x :: y :: rest =>
        match hexValue x, hexValue y with
        | some x, some y => (unescape query rest).map (UInt8.ofNat (x * 16 + y) :: ·)
        | _, _ => none
      | _ => none
    else (unescape query rest).map ((if query && b = 43 then 32 else b) :: ·)

/-- The parts of a text between separators, at least one. -/
def queryParts (separator : UInt8 → Bool) : Bytes → List Bytes
  | [] => [[]]
  | b :: rest =>
    if separator b then [] :: queryParts separator rest
    else
      match queryParts separator rest with
      | [] => [[b]]
      | part :: parts => (b :: part) :: parts

/-- The text before the first separator, and the text after it, empty without one (url.go `split`, and `strings.Index` in `parseQuery`). Used by pkg/service/http.go:280. -/
def cutBytes (separator : UInt8) : Bytes → Bytes × Bytes
  | [] => ([], [])
  | b :: rest =>
    if b = separator then ([], rest)
    else ((b :: (cutBytes separator rest).1), (cutBytes separator rest).2)

/-- url.go `parseQuery`, the body of the loop: the name and the value of one part, or nothing if it is empty or cannot be read, in which case it is skipped. Up to Go 1.16 (`old`) a semicolon separates
parts; since Go 1.17 parts with one cannot be read. Used by pkg/service/http.go:280. -/
def queryPair (old : Bool) (part : Bytes) : Option (Bytes × Bytes) :=
  if part = [] then none
  else if !old && part.contains 59 then none
  else
    match unescape true (cutBytes 61 part).1, unescape true (cutBytes 61 part).2 with
    | some name, some value => some (name, value)
    | _, _ => none

/-- url.go `parseQuery`: `m[key] = append(m[key], value)`. A name that is not UTF-8 is left out (simplification: no parameter has such a name, so that the program does not look for it).
Used by pkg/service/http.go:280. -/
def addQueryPair (old : Bool) (m : GoMap (List Bytes)) (part : Bytes) : GoMap (List Bytes) :=
  match queryPair old part with
  | none => m
  | some (name, value) =>
    match decodeUtf8 name with
    | none => m
    | some name => mapSet m name ((mapGet m name).getD [] ++ [value])

/-- url.go `parseQuery`, whose error `Query` drops. Used by pkg/service/http.go:280. -/
def parseQuery (old : Bool) (query : Bytes) : GoMap (List Bytes) :=
  (queryParts (fun b => b = 38 || (old && b = 59)) query).foldl (addQueryPair old) []

/-- What becomes of a target: `net/http` answers it with the status 400; or it has a path and a query; or it is not modelled (simplification: targets that do not begin with a slash, and paths that
are not UTF-8). -/
inductive Target where
  | bad
  | unmodelled
  | read (path : List Char) (query : GoMap (List Bytes))

/-- url.go `ParseRequestURI` with `parse` and `setPath`, used by `readRequest` of `net/http`, for targets that begin with a slash: no control characters, the path up to the first question mark, the
query after it. Used by pkg/service/http.go:269 and 280. -/
def readTarget (old : Bool) (target : Bytes) : Target :=
  if target.any (fun b => b.toNat < 32 || b = 127) then .bad
  else if target.head? ≠ some 47 then .unmodelled
  else
    match unescape false (cutBytes 63 target).1 with
    | none => .bad
    | some path =>
      match decodeUtf8 path with
      | none => .unmodelled
      | some path => .read path.toList (parseQuery old (cutBytes 63 target).2)

/-- The response of `net/http` to a request it cannot read; the handler is not called. Used by pkg/service/http.go:88 (`Serve`). -/
def badRequest : Response :=
  { status := 400, headers := [("Content-Type", "text/plain; charset=utf-8"), ("Connection", "close")], body := utf8 "400 Bad Request".toList }

/-- What the client gets for a request with a target: pkg/service/http.go:181-224, after the target is read. `visit` is the order in which http.go:280 goes through the query. Nothing for what is not
modelled. -/
def serveTarget (lib : ServiceLib) (errorsType : String) (routes : List Route) (old : Bool) (visit : GoMap (List Bytes) → GoMap (List Bytes)) (method contentType : String) (target : Bytes)
    (body : Res Bytes) : Option Response :=
  match readTarget old target with
  | .bad => some badRequest
  | .unmodelled => none
  | .read path query => clientGets (handleRequest lib errorsType routes { method := method, contentType := contentType, path := path, query := visit query, body := body })

end Rodb
