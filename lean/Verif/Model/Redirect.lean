import Verif.Model.Http
/-
Model of `redirectPermanently` (proxy/backend-http.go:95-106) and of the library functions that
turn a path into a Location header: `url.URL.String` and `http.Redirect`. Here each character of
a path is one byte of the Go string (its code is below 256).
-/
namespace Verif.Redirect

open Verif.Path (Str pathClean)
open Verif.Http (Ctx Be Req Out StaticRes serve)

/-- Go net/url `shouldEscape` for paths: the bytes that are not escaped. -/
def keep (c : Char) : Bool :=
  c.isAlphanum || ['-', '_', '.', '~', '$', '&', '+', ',', '/', ':', ';', '=', '@'].contains c

/-- A digit of `upperhex` (Go net/url). -/
def upperHex (n : Nat) : Char := if n < 10 then Char.ofNat (48 + n) else Char.ofNat (55 + n)

/-- A hexadecimal digit as written by strconv.AppendInt. -/
def lowerHex (n : Nat) : Char := if n < 10 then Char.ofNat (48 + n) else Char.ofNat (87 + n)

/-- Go net/url `escape` of one byte of a path. -/
def escapeChar (c : Char) : Str :=
  if keep c then [c] else ['%', upperHex (c.toNat / 16), upperHex (c.toNat % 16)]

/-- `(&url.URL{Path: p}).EscapedPath()`. The special path "*" is left out: the paths here are
empty or start with '/'. -/
def escape (p : Str) : Str := p.flatMap escapeChar

/-- `(&url.URL{Path: p, RawQuery: q}).String()` (backend-http.go:100-105) for a path that is empty
or starts with '/': there is no scheme and no host, and the first segment contains no colon. -/
def urlString (p q : Str) : Str := escape p ++ (if q = [] then [] else '?' :: q)

/-- Whether `url.Parse` finds a host in a URL without scheme: "//" followed by a non-empty
authority. -/
def hasHost : Str → Bool
  | '/' :: '/' :: c :: _ => c != '/' && c != '?'
  | _ => false

/-- The directory returned by `path.Split`: everything up to the last '/'. -/
def dirOf (p : Str) : Str := (p.reverse.dropWhile (· ≠ '/')).reverse

/-- Go net/http `hexEscapeNonASCII`. -/
def asciiOnly (s : Str) : Str :=
  s.flatMap fun c => if c.toNat < 128 then [c] else ['%', lowerHex (c.toNat / 16), lowerHex (c.toNat % 16)]

/-- The Location header written by `http.Redirect` for a request for `old` and a given URL. It is
assumed that `url.Parse` accepts the URL: the path is escaped and the query was accepted when the
request was read. Cleaning "but preserving the trailing slash" is the same computation as
`pathClean` for a URL that starts with '/', the only ones that occur. -/
def httpRedirect (old url : Str) : Str :=
  if hasHost url then asciiOnly url
  else
    let url := if url.head? = some '/' then url else dirOf (if old = [] then ['/'] else old) ++ url
    asciiOnly (pathClean (url.takeWhile (· ≠ '?')) ++ url.dropWhile (· ≠ '?'))

/-- backend-http.go:95-106 `redirectPermanently`: the Location header of the answer to a request
for `old` with query `q` that is sent to `p`. -/
def location (old p q : Str) : Str := httpRedirect old (urlString p q)

/-- backend-http.go:96-99: the status code. -/
def status (method : String) : Nat := if method ≠ "GET" ∧ method ≠ "HEAD" then 303 else 301

/-- The calls of `redirectPermanently` in backend-http.go: 142, 161, 171 (serveStaticFiles), 265
(path overrides), 433, 450 (local endpoints). -/
def target : Out → Option Str
  | .redirect p => some p
  | .static (.redirect p) _ => some p
  | _ => none

end Verif.Redirect
