import Verif.Model.LogLines
import Verif.Model.Http
/-
The request line and the body of a request, as the client sends them and as the backend server gets
them. The headers are in `Verif.Model.Http`.

Targets that do not begin with '/' (CONNECT, `OPTIONS *`, absolute URLs) are left out. The body is what
remains of the message once net/http has undone its framing.
-/
namespace Verif.Wire

open Verif.Path (Str)
open Verif.LogLines (Url parseTarget urlString)
open Verif.Http (Ctx Be Req serve)

/-- A request without its headers. `length` is `req.ContentLength`, `none` for -1: the body is chunked
(HTTP/1) or its length is not announced (HTTP/2, HTTP/3). -/
structure Message where
  method : String
  target : Str
  length : Option Nat
  body : List Nat
deriving DecidableEq, Repr

/-- backend-http.go:346-348. -/
def lengthOut (m : Message) : Option Nat :=
  if m.length = none ∧ m.method ≠ "POST" ∧ m.method ≠ "PUT" ∧ m.method ≠ "PATCH" then some 0 else m.length

/-- backend-http.go:349-352, and httputil.ReverseProxy, which drops the body under the same condition. -/
def bodyOut (m : Message) : List Nat :=
  if lengthOut m = some 0 then [] else m.body

/-- backend-http.go:205-354: the request that is sent to the backend server, if one is. Line 326 sets
`req.URL.Path` and leaves `req.URL.RawPath`. The target is written by `URL.RequestURI`. -/
def forward (c : Ctx) (be : Be) (r : Req) (m : Message) : Option Message :=
  match parseTarget m.target with
  | none => none
  | some u =>
    match serve c be { r with method := m.method, path := u.path } with
    | .forward p _ _ _ _ =>
      some { method := m.method, target := urlString { u with path := p }, length := lengthOut m, body := bodyOut m }
    | _ => none

end Verif.Wire
