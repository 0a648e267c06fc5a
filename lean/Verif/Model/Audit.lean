import Verif.Model.LogLines
import Verif.Model.Endpoints
import Verif.Model.Token
/-!
# What the log says about the requests of a connection

Which messages a request leaves on its way through `localHandler` and `reverseProxy` (`Verif.Model.Http`), with the
texts of `Verif.Model.LogLines`. The answer of a backend server, the creation of URL tokens and the login of the user
are parameters, as in these models. Left out: messages that handlers of endpoints log about errors of their own, other
than the one about sessions below; the message of net/http/httputil about a server that cannot be reached, which names
no request; scheme and host of URLs; the filters of `Verif.Model.Logging`.
-/

namespace Verif.Audit

open Verif.Path (Str)
open Verif.LogLines (Site)

/-- A request with its connection. The path of `http` is the one of `url`. -/
structure Req where
  http : Http.Req
  conn : LogLines.Conn
  /-- `req.RequestURI` -/
  target : Str
  url : LogLines.Url
  body : Str := []

/-- What becomes of a request that is sent to a backend server: no answer, or an answer, whose copying to the client may
be aborted (net/http/httputil panics with `ErrAbortHandler` then). -/
inductive Fate where
  | failed
  | answered (status : Str) (aborted : Bool)
  deriving DecidableEq, Repr

structure World where
  /-- what the handler function of an endpoint does -/
  kind : Nat → Endpoints.Kind
  /-- the identity provider is a passkey manager -/
  passkey : Bool := false
  /-- `URLToken` succeeds -/
  tokenOK : Bool := true
  fate : Fate

/-- backend-sso.go:286-332: the login page, the redirect to it, and the refusal. -/
def loginSites (w : World) (r : Http.Req) : List Site :=
  if r.method ≠ "GET" then [.sso "403".toList]
  else if ¬ w.tokenOK then []
  else if w.passkey ∨ r.headers.get "X-Skip-Login-Confirmation" ≠ [] then [.sso "302".toList]
  else [.sso "403".toList]

/-- proxy.go:453-565, 697-717, 761-836: most handlers are wrapped in `logHandler`, callbacks have a line of their own,
and the ones of pprof.go:33-41 have none. -/
def endpointSites : Endpoints.Kind → List Site
  | .callback _ => [.callback]
  | .pprof _ => []
  | _ => [.handler]

/-- backend-http.go:66-74, 535: the answer is logged when it arrives, and again when it cannot be copied. -/
def forwardSites : Fate → List Site
  | .failed => []
  | .answered status aborted => .forwarded status :: (if aborted then [.aborted] else [])

/-- backend-http.go:95-106 `redirectPermanently`. -/
def redirectSite (method : String) : Site :=
  .static (if method ≠ "GET" ∧ method ≠ "HEAD" then "303".toList else "301".toList)

/-- The messages for what a request comes to: backend-http.go:76-190, 201-355, backend-sso.go:89-145, 270-345. The
answers 302 for a new ID token, 421, 500 and 508 are given without a message. -/
def sites (w : World) (r : Http.Req) : Http.Out → List Site
  | .redirect _ => [redirectSite r.method]
  | .setID => []
  | .error500 => []
  | .login => loginSites w r
  | .denied => [.sso "403".toList]
  | .endpoint h => endpointSites (w.kind h.id)
  | .static s _ => [LogLines.staticSite r.method s]
  | .misdirected => []
  | .loop => []
  | .forward .. => forwardSites w.fate

/-- The claim in the context of a request, proxy.go:1432-1437 and backend-sso.go:100-101. -/
def email (c : Http.Ctx) (be : Http.Be) (r : Http.Req) : Option Str :=
  match Http.authenticate c be r with
  | .ok a => a.claims.map fun cl => cl.email.getD []
  | .error _ => none

/-- The request as the messages show it. -/
def shown (c : Http.Ctx) (be : Http.Be) (r : Req) : LogLines.Req where
  conn := r.conn
  email := email c be r.http
  method := r.http.method.toList
  target := r.target
  url := r.url
  userAgent := r.http.headers.get "User-Agent"

/-- The messages about a request. -/
def messages (w : World) (c : Http.Ctx) (be : Http.Be) (r : Req) : List Str :=
  (sites w r.http (Http.serve c be r.http)).map fun s => LogLines.reqMessage s (shown c be r)

/-! ## The status of the answer -/

/-- backend-sso.go:287-332. -/
def loginStatus (w : World) (r : Http.Req) : Str :=
  if r.method ≠ "GET" then "403".toList
  else if ¬ w.tokenOK then "500".toList
  else if w.passkey ∨ r.headers.get "X-Skip-Login-Confirmation" ≠ [] then "302".toList
  else "403".toList

/-- backend-http.go:122-190. -/
def staticStatus (method : String) : Http.StaticRes → Str
  | .notFound => "404".toList
  | .methodNotAllowed => "405".toList
  | .redirect _ => if method = "GET" ∨ method = "HEAD" then "301".toList else "303".toList
  | .forbidden => "403".toList
  | .served _ => "200".toList

/-- The status the client sees, where it is not the handler of an endpoint that decides. -/
def status (w : World) (r : Http.Req) : Http.Out → Option Str
  | .redirect _ => some (if r.method = "GET" ∨ r.method = "HEAD" then "301".toList else "303".toList)
  | .setID => some "302".toList
  | .error500 => some "500".toList
  | .login => some (loginStatus w r)
  | .denied => some "403".toList
  | .endpoint _ => none
  | .static s _ => some (staticStatus r.method s)
  | .misdirected => some "421".toList
  | .loop => some "508".toList
  | .forward .. =>
    match w.fate with
    | .failed => some "502".toList
    | .answered status _ => some status

/-! ## Sessions -/

/-- What `%q` makes of a claim that is a string. -/
def claimText : Option Token.Val → Str
  | some (.str s) => LogLines.quote s
  | _ => "%!q(<nil>)".toList

/-- urltoken.go:85-97 `ValidateURLToken`: the message when the token was made for another session. -/
def sessionMessage (issued : List Token.Claims) (cookie : Option Str) (fresh : Str) (now : Nat)
    (tok : Token.Claims) : Option Str :=
  match Token.validate issued now tok with
  | none => none
  | some c =>
    if Token.get c "sid" ≠ some (.str (Token.sessionID cookie fresh)) then
      some ("ERR session ID mismatch ".toList ++ LogLines.quote (Token.sessionID cookie fresh) ++ " != ".toList ++
        claimText (Token.get c "sid"))
    else none

end Verif.Audit
