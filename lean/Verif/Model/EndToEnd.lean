import Verif.Model.Front
import Verif.Model.Http
import Verif.Model.Token
/-
Model of a request on its whole way: the bytes of a connection (`Verif.Front`) or a QUIC connection
(`Verif.Dispatch.handleQUIC`), the HTTP server of the backend that gets the connection (`Verif.Http.serve`), and the
tokens in the request (`Verif.Token`). The parts are the existing models; this file joins them the way
proxy/proxy.go:1289-1317, proxy/quic.go:210-215, 359-374 and proxy/backend-sso.go:89-145 do.
-/
namespace Verif.EndToEnd

open Verif.Dispatch (World Event QEvent QConn)
open Verif.Front (Arrival Pre)
open Verif.Hello (Bytes)

/-- A running proxy: PROXY header parser and trusted networks, routing and admission, the HTTP side of each
backend, the cookie manager of its identity provider (proxy.go:304-380), every token signed so far, and the
functions used for hashes. -/
structure Proxy where
  read : Bytes → Pre
  nets : List Dispatch.Cidr
  w : World
  http : Nat → Http.Be
  cm : Nat → Token.Cm
  issued : List Token.Claims
  hash : Token.Str → Token.Str

/-- The tokens in a request: after "Bearer " in the Authorization header, in the login cookie and in the ID token
cookie. Tokens are their claims, see `Verif.Model.Token`. -/
structure Tokens where
  bearer : Option Token.Claims := none
  auth : Option Token.Claims := none
  id : Option Token.Claims := none

/-- The claims the handlers look at: `claims["email"].(string)` (backend-sso.go:98, 313), `GetIssuedAt`
(backend-sso.go:277) and `claims["hhash"]` (backend-sso.go:286). -/
def claimsOf (c : Token.Claims) : Http.Claims where
  email := match Token.get c "email" with
    | some (.str e) => some e
    | _ => none
  iat := match Token.get c "iat" with
    | some (.num n) => some n
    | _ => none
  hhash := match Token.get c "hhash" with
    | some (.str s) => some s
    | _ => none

/-- What `checkCookies` (backend-sso.go:108-145) gets from the cookie manager. `host` is `req.Host` without port
(cookiemanager.go:258-264). Creating a new ID token succeeds. -/
def creds (issued : List Token.Claims) (cm : Token.Cm) (host : Token.Str) (now : Nat) (t : Tokens) : Http.Creds :=
  let auth := t.auth.bind (Token.validateAuthToken issued cm now)
  { bearer := (t.bearer.bind (Token.validateBearer issued cm host now)).map claimsOf
    authCookie := auth.map claimsOf
    idCookieOK := match auth, t.id with
      | some a, some tok => Token.validateIDToken issued cm host now a tok
      | _, _ => false }

/-- One HTTP request on a connection: the request as in `Http.Req` (whose credentials are not used), its tokens, the
time, and the rest of `Http.Ctx` (whose server name, time and hash are not used). -/
structure Ask where
  req : Http.Req
  tokens : Tokens := {}
  now : Nat
  ctx : Http.Ctx := {}

/-- What the HTTP server of a connection with the server name `serverName` (`serverNameKey`, proxy.go:1173,
quic.go:144, 575) knows besides the request. -/
def ctxOf (p : Proxy) (serverName : String) (q : Ask) : Http.Ctx :=
  { q.ctx with serverName := serverName, now := q.now, hash := p.hash }

/-- The request with what backend `b` makes of its tokens. -/
def reqOf (p : Proxy) (b : Nat) (q : Ask) : Http.Req :=
  { q.req with
    creds := creds p.issued (p.cm b) (q.ctx.hostFromReq q.req.host).toList q.now q.tokens }

/-- The answer of backend `b`'s HTTP server to a request (backend-http.go:78-93, 194-355). -/
def answer (p : Proxy) (b : Nat) (serverName : String) (q : Ask) : Http.Out :=
  Http.serve (ctxOf p serverName q) (p.http b) (reqOf p b q)

/-- The backend whose HTTP server gets a TCP connection, and the connection's server name (proxy.go:1163-1173,
1289-1317). -/
def acceptTCP (p : Proxy) (a : Arrival) : Option (Nat × String) :=
  match Front.hello (Front.unwrap p.read p.nets a.peer a.bytes).2 with
  | none => none
  | some (sni, _) =>
    ((Front.handle p.read p.nets p.w a).findSome? fun
      | .http b => some b
      | _ => none).map fun b => (b, if sni = "" then p.w.defaultServerName else sni)

/-- A request on a TCP connection: the backend and its answer, `none` if the connection is not served. -/
def onTCP (p : Proxy) (a : Arrival) (q : Ask) : Option (Nat × Http.Out) :=
  (acceptTCP p a).map fun (b, n) => (b, answer p b n q)

/-- The backend whose HTTP server gets a QUIC connection (quic.go:210-215) or its streams (quic.go:370-374).
`declared` is the table of server names. -/
def acceptQUIC (p : Proxy) (declared : String → String → Option Nat) (c : QConn) : Option Nat :=
  (Dispatch.handleQUIC p.w declared c).findSome? fun
    | .http3 b => some b
    | .streams b =>
      if (p.w.be b).mode ∈ ["CONSOLE", "LOCAL", "HTTP", "HTTPS"] then some b else none
    | _ => none

/-- A request on a QUIC connection. -/
def onQUIC (p : Proxy) (declared : String → String → Option Nat) (c : QConn) (q : Ask) : Option (Nat × Http.Out) :=
  (acceptQUIC p declared c).map fun b => (b, answer p b c.client.sni q)

end Verif.EndToEnd
