import Verif.Model.Discovery
/-!
# The plain HTTP port

Model of what `Start` puts on `HTTPAddr` (proxy/proxy.go:905-919, http.go:58-62): an `http.Server` without timeouts and
with keep-alives disabled, whose handler is `autocert.Manager.HTTPHandler(nil)`. The manager has no `HostPolicy`
(proxy.go:204-214). The handler and the redirect are those of golang.org/x/crypto v0.29.0, acme/autocert, and are
written down here from its source; the cache is a parameter.
-/
namespace Verif.PlainHttp

abbrev Str := List Char

structure Req where
  method : String
  host : Str
  /-- `r.URL.Path`, decoded -/
  path : Str
  /-- `r.URL.RequestURI()` -/
  uri : Str
deriving DecidableEq, Repr

inductive Answer where
  /-- the response to a challenge -/
  | data (d : Str)
  | notFound
  | redirect (location : Str)
  /-- "Use HTTPS" -/
  | badRequest
deriving DecidableEq, Repr

/-- What the certificate manager knows. -/
structure Manager where
  /-- `httpTokens`, by path -/
  tokens : Str → Option Str
  /-- the cache, which has the private keys too -/
  cache : Str → Option Str

def challengePrefix : Str := "/.well-known/acme-challenge/".toList

/-- `path.Base` -/
def base (p : Str) : Str :=
  if p = [] then ['.']
  else
    let q := (p.reverse.dropWhile (· = '/')).reverse
    let b := (q.reverse.takeWhile (· ≠ '/')).reverse
    if b = [] then ['/'] else b

/-- `httpTokenCacheKey` -/
def cacheKey (p : Str) : Str := base p ++ "+http-01".toList

/-- `Manager.httpToken` -/
def httpToken (m : Manager) (p : Str) : Option Str :=
  match m.tokens p with
  | some d => some d
  | none => m.cache (cacheKey p)

/-- `net.JoinHostPort` -/
def joinHostPort (host port : Str) : Str :=
  if ':' ∈ host then '[' :: host ++ "]:".toList ++ port else host ++ ':' :: port

/-- `stripPort` -/
def stripPort (host : Str) : Str :=
  match Discovery.splitHostPort host with
  | none => host
  | some (h, _) => joinHostPort h "443".toList

/-- `handleHTTPRedirect` -/
def redirect (r : Req) : Answer :=
  if r.method ≠ "GET" ∧ r.method ≠ "HEAD" then .badRequest
  else .redirect ("https://".toList ++ stripPort r.host ++ r.uri)

/-- `HTTPHandler(nil)`, proxy.go:911. -/
def serve (m : Manager) (r : Req) : Answer :=
  if challengePrefix.isPrefixOf r.path then
    match httpToken m r.path with
    | some d => .data d
    | none => .notFound
  else redirect r

/-! ## Connections -/

/-- Timeouts of an `http.Server` in seconds; 0 is none. -/
structure Timeouts where
  readHeader : Nat
  read : Nat

/-- proxy.go:910-912 -/
def timeouts : Timeouts := ⟨0, 0⟩

/-- When the server gives up waiting for the header of a request (`ReadHeaderTimeout`, else `ReadTimeout`). -/
def Timeouts.patience (t : Timeouts) : Option Nat :=
  if t.readHeader ≠ 0 then some t.readHeader
  else if t.read ≠ 0 then some t.read
  else none

/-- A connection: when it was made, and when the header of its request was complete, if ever. -/
structure Conn where
  opened : Nat
  complete : Option Nat
deriving DecidableEq, Repr

/-- Whether the server holds the connection at time `t`: there is one request (keep-alives are disabled, proxy.go:917),
which is answered at once. -/
def held (to : Timeouts) (t : Nat) (c : Conn) : Bool :=
  decide (c.opened ≤ t) &&
  (match c.complete with
    | some d => decide (t < d)
    | none => true) &&
  (match to.patience with
    | some p => decide (t < c.opened + p)
    | none => true)

/-- The number of connections that are held. They are not in `inConns`, so `MaxOpen` (proxy.go:1154) has no part in it. -/
def load (to : Timeouts) (t : Nat) (cs : List Conn) : Nat := cs.countP (held to t)

end Verif.PlainHttp
