import Verif.Model.Path
/-
Model of the HTTP handlers: proxy/backend-http.go (localHandler, serveStaticFiles,
reverseProxy, handleLocalEndpointsAndAuthorize, Director, ModifyResponse),
proxy/backend-sso.go (authenticateUser, checkCookies, enforceSSOPolicy), the cookie filter of
internal/cookiemanager, and the header handling of net/http/httputil.ReverseProxy.
-/
namespace Verif.Http

open Verif.Path (Str pathClean pathMatches splitSlash goClean)

/-! ## Headers -/

/-- An `http.Header`: names are in canonical form (the HTTP servers and all methods of
`http.Header` canonicalise them), one entry per value, values of a name in order. -/
abbrev Headers := List (String × Str)

def Headers.get (h : Headers) (k : String) : Str := ((h.find? fun e => e.1 = k).map (·.2)).getD []

def Headers.values (h : Headers) (k : String) : List Str := (h.filter fun e => e.1 = k).map (·.2)

def Headers.del (h : Headers) (k : String) : Headers := h.filter fun e => e.1 ≠ k

def Headers.set (h : Headers) (k : String) (v : Str) : Headers := h.del k ++ [(k, v)]

def uidHeader : String := "X-Tlsproxy-User-Id"
def xffHeader : String := "X-Forwarded-For"
def xfccHeader : String := "X-Forwarded-Client-Cert"
def viaHeader : String := "Via"

/-! ## Requests, backends -/

/-- The claims of a validated token that the handlers look at. -/
structure Claims where
  email : Option Str := none
  iat : Option Int := none
  hhash : Option Str := none
deriving DecidableEq, Repr

/-- What the cookie manager says about the credentials in a request: claims of a valid bearer
token (`ValidateAuthorizationHeader`), of a valid auth cookie (`ValidateAuthTokenCookie`),
whether the ID token cookie is valid and whether a new one can be created. See
`Verif.Model.Token` for the validation itself. -/
structure Creds where
  bearer : Option Claims := none
  authCookie : Option Claims := none
  idCookieOK : Bool := false
  setIDOK : Bool := true
deriving DecidableEq, Repr

/-- A request as the HTTP server delivers it. The cookies of the Cookie headers are kept apart
from the other headers. `host` is `req.Host`. -/
structure Req where
  method : String := "GET"
  path : Str := ['/']
  host : String := ""
  proto : Str := "HTTP/1.1".toList
  headers : Headers := []
  cookies : List (String × String) := []
  creds : Creds := {}

/-- config.go:604-640 `BackendSSO`. Durations are in seconds, 0 disables `ForceReAuth`. -/
structure SSO where
  acl : Option (List Str) := none
  paths : List Str := []
  forceReAuth : Int := 0
  setUserID : Bool := false
  genID : Bool := false

/-- config.go:453-461 `localHandler`; `id` stands for the handler function. -/
structure Handler where
  host : String := ""
  path : Str
  bypass : Bool := false
  matchPrefix : Bool := false
  id : Nat
deriving DecidableEq, Repr

/-- config.go:642-700 `PathOverride`. -/
structure Override where
  paths : List Str
  addresses : List String := []
  docRoot : Str := []
  sanitize : Option Bool := none
  headers : Option (List (String × String)) := none
  proxyVersion : Nat := 0

/-- The fields of `Backend` used by the handlers. `reverse` is true for modes HTTP and HTTPS
(reverseProxy), false for LOCAL and CONSOLE (localHandler); `addXFCC` says that
`ClientAuth.AddClientCertHeader` is set and non-empty. -/
structure Be where
  reverse : Bool := true
  serverNames : List String := []
  sso : Option SSO := none
  handlers : List Handler := []
  addresses : List String := []
  docRoot : Str := []
  overrides : List Override := []
  sanitize : Option Bool := none
  headers : List (String × String) := []
  proxyVersion : Nat := 0
  addXFCC : Bool := false

inductive FileKind where
  | dir
  | regular
  | other
deriving DecidableEq, Repr

/-- Everything else a handler depends on: the connection (server name, local address, client
address, PROXY header bytes per version, client certificate and its XFCC value), the clock,
the file system and library functions. -/
structure Ctx where
  serverName : String := ""
  me : Str := []
  remoteIP : Str := []
  proxyHeader : Nat → Str := fun _ => []
  peerCert : Bool := false
  xfcc : Str := []
  now : Int := 0
  stat : Str → Option FileKind := fun _ => none
  /-- sha256 in hexadecimal -/
  hash : Str → Str := id
  /-- `(&url.URL{Host: h}).Hostname()` -/
  hostname : String → String := id
  /-- `hostFromReq` (proxy.go:1518-1524) -/
  hostFromReq : String → String := id
  /-- `expandVars` (backend-http.go:368-395) for this request -/
  expand : String → Str := String.toList
  /-- the header names listed in a Connection header value -/
  listed : Str → List String := fun _ => []
  /-- `connLimit.Wait` succeeds -/
  waitOK : Bool := true

/-! ## Static files -/

/-- `filepath.Join(root, p)` for an absolute `root`: the cleaned concatenation. Relative
document roots are not modelled. -/
def join (root p : Str) : Str := goClean ((root ++ '/' :: p).tail)

inductive StaticRes where
  | notFound
  | methodNotAllowed
  | redirect (p : Str)
  | forbidden
  | served (file : Str)
deriving DecidableEq, Repr

/-- backend-http.go:122-190 `serveStaticFiles`: the response and the files opened. -/
def serveStatic (c : Ctx) (docRoot pre : Str) (method : String) (path : Str) : StaticRes × List Str :=
  if docRoot = [] then (.notFound, [])
  else if method ≠ "GET" ∧ method ≠ "HEAD" then (.methodNotAllowed, [])
  else
    let cleanPath := pathClean path
    if cleanPath ≠ path then (.redirect cleanPath, [])
    else
      let p := if pre.isPrefixOf cleanPath then cleanPath.drop pre.length else cleanPath
      let p := if ['/'].isPrefixOf p then p.drop 1 else p
      if (splitSlash p).any fun pp => ['.'].isPrefixOf pp || pp.contains '\\' then (.notFound, [])
      else
        let f := join docRoot p
        match c.stat f with
        | none => (.notFound, [])
        | some .dir =>
          if cleanPath.getLast? ≠ some '/' then (.redirect (cleanPath ++ ['/']), [])
          else
            let f := join f "index.html".toList
            match c.stat f with
            | none => (.forbidden, [])
            | some .dir => (.forbidden, [])
            | some .regular => (.served f, [f])
            | some .other => (.forbidden, [f])
        | some k =>
          if cleanPath.getLast? = some '/' then (.redirect cleanPath.dropLast, [])
          else if k = .regular then (.served f, [f]) else (.forbidden, [f])

/-! ## Authentication -/

/-- backend-sso.go:108-145 `checkCookies`: `none` is "stop" (with the given answer). -/
inductive Check where
  | go (claims : Option Claims)
  | error500
  | setID

def checkCookies (c : Ctx) (be : Be) (s : SSO) (r : Req) : Check :=
  match r.creds.bearer with
  | some cl => .go (some cl)
  | none =>
    match r.creds.authCookie with
    | none => .go none
    | some cl =>
      if cl.email = none ∨ cl.email = some [] then .go none
      else if ¬ s.genID then .go (some cl)
      else if c.hostFromReq r.host ∉ be.serverNames then .go (some cl)
      else if r.creds.idCookieOK then .go (some cl)
      else if r.creds.setIDOK then .setID else .error500

/-- What a request is answered with. -/
inductive Out where
  /-- permanent redirect to a path on the same host -/
  | redirect (p : Str)
  /-- a new ID token cookie and a redirect to the same URL -/
  | setID
  | error500
  /-- the login page, a redirect to it, or 403 for methods other than GET -/
  | login
  /-- the "permission denied" page -/
  | denied
  /-- a local endpoint -/
  | endpoint (h : Handler)
  | static (r : StaticRes) (opened : List Str)
  /-- 421 -/
  | misdirected
  /-- 508 -/
  | loop
  /-- the request is sent to a backend server: path, headers, cookies, the path override
  chosen (`none`: the backend's own addresses) and the key of the connection pool -/
  | forward (path : Str) (headers : Headers) (cookies : List (String × String))
      (override : Option Nat) (key : Str)
deriving Repr

/-- The state of a request after `authenticateUser` (backend-sso.go:89-106): the headers and
the claims stored in the context. -/
structure Authed where
  headers : Headers
  claims : Option Claims

def authenticate (c : Ctx) (be : Be) (r : Req) : Except Out Authed :=
  let h := r.headers.del uidHeader
  match be.sso with
  | none => .ok ⟨h, none⟩
  | some s =>
    match checkCookies c be s r with
    | .error500 => .error .error500
    | .setID => .error .setID
    | .go none => .ok ⟨h, none⟩
    | .go (some cl) =>
      match cl.email with
      | none => .ok ⟨h, none⟩
      | some e =>
        if e = [] then .ok ⟨h, none⟩
        else .ok ⟨if s.setUserID then h.set uidHeader e else h, some cl⟩

/-- The part of an email address after its first '@' (`strings.Cut`), empty if there is
none. -/
def domainOf : Str → Str
  | [] => []
  | '@' :: t => t
  | _ :: t => domainOf t

/-- internal/cookiemanager/cookiemanager.go:248-256 with the session cookie name of
tokenmanager (urltoken.go). Re-encoding of cookie values is not modelled. -/
def filterCookies (cs : List (String × String)) : List (String × String) :=
  cs.filter fun k => k.1 ≠ "TLSPROXYAUTH" ∧ k.1 ≠ "TLSPROXYSID"

/-- The condition of backend-sso.go:286 under which a login is requested. A missing `iat` is the
zero time, which is longer ago than any duration. -/
def needLogin (c : Ctx) (s : SSO) (host : String) (claims : Option Claims) : Bool :=
  match claims with
  | none => true
  | some cl => s.forceReAuth != 0 &&
      (cl.hhash != some (c.hash host.toList) ||
        match cl.iat with
        | none => true
        | some t => c.now - t > s.forceReAuth)

/-- backend-sso.go:270-345 `enforceSSOPolicy`: the remaining cookies if the request may go on. -/
def enforce (c : Ctx) (be : Be) (r : Req) (claims : Option Claims) :
    Except Out (List (String × String)) :=
  match be.sso with
  | none => .ok r.cookies
  | some s =>
    if ¬ pathMatches s.paths r.path then .ok r.cookies
    else if needLogin c s r.host claims then .error .login
    else
      let user := match claims with
        | none => []
        | some cl => cl.email.getD []
      match s.acl with
      | none => .ok (filterCookies r.cookies)
      | some acl =>
        if user ∉ acl ∧ ('@' :: domainOf user) ∉ acl then .error .denied
        else .ok (filterCookies r.cookies)

/-! ## Local endpoints -/

/-- backend-http.go:422-427. -/
def Handler.matches (h : Handler) (reqHost : String) (cleanPath : Str) : Bool :=
  (h.host = "" ∨ h.host = reqHost) ∧
  (h.path = cleanPath ∨ (h.matchPrefix ∧ (h.path ++ ['/']).isPrefixOf cleanPath))

/-- backend-http.go:419-456 `handleLocalEndpointsAndAuthorize`: the remaining cookies if the
request is to be processed further. -/
def localEndpoints (c : Ctx) (be : Be) (r : Req) (claims : Option Claims) :
    Except Out (List (String × String)) :=
  let reqHost := c.hostFromReq r.host
  let cleanPath := pathClean r.path
  match be.handlers.find? fun h => h.matches reqHost cleanPath with
  | some h =>
    match (if h.bypass then .ok r.cookies else enforce c be r claims) with
    | .error o => .error o
    | .ok _ =>
      if cleanPath ≠ r.path then .error (.redirect cleanPath)
      else .error (.endpoint h)
  | none =>
    match enforce c be r claims with
    | .error o => .error o
    | .ok cookies =>
      if be.handlers.any fun h => (h.host = "" ∨ h.host = reqHost) ∧ h.path = cleanPath ++ ['/']
      then .error (.redirect (cleanPath ++ ['/']))
      else .ok cookies

/-! ## Reverse proxy -/

/-- The loop backend-http.go:262-287 over the path overrides. -/
inductive Choice where
  | redirect (p : Str)
  | static (docRoot pre : Str)
  | addresses (i : Nat) (o : Override)
  | none

/-- backend-http.go:263-271: the prefixes of one override. -/
def matchPrefixes (cleanPath : Str) : List Str → Option (Option Str)
  | [] => .none
  | pre :: ps =>
    if cleanPath ++ ['/'] = pre then some .none
    else if pre.isPrefixOf cleanPath then some (some pre)
    else matchPrefixes cleanPath ps

def chooseOverride (cleanPath : Str) (i : Nat) : List Override → Choice
  | [] => .none
  | o :: os =>
    match matchPrefixes cleanPath o.paths with
    | .none => chooseOverride cleanPath (i + 1) os
    | some .none => .redirect (cleanPath ++ ['/'])
    | some (some pre) => if o.addresses = [] then .static o.docRoot pre else .addresses i o

/-- `commaRE.Split(h, -1)` with commaRE = `, *` (backend-http.go:65, 305), reading the rest of
the string with the current element collected in `cur`; `skip` after a comma. -/
def splitVia : Str → Str → Bool → List Str
  | [], cur, _ => [cur]
  | ',' :: t, cur, _ => cur :: splitVia t [] true
  | ' ' :: t, cur, true => splitVia t cur true
  | c :: t, cur, _ => splitVia t (cur ++ [c]) false

/-- The second result of `strings.Cut(via, " ")`. -/
def afterSpace : Str → Str
  | [] => []
  | ' ' :: t => t
  | _ :: t => afterSpace t

/-- backend-http.go:303-317: `none` is a loop, otherwise the new Via value. -/
def via (me proto value : Str) : Option Str :=
  let hops := if value = [] then [] else splitVia value [] false
  if hops.any fun h => afterSpace h = me then none
  else some (List.intercalate ", ".toList (hops ++ [proto ++ ' ' :: me]))

/-- backend-http.go:322-332: the configured headers, in the (unspecified) order of the map
iteration. The effect on `req.Host` is not modelled. -/
def setHeaders (c : Ctx) : List (String × String) → Headers → Headers
  | [], h => h
  | (k, v) :: t, h =>
    setHeaders c t (if c.expand v ≠ [] then h.set k (c.expand v) else h.del k)

/-- backend-http.go:458-464 `reverseProxyDirector`. -/
def director (c : Ctx) (be : Be) (h : Headers) : Headers :=
  let h := (h.del xffHeader).del xfccHeader
  if c.peerCert ∧ be.addXFCC then h.set xfccHeader c.xfcc else h

/-- The `hopHeaders` of net/http/httputil/reverseproxy.go. -/
def hopHeaders : List String :=
  ["Connection", "Proxy-Connection", "Keep-Alive", "Proxy-Authenticate", "Proxy-Authorization",
    "Te", "Trailer", "Transfer-Encoding", "Upgrade"]

/-- `removeHopByHopHeaders` of net/http/httputil/reverseproxy.go: first the headers that the
Connection header lists, then the fixed ones. -/
def removeHop (c : Ctx) (h : Headers) : Headers :=
  let named := (h.values "Connection").flatMap c.listed
  (h.filter fun e => e.1 ∉ named).filter fun e => e.1 ∉ hopHeaders

/-- Header part of `ReverseProxy.ServeHTTP` after the Director: hop-by-hop headers are removed
("Te: trailers" and "Upgrade" that are put back are not modelled), then X-Forwarded-For is
extended with the client address. -/
def reverseProxyHeaders (c : Ctx) (be : Be) (h : Headers) : Headers :=
  let h := removeHop c (director c be h)
  let prior := h.values xffHeader
  h.set xffHeader (List.intercalate ", ".toList (prior ++ [c.remoteIP]))

/-- The variable `override` (backend-http.go:257, 283): empty, or the number of the override in
decimal. -/
def overrideText : Option Nat → Str
  | none => []
  | some i => (toString i).toList

/-- backend-http.go:293-299: the text whose hash identifies the connection pool. -/
def poolKey (c : Ctx) (override : Option Nat) (proxyVersion : Nat) : Str :=
  c.serverName.toList ++ ';' :: (overrideText override ++
  (if proxyVersion > 0 then ';' :: c.proxyHeader proxyVersion else []))

/-- backend-http.go:205-355 `reverseProxy` after authentication and local endpoints. -/
def reverseProxy (c : Ctx) (be : Be) (r : Req) (h : Headers) (cookies : List (String × String)) : Out :=
  let host := if r.host = "" then c.serverName else r.host
  let h := h.set "Host" host.toList
  if c.hostname host ∉ be.serverNames then .misdirected
  else if ¬ c.waitOK then .error500
  else
    let cleanPath := pathClean r.path
    match chooseOverride cleanPath 0 be.overrides with
    | .redirect p => .redirect p
    | .static root pre =>
      let s := serveStatic c root pre r.method r.path
      .static s.1 s.2
    | ch =>
      if be.addresses = [] then
        let s := serveStatic c be.docRoot [] r.method r.path
        .static s.1 s.2
      else
        let (ov, ver, san, hdrs) := match ch with
          | .addresses i o => (some i, o.proxyVersion, o.sanitize.or be.sanitize, o.headers.getD be.headers)
          | _ => (none, be.proxyVersion, be.sanitize, be.headers)
        match via c.me r.proto (h.get viaHeader) with
        | none => .loop
        | some v =>
          let h := setHeaders c hdrs (h.set viaHeader v)
          .forward (if san.getD true then cleanPath else r.path)
            (reverseProxyHeaders c be h) cookies ov (c.hash (poolKey c ov ver))

/-- backend-http.go:78-93 `localHandler` and 194-355 `reverseProxy`: the answer to a request. -/
def serve (c : Ctx) (be : Be) (r : Req) : Out :=
  match authenticate c be r with
  | .error o => o
  | .ok a =>
    match localEndpoints c be r a.claims with
    | .error o => o
    | .ok cookies =>
      if be.reverse then reverseProxy c be r a.headers cookies
      else
        let s := serveStatic c be.docRoot [] r.method r.path
        .static s.1 s.2

/-! ## Responses -/

/-- backend-http.go:537-539, the Strict-Transport-Security part of
`reverseProxyModifyResponse`; `hstsValue` is "max-age=2592000". -/
def modifyResponse (status : Nat) (h : Headers) : Headers :=
  if status ≠ 421 ∧ h.get "Strict-Transport-Security" = [] then
    h.set "Strict-Transport-Security" "max-age=2592000".toList
  else h

end Verif.Http
