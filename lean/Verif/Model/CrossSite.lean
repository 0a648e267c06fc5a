import Verif.Model.PkiPage
import Verif.Model.Sshca
/-
Requests that a page makes the user's browser send to the proxy's own endpoints: what the browser lets
pages of other origins send (Fetch and Service Worker standards, RFC 6265bis for `SameSite=Lax`, all
transcribed from memory), and what the endpoints check before they do something in the user's name.

Simplifications: a URL has a host, a path and the values of the query that the endpoints look at; the
user is logged in, and the login cookie is the only proof of that; each site in the browser is visited
over https unless the scheme says otherwise.
-/
namespace Verif.CrossSite

abbrev Str := List Char

/-! ## The browser -/

structure Origin where
  scheme : Str
  /-- with the port unless it is the default one; empty for an opaque origin -/
  host : Str
deriving DecidableEq, Repr

/-- What a page wants to have sent: a link or a form, a request of a script, a WebSocket. -/
inductive Kind where
  | navigate
  | fetch
  | socket
deriving DecidableEq, Repr

structure Ask where
  page : Origin
  kind : Kind
  host : Str
  path : Str
  /-- `get`, `sn` and `admin` of the query -/
  get : Str := []
  sn : Str := []
  admin : Str := []
  method : Str := "GET".toList
  ctype : Str := []
  /-- the header `x-csrf-check`; empty if there is none -/
  csrf : Str := []
  /-- `credentials: 'include'`, or the default in the own origin -/
  creds : Bool := true
  /-- `mode: 'cors'` -/
  cors : Bool := true
  body : List Nat := []
deriving DecidableEq, Repr

/-- A request that arrives. -/
structure Sent where
  host : Str
  path : Str
  get : Str
  sn : Str
  admin : Str
  method : Str
  ctype : Str
  csrf : Str
  /-- the header `Origin` -/
  origin : Option Origin
  /-- whether the login cookie is sent -/
  cookies : Bool
  /-- the headers of a WebSocket handshake, which scripts cannot set -/
  upgrade : Bool
  body : List Nat
deriving DecidableEq, Repr

/-- A service worker of the certificate page (certs.js:110-112, sw.js). -/
structure Worker where
  host : Str
  /-- `window.location.pathname + '/generateKeyAndCert'` -/
  scope : Str
  /-- the path of the script, which is that of the page -/
  page : Str
deriving DecidableEq, Repr

structure Browser where
  /-- whether two origins are of the same site -/
  sameSite : Origin → Origin → Bool
  workers : List Worker
  /-- the certificate request made by `makeCertificateRequest` (clientwasm/main.go:58-89) from a form;
  empty if it fails -/
  csr : List Nat → List Nat

/-- The content types that a page may have sent to other origins without asking them. -/
def simpleTypes : List Str :=
  ["application/x-www-form-urlencoded".toList, "multipart/form-data".toList, "text/plain".toList]

/-- A request that needs no preflight. -/
def simple (a : Ask) : Bool :=
  ["GET".toList, "HEAD".toList, "POST".toList].contains a.method && (a.ctype = [] || simpleTypes.contains a.ctype) &&
    a.csrf = []

def ownOrigin (a : Ask) : Origin := ⟨"https".toList, a.host⟩

/-- The worker that a navigation goes to. -/
def workerFor (b : Browser) (a : Ask) : Option Worker :=
  b.workers.find? fun w => w.host = a.host && w.scope.isPrefixOf a.path

/-- sw.js:52-88 `generateKeyAndCert`: the request that the worker sends. It comes from the origin of the
worker, whichever page was navigated from. -/
def generateKeyAndCert (b : Browser) (w : Worker) (form : List Nat) : Sent where
  host := w.host
  path := w.page
  get := "requestCert".toList
  sn := []
  admin := []
  method := "POST".toList
  ctype := "application/x-pem-file".toList
  csrf := "1".toList
  origin := some ⟨"https".toList, w.host⟩
  cookies := true
  upgrade := false
  body := b.csr form

/-- What the browser sends. A request that needs a preflight is never sent, because no endpoint of the
proxy answers with `Access-Control-Allow-Origin`; the preflight itself is. sw.js:44-49: the worker takes
navigations with POST only. -/
def sent (b : Browser) (a : Ask) : List Sent :=
  let same := a.page = ownOrigin a || b.sameSite a.page (ownOrigin a)
  let base : Sent :=
    { host := a.host, path := a.path, get := a.get, sn := a.sn, admin := a.admin, method := a.method, ctype := a.ctype, csrf := [],
      origin := some a.page, cookies := same, upgrade := false, body := a.body }
  match a.kind with
  | .navigate =>
    if a.method = "GET".toList then [{ base with ctype := [], origin := none, cookies := true, body := [] }]
    else if a.method = "POST".toList && simpleTypes.contains a.ctype then
      match workerFor b a with
      | some w => [generateKeyAndCert b w a.body]
      | none => [base]
    else []
  | .socket => [{ base with method := "GET".toList, ctype := [], upgrade := true, body := [] }]
  | .fetch =>
    if a.page = ownOrigin a then
      [{ base with csrf := a.csrf, cookies := a.creds,
                   origin := if a.method = "GET".toList || a.method = "HEAD".toList then none else some a.page }]
    else if simple a then
      [{ base with cookies := same && a.creds,
                   origin := if a.cors || a.method = "POST".toList then some a.page else none }]
    else [{ base with method := "OPTIONS".toList, ctype := [], cookies := false, body := [] }]

/-! ## The endpoints -/

/-- What is done in the name of the user. -/
inductive Effect where
  /-- a certificate is issued for this certificate request -/
  | issued (email : Str) (csr : List Nat)
  | revoked (serial : Nat)
  | sshCert (c : Sshca.Cert (List Nat))
  /-- a WebSocket is connected to its server -/
  | socket
  | loggedOut
deriving DecidableEq, Repr

/-- A backend with a certificate page, an SSH endpoint and a WebSocket. -/
structure Site where
  /-- who is logged in -/
  email : Str
  /-- single sign-on is configured -/
  sso : Bool
  /-- whether a path needs a login (backend-sso.go:270-273) -/
  covered : Str → Bool
  /-- whether the access rules let this user in -/
  permitted : Bool
  pki : Str
  ssh : Str
  ws : Str
  cfg : Pki.Cfg
  db : Pki.Db
  now : Nat
  /-- `pem.Decode`, `ValidateCertificateRequest` and `IssueCertificate` succeed -/
  acceptable : List Nat → Bool
  sshEnv : Sshca.Env (List Nat)

/-- Whose login cookie is sent. -/
def claims (x : Site) (s : Sent) : Option Str := if x.sso && s.cookies then some x.email else none

/-- backend-sso.go:270-342 `enforceSSOPolicy`. -/
def enforce (x : Site) (s : Sent) : Bool :=
  if !x.sso || !x.covered s.path then true
  else match claims x s with
    | none => false
    | some _ => x.permitted

/-- pki/http.go:344-409 `handleRequestCert`. -/
def requestCert (x : Site) (s : Sent) (email : Str) : List Effect :=
  if s.method ≠ "POST".toList then []
  else if s.csrf ≠ "1".toList then []
  else if s.ctype ≠ "application/x-pem-file".toList then []
  else if x.acceptable s.body then [.issued email s.body]
  else []

/-- pki/http.go:187-342 `ServeCertificateManagement`. -/
def servePki (x : Site) (s : Sent) : List Effect :=
  match claims x s with
  | none => []
  | some email =>
    match PkiPage.serve x.cfg id x.db
        { email := some email, get := s.get, sn := s.sn, admin := s.admin, post := s.method = "POST".toList,
          csrf := s.csrf = "1".toList, now := x.now } with
    | .requestCert => requestCert x s email
    | .revoke serial => [.revoked serial]
    | _ => []

/-- sshca/sshca.go:258-343 `ServeCertificate`. -/
def serveSsh (x : Site) (s : Sent) : List Effect :=
  match Sshca.serve x.sshEnv
      { claims := (claims x s).map fun e => [("email".toList, .str e)], method := s.method, csrf := s.csrf,
        contentType := s.ctype, body := some s.body } with
  | .cert c => [.sshCert c]
  | .error _ => []

/-- gorilla/websocket `equalASCIIFold`. -/
def fold (h : Str) : Str := h.map Char.toLower

/-- gorilla/websocket `checkSameOrigin`, the default of `newWebSocketUpgrader` (websocket.go:37-42). -/
def sameOrigin (s : Sent) : Bool :=
  match s.origin with
  | none => true
  | some o => fold o.host = fold s.host

/-- websocket.go:44-68 up to the connection to the server, which is taken to succeed. -/
def serveSocket (s : Sent) : List Effect :=
  if s.upgrade && s.method = "GET".toList && sameOrigin s then [.socket] else []

def logoutPath : Str := "/.sso/logout".toList

/-- backend-sso.go:222-237 `serveLogout` clears the cookies whatever the request; the browser takes that
from a page of the same site or after a navigation. Only that is modelled. -/
def serveLogout (x : Site) : List Effect := if x.sso then [.loggedOut] else []

/-- backend-http.go:419-440 with the handlers of proxy.go:479-483, 788-795, 819-824, 830-835: the login
page's handlers come without `enforceSSOPolicy`. -/
def handle (x : Site) (s : Sent) : List Effect :=
  if s.path = logoutPath then serveLogout x
  else if !enforce x s then []
  else if s.path = x.pki then servePki x s
  else if s.path = x.ssh then serveSsh x s
  else if s.path = x.ws then serveSocket s
  else []

end Verif.CrossSite
