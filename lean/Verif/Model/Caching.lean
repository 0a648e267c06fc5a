import Verif.Model.Path
import Verif.Model.Keys

/-!
# What caches may keep of the proxy's own documents

Model of the handlers that say something about caching, or that answer conditional requests:
`serveSSOStyle` (backend-sso.go:147-161), `serveSSOStatus` (163-202), `ServeWellKnown`
(internal/passkeys/manager.go:181-208), `serveWebauthnJS` (496-511), `ServeJWKS`
(internal/tokenmanager/tokenmanager.go:452-508), the discovery document (internal/oidc/server.go:205-223),
`ServeToken` (server.go:337-400), `ServeUserInfo` (server.go:402-451), `ServeCACert`, `ServeCRL`,
`ServeOCSP`, `handleStaticFile` and `etag` (internal/pki/http.go:76-185, 479-540), `ServePublicKey` and
`ServeCertificate` (internal/sshca/sshca.go:243-343), `faviconHandler` (metrics.go:598-603), and of a cache
between clients and the proxy that follows RFC 9111.

Simplifications: what the handlers work out from their own state is part of `Server`: what they would send,
or the status of the error. A request is its host, its path, its If-None-Match header, and who sends it
(everything else a handler looks at, like cookies, tokens and forms, is part of `user`). Of a reply only the
status, the Cache-Control header, the Etag and the body are left. SHA-256 with hexadecimal output and
the decompression of static files are parameters; the name of a static file is the path.

From memory of the standard library and of RFC 9111: `http.Error` leaves Cache-Control alone (it removes
Content-Length only); a shared cache may keep a reply that is `public` or has a `max-age`, and one
of status 200, 404 or 405 that says nothing at all, for a time of its own choosing, if `no-store` does not
forbid it; a reply that is too old is confirmed with its Etag or fetched again.
-/

namespace Verif.Caching
open Verif.Path (Str)

/-- The Cache-Control headers the handlers use. -/
inductive Control where
  /-- no header -/
  | absent
  /-- `public` or `public, max-age=n` -/
  | pub (maxAge : Option Nat)
  /-- `no-store`, `no-cache, no-store` -/
  | noStore
deriving DecidableEq, Repr

structure Reply where
  status : Nat
  control : Control
  etag : Option Str
  body : Str
deriving DecidableEq, Repr

structure Req where
  host : Str
  path : Str
  /-- `req.Header.Get("If-None-Match")`, empty if there is none -/
  inm : Str
  /-- who sends it, with whatever they send along -/
  user : Str
deriving DecidableEq, Repr

/-- The documents. -/
inductive Doc where
  | style | script | favicon | wellKnown | jwks | discovery
  | caCert (pem : Bool) | crl (pem : Bool) | ocsp
  | sshKey | sshCert | token | userInfo | static | status
deriving DecidableEq, Repr

/-- The errors of the handlers. -/
inductive Fault where
  | badRequest | unauthorized | forbidden | notAllowed | internal
deriving DecidableEq, Repr

def Fault.code : Fault → Nat
  | .badRequest => 400
  | .unauthorized => 401
  | .forbidden => 403
  | .notAllowed => 405
  | .internal => 500

/-- What the handlers have to say at one moment. -/
structure Server where
  style : Str
  script : Str
  favicon : Str
  /-- depends on the name of the host, manager.go:188 -/
  wellKnown : Str → Str
  jwks : Str
  discovery : Str
  /-- the certificate of the authority and those of its delegates; none: no authority -/
  ca : Option (Str × List Str)
  /-- `certificate.pem`, pki.go:188-193 -/
  pem : Str → Str
  /-- `RevocationList` or `RevocationListPEM`; none: an error -/
  crl : Bool → Option Str
  /-- the answer, or an error -/
  ocsp : Str → Str ⊕ Fault
  sshKey : Option Str
  sshCert : Str → Str ⊕ Fault
  token : Str → Str ⊕ Fault
  userInfo : Str → Str ⊕ Fault
  /-- a file as it is stored -/
  static : Str → Option Str
  statusPage : Str → Str ⊕ Fault

/-- What is not the proxy's: SHA-256 with hexadecimal output, and what is sent for a stored file of some name
(http.go:492-495: files that end in `.bz2` are decompressed). -/
structure Env where
  sha : Str → Str
  unpack : Str → Str → Str

/-- `http.Error`: what was set before stays. -/
def httpError (c : Control) (code : Nat) : Reply := ⟨code, c, none, []⟩

/-- The quoted digest, for example http.go:530-531. -/
def quoted (env : Env) (b : Str) : Str := '"' :: (env.sha b ++ ['"'])

/-- A body with the Etag of `stored`, confirmed without the body if the request has this very Etag:
http.go:529-540, and likewise backend-sso.go:148-160, manager.go:195-207 and 497-510,
tokenmanager.go:495-507, server.go:210-222, http.go:501-509. -/
def confirm (env : Env) (c : Control) (stored body : Str) (r : Req) : Reply :=
  if r.inm = quoted env stored then ⟨304, c, some (quoted env stored), []⟩
  else ⟨200, c, some (quoted env stored), body⟩

/-- The usual case: the Etag is that of the body. -/
def send (env : Env) (c : Control) (body : Str) (r : Req) : Reply := confirm env c body body r

/-- Handlers without an Etag, which set the header after the last error: sshca.go:243-256,
sshca.go:258-343, server.go:337-400 and 402-451, http.go:126-185, backend-sso.go:163-202. -/
def plain (c : Control) : Str ⊕ Fault → Reply
  | .inl b => ⟨200, c, none, b⟩
  | .inr f => httpError .absent f.code

/-- The body of `ServeCACert`, http.go:85-99: one certificate after the other. -/
def caBody (s : Server) (pem : Bool) (ca : Str × List Str) : Str :=
  if pem then (ca.1 :: ca.2).flatMap s.pem else (ca.1 :: ca.2).flatten

/-- The handlers. -/
def serve (env : Env) (s : Server) : Doc → Req → Reply
  -- backend-sso.go:147-161
  | .style, r => send env (.pub none) s.style r
  -- manager.go:496-511
  | .script, r => send env (.pub none) s.script r
  -- metrics.go:598-603
  | .favicon, _ => ⟨200, .pub (some 86400), none, s.favicon⟩
  -- manager.go:183-208
  | .wellKnown, r => send env (.pub (some 3600)) (s.wellKnown r.host) r
  -- tokenmanager.go:452-508
  | .jwks, r => send env (.pub (some 3600)) s.jwks r
  -- server.go:205-223
  | .discovery, r => send env (.pub (some 3600)) s.discovery r
  -- http.go:77-100: the header is set after the check
  | .caCert p, r =>
    match s.ca with
    | none => httpError .absent 500
    | some ca => send env (.pub (some 86400)) (caBody s p ca) r
  -- http.go:103-122: the header is set first
  | .crl p, r =>
    match s.crl p with
    | none => httpError (.pub (some 1800)) 500
    | some b => send env (.pub (some 1800)) b r
  | .ocsp, r => plain (.pub (some 1800)) (s.ocsp r.path)
  | .sshKey, _ =>
    match s.sshKey with
    | none => httpError .absent 500
    | some b => plain (.pub (some 86400)) (.inl b)
  | .sshCert, r => plain .noStore (s.sshCert r.user)
  | .token, r => plain .noStore (s.token r.user)
  | .userInfo, r => plain .noStore (s.userInfo r.user)
  -- http.go:479-512
  | .static, r =>
    match s.static r.path with
    | none => httpError .absent 404
    | some f => confirm env .absent f (env.unpack r.path f) r
  | .status, r => plain .absent (s.statusPage r.user)

/-! ## A shared cache -/

/-- Whether a shared cache may keep a reply: RFC 9111, section 3. `own` says whether it keeps replies that
say nothing. -/
def keeps (own : Nat) (p : Reply) : Bool :=
  match p.control with
  | .pub _ => p.status != 304
  | .noStore => false
  | .absent => (p.status == 200 || p.status == 404 || p.status == 405) && own != 0

/-- For how many seconds it may use it without asking: RFC 9111, section 4.2. Without a `max-age` the cache
chooses. -/
def lifetime (own : Nat) (p : Reply) : Nat :=
  match p.control with
  | .pub (some n) => n
  | _ => own

/-- What is kept under the address of a document. -/
structure Entry where
  doc : Doc
  host : Str
  path : Str
  reply : Reply
  /-- when it was last known to be what the server would send -/
  at_ : Nat
deriving DecidableEq, Repr

abbrev Cache := List Entry

def Entry.key (e : Entry) (d : Doc) (r : Req) : Bool :=
  e.doc = d && e.host = r.host && e.path = r.path

def find (c : Cache) (d : Doc) (r : Req) : Option Entry := c.find? (·.key d r)

/-- The request the cache sends for `r`: without a condition, or with that of what it has. -/
def upstream (r : Req) (e : Option Entry) : Req :=
  { r with inm := ((e.bind (·.reply.etag)).getD []) }

/-- The cache asks the server, section 4.3: a confirmation makes what it has fresh. -/
def ask (env : Env) (own : Nat) (s : Server) (now : Nat) (c : Cache) (d : Doc) (r : Req)
    (e : Option Entry) : Reply × Cache :=
  let p := serve env s d (upstream r e)
  match e with
  | some e =>
    if p.status = 304 then (e.reply, { e with at_ := now } :: c)
    else (p, if keeps own p then ⟨d, r.host, r.path, p, now⟩ :: c else c)
  | none => (p, if keeps own p then ⟨d, r.host, r.path, p, now⟩ :: c else c)

/-- A client asks the cache. (The client's own condition is for the client's own copy: the cache answers it
by itself.) -/
def get (env : Env) (own : Nat) (s : Server) (now : Nat) (c : Cache) (d : Doc) (r : Req) :
    Reply × Cache :=
  match find c d r with
  | some e =>
    if now < e.at_ + lifetime own e.reply then (e.reply, c)
    else ask env own s now c d r (some e)
  | none => ask env own s now c d r none

/-- A request at a time. -/
structure Visit where
  now : Nat
  doc : Doc
  req : Req

/-- The cache after some requests, while what the server has to say changes with time. -/
def visit (env : Env) (own : Nat) (st : Nat → Server) (c : Cache) : List Visit → Cache
  | [] => c
  | v :: vs => visit env own st (get env own (st v.now) v.now c v.doc v.req).2 vs

/-! ## The delegates of the authority -/

/-- A delegate that signs revocation lists: its key, and when it was made (in seconds). -/
structure Delegate where
  key : Nat
  made : Nat
deriving DecidableEq, Repr

/-- `maybeRotateDelegateCert`, pki.go:387-455, with the lifetime of ten days (pki.go:74): the first one
signs, one old one stays. (Errors, and keys of an unsuitable kind, are in `Verif.Model.PkiKeys`.) -/
def rotate (now key : Nat) : List Delegate → List Delegate
  | [] => [⟨key, now⟩]
  | d :: ds => if d.made + 432000 < now then ⟨key, now⟩ :: (d :: ds).take 1 else d :: ds

end Verif.Caching
