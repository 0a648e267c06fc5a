import Verif.Model.Http
/-!
# The table of local endpoints

Model of the code of `Proxy.Reconfigure` that fills `Backend.localHandlers`: the endpoints a backend
gets on its own account (proxy/proxy.go:453-565, 697-717, proxy/pprof.go:33-41) and the ones added
for URLs of the configuration by `addLocalHandler` (proxy/proxy.go:736-836), together with the
side effect of the latter on the ACL of passkey managers (proxy/proxy.go:752-756).

Simplifications: handler functions are named by `Kind`; `hostAndPath` (proxy/proxy.go:1527-1540) is
a parameter that returns the ASCII host and the path, `none` on a URL that does not parse;
the map of identity providers is the list of (name, callback URL) in the order in which the `range`
loop visits it.
-/

namespace Verif.Endpoints

open Verif.Path (Str)

/-- What an endpoint does; one constructor per `localHandler{...}` literal. -/
inductive Kind where
  | ssoStatus | ssoStyle | ssoLogin | ssoLogout | ssoIcon
  | managePasskeys | passkeyEndpoints
  | oidcConfig | oidcAuthorization | oidcToken | oidcUserinfo | oidcJWKS
  | exportJWKS
  | metrics | icon | pprof (page : String)
  | callback (provider : String)
  | pkiCert (name : String) | pkiCRL (name : String) | pkiOCSP (name : String)
  | pkiManage (name : String)
  | sshKey (name : String) | sshCert (name : String)
  | webSocket (address : String)
  deriving DecidableEq, Repr

/-- config.go:453-461 `localHandler`. -/
structure Entry where
  kind : Kind
  host : String := ""
  path : Str := []
  bypass : Bool := false
  matchPrefix : Bool := false
  isCallback : Bool := false
  deriving DecidableEq, Repr

/-- The fields of `BackendSSO` that matter here: the provider's name, whether it is a passkey
manager, the ACL and the path prefix of the local OIDC server, if there is one. -/
structure SSO where
  provider : String
  passkey : Bool := false
  acl : Option (List Str) := none
  oidcPrefix : Option Str := none
  deriving DecidableEq, Repr

/-- The fields of `Backend` that matter here. -/
structure Be where
  serverNames : List String
  sso : Option SSO := none
  exportJWKS : Str := []
  console : Bool := false
  deriving DecidableEq, Repr

/-- config.go `ConfigPKI`. -/
structure PKI where
  name : String
  issuing : List String := []
  crl : List String := []
  ocsp : List String := []
  endpoint : String := ""
  deriving DecidableEq, Repr

/-- config.go `ConfigSSHCertificateAuthority`. -/
structure SSHCA where
  name : String
  publicKey : String := ""
  certificate : String := ""
  deriving DecidableEq, Repr

/-- The parts of the configuration from which endpoints are made. `pprof` is the build tag that
selects pprof.go over nopprof.go. -/
structure Src where
  pprof : Bool := false
  backends : List Be := []
  callbacks : List (String × String) := []
  pki : List PKI := []
  ssh : List SSHCA := []
  webSockets : List (String × String) := [] -- endpoint, address
  deriving DecidableEq, Repr

/-- proxy.go:461-491. -/
def ssoPages : List Entry :=
  [ { kind := .ssoStatus, path := "/.sso/".toList, bypass := true },
    { kind := .ssoStyle, path := "/.sso/style.css".toList, bypass := true },
    { kind := .ssoLogin, path := "/.sso/login".toList, bypass := true },
    { kind := .ssoLogout, path := "/.sso/logout".toList, bypass := true },
    { kind := .ssoIcon, path := "/.sso/favicon.ico".toList, bypass := true } ]

/-- proxy.go:492-506. -/
def passkeyPages : List Entry :=
  [ { kind := .managePasskeys, path := "/.sso/passkeys".toList },
    { kind := .passkeyEndpoints, path := "/.well-known/passkey-endpoints".toList,
      bypass := true } ]

/-- proxy.go:535-563. -/
def oidcPages (pre : Str) : List Entry :=
  [ { kind := .oidcConfig, path := pre ++ "/.well-known/openid-configuration".toList,
      bypass := true },
    { kind := .oidcAuthorization, path := pre ++ "/authorization".toList },
    { kind := .oidcToken, path := pre ++ "/token".toList, bypass := true },
    { kind := .oidcUserinfo, path := pre ++ "/userinfo".toList, bypass := true },
    { kind := .oidcJWKS, path := pre ++ "/jwks".toList, bypass := true } ]

/-- pprof.go:33-41, nopprof.go:28-29. -/
def pprofPages (on : Bool) : List Entry :=
  if on then
    [ { kind := .pprof "index", path := "/debug/pprof".toList, matchPrefix := true },
      { kind := .pprof "cmdline", path := "/debug/pprof/cmdline".toList },
      { kind := .pprof "profile", path := "/debug/pprof/profile".toList },
      { kind := .pprof "symbol", path := "/debug/pprof/symbol".toList },
      { kind := .pprof "trace", path := "/debug/pprof/trace".toList } ]
  else []

/-- proxy.go:453-565, 697-717: the endpoints that do not come from URLs. -/
def own (pprof : Bool) (be : Be) : List Entry :=
  (match be.sso with
    | none => []
    | some s =>
      ssoPages ++ (if s.passkey then passkeyPages else []) ++
        match s.oidcPrefix with
        | none => []
        | some pre => if be.serverNames = [] then [] else oidcPages pre) ++
  (if be.exportJWKS = [] then []
    else [{ kind := .exportJWKS, path := be.exportJWKS, bypass := true }]) ++
  (if be.console then
    [{ kind := .metrics, path := "/".toList }, { kind := .icon, path := "/favicon.ico".toList }] ++
      pprofPages pprof
   else [])

/-- proxy.go:761-836: the calls of `addLocalHandler`, in order, one per URL. -/
def requests (s : Src) : List (Entry × String) :=
  (s.callbacks.map fun c =>
    ({ kind := .callback c.1, bypass := true, isCallback := true }, c.2)) ++
  (s.pki.flatMap fun p =>
    (p.issuing.map fun u => ({ kind := .pkiCert p.name, bypass := true }, u)) ++
    (p.crl.map fun u => ({ kind := .pkiCRL p.name, bypass := true }, u)) ++
    (p.ocsp.map fun u => ({ kind := .pkiOCSP p.name, bypass := true, matchPrefix := true }, u)) ++
    (if p.endpoint = "" then [] else [({ kind := .pkiManage p.name }, p.endpoint)])) ++
  (s.ssh.flatMap fun p =>
    (if p.publicKey = "" then []
      else [({ kind := .sshKey p.name, bypass := true }, p.publicKey)]) ++
    (if p.certificate = "" then [] else [({ kind := .sshCert p.name }, p.certificate)])) ++
  s.webSockets.map fun w => ({ kind := .webSocket w.2 }, w.1)

/-- `backends[beKey{serverName: host}]`: the first backend that lists the name
(proxy.go:438-442). -/
def backendOf (bs : List Be) (host : String) : Option Nat :=
  bs.findIdx? fun b => b.serverNames.contains host

/-- The endpoints of each backend and the ACL given to each passkey manager; `none` in `acl` means
that `SetACL` was not called, which leaves the manager's field nil. -/
structure State where
  table : Nat → List Entry
  acl : String → Option (Option (List Str))

/-- `addLocalHandler` for one URL, proxy.go:736-758. -/
def addLocalHandler (split : String → Option (String × Str)) (bs : List Be) (st : State)
    (q : Entry × String) : State :=
  match split q.2 with
  | none => st
  | some (host, path) =>
    match backendOf bs host with
    | none => st
    | some i =>
      let e := { q.1 with host := host, path := path }
      { table := fun j => if j = i then st.table j ++ [e] else st.table j
        acl :=
          match bs[i]? with
          | some { sso := some s, .. } =>
            if e.isCallback && s.passkey then
              fun n => if n = s.provider then some s.acl else st.acl n
            else st.acl
          | _ => st.acl }

/-- The endpoints after proxy.go:836, before they are sorted (837-849, `Verif.Http.Handler.less`). -/
def build (split : String → Option (String × Str)) (s : Src) : State :=
  (requests s).foldl (addLocalHandler split s.backends)
    { table := fun j =>
        match s.backends[j]? with
        | none => []
        | some be => own s.pprof be
      acl := fun _ => none }

/-- The endpoint as the request handlers see it. `code` numbers the handler functions. -/
def Entry.handler (code : Kind → Nat) (e : Entry) : Http.Handler :=
  { host := e.host, path := e.path, bypass := e.bypass, matchPrefix := e.matchPrefix
    id := code e.kind }

/-- `subjectIsAllowed`, passkeys/manager.go:699-705, for a manager whose field `acl` is the given
one. -/
def subjectIsAllowed (acl : Option (Option (List Str))) (email : Str) : Bool :=
  match acl with
  | none => true
  | some none => true
  | some (some l) => l.contains email || l.contains ('@' :: Http.domainOf email)

end Verif.Endpoints
