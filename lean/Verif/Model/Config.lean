/-
Model of configuration validation (proxy/config.go:780-1188) and of the parts of
`Reconfigure` that turn a valid configuration into lookup tables (proxy/proxy.go).
-/
namespace Verif.Config

/-! ## Data (config.go:60-640) -/

/-- config.go `ConfigOIDC`. -/
structure OIDC where
  name : String
  discoveryURL : String := ""
  authEndpoint : String := ""
  tokenEndpoint : String := ""
  redirectURL : String := ""
  clientID : String := ""
  clientSecret : String := ""
  domain : String := ""
deriving DecidableEq, Repr

/-- config.go `ConfigSAML`. -/
structure SAML where
  name : String
  ssoURL : String := ""
  entityID : String := ""
  certs : String := ""
  acsURL : String := ""
  domain : String := ""
deriving DecidableEq, Repr

/-- config.go `ConfigPasskey`. -/
structure Passkey where
  name : String
  identityProvider : String := ""
  endpoint : String := ""
  domain : String := ""
deriving DecidableEq, Repr

/-- config.go `ConfigPKI`. -/
structure PKI where
  name : String
  endpoint : String := ""
deriving DecidableEq, Repr

/-- config.go `ConfigSSHCertificateAuthority`. -/
structure SSHCA where
  name : String
  certificateEndpoint : String := ""
deriving DecidableEq, Repr

/-- config.go `BWLimit`; bytes per second are integers here. -/
structure BWLimit where
  name : String
  ingress : Nat := 0
  egress : Nat := 0
deriving DecidableEq, Repr

/-- config.go `LocalOIDCClient`. -/
structure OIDCClient where
  id : String
  secret : String
  redirectURI : List String
deriving DecidableEq, Repr

/-- config.go `LocalOIDCRewriteRule`. -/
structure RewriteRule where
  inputClaim : String
  outputClaim : String
  regex : String
deriving DecidableEq, Repr

/-- config.go `LocalOIDCServer`. -/
structure LocalOIDC where
  clients : List OIDCClient := []
  rules : List RewriteRule := []
deriving DecidableEq, Repr

/-- config.go `BackendSSO` (fields read by validation). -/
structure SSO where
  provider : String
  localOIDC : Option LocalOIDC := none
deriving DecidableEq, Repr

/-- config.go `ClientAuth`. -/
structure ClientAuth where
  rootCAs : List String := []
  acl : Option (List String) := none
  addClientCertHeader : List String := []
deriving DecidableEq, Repr

/-- config.go `PathOverride`. -/
structure PathOverride where
  paths : List String := []
  mode : String := ""
  addresses : List String := []
  forwardRootCAs : List String := []
  proxyProtocolVersion : String := ""
deriving DecidableEq, Repr

/-- config.go `Backend`; only the fields validation looks at. -/
structure Backend where
  serverNames : List String := []
  alpnProtos : Option (List String) := none
  mode : String := ""
  addresses : List String := []
  documentRoot : String := ""
  bwLimit : String := ""
  backendProto : Option String := none
  clientAuth : Option ClientAuth := none
  sso : Option SSO := none
  forwardRootCAs : List String := []
  allowIPs : Option (List String) := none
  denyIPs : Option (List String) := none
  proxyProtocolVersion : String := ""
  pathOverrides : List PathOverride := []
deriving DecidableEq, Repr

/-- config.go `Config`; only the fields validation looks at. -/
structure Config where
  cacheDir : String := ""
  maxOpen : Int := 0
  enableQUIC : Option Bool := none
  acceptProxyHeaderFrom : List String := []
  defaultServerName : String := ""
  oidc : List OIDC := []
  saml : List SAML := []
  passkeys : List Passkey := []
  backends : List Backend := []
  pki : List PKI := []
  ssh : List SSHCA := []
  bwLimits : List BWLimit := []
deriving DecidableEq, Repr

/-- Everything validation asks of other packages: `idna`, `strings.ToUpper/ToLower`,
`url.Parse`, `hostAndPath`'s ASCII host (proxy.go:1527-1540), `net.ParseCIDR`,
`regexp.Compile`, reading certificates, the open file limit, and the file system. -/
structure Env where
  idna : String → String
  toUpper : String → String
  toLower : String → String
  urlOK : String → Bool
  hostOf : String → Option String
  cidrOK : String → Bool
  regexOK : String → Bool
  certsOK : String → Bool
  openFileLimit : Option Int
  userCacheDir : Option String
  mkdirOK : Bool
  quicIsEnabled : Bool

/-! ## Helpers for "return an error if" -/

/-- `if c { return error }`: `some e` is the returned error. Error texts are abbreviated and
carry no index. -/
def bad (c : Prop) [Decidable c] (e : String) : Option String := if c then some e else none

/-- `strings.HasSuffix`. -/
def hasSuffix (s suffix : String) : Bool := suffix.toList.isSuffixOf s.toList

/-- `strings.HasPrefix`. -/
def hasPrefix (s pre : String) : Bool := pre.toList.isPrefixOf s.toList

/-! ## Proxy protocol version (config.go:1176-1188) -/

/-- Value of a non-empty string of decimal digits, as in `strconv.ParseUint` base 10. -/
def parseDigits : List Char → Nat → Option Nat
  | [], n => some n
  | c :: cs, n => if c.isDigit then parseDigits cs (n * 10 + (c.toNat - '0'.toNat)) else none

/-- `strconv.ParseInt(s, 10, 8)`: an optional sign, at least one digit, value in int8. -/
def parseInt8 (s : List Char) : Option Int :=
  let (neg, ds) := match s with
    | '+' :: t => (false, t)
    | '-' :: t => (true, t)
    | t => (false, t)
  if ds = [] then none
  else match parseDigits ds 0 with
    | none => none
    | some n =>
      if neg then (if n > 128 then none else some (-(n : Int)))
      else (if n > 127 then none else some n)

/-- config.go:1176-1188: `none` is an error, `some b` the byte stored. -/
def validateProxyProtoVersion (s : String) : Option UInt8 :=
  match s.toList with
  | [] => some 0
  | ['v'] => none
  | 'v' :: rest => (parseInt8 rest).map fun v => UInt8.ofNat (v % 256).toNat
  | _ => none

/-! ## Normalisation (the assignments of `Check`) -/

/-- config.go:68-77. -/
def validModes : List String :=
  ["TCP", "TLS", "TLSPASSTHROUGH", "QUIC", "HTTP", "HTTPS", "LOCAL", "CONSOLE"]

/-- config.go:78-85. -/
def validXFCCFields : List String := ["cert", "chain", "hash", "subject", "uri", "dns"]

/-- config.go:799-802. -/
def Config.quic (env : Env) (cfg : Config) : Bool := cfg.enableQUIC.getD env.quicIsEnabled

/-- config.go:922-925. -/
def normMode (env : Env) (m : String) : String :=
  let m := env.toUpper m
  if m = "" ∨ m = "PLAINTEXT" then "TCP" else m

/-- config.go:922-938 and 956-958, 1146-1149: upper-case modes, default protocols, ASCII
server names. -/
def normBackend (env : Env) (quic : Bool) (be : Backend) : Backend :=
  let mode := normMode env be.mode
  { be with
    mode := mode
    alpnProtos := some (be.alpnProtos.getD
      (if quic ∧ mode ∈ ["HTTP", "HTTPS", "QUIC", "LOCAL", "CONSOLE"]
       then ["h3", "h2", "http/1.1"] else ["h2", "http/1.1"]))
    serverNames := be.serverNames.map env.idna
    pathOverrides := be.pathOverrides.map fun po =>
      { po with mode := env.toUpper (if po.mode = "" then mode else po.mode) } }

/-- All assignments of `Check` to the fields modelled. In the code they are interleaved with
the checks, but every check only reads fields that were assigned before it, so doing them
first gives the same result when the configuration is accepted. -/
def normalise (env : Env) (cfg : Config) : Config :=
  { cfg with
    cacheDir := if cfg.cacheDir = "" then env.userCacheDir.getD "" ++ "/tlsproxy/letsencrypt"
      else cfg.cacheDir
    maxOpen := if cfg.maxOpen = 0 then (env.openFileLimit.getD 0).tdiv 2 - 100 else cfg.maxOpen
    enableQUIC := some (cfg.quic env)
    defaultServerName := env.idna cfg.defaultServerName
    oidc := cfg.oidc.map fun p =>
      { p with domain := if p.domain = "" then "" else env.idna p.domain }
    saml := cfg.saml.map fun p =>
      { p with domain := if p.domain = "" then "" else env.idna p.domain }
    passkeys := cfg.passkeys.map fun p =>
      { p with domain := if p.domain = "" then "" else env.idna p.domain }
    backends := cfg.backends.map (normBackend env (cfg.quic env)) }

/-! ## Checks -/

/-- A loop that rejects a repeated name and then runs `f` with the names seen so far
(config.go:818-823, 865-869, 893-897, 975-982, 997-1004, 1017-1022). -/
def loopNames {α : Type} (name : α → String) (f : List String → α → Option String) :
    List String → List α → Option String
  | _, [] => none
  | seen, a :: t =>
    (bad (name a ∈ seen) "duplicate name").or
      ((f (seen ++ [name a]) a).or (loopNames name f (seen ++ [name a]) t))

/-- config.go:854-863, 882-891, 907-916. -/
def checkDomain (env : Env) (domain url : String) : Option String :=
  if domain = "" then none
  else match env.hostOf url with
    | none => some "invalid URL"
    | some host => bad (hasSuffix host domain = false) "domain must be part of URL"

/-- config.go:824-863. -/
def checkOIDC (env : Env) (_ : List String) (p : OIDC) : Option String :=
  (bad ((p.authEndpoint = "" ∨ p.tokenEndpoint = "") ∧ p.discoveryURL = "") "endpoints must be set").or <|
  (bad (p.discoveryURL ≠ "" ∧ env.urlOK p.discoveryURL = false) "DiscoveryURL").or <|
  (bad (p.authEndpoint ≠ "" ∧ env.urlOK p.authEndpoint = false) "AuthEndpoint").or <|
  (bad (p.tokenEndpoint ≠ "" ∧ env.urlOK p.tokenEndpoint = false) "TokenEndpoint").or <|
  (bad (p.redirectURL = "") "RedirectURL must be set").or <|
  (bad (env.urlOK p.redirectURL = false) "RedirectURL").or <|
  (bad (p.clientID = "") "ClientID must be set").or <|
  (bad (p.clientSecret = "") "ClientSecret must be set").or <|
  checkDomain env p.domain p.redirectURL

/-- config.go:870-891. -/
def checkSAML (env : Env) (_ : List String) (p : SAML) : Option String :=
  (bad (p.ssoURL = "") "SSOURL must be set").or <|
  (bad (p.entityID = "") "EntityID must be set").or <|
  (bad (p.certs = "") "Certs must be set").or <|
  (bad (p.acsURL = "") "ACSURL must be set").or <|
  checkDomain env p.domain p.acsURL

/-- config.go:898-916; `seen` already contains the provider itself (897). -/
def checkPasskey (env : Env) (seen : List String) (p : Passkey) : Option String :=
  (bad (p.endpoint = "") "Endpoint must be set").or <|
  (bad (p.identityProvider = "") "IdentityProvider must be set").or <|
  (bad (p.identityProvider ∉ seen) "IdentityProvider has unexpected value").or <|
  checkDomain env p.domain p.endpoint

/-- config.go:926-941. -/
def checkMode (be : Backend) : Option String :=
  (bad (be.mode ∉ validModes) "Mode").or <|
  (bad (be.mode = "TLSPASSTHROUGH" ∧ be.clientAuth.isSome) "ClientAuth with passthrough").or <|
  bad (be.backendProto.isSome ∧ be.mode ≠ "HTTP" ∧ be.mode ≠ "HTTPS") "BackendProto"

/-- The inner loop config.go:964-970: `none` when a pair is repeated, else the pairs seen. -/
def checkProtos (n : String) : List (String × String) → List String → Option (List (String × String))
  | seen, [] => some seen
  | seen, p :: t => if (n, p) ∈ seen then none else checkProtos n (seen ++ [(n, p)]) t

/-- The loop config.go:953-972 over all server names in order, each with its backend's
protocols. -/
def checkNames : List String → List (String × String) → List (String × List String) → Option String
  | _, _, [] => none
  | names, keys, (n, ps) :: t =>
    (bad (n ∈ names ∧ ps.length = 0) "duplicate server name").or <|
    match checkProtos n keys ps with
    | none => some "duplicate server name and alpnProto"
    | some keys => checkNames (names ++ [n]) keys t

/-- The server names in order with the protocols of their backend. -/
def namesOf (bs : List Backend) : List (String × List String) :=
  bs.flatMap fun be => be.serverNames.map fun n => (n, be.alpnProtos.getD [])

/-- `serverNames[host]` as used at config.go:988 and 1010: the first backend with the name. -/
def firstWithName (bs : List Backend) (host : String) : Option Backend :=
  bs.find? fun be => host ∈ be.serverNames

/-- config.go:976-993. -/
def checkPKI (env : Env) (bs : List Backend) (_ : List String) (p : PKI) : Option String :=
  (bad (p.name = "") "Name must be set").or <|
  if p.endpoint = "" then none
  else match env.hostOf p.endpoint with
    | none => some "Endpoint"
    | some host => match firstWithName bs host with
      | none => some "backend not found"
      | some be => bad (be.mode ≠ "LOCAL" ∧ be.mode ≠ "CONSOLE") "backend must be local"

/-- config.go:998-1013. -/
def checkSSH (env : Env) (bs : List Backend) (_ : List String) (p : SSHCA) : Option String :=
  (bad (p.name = "") "Name must be set").or <|
  if p.certificateEndpoint = "" then none
  else match env.hostOf p.certificateEndpoint with
    | none => some "CertificateEndpoint"
    | some host => match firstWithName bs host with
      | none => some "backend not found"
      | some _ => none

/-- config.go:1042-1049, 1090-1097, 1154-1161. -/
def checkRootCAs (env : Env) (pkis : List String) (cas : List String) : Option String :=
  cas.findSome? fun n => bad (n ∉ pkis ∧ env.certsOK n = false) "RootCAs"

/-- config.go:1061-1087. -/
def checkLocalOIDC (env : Env) (s : LocalOIDC) : Option String :=
  (s.clients.findSome? fun c =>
    (bad (c.id = "") "ID must be set").or <|
    (bad (c.secret = "") "Secret must be set").or <|
    bad (c.redirectURI = []) "RedirectURI must be set").or <|
  s.rules.findSome? fun r =>
    (bad (r.inputClaim = "") "InputClaim must be set").or <|
    (bad (r.outputClaim = "") "OutputClaim must be set").or <|
    (bad (r.regex = "") "Regex must be set").or <|
    bad (env.regexOK r.regex = false) "Regex"

/-- config.go:1137-1171. -/
def checkOverride (env : Env) (pkis : List String) (po : PathOverride) : Option String :=
  (bad (po.paths = []) "Paths cannot be empty").or <|
  (po.paths.findSome? fun n =>
    bad (hasPrefix n "/" = false ∨ hasSuffix n "/" = false) "must start and end with /").or <|
  (bad (po.mode ≠ "HTTP" ∧ po.mode ≠ "HTTPS") "Mode").or <|
  (checkRootCAs env pkis po.forwardRootCAs).or <|
  bad (validateProxyProtoVersion po.proxyProtocolVersion = none) "ProxyProtocolVersion"

/-- config.go:1024-1172. -/
def checkBackend (env : Env) (providers pkis limits : List String) (be : Backend) : Option String :=
  (bad (be.serverNames = []) "ServerNames").or <|
  (bad (be.addresses = [] ∧ be.mode ≠ "CONSOLE" ∧ be.mode ≠ "HTTP" ∧ be.mode ≠ "HTTPS" ∧
    be.mode ≠ "LOCAL") "Addresses").or <|
  (bad (be.addresses ≠ [] ∧ (be.mode = "CONSOLE" ∨ be.mode = "LOCAL")) "Addresses").or <|
  (bad (be.documentRoot ≠ "" ∧ be.addresses ≠ []) "DocumentRoot").or <|
  (bad (be.bwLimit ≠ "" ∧ be.bwLimit ∉ limits) "BWLimit").or <|
  (match be.clientAuth with
    | none => none
    | some ca => (checkRootCAs env pkis ca.rootCAs).or <|
        ca.addClientCertHeader.findSome? fun f =>
          bad (env.toLower f ∉ validXFCCFields) "AddClientCertHeader").or <|
  (match be.sso with
    | none => none
    | some s => (bad (s.provider ∉ providers) "unknown provider").or <|
        match s.localOIDC with
        | none => none
        | some l => checkLocalOIDC env l).or <|
  (checkRootCAs env pkis be.forwardRootCAs).or <|
  ((be.allowIPs.getD []).findSome? fun c => bad (env.cidrOK c = false) "AllowIPs").or <|
  ((be.denyIPs.getD []).findSome? fun c => bad (env.cidrOK c = false) "DenyIPs").or <|
  (bad (validateProxyProtoVersion be.proxyProtocolVersion = none) "ProxyProtocolVersion").or <|
  (bad (be.pathOverrides ≠ [] ∧ be.mode ≠ "HTTP" ∧ be.mode ≠ "HTTPS") "PathOverrides").or <|
  be.pathOverrides.findSome? (checkOverride env pkis)

/-- All checks of config.go:780-1174 on the normalised configuration `cfg`; `raw` is the
configuration before normalisation (for the two "must be set" errors). -/
def checks (env : Env) (raw cfg : Config) : Option String :=
  (bad (raw.cacheDir = "" ∧ env.userCacheDir = none) "CacheDir must be set").or <|
  (bad (raw.maxOpen = 0 ∧ env.openFileLimit = none) "MaxOpen must be set").or <|
  (bad (cfg.quic env = true ∧ env.quicIsEnabled = false) "EnableQUIC").or <|
  (cfg.acceptProxyHeaderFrom.findSome? fun c => bad (env.cidrOK c = false) "AcceptProxyHeaderFrom").or <|
  (loopNames OIDC.name (checkOIDC env) [] cfg.oidc).or <|
  (loopNames SAML.name (checkSAML env) (cfg.oidc.map (·.name)) cfg.saml).or <|
  (loopNames Passkey.name (checkPasskey env)
    (cfg.oidc.map (·.name) ++ cfg.saml.map (·.name)) cfg.passkeys).or <|
  (cfg.backends.findSome? checkMode).or <|
  (checkNames [] [] (namesOf cfg.backends)).or <|
  (loopNames PKI.name (checkPKI env cfg.backends) [] cfg.pki).or <|
  (loopNames SSHCA.name (checkSSH env cfg.backends) [] cfg.ssh).or <|
  (loopNames BWLimit.name (fun _ _ => none) [] cfg.bwLimits).or <|
  (cfg.backends.findSome? (checkBackend env
    (cfg.oidc.map (·.name) ++ cfg.saml.map (·.name) ++ cfg.passkeys.map (·.name))
    (cfg.pki.map (·.name)) (cfg.bwLimits.map (·.name)))).or <|
  bad (env.mkdirOK = false) "mkdir"

/-- config.go:780-1174 `Check`: an error, or the normalised configuration. -/
def check (env : Env) (raw : Config) : Except String Config :=
  match checks env raw (normalise env raw) with
  | some e => .error e
  | none => .ok (normalise env raw)

/-! ## Tables built by Reconfigure -/

/-- `map[beKey]*Backend` (proxy.go:430); backends are identified by their index. -/
abbrev Table := String → String → Option Nat

def Table.set (t : Table) (n p : String) (i : Nat) : Table :=
  fun n' p' => if n' = n ∧ p' = p then some i else t n' p'

/-- proxy.go:446-448. -/
def addProtos (t : Table) (n : String) (i : Nat) : List String → Table
  | [] => t
  | p :: ps => addProtos (t.set n p i) n i ps

/-- proxy.go:438-449. -/
def addNames (t : Table) (i : Nat) (protos : List String) : List String → Table
  | [] => t
  | n :: ns =>
    let t := if t n "" = none then t.set n "" i else t
    addNames (addProtos t n i protos) i protos ns

/-- proxy.go:430-449, the loop over backends starting with number `i`. -/
def buildTable (t : Table) (i : Nat) : List Backend → Table
  | [] => t
  | be :: bs => buildTable (addNames t i (be.alpnProtos.getD []) be.serverNames) (i + 1) bs

/-- The table of a configuration. -/
def tableOf (bs : List Backend) : Table := buildTable (fun _ _ => none) 0 bs

/-- The results of `Proxy.backend`. -/
inductive Route where
  | unexpectedSNI
  | shutdown
  | to (i : Nat)
deriving DecidableEq, Repr

/-- proxy.go:1411-1416, the loop over the offered protocols. -/
def lookupProtos (t : Table) (n : String) : List String → Option Nat
  | [] => none
  | p :: ps => match t n p with
    | some i => some i
    | none => lookupProtos t n ps

/-- proxy.go:1408-1430 `backend`; `down i` is `be.state.shutdown`. -/
def route (t : Table) (down : Nat → Bool) (n : String) (protos : List String) : Route :=
  match (match lookupProtos t n protos with
    | some i => some i
    | none => t n "") with
  | none => .unexpectedSNI
  | some i => if down i then .shutdown else .to i

/-! ## Identity providers (proxy.go:308-390) -/

/-- What a provider hands the first authentication to. -/
inductive Provider where
  | oidc
  | saml
  /-- a passkey manager and the provider it delegates to -/
  | passkey (other : Provider)
deriving DecidableEq, Repr

/-- `identityProviders` (proxy.go:308), latest first. -/
abbrev Providers := List (String × Provider)

/-- proxy.go:360-390; `none` is the error "invalid identityProvider". Failures of the
constructors of the three provider kinds are not modelled. -/
def addPasskeys : Providers → List Passkey → Option Providers
  | m, [] => some m
  | m, p :: ps => match m.lookup p.identityProvider with
    | none => none
    | some other => addPasskeys ((p.name, .passkey other) :: m) ps

/-- proxy.go:308-390. -/
def buildProviders (cfg : Config) : Option Providers :=
  addPasskeys ((cfg.saml.map fun p => (p.name, Provider.saml)).reverse ++
    (cfg.oidc.map fun p => (p.name, Provider.oidc)).reverse) cfg.passkeys

end Verif.Config
