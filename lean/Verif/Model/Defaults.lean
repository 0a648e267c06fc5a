/-
Settings that may be left out of the configuration: what `Config.Check` fills in
(proxy/config.go:799-806, 920-951, 1098-1132, 1150-1171), and what the code that uses them
assumes where `Check` leaves them empty (proxy/backend.go:270-283,
proxy/backend-http.go:257-285, 499-513, proxy/revoke.go:106,
proxy/internal/oidc/client.go:176-180).

Simplifications: modes and protocols are strings, durations are nanoseconds, and
`strings.ToUpper` is that of ASCII.  The checks of other settings, which are modelled in
`Verif.Model.Config`, look only at the modes and protocols that result, and are a parameter.
-/
import Verif.Model.Config

namespace Verif.Defaults

/-- Seconds in the unit of durations (time.Duration). -/
def second : Int := 1000000000

/-- The settings of a `PathOverride` that may be left out (config.go:641-707). -/
structure Override where
  mode : String := ""
  backendProto : Option String := none
  forwardTimeout : Int := 0
  proxyProtocolVersion : String := ""
  sanitizePath : Option Bool := none
deriving DecidableEq, Repr

/-- The settings of a `Backend` that may be left out (config.go:250-416). -/
structure Backend where
  mode : String := ""
  alpnProtos : Option (List String) := none
  backendProto : Option String := none
  forwardRateLimit : Int := 0
  forwardTimeout : Int := 0
  proxyProtocolVersion : String := ""
  sanitizePath : Option Bool := none
  serverClose : Option Bool := none
  clientClose : Option Bool := none
  halfClose : Option Int := none
  overrides : List Override := []
deriving DecidableEq, Repr

/-- The settings of the proxy that may be left out (config.go:108-110, 139-142, 487-494);
of an OIDC provider only the scopes. -/
structure Settings where
  enableQUIC : Option Bool := none
  revokeUnused : Option Bool := none
  scopes : List (List String) := []
  backends : List Backend := []
deriving DecidableEq, Repr

/-- What `Check` depends on: whether the binary was compiled with QUIC (`quicIsEnabled`,
quic.go, noquic.go), and all checks of settings that are not in this model. -/
structure Env where
  quicIsEnabled : Bool
  others : Bool → List (String × List String) → Option String

/-- Why `Check` refuses a configuration. -/
inductive Err where
  | quicNotSupported
  | badMode (m : String)
  | protoNotValid (m : String)
  | badVersion (v : String)
  | overridesNotValid
  | badOverrideMode (m : String)
  | other (s : String)
deriving DecidableEq, Repr

/-- config.go:799-802 -/
def quic (env : Env) (c : Settings) : Bool := c.enableQUIC.getD env.quicIsEnabled

/-- config.go:922-925 -/
def modeOf (m : String) : String :=
  if m.toUpper = "" ∨ m.toUpper = "PLAINTEXT" then "TCP" else m.toUpper

/-- Modes HTTP and HTTPS. -/
def isHttp (m : String) : Bool := m == "HTTP" || m == "HTTPS"

/-- config.go:931-938 -/
def alpnOf (quic : Bool) (mode : String) : Option (List String) → List String
  | some l => l
  | none =>
    if quic && (mode == "HTTP" || mode == "HTTPS" || mode == "QUIC" || mode == "LOCAL"
        || mode == "CONSOLE") then ["h3", "h2", "http/1.1"]
    else ["h2", "http/1.1"]

/-- config.go:942-950: in mode QUIC nil becomes false. -/
def closeOf (mode : String) (v : Option Bool) : Option Bool :=
  if mode = "QUIC" ∧ v = none then some false else v

/-- config.go:1098-1100, 1163-1165 -/
def timeoutOf (v : Int) : Int := if v = 0 then 30 * second else v

/-- config.go:1124-1126 -/
def rateOf (v : Int) : Int := if v = 0 then 5 else v

/-- config.go:1176-1188 `validateProxyProtoVersion`, which is modelled with the rest of the
validation; 0 is off. -/
def versionOf (v : String) : Option UInt8 := Config.validateProxyProtoVersion v

/-- config.go:1152-1154 -/
def overrideMode (mode : String) (o : Override) : String :=
  (if o.mode = "" then mode else o.mode).toUpper

/-- config.go:920-951 for one backend. -/
def fill (quic : Bool) (b : Backend) : Except Err Backend :=
  let m := modeOf b.mode
  if m ∉ Config.validModes then .error (.badMode m)
  else if b.backendProto ≠ none ∧ isHttp m = false then .error (.protoNotValid m)
  else .ok { b with
    mode := m
    alpnProtos := some (alpnOf quic m b.alpnProtos)
    serverClose := closeOf m b.serverClose
    clientClose := closeOf m b.clientClose }

/-- config.go:1140-1172 for one path override of a backend in a mode. -/
def fillOverride (mode : String) (o : Override) : Except Err Override :=
  let m := overrideMode mode o
  if isHttp m = false then .error (.badOverrideMode m)
  else if versionOf o.proxyProtocolVersion = none then .error (.badVersion o.proxyProtocolVersion)
  else .ok { o with mode := m, forwardTimeout := timeoutOf o.forwardTimeout }

/-- config.go:1087-1172, the second loop over the backends. -/
def fillRest (b : Backend) : Except Err Backend := do
  if versionOf b.proxyProtocolVersion = none then
    throw (.badVersion b.proxyProtocolVersion)
  if b.overrides ≠ [] ∧ isHttp b.mode = false then throw .overridesNotValid
  let os ← b.overrides.mapM (fillOverride b.mode)
  return { b with
    forwardTimeout := timeoutOf b.forwardTimeout
    forwardRateLimit := rateOf b.forwardRateLimit
    overrides := os }

/-- config.go:780-1175 `Check`. -/
def check (env : Env) (c : Settings) : Except Err Settings := do
  if quic env c = true ∧ env.quicIsEnabled = false then throw .quicNotSupported
  let bs ← c.backends.mapM (fill (quic env c))
  match env.others (quic env c) (bs.map fun b => (b.mode, b.alpnProtos.getD [])) with
  | some e => throw (.other e)
  | none =>
    let bs ← bs.mapM fillRest
    return { c with enableQUIC := some (quic env c), backends := bs }

/-! ## What the settings do once they are checked -/

/-- What decides about the protocol of a forwarded request: whether it asks for an upgrade
of an HTTP/1 connection, the path override that it falls under, and the protocol that was
negotiated with the client. -/
structure Req where
  upgrade : Bool := false
  override : Option Nat := none
  negotiated : String := ""
deriving DecidableEq, Repr

/-- backend-http.go:505-512; the value of the setting that applies. -/
def protoSetting (b : Backend) (r : Req) : String :=
  match r.override.bind (b.overrides[·]?) |>.bind Override.backendProto with
  | some p => p
  | none => b.backendProto.getD "http/1.1"

/-- backend-http.go:499-524; which of the three transports sends the request. -/
def protoUsed (b : Backend) (h3 : Bool) (r : Req) : String :=
  if r.upgrade then "http/1.1"
  else
    let p := protoSetting b r
    let p := if p = "" ∧ r.negotiated ≠ "" then r.negotiated else p
    if p = "h3" ∧ h3 = true then "h3" else if p = "h2" then "h2" else "http/1.1"

/-- backend-http.go:261, 276-278 -/
def sanitized (b : Backend) (r : Req) : Bool :=
  match r.override.bind (b.overrides[·]?) |>.bind Override.sanitizePath with
  | some s => s
  | none => b.sanitizePath.getD true

/-- backend.go:83-99; the time allowed for a connection to one address. -/
def dialTimeout (b : Backend) (r : Req) : Int :=
  match r.override.bind (b.overrides[·]?) with
  | some o => o.forwardTimeout
  | none => b.forwardTimeout

/-- backend.go:87-98, backend-http.go:260, 284; the version of the PROXY header that is
sent first. -/
def proxyHeader (b : Backend) (r : Req) : Option UInt8 :=
  match r.override.bind (b.overrides[·]?) with
  | some o => versionOf o.proxyProtocolVersion
  | none => versionOf b.proxyProtocolVersion

/-- What relaying between two connections does when one direction has ended
(backend.go:270-283). -/
structure Ends where
  server : Bool
  client : Bool
  timeout : Int
deriving DecidableEq, Repr

/-- backend.go:270-283 -/
def ends (b : Backend) : Ends :=
  { server := b.serverClose.getD true
    client := b.clientClose.getD false
    timeout := b.halfClose.getD (60 * second) }

/-- internal/oidc/client.go:176-180 -/
def scopesOf (l : List String) : List String :=
  if l = [] then ["openid", "email"] else l

/-- revoke.go:106 -/
def revokes (c : Settings) : Bool := c.revokeUnused.getD true

/-- All that a backend does that depends on these settings. -/
structure Does where
  mode : String
  alpn : List String
  proto : Bool → Req → String
  sanitized : Req → Bool
  dialTimeout : Req → Int
  proxyHeader : Req → Option UInt8
  overrideMode : Nat → Option String
  rate : Int
  ends : Ends

/-- All that a checked backend does. -/
def does (b : Backend) : Does :=
  { mode := b.mode
    alpn := b.alpnProtos.getD []
    proto := protoUsed b
    sanitized := Defaults.sanitized b
    dialTimeout := Defaults.dialTimeout b
    proxyHeader := Defaults.proxyHeader b
    overrideMode := fun i => (b.overrides[i]?).map Override.mode
    rate := b.forwardRateLimit
    ends := Defaults.ends b }

/-- All that the proxy does that depends on these settings. -/
structure Runs where
  quic : Bool
  revokes : Bool
  scopes : List (List String)
  backends : List Does

/-- The proxy with a configuration: the reason for which it is refused, or what it does. -/
def run (env : Env) (c : Settings) : Except Err Runs := do
  let c' ← check env c
  return { quic := c'.enableQUIC.getD false
           revokes := revokes c'
           scopes := c'.scopes.map scopesOf
           backends := c'.backends.map does }

end Verif.Defaults
