import Verif.Model.Config
/-
Model of connection admission and dispatch: proxy/proxy.go:1120-1400, the VerifyConnection
callback (proxy.go:587-623), proxy/backend.go:218-269 and proxy/quic.go:72-230.
-/
namespace Verif.Dispatch

open Verif.Config (Route)

/-! ## IP rules (backend.go:243-269, net.IPNet.Contains) -/

abbrev IP := List UInt8

/-- `net.IP.To4`. -/
def to4 (ip : IP) : Option IP :=
  if ip.length = 4 then some ip
  else if ip.length = 16 ∧ ip.take 12 = [0, 0, 0, 0, 0, 0, 0, 0, 0, 0, 255, 255] then some (ip.drop 12)
  else none

/-- A network as `net.ParseCIDR` returns it: the (masked) address and the prefix length. -/
structure Cidr where
  ip : IP
  ones : Nat
deriving DecidableEq, Repr

/-- Byte `i` of `net.CIDRMask(ones, _)`. -/
def maskByte (ones i : Nat) : UInt8 :=
  if 8 * (i + 1) ≤ ones then 255
  else if ones ≤ 8 * i then 0
  else (255 : UInt8) <<< (UInt8.ofNat (8 - (ones - 8 * i)))

/-- The byte loop of `net.IPNet.Contains`, starting at mask byte `i`. -/
def maskedEq (ones : Nat) : Nat → IP → IP → Bool
  | i, a :: as, b :: bs => (a &&& maskByte ones i) = (b &&& maskByte ones i) ∧ maskedEq ones (i + 1) as bs
  | _, [], [] => true
  | _, _, _ => false

/-- `net.IPNet.Contains` including `networkNumberAndMask`: an IPv4-mapped network uses the
last four bytes of its mask. -/
def Cidr.contains (n : Cidr) (ip : IP) : Bool :=
  let nn := (to4 n.ip).getD n.ip
  let ip := (to4 ip).getD ip
  let off := if n.ip.length = 16 ∧ nn.length = 4 then 12 else 0
  ip.length = nn.length ∧ maskedEq n.ones off nn ip

/-- backend.go:243-269 `checkIP`: true is admission. `addr` is `none` for an address that is
neither TCP nor UDP. -/
def checkIP (deny allow : Option (List Cidr)) (addr : Option IP) : Bool :=
  match addr with
  | none => false
  | some ip =>
    if (match deny with | none => false | some l => l.any (·.contains ip)) then false
    else match allow with
      | none => true
      | some l => l.any (·.contains ip)

/-! ## Client certificates (backend.go:218-241) -/

/-- The fields of a client certificate that are looked at. -/
structure Cert where
  subject : String := ""
  dns : List String := []
  emails : List String := []
  uris : List String := []
  authorityKeyId : String := ""
  serial : Nat := 0
  hasOCSPServer : Bool := false
deriving DecidableEq, Repr

/-- backend.go:218-241 `authorize` on a present certificate; `acl` is the configured list
(`none` is a nil ACL). -/
def authorize (acl : Option (List String)) (c : Cert) : Bool :=
  match acl with
  | none => true
  | some acl =>
    if c.subject ≠ "" ∧ (c.subject ∈ acl ∨ ("SUBJECT:" ++ c.subject) ∈ acl) then true
    else if c.dns.any fun v => ("DNS:" ++ v) ∈ acl then true
    else if c.emails.any fun v => ("EMAIL:" ++ v) ∈ acl then true
    else c.uris.any fun v => ("URI:" ++ v) ∈ acl

/-! ## Running backends -/

/-- A backend as used at run time. `acl = none` inside `clientAuth` is a nil ACL; `pkiMap`
maps authority key ids to local certificate authorities (proxy.go:574-582). -/
structure Be where
  mode : String
  protos : List String := []
  clientAuth : Option (Option (List String)) := none
  denyIPs : Option (List Cidr) := none
  allowIPs : Option (List Cidr) := none
  pkiMap : String → Option Nat := fun _ => none
  http3 : Bool := false

/-- The rest of the world. `route` is `Proxy.backend`; `be` gives the backend of a number;
`isRevoked ca serial` is `PKIManager.IsRevoked`; `ocspOK c` says that
`ocspCache.VerifyChains` accepts the chain of `c`. -/
structure World where
  route : String → List String → Route
  be : Nat → Be
  isRevoked : Nat → Nat → Bool
  ocspOK : Cert → Bool
  defaultServerName : String
  maxOpen : Int

/-- What the TLS library sees of the client: the server name and protocols it parsed, the
certificate offered, whether it chains to the backend's client CAs, and whether the rest of
the handshake succeeds. -/
structure Client where
  sni : String
  protos : List String
  cert : Option Cert := none
  chainOK : Bool := true
  restOK : Bool := true

/-- proxy.go:587-623 `VerifyConnection` for the state (server name, negotiated protocol, peer
certificate, verified). True means nil. -/
def verifyConnection (w : World) (sni proto : String) (cert : Option Cert) (verified : Bool) : Bool :=
  match w.route sni [proto] with
  | .to b =>
    let be := w.be b
    match be.clientAuth with
    | none => true
    | some acl =>
      match cert with
      | none => false
      | some c =>
        if ¬ verified then false
        else if (match be.pkiMap c.authorityKeyId with
            | some m => w.isRevoked m c.serial
            | none => c.hasOCSPServer && ! w.ocspOK c) then false
        else authorize acl c
  | _ => false

/-- config.go:90-92 `quicOnlyProtocols`. -/
def quicOnly (p : String) : Bool := p == "h3"

/-- proxy.go:625-630: `NextProtos` of the QUIC configuration. -/
def Be.nextProtosQUIC (b : Be) : List String :=
  b.protos.filter fun p => ¬ (quicOnly p ∧ (b.mode = "TLS" ∨ b.mode = "TCP"))

/-- proxy.go:635-638: `NextProtos` of the TCP configuration. -/
def Be.nextProtosTCP (b : Be) : List String := b.nextProtosQUIC.filter fun p => ¬ quicOnly p

/-- crypto/tls `negotiateALPN` (Go 1.23, handshake_server.go): `none` is a handshake failure.
Part of the standard library, transcribed because the proxy relies on its result. -/
def negotiateALPN (server client : List String) (quic : Bool) : Option String :=
  if server = [] ∨ client = [] then
    if quic ∧ server ≠ [] then none else some ""
  else match server.find? (· ∈ client) with
    | some p => some p
    | none => if "h2" ∈ server ∧ "http/1.1" ∈ client then some "" else none

/-- Outcome of the server side handshake with backend `b`'s configuration: negotiated protocol
and peer certificate. With `ClientAuth` set, `RequireAndVerifyClientCert` (proxy.go:569)
demands a certificate that chains to the configured CAs, then calls `VerifyConnection`.
Without it no certificate is requested. -/
def handshake (w : World) (b : Be) (nextProtos : List String) (quic : Bool) (c : Client) :
    Option (String × Option Cert) :=
  if ¬ c.restOK then none
  else match negotiateALPN nextProtos c.protos quic with
    | none => none
    | some proto =>
      match b.clientAuth with
      | none => some (proto, none)
      | some _ =>
        match c.cert with
        | none => none
        | some cert =>
          if ¬ c.chainOK then none
          else if verifyConnection w c.sni proto (some cert) true then some (proto, some cert)
          else none

/-! ## TCP dispatch -/

/-- What can be observed of one connection. -/
inductive Event where
  | alertUnrecognizedName
  | alertCloseNotify
  | alertInternalError
  /-- the backend's IP rules admitted the client -/
  | ipAllowed (b : Nat)
  /-- the TLS handshake was completed and the connection authorized for the backend -/
  | authorized (b : Nat) (cert : Option Cert)
  | acmeHandshake
  /-- a connection to one of the backend's servers is opened and bridged -/
  | dial (b : Nat)
  /-- the connection is given to the backend's HTTP server -/
  | http (b : Nat)
  | closed
deriving DecidableEq, Repr

/-- One accepted TCP connection: the count returned by the tracker, what `peekClientHello`
found (`none` is an error), the remote address, what the TLS library sees, and whether
`connLimit.Wait`, the HTTP channel and `dial` succeed. -/
structure Conn where
  numOpen : Nat
  hello : Option (String × List String)
  addr : Option IP
  client : Client
  waitOK : Bool := true
  chanOK : Bool := true
  dialOK : Bool := true

/-- proxy.go:1243-1287 `authorizeTLSConnection`: the certificate when authorized. -/
def authorizeTLS (w : World) (b : Nat) (serverName : String) (c : Client) : Option (Option Cert) :=
  let be := w.be b
  match handshake w be be.nextProtosTCP false c with
  | none => none
  | some (_, cert) =>
    if (c.sni = "" ∧ serverName ≠ w.defaultServerName) ∨ (c.sni ≠ "" ∧ c.sni ≠ serverName) then none
    else match be.clientAuth with
      | some (some acl) =>
        match cert with
        | none => none  -- authorize dereferences the certificate: recovered panic, not authorized
        | some crt => if authorize (some acl) crt then some cert else none
      | _ => some cert

/-- proxy.go:1289-1317 `handleHTTPConnection`. -/
def handleHTTP (w : World) (b : Nat) (serverName : String) (c : Conn) : List Event :=
  match authorizeTLS w b serverName c.client with
  | none => [.closed]
  | some cert =>
    if ¬ c.waitOK then [.authorized b cert, .closed]
    else if ¬ c.chanOK then [.authorized b cert, .closed]
    else [.authorized b cert, .http b]

/-- proxy.go:1319-1362 `handleTLSConnection`; the bridged connection is closed at the end. -/
def handleTLS (w : World) (b : Nat) (serverName : String) (c : Conn) : List Event :=
  match authorizeTLS w b serverName c.client with
  | none => [.closed]
  | some cert =>
    if ¬ c.waitOK then [.authorized b cert, .closed]
    else if ¬ c.dialOK then [.authorized b cert, .dial b, .closed]
    else [.authorized b cert, .dial b, .closed]

/-- proxy.go:1364-1400 `handleTLSPassthroughConnection`. -/
def handlePassthrough (b : Nat) (c : Conn) : List Event :=
  if ¬ c.waitOK then [.alertInternalError, .closed]
  else if ¬ c.dialOK then [.dial b, .alertInternalError, .closed]
  else [.dial b, .closed]

/-- proxy.go:1188-1216: the switch over modes. The IP check of the wrapper proxy.go:1220-1230
sends an alert on refusal. -/
def dispatch (w : World) (b : Nat) (serverName helloSNI : String) (helloProtos : List String)
    (c : Conn) : List Event :=
  let be := w.be b
  let ip := checkIP be.denyIPs be.allowIPs c.addr
  if be.mode = "TLSPASSTHROUGH" then
    if ¬ ip then [.alertUnrecognizedName, .closed]
    else .ipAllowed b :: handlePassthrough b c
  else if helloProtos = ["acme-tls/1"] ∧ helloSNI ≠ "" then [.acmeHandshake, .closed]
  else if be.mode = "CONSOLE" ∨ be.mode = "LOCAL" ∨ be.mode = "HTTP" ∨ be.mode = "HTTPS" then
    if ¬ ip then [.alertUnrecognizedName, .closed]
    else .ipAllowed b :: handleHTTP w b serverName c
  else if be.mode = "TCP" ∨ be.mode = "TLS" ∨ be.mode = "QUIC" then
    if ¬ ip then [.alertUnrecognizedName, .closed]
    else .ipAllowed b :: handleTLS w b serverName c
  else [.closed]

/-- proxy.go:1120-1216 `handleConnection`: everything observable of a TCP connection, in
order. -/
def handleConnection (w : World) (c : Conn) : List Event :=
  if (c.numOpen : Int) ≥ w.maxOpen then [.alertCloseNotify, .closed]
  else match c.hello with
    | none => [.closed]
    | some (sni, protos) =>
      let serverName := if sni = "" then w.defaultServerName else sni
      match w.route serverName protos with
      | .to b => dispatch w b serverName sni protos c
      | _ => [.alertUnrecognizedName, .closed]

/-! ## QUIC dispatch -/

inductive QEvent where
  /-- the TLS handshake was refused -/
  | refused
  | closeUnrecognized
  /-- a nil backend is dereferenced while logging; recovered, the connection is closed -/
  | panicClosed
  | closed
  | ipAllowed (b : Nat)
  | closeAccessDenied
  /-- the connection is served by the backend's HTTP/3 server -/
  | http3 (b : Nat)
  /-- the backend's QUIC servers are dialed -/
  | dialQUIC (b : Nat)
  /-- each stream is handed to the HTTP server or dialed separately (quic.go:359-409) -/
  | streams (b : Nat)
deriving DecidableEq, Repr

/-- One QUIC client. -/
structure QConn where
  client : Client
  numOpen : Nat
  addr : Option IP
  waitOK : Bool := true

/-- quic.go:72-84 `GetConfigForClient`: `declared n p` is the table lookup. -/
def configForClient (w : World) (declared : String → String → Option Nat) (n : String) :
    List String → Option Nat
  | [] => none
  | p :: ps => match declared n p with
    | some b => if (w.be b).mode ≠ "TLSPASSTHROUGH" then some b else configForClient w declared n ps
    | none => configForClient w declared n ps

/-- quic.go:117-230 `handleQUICConnection`, together with the handshake that precedes it. -/
def handleQUIC (w : World) (declared : String → String → Option Nat) (c : QConn) : List QEvent :=
  match configForClient w declared c.client.sni c.client.protos with
  | none => [.refused]
  | some b0 =>
    match handshake w (w.be b0) (w.be b0).nextProtosQUIC true c.client with
    | none => [.refused]
    | some (proto, _) =>
      match w.route c.client.sni [proto] with
      | .to b =>
        let be := w.be b
        if (c.numOpen : Int) ≥ w.maxOpen then [.closed]
        else if ¬ checkIP be.denyIPs be.allowIPs c.addr then [.closeAccessDenied, .closed]
        else if ¬ c.waitOK then [.ipAllowed b, .closed]
        else if be.http3 ∧ proto = "h3" then [.ipAllowed b, .http3 b, .closed]
        else if be.mode = "QUIC" then [.ipAllowed b, .dialQUIC b, .closed]
        else [.ipAllowed b, .streams b, .closed]
      | _ => [.panicClosed]

end Verif.Dispatch
