import Verif.Model.Dispatch
/-!
Session resumption: which session tickets a listener accepts, and what a resumed handshake
hands to the proxy's own checks.

The proxy configures nothing about tickets (no `SessionTicketsDisabled`, no
`SetSessionTicketKeys` anywhere in /repo), so Go's defaults apply. A TCP connection is given to
`tls.Server(conn, be.tlsConfig)` (proxy/proxy.go:1204, 1211): every backend object has its own
configuration (proxy.go:567, 640) and therefore its own ticket keys. The QUIC listener has a
single configuration made once (proxy/quic.go:72-89) whose `GetConfigForClient` picks a
backend's configuration. crypto/tls then keeps using the ticket keys of the listener
(`originalConfig.ticketKeys(configForClient)`, Go 1.23 handshake_server.go), so that all
backends, of all configurations loaded while the listener lives, accept each other's tickets.

The parts of crypto/tls transcribed here are from the Go release named in go.mod (1.23); they
are not in /repo and belong to the trusted base. Later releases verify the stored certificate
again against the client CAs of the configuration in use; `Env.recheck` tells the two apart.
Cryptography is taken to be perfect: a ticket is accepted only if it was issued under that key.
Key rotation is not modelled; it only makes tickets unusable, which the events allow anyway
since offering a ticket is optional.
-/
namespace Verif.Resume

open Verif.Dispatch

/-- Whose ticket key: that of backend `b`'s `tlsConfig` (proxy.go:640) or that of the QUIC
listener's configuration (quic.go:72). -/
inductive Key where
  | tcp (b : Nat)
  | quic
deriving DecidableEq, Repr

/-- A session ticket: the key it is sealed with and the stored client certificate, if the
connection had one (it was verified then). -/
structure Ticket where
  key : Key
  cert : Option Cert
deriving DecidableEq, Repr

/-- What does not change: the backend objects, numbered uniquely over all configurations ever
loaded; `cas b` is `tc.ClientCAs` of backend `b` (proxy.go:570-586), `chains t cas c` says that
`c` verifies against these roots at time `t`, `notAfter` is the end of validity. -/
structure Env where
  be : Nat → Be
  cas : Nat → List Nat
  chains : Nat → List Nat → Cert → Bool
  notAfter : Cert → Nat
  recheck : Bool := false

/-- crypto/tls `checkForResumption` (Go 1.23, handshake_server_tls13.go and
handshake_server.go) for a configuration with `RequireAndVerifyClientCert` (`needs`,
proxy.go:569) or `NoClientCert`: a stored certificate is needed exactly when the configuration
asks for one, and must not have expired. -/
def usable (e : Env) (now b : Nat) (key : Key) (t : Ticket) : Bool :=
  t.key = key &&
  match t.cert with
  | none => (e.be b).clientAuth.isNone
  | some c => (e.be b).clientAuth.isSome && decide (now ≤ e.notAfter c) &&
      (! e.recheck || e.chains now (e.cas b) c)

/-- What a client brings: the name and protocols, the certificate it presents if asked, the
number of the issued ticket it offers, and whether the rest of the handshake succeeds. -/
structure Offer where
  sni : String
  protos : List String
  cert : Option Cert := none
  ticket : Option Nat := none
  restOK : Bool := true

/-- The ticket, if any, with which the handshake is resumed. -/
def resumed (e : Env) (tickets : List Ticket) (now b : Nat) (key : Key) (o : Offer) : Option Ticket :=
  match o.ticket with
  | none => none
  | some i =>
    match tickets[i]? with
    | none => none
    | some t => if usable e now b key t then some t else none

/-- The connection as the rest of the handshake sees it: on resumption the stored certificate
and its stored chains, otherwise the certificate presented, verified now. -/
def clientOf (e : Env) (tickets : List Ticket) (now b : Nat) (key : Key) (o : Offer) : Client :=
  match resumed e tickets now b key o with
  | some t => { sni := o.sni, protos := o.protos, cert := t.cert, chainOK := true, restOK := o.restOK }
  | none =>
    { sni := o.sni, protos := o.protos, cert := o.cert,
      chainOK := match o.cert with
        | some c => e.chains now (e.cas b) c
        | none => false
      restOK := o.restOK }

/-- A connection attempt. The world (routes, revocations, OCSP answers) may be another one each
time; its backends are those of `Env`. In `tcp` the `client` of the connection is ignored. -/
inductive Ev where
  | tcp (w : World) (now : Nat) (c : Conn) (o : Offer)
  | quic (w : World) (declared : String → String → Option Nat) (now : Nat) (c : QConn) (o : Offer)

/-- The world at an event, with the backends of `Env`. -/
def world (e : Env) (w : World) : World := { w with be := e.be }

/-- proxy.go:1167-1174: the backend a TCP connection is routed to. -/
def tcpBackend (w : World) (c : Conn) : Option Nat :=
  match c.hello with
  | none => none
  | some (sni, protos) =>
    match w.route (if sni = "" then w.defaultServerName else sni) protos with
    | .to b => some b
    | _ => none

/-- proxy.go:1120-1216 with resumption: everything observable of a TCP connection. -/
def runTCP (e : Env) (tickets : List Ticket) (w : World) (now : Nat) (c : Conn) (o : Offer) :
    List Event :=
  match tcpBackend w c with
  | none => handleConnection w c
  | some b => handleConnection w { c with client := clientOf e tickets now b (.tcp b) o }

/-- quic.go:117-230 with resumption. -/
def runQUIC (e : Env) (tickets : List Ticket) (w : World)
    (declared : String → String → Option Nat) (now : Nat) (c : QConn) (o : Offer) : List QEvent :=
  match configForClient w declared o.sni o.protos with
  | none => [.refused]
  | some b => handleQUIC w declared { c with client := clientOf e tickets now b .quic o }

/-- The ticket a completed handshake issues. -/
def issue (key : Key) : Option (String × Option Cert) → List Ticket
  | none => []
  | some (_, cert) => [{ key := key, cert := cert }]

/-- The tickets in circulation after an event. (Simplification: for TCP a ticket is issued
whenever the handshake would succeed, also if the IP rules or the mode kept it from being
tried.) -/
def step (e : Env) (tickets : List Ticket) : Ev → List Ticket
  | .tcp w now c o =>
    match tcpBackend (world e w) c with
    | none => tickets
    | some b => tickets ++ issue (.tcp b) (handshake (world e w) (e.be b) (e.be b).nextProtosTCP false
        (clientOf e tickets now b (.tcp b) o))
  | .quic w declared now _ o =>
    match configForClient (world e w) declared o.sni o.protos with
    | none => tickets
    | some b => tickets ++ issue .quic (handshake (world e w) (e.be b) (e.be b).nextProtosQUIC true
        (clientOf e tickets now b .quic o))

/-- All tickets issued in the course of `evs`. -/
def run (e : Env) (evs : List Ev) : List Ticket := evs.foldl (step e) []

end Verif.Resume
