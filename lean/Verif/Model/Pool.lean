import Verif.Model.Http
import Verif.Model.Dial
/-
Model of the connections a reverse proxy backend keeps towards its servers: the choice of the protocol in
`reverseProxyTransport` (proxy/backend-http.go:472-521), `http3Transport` and `dialQUICBackend`
(proxy/quic.go:498-593), and the reuse of connections by the HTTP clients of the Go library.

`http.Transport`, `http2.Transport` and `http3.RoundTripper` are modelled by what their documentation
promises: a request is sent over some connection of the same client whose URL had the same host (here: the
same key), dialled for this request or for another one. The scheme of the URL depends on the backend only.
When connections are closed, and how many there are, is left open.
-/
namespace Verif.Pool

open Verif.Path (Str)
open Verif.Dial (Bytes Header Client Dest D Net headerFor turn destOf slotOf)

/-- The three clients of backend-http.go:473-498. -/
inductive Transport where
  | h1
  | h2
  | h3
deriving DecidableEq, Repr

/-- A backend: what the handlers use, the mode, and `BackendProto`; modes and protocols of its path
overrides, in order. `quic` says that the program was built with QUIC (quic.go, noquic.go:55-57). -/
structure Conf where
  be : Http.Be
  mode : String := "HTTPS"
  proto : Option String := none
  overrideModes : List String := []
  overrideProtos : List (Option String) := []
  quic : Bool := true
  /-- sha256 in hexadecimal -/
  hash : Str → Str := id

/-- backend.go:84-104, quic.go:499-516: what is dialled. -/
def Conf.dial (cf : Conf) : Dial.Backend where
  main := { addresses := cf.be.addresses, mode := cf.mode, ppVersion := cf.be.proxyVersion }
  overrides := cf.be.overrides.mapIdx fun i o =>
    { addresses := o.addresses, mode := cf.overrideModes.getD i "HTTPS", ppVersion := o.proxyVersion }

/-- A request as it arrives: the client connection, everything else the handlers look at, the HTTP version
and, after the removal of hop-by-hop headers, the Connection header. `tls` is the protocol that was
negotiated, "" if none; `none` if the connection does not use TLS. -/
structure Request where
  client : Client
  ctx : Http.Ctx
  req : Http.Req
  major : Nat := 1
  connection : String := ""
  tls : Option String := some ""

/-- Bytes as text. -/
def text (b : Bytes) : Str := b.map fun x => Char.ofNat x.toNat

/-- The context of the handlers: server name and PROXY header are those of the client's connection
(backend-http.go:217, 293-297). -/
def Request.context (enc : Header → Bytes) (cf : Conf) (q : Request) : Http.Ctx :=
  { q.ctx with
    serverName := q.client.serverName
    proxyHeader := fun v => text (enc (headerFor v q.client))
    hash := cf.hash }

/-- The override and the key with which a request is forwarded, if it is. -/
def Request.target (enc : Header → Bytes) (cf : Conf) (q : Request) : Option (Option Nat × Str) :=
  match Http.serve (q.context enc cf) cf.be q.req with
  | .forward _ _ _ ov k => some (ov, k)
  | _ => none

/-- backend-http.go:504-512: the protocol by name. -/
def protoName (cf : Conf) (ov : Option Nat) (tls : Option String) : String :=
  let p := match ov.bind fun i => cf.overrideProtos.getD i none with
    | some p => p
    | none => cf.proto.getD "http/1.1"
  if p = "" then
    match tls with
    | some n => n
    | none => p
  else p

/-- backend-http.go:500-520. -/
def transport (cf : Conf) (q : Request) (ov : Option Nat) : Transport :=
  if q.major = 1 ∧ q.connection.toLower = "upgrade" then .h1
  else
    let p := protoName cf ov q.tls
    if p = "h3" ∧ cf.quic then .h3
    else if p = "h2" then .h2
    else .h1

/-- What is dialled for a client: quic.go:498-580 is the same loop as backend.go:83-190, for the same lists
and positions, with a QUIC connection in place of a TCP one and without the PROXY header. -/
def destFor (cf : Conf) (t : Transport) (slot : Option Nat) : Dest :=
  let d := destOf cf.dial slot
  if t = .h3 then { d with mode := "QUIC" } else d

/-- The protocols offered to the server in the TLS handshake (backend-http.go:475, 478, 487,
quic.go:586, 525). -/
def offered : Transport → List String
  | .h1 => []
  | .h2 => ["h2"]
  | .h3 => ["h3"]

/-- A dial and, after it has succeeded, the connection. -/
structure Conn where
  transport : Transport
  key : Str
  dial : D

structure St where
  next : Option Nat → Nat := fun _ => 0
  conns : List Conn := []
  /-- the requests sent, and the number of the connection; latest first -/
  log : List (Request × Nat) := []

inductive Op where
  /-- a new connection is dialled for a request -/
  | start (q : Request)
  /-- one turn of the loop of dial `i` -/
  | attempt (i : Nat) (net : Net)
  /-- a request is sent over connection `i` -/
  | send (q : Request) (i : Nat)

/-- One turn of the loop of a dial. -/
def attempt (enc : Header → Bytes) (cf : Conf) (s : St) (i : Nat) (c : Conn) (net : Net) : St :=
  if c.dial.result.isSome then s
  else
    let r := turn enc (destFor cf c.transport c.dial.slot) (s.next c.dial.slot) c.dial net
    { s with
      next := fun k => if k = c.dial.slot then r.1 else s.next k
      conns := s.conns.set i { c with dial := r.2 } }

/-- Whether the client may use connection `c` for a request with this target. -/
def usable (cf : Conf) (q : Request) (ov : Option Nat) (k : Str) (c : Conn) : Bool :=
  c.dial.result == some .ok && c.transport == transport cf q ov && c.key == k

def St.step (enc : Header → Bytes) (cf : Conf) (s : St) : Op → St
  | .start q =>
    match q.target enc cf with
    | none => s
    | some (ov, k) =>
      let cl := { q.client with overrideId := ov.map Int.ofNat }
      let slot := slotOf cf.dial cl
      let t := transport cf q ov
      let r := if (destFor cf t slot).addresses.length = 0 then some Dial.Result.noAddresses else none
      { s with conns := s.conns ++ [{ transport := t, key := k, dial := { client := cl, slot := slot, result := r } }] }
  | .attempt i net =>
    match s.conns[i]? with
    | none => s
    | some c => attempt enc cf s i c net
  | .send q i =>
    match q.target enc cf with
    | none => s
    | some (ov, k) =>
      match s.conns[i]? with
      | none => s
      | some c => if usable cf q ov k c then { s with log := (q, i) :: s.log } else s

def St.run (enc : Header → Bytes) (cf : Conf) (s : St) (ops : List Op) : St :=
  ops.foldl (St.step enc cf) s

end Verif.Pool
