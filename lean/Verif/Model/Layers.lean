/-!
# Layers of connections, and what is noted about them

Model of the functions that look through the layers of a connection (proxy/util.go:39-75, 167-193, `setKeepAlive` at
proxy/proxy.go:1489-1500, and `netw.Conn`, `netw.QUICConn`), of the notes that are kept with connections
(proxy/internal/netw/netw.go:107-142, netw/quic.go:151-173 and `WrapConn` at 286-332) by `handleConnection`
(proxy.go:1120-1216), `authorizeTLSConnection` (1263-1276), `handleQUICConnection` (quic.go:125-166), `dial`
(backend.go:173-187), `handleQUICTCPStream` (quic.go:358-409), `handleQUICQUICStream` (quic.go:411-464), the WebSocket
handler (websocket.go:62-69) and `reverseProxyModifyResponse` (backend-http.go:522-529), and of what is said about a
connection in the log (`formatConnDesc`, proxy.go:1446-1487) and on the page with metrics (metrics.go:292-360).

Simplifications: an address, with its network, is a number. The text of the log is the record of its parts; how it is
written is in `Verif.Model.LogLines`. Times and counters are left out. The type of a note is right: no note is set with
a value of another type than the one that is expected.
-/

namespace Verif.Layers

abbrev Addr := Nat
abbrev Str := List Char

/-- The types of connections, with what each one contains. -/
inductive Conn where
  /-- `*net.TCPConn`: local and remote address -/
  | tcp (l r : Addr)
  /-- `*proxyproto.Conn`: the source and the destination of the header, if there is one -/
  | proxy (raw : Conn) (header : Option (Addr × Addr))
  /-- `*tls.Conn` -/
  | tls (c : Conn)
  /-- `*netw.Conn` -/
  | netw (id : Nat) (c : Conn)
  /-- `*netw.QUICConn` -/
  | quic (id : Nat) (l r : Addr)
  /-- `*netw.QUICStream` -/
  | stream (l r : Addr)
deriving DecidableEq, Repr

/-- `RemoteAddr`. -/
def remote : Conn → Addr
  | .tcp _ r => r
  | .proxy raw h =>
    match h with
    | some (s, _) => s
    | none => remote raw
  | .tls c => remote c
  | .netw _ c => remote c
  | .quic _ _ r => r
  | .stream _ r => r

/-- `LocalAddr`. -/
def localAddr : Conn → Addr
  | .tcp l _ => l
  | .proxy raw h =>
    match h with
    | some (_, d) => d
    | none => localAddr raw
  | .tls c => localAddr c
  | .netw _ c => localAddr c
  | .quic _ l _ => l
  | .stream l _ => l

/-- util.go:39-48; `none` is a panic. -/
def netwConn : Conn → Option Nat
  | .tls c => netwConn c
  | .netw i _ => some i
  | _ => none

/-- util.go:66-75: where the notes are; `none` is a panic. -/
def annotated : Conn → Option Nat
  | .tls c => netwConn c
  | .netw i _ => some i
  | .quic i _ _ => some i
  | _ => none

/-- util.go:167-178. -/
def isProxy : Conn → Bool
  | .tls c => isProxy c
  | .netw _ c => isProxy c
  | .proxy _ _ => true
  | _ => false

/-- util.go:180-193. All of the types are `net.Conn`: it does not panic. -/
def localNet : Conn → Conn
  | .tls c => localNet c
  | .netw _ c => localNet c
  | .proxy raw _ => raw
  | c => c

/-- proxy.go:1489-1500: the TCP connection whose settings are changed. -/
def keepAlive : Conn → Option Conn
  | .tls c => keepAlive c
  | .tcp l r => some (.tcp l r)
  | .netw _ c => keepAlive c
  | _ => none

/-! ## Notes -/

/-- The notes about a connection; what is missing is empty. -/
structure Notes where
  serverName : Str := []
  proto : Str := []
  cert : Str := []
  /-- the mode of the backend of a connection of a client -/
  backend : Option Str := none
  mode : Str := []
  /-- `internalConnKey`: local and remote address of a connection to a server -/
  internal : Option (Addr × Addr) := none
  upgrade : Str := []
deriving DecidableEq, Repr

abbrev World := Nat → Notes

def put (w : World) (i : Nat) (n : Notes) : World := fun j => if j = i then n else w j

/-- What happens to notes. -/
inductive Ev where
  /-- a client's connection is admitted: proxy.go:1172-1182 and 1275-1276, quic.go:142-164 -/
  | admitted (id : Nat) (serverName proto cert mode : Str)
  /-- `WrapConn` of a stream, netw/quic.go:286-332 -/
  | wrapped (parent id : Nat)
  /-- `dial` with a connection in its context, backend.go:173-187, made for the connection, the stream or the request
  `user`, which the code does not know -/
  | dialed (ctx : Conn) (user id : Nat) (l r : Addr) (mode protos : Str)
  /-- backend-http.go:524-529, websocket.go:65 -/
  | upgraded (ctx : Conn) (to : Str)
deriving DecidableEq, Repr

/-- connMode, util.go:109-117. -/
def connMode (n : Notes) : Str :=
  if n.mode ≠ [] then n.mode else n.backend.getD []

/-- One event; `none` is a panic. -/
def step (w : World) : Ev → Option World
  | .admitted i sn p cert m => some (put w i { w i with serverName := sn, proto := p, cert := cert, backend := some m })
  | .wrapped parent i => some (put w i (w parent))
  | .dialed ctx _ i l r m p =>
    match annotated ctx with
    | none => none
    | some j =>
      let w := put w i { serverName := (w j).serverName, mode := m, proto := p }
      some (put w j { w j with internal := some (l, r) })
  | .upgraded ctx u =>
    match annotated ctx with
    | none => none
    | some j => some (put w j { w j with upgrade := u })

def run (w : World) : List Ev → Option World
  | [] => some w
  | e :: es =>
    match step w e with
    | none => none
    | some w => run w es

/-! ## What is said -/

/-- A description in the log. -/
structure Desc where
  cert : Str
  remote : Addr
  /-- where a client connected to, if there is a load balancer in between -/
  via : Option Addr
  serverName : Str
  mode : Str
  proto : Str
  upgrade : Str
  internal : Option (Addr × Addr)
deriving DecidableEq, Repr

/-- proxy.go:1446-1487. -/
def describe (w : World) (c : Conn) : Option Desc :=
  match annotated c with
  | none => none
  | some i =>
    let n := w i
    let named := n.serverName ≠ []
    some { cert := n.cert, remote := remote c, via := if isProxy c then some (localAddr c) else none,
           serverName := n.serverName, mode := if named then connMode n else [], proto := if named then n.proto else [],
           upgrade := if named then n.upgrade else [], internal := if named then n.internal else none }

/-- metrics.go:324-358: the addresses that are shown for a connection, whose open streams have these `BridgeAddr`s. -/
def destinations (w : World) (c : Conn) (streams : List (Option Addr)) : Option (List (Option Addr)) :=
  match annotated c with
  | none => none
  | some i =>
    let shown := (w i).internal.map (·.2)
    some (if streams = [] then (match shown with | some a => [some a] | none => [])
      else streams.map fun b => match shown with | some a => some a | none => b)

end Verif.Layers
