/-!
# Stopping the proxy while connections come in

Model of `acceptLoop` (proxy/proxy.go:949-963), of `Stop` (proxy.go:966-993), and of the goroutine of each TCP connection,
`handleConnection` (proxy.go:1120-1216) with what it calls (proxy.go:1220-1400), as far as it matters when they end.
`netw.Conn.OnClose` and `Close` are those of proxy/internal/netw/netw.go:177-181, 232-242.

Simplifications:
* what a step of a connection depends on besides the context of the proxy and the connection itself (limits, the client,
  the server) is a parameter `ok`;
* a handshake may succeed although the context is cancelled, as `crypto/tls` looks at the context in a goroutine of its own;
  `rate.Limiter.Wait` looks at the context first; a dial may succeed although the context is cancelled;
* a connection that is handed to the HTTP server of its backend (proxy.go:1316) is taken for one that is relayed: it ends
  when it is closed (see `Verif.Model.Handoff`);
* the only other party that closes connections is the handler; `Stop` runs once (a second call only closes more);
* QUIC connections are ended by `quicTransport.Close` and are not modelled.
-/
namespace Verif.Halt

/-- Where `handleConnection` stands. -/
inductive Phase where
  /-- started by `acceptLoop` (proxy.go:961) -/
  | accepted
  /-- after `inConns.add` (proxy.go:1140) -/
  | added
  /-- after `OnClose` (proxy.go:1141-1153) -/
  | hooked
  /-- within the limit, read, routed, and the address is allowed (proxy.go:1154-1190) -/
  | routed
  /-- after the handshake and the checks of the client's certificate (proxy.go:1243-1287); at once in passthrough mode -/
  | shaken
  /-- after `connLimit.Wait` (proxy.go:1296, 1325, 1367) -/
  | waited
  /-- after the dial (proxy.go:1336, 1374) or the hand-over to the HTTP server (proxy.go:1316) -/
  | relayed
  /-- the handler is done -/
  | returned
deriving DecidableEq, Repr

structure Conn where
  phase : Phase := .accepted
  /-- it is in `inConns` -/
  listed : Bool := false
  /-- `onClose` is set -/
  hook : Bool := false
  closed : Bool := false
  /-- there is a connection to a server for it -/
  server : Bool := false
deriving DecidableEq, Repr

/-- netw.go:232-242, with the hook of proxy.go:1141-1153. -/
def Conn.close (c : Conn) : Conn := { c with closed := true, hook := false, listed := c.listed && !c.hook }

/-- The handler returns: the deferred `conn.Close` (proxy.go:1129-1134) and `intConn.Close` (proxy.go:1342, 1381). -/
def Conn.finish (c : Conn) : Conn := { c.close with phase := .returned, server := false }

/-- One step of `handleConnection`. -/
def Conn.step (cancelled ok : Bool) (c : Conn) : Conn :=
  match c.phase with
  | .accepted => { c with phase := .added, listed := true }
  | .added => { c with phase := .hooked, hook := true }
  | .hooked => if ok && !c.closed then { c with phase := .routed } else c.finish
  | .routed => if ok && !c.closed then { c with phase := .shaken } else c.finish
  | .shaken => if ok && !cancelled then { c with phase := .waited } else c.finish
  | .waited => if ok then { c with phase := .relayed, server := true } else c.finish
  -- the relay goes on until one of its sides ends
  | .relayed => if ok && !c.closed then c else c.finish
  | .returned => c

/-- Where `Stop` stands. -/
inductive Pc where
  | idle
  /-- after `p.cancel()` (proxy.go:969) -/
  | cancelled
  /-- after `p.listener.Close()` (proxy.go:971) -/
  | deaf
  /-- after `inConns.slice()` (proxy.go:981): these are to be closed (proxy.go:987-989) -/
  | closing (rest : List Nat)
  | done
deriving DecidableEq, Repr

structure St where
  conns : List Conn := []
  cancelled : Bool := false
  listening : Bool := true
  pc : Pc := .idle
deriving DecidableEq, Repr

/-- `inConns.slice()`. -/
def slice (cs : List Conn) : List Nat :=
  (List.range cs.length).filter fun i => (cs[i]?.map (·.listed)).getD false

/-- One step of `Stop`, proxy.go:966-993. -/
def St.stop (s : St) : St :=
  match s.pc with
  | .idle => { s with cancelled := true, pc := .cancelled }
  | .cancelled => { s with listening := false, pc := .deaf }
  | .deaf => { s with pc := .closing (slice s.conns) }
  | .closing [] => { s with pc := .done }
  | .closing (i :: rest) => { s with conns := s.conns.modify i Conn.close, pc := .closing rest }
  | .done => s

inductive Op where
  /-- a client connects, proxy.go:952, 961 -/
  | accept
  /-- a step of the handler of connection `i` -/
  | conn (i : Nat) (ok : Bool)
  | stop
deriving DecidableEq, Repr

def St.step (s : St) : Op → St
  | .accept => if s.listening then { s with conns := s.conns ++ [{}] } else s
  | .conn i ok => { s with conns := s.conns.modify i (Conn.step s.cancelled ok) }
  | .stop => s.stop

def St.run (s : St) (ops : List Op) : St := ops.foldl St.step s

/-- What `Accept` returns. -/
inductive Accepted where
  | conn (c : Nat)
  /-- `net.ErrClosed` -/
  | closed
  | error
deriving DecidableEq, Repr

/-- `acceptLoop`, proxy.go:949-963, for what `Accept` returns one after the other: the connections that get a handler. -/
def acceptLoop : List Accepted → List Nat
  | [] => []
  | .conn c :: rest => c :: acceptLoop rest
  | .closed :: _ => []
  | .error :: rest => acceptLoop rest

end Verif.Halt
