/-
Who closes the connections to backend servers: `dial` (proxy/backend.go:83-190), `dialQUIC`, `dialQUICStream`
and `dialQUICBackend` (proxy/quic.go:466-580), `Conn.Close` and `QUICConn.Close` with `OnClose`
(proxy/internal/netw/netw.go:232-242, quic.go:248-270, 590-594), and `connTracker` (conntracker.go:55-76).

Simplifications: addresses, TLS and annotations are left out; each attempt has an outcome given by the network.
Connections of `http.Transport` that wait for the next request are not modelled.
-/
namespace Verif.Sockets

/-! ## `dial` -/

/-- What happens to one attempt. -/
inductive Net where
  /-- no connection is established in time -/
  | refused
  /-- it is; `next` tells whether what follows succeeds too: the PROXY header is written, or with QUIC, a stream
  is opened -/
  | connected (next : Bool)
deriving DecidableEq, Repr

/-- A connection that the proxy has opened, and whether the proxy has closed it. -/
structure Sock where
  quic : Bool
  closed : Bool
deriving DecidableEq, Repr

/-- All that a call of `dial` leaves behind: the connections that were opened, the latest first; whether it
returns the latest one; whether that is listed in `outConns`. -/
structure Left where
  socks : List Sock
  returned : Bool
  listed : Bool
deriving DecidableEq, Repr

/-- quic.go:466-496 `dialQUIC`, `dialQUICStream`: the connection and whether a stream is returned. Without a stream,
the connection stays as it is. -/
def dialQUICStream : Net → Option Sock × Bool
  | .refused => (none, false)
  | .connected false => (some { quic := true, closed := false }, false)
  | .connected true => (some { quic := true, closed := false }, true)

/-- backend.go:152-163. -/
def dialTCP (proxyProto : Bool) : Net → Option Sock × Bool
  | .refused => (none, false)
  | .connected next =>
    if proxyProto && !next then (some { quic := false, closed := true }, false)
    else (some { quic := false, closed := false }, true)

/-- backend.go:133-190: the loop, with `max` attempts left. -/
def dialLoop (quic proxyProto : Bool) (socks : List Sock) : Nat → List Net → Left
  | _, [] => { socks := socks, returned := false, listed := false }
  | max, n :: ns =>
    let r := if quic then dialQUICStream n else dialTCP proxyProto n
    let socks := r.1.toList ++ socks
    if r.2 then { socks := socks, returned := true, listed := true }
    else if max - 1 > 0 then dialLoop quic proxyProto socks (max - 1) ns
    else { socks := socks, returned := false, listed := false }

/-- backend.go:83-190 `dial` with that many addresses. `ns` is what happens to the attempts. -/
def dial (quic proxyProto : Bool) (addresses : Nat) (ns : List Net) : Left :=
  if addresses = 0 then { socks := [], returned := false, listed := false }
  else dialLoop quic proxyProto [] addresses ns

/-- Closing the connection that was returned: netw.go:232-242, and for a stream of QUIC, quic.go:590-594, which
closes only the stream. -/
def close (l : Left) : Left :=
  if l.returned then
    match l.socks with
    | s :: ss => { l with socks := (if s.quic then s else { s with closed := true }) :: ss, listed := false }
    | [] => { l with listed := false }
  else l

/-! ## `dialQUICBackend` -/

/-- Where the goroutine that dials is. -/
inductive Pc where
  /-- quic.go:558-566: the connection is established -/
  | dialled
  /-- quic.go:567-569: `OnClose` was called -/
  | armed
  /-- quic.go:570: it is listed, and returned -/
  | returned
deriving DecidableEq, Repr

structure World where
  pc : Pc
  /-- the connection has ended: closed by the proxy, by the server, or timed out -/
  ended : Bool
  /-- `onClose` is set -/
  hook : Bool
  /-- a goroutine of `OnClose` waits for the end (netw/quic.go:254-258) -/
  waiting : Bool
  /-- in `outConns` -/
  listed : Bool
deriving DecidableEq, Repr

inductive Event where
  /-- the goroutine that dials goes on -/
  | go
  /-- the server or the network ends the connection -/
  | lost
  /-- the goroutine of `OnClose` runs -/
  | wake
  /-- the user of the connection closes it -/
  | close
deriving DecidableEq, Repr

/-- netw/quic.go:261-270 `QUICConn.Close`. -/
def closeConn (w : World) : World :=
  { w with listed := if w.hook then false else w.listed, hook := false, ended := true }

def step (w : World) : Event → World
  | .go =>
    match w.pc with
    | .dialled => { w with pc := .armed, hook := true, waiting := true }
    | .armed => { w with pc := .returned, listed := true }
    | .returned => w
  | .lost => { w with ended := true }
  | .wake => if w.waiting && w.ended then { closeConn w with waiting := false } else w
  -- before it is returned, it has no users
  | .close => if w.pc = .returned then closeConn w else w

def init : World := { pc := .dialled, ended := false, hook := false, waiting := false, listed := false }

def run (evs : List Event) : World := evs.foldl step init

end Verif.Sockets
