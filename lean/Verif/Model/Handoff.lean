import Verif.Model.Lifecycle
/-!
How connections get from the proxy to a backend's internal HTTP server: the unbuffered channel
`httpConnChan` (proxy/proxy.go:714-729), its senders (proxy.go:1316 for TCP connections,
proxy/quic.go:374 for QUIC streams), and `proxyListener` (proxy/http.go:65-97), which receives
for `http.Server` and, once closed, empties the channel.

The counting of connections and the closing of the channel are those of `Model/Lifecycle.lean`
(proxy/backend.go:44-81).

Simplifications:
* looking the backend up and counting the connection are one step (their race is in
  `Model/Lifecycle.lean`);
* `httpServer.Shutdown` and `httpServer.Close` run in their own goroutines (backend.go:63, 71);
  all they do here is to close the listener, at some time after `close`;
* what the HTTP server does with a connection it has accepted ends at some time by closing it.
-/
namespace Verif.Handoff

open Verif.Lifecycle (Life)

/-- Where a connection or stream stands. -/
inductive Phase where
  /-- before the send: handshake, limits (proxy.go:1290-1315; quic.go:359-373) -/
  | before
  /-- blocked in `be.httpConnChan <- conn` -/
  | sending
  /-- accepted by the HTTP server -/
  | served
  /-- received by the loop at http.go:88-91, which does nothing with it -/
  | swallowed
  /-- the handler has returned, or the HTTP server is done with it -/
  | done
deriving DecidableEq, Repr

/-- Something to be handed over: a TCP connection (`none`) or a stream of QUIC connection
`some q`. -/
structure Item where
  quic : Option Nat := none
  phase : Phase := .before
  /-- the connection or stream was closed -/
  closed : Bool := false
deriving DecidableEq, Repr

structure St where
  life : Life := {}
  items : List Item := []
  /-- the QUIC connections: whether each is open -/
  quics : List Bool := []
  /-- `Shutdown` or `Close` of the HTTP server was called -/
  stopCalled : Bool := false
  /-- `l.closed` (http.go:70) -/
  listenerClosed : Bool := false
  /-- `s.Serve(l)` (http.go:59) has not returned -/
  serving : Bool := true
  /-- a panic in a goroutine without `recover` ended the process -/
  dead : Bool := false
deriving DecidableEq, Repr

inductive Op where
  | tcp
  | quic
  | stream (q : Nat)
  | send (i : Nat)
  | accept (i : Nat)
  | drain (i : Nat)
  | panic (i : Nat)
  | finish (i : Nat)
  | closeConn (i : Nat)
  | quicEnds (q : Nat)
  | graceful
  | hard
  | stopListener
  | serveReturns
deriving DecidableEq, Repr

def St.set (s : St) (i : Nat) (it : Item) : St := { s with items := s.items.set i it }

/-- A TCP connection ends (proxy.go:1141-1144): it is no longer counted. A stream was not counted. -/
def St.uncount (s : St) (it : Item) : St :=
  match it.quic with
  | none => { s with life := s.life.incInFlight (-1) }
  | some _ => s

/-- Closing a connection or stream, and what becomes of its handler. The callback of a
connection runs at the first `Close` only (proxy/internal/netw/conn.go). -/
def St.closeItem (s : St) (i : Nat) (it : Item) (ph : Phase) : St :=
  if it.closed then s.set i { it with phase := ph }
  else (s.set i { it with phase := ph, closed := true }).uncount it

/-- Sending on, or being blocked on, the closed channel panics. The handler of a TCP connection
recovers and closes it (proxy.go:1122-1128). The goroutine of a stream (quic.go:348-351) does
not recover. -/
def St.blowUp (s : St) (i : Nat) (it : Item) : St :=
  match it.quic with
  | none => s.closeItem i it .done
  | some _ => { s with dead := true }

/-- `be.httpConnChan` is closed. -/
def St.chanClosed (s : St) : Bool := s.life.chanCloses ≠ 0

/-- The steps for one item. -/
def St.stepItem (s : St) (i : Nat) (it : Item) : Op → St
  | .send _ =>
    if it.phase = .before then
      (if s.chanClosed then s.blowUp i it else s.set i { it with phase := .sending })
    else s
  | .accept _ =>  -- http.go:74-84: the select may take either ready case
    if it.phase = .sending ∧ s.serving = true ∧ s.chanClosed = false then s.set i { it with phase := .served }
    else s
  | .drain _ =>  -- http.go:88-91
    if it.phase = .sending ∧ s.listenerClosed = true ∧ s.chanClosed = false then
      s.set i { it with phase := .swallowed }
    else s
  | .panic _ =>
    if it.phase = .sending ∧ s.chanClosed = true then s.blowUp i it else s
  | .finish _ =>  -- a connection refused before the send, or done with; it is closed
    if it.phase = .before ∨ it.phase = .served then s.closeItem i it .done else s
  | .closeConn _ =>
    if it.quic = none then s.closeItem i it it.phase else s
  | _ => s

/-- A step of item `i`, if there is one. -/
def St.onItem (s : St) (i : Nat) (op : Op) : St :=
  match s.items[i]? with
  | some it => s.stepItem i it op
  | none => s

/-- Atomic steps: `tcp`, `quic`, `stream` are arrivals (after `p.backend`, proxy.go:1424-1429, a
backend in shutdown takes no new connections, but its QUIC connections go on accepting streams,
quic.go:340-353); `quicEnds` is the callback of a QUIC connection (quic.go:131-141, called as
soon as the connection is gone, proxy/internal/netw/quic.go:251-270); `graceful` and `hard` are
`close(ctx)` and `close(nil)` (backend.go:55-81); `closeConn` is the `Close` with which `Stop`
(proxy.go:987-989) or `reAuthorize` (proxy.go:865-901) ends a connection at any time. -/
def St.step (s : St) (op : Op) : St :=
  if s.dead then s
  else match op with
    | .tcp =>
      if s.life.shutdown then s
      else { s with items := s.items ++ [{}], life := s.life.incInFlight 1 }
    | .quic =>
      if s.life.shutdown then s
      else { s with quics := s.quics ++ [true], life := s.life.incInFlight 1 }
    | .stream q =>
      if s.quics[q]? = some true then { s with items := s.items ++ [{ quic := some q }] } else s
    | .quicEnds q =>
      if s.quics[q]? = some true then
        { s with quics := s.quics.set q false, life := s.life.incInFlight (-1) }
      else s
    | .graceful =>
      if s.life.server then { s with life := s.life.close false, stopCalled := true } else s
    | .hard =>
      if s.life.server then { s with life := s.life.close true, stopCalled := true } else s
    | .stopListener => if s.stopCalled then { s with listenerClosed := true } else s
    | .serveReturns =>  -- http.go:75-81: on either ready case; closes the listener too
      if s.listenerClosed ∨ s.chanClosed then { s with serving := false, listenerClosed := true } else s
    | .send i => s.onItem i (.send i)
    | .accept i => s.onItem i (.accept i)
    | .drain i => s.onItem i (.drain i)
    | .panic i => s.onItem i (.panic i)
    | .finish i => s.onItem i (.finish i)
    | .closeConn i => s.onItem i (.closeConn i)

def St.run (s : St) (ops : List Op) : St := ops.foldl St.step s

end Verif.Handoff
