/-
Model of what relaying does to the end of streams: `bridgeConns`, `forward`, `closeWrite` and `closeRead`
(proxy/backend.go:271-348) for the kinds of connections they are used with (proxy/proxy.go:1349, 1389,
proxy/quic.go:394, 453): TLS, TCP, and QUIC streams (proxy/internal/netw/quic.go:456-502, 560-613). The model of
C17 (`Verif.Model.Bridge`) is about the bytes and does not distinguish them.

Simplifications: byte limits are left out, and closing calls at the end of `forward` are one step. What `Close`,
`CloseWrite` and `CloseRead` do on TCP, TLS and QUIC is written down from the documentation of Go and quic-go.
-/
namespace Verif.Relay

abbrev Bytes := List UInt8

/-- What is relayed. A one-way QUIC stream is `recv` for the connection that accepted it
(netw/quic.go:476-502 `ReceiveOnlyStream`) and `send` for the one that opened it (netw/quic.go:456-474
`SendOnlyStream`). -/
inductive Link where
  | tcp
  | tls
  | quic
  | recv
  | send
deriving DecidableEq, Repr

/-- How the data that the proxy sends ends for the peer: after a FIN or a close notification, or otherwise. -/
inductive Ending where
  | orderly
  | abort
deriving DecidableEq, Repr

structure Side where
  link : Link
  /-- everything the peer has sent -/
  sent : Bytes := []
  /-- the peer has ended its stream in order -/
  fin : Bool := false
  /-- the peer has broken off its stream: RESET_STREAM; the end of the TCP connection without close notification -/
  reset : Bool := false
  /-- the peer does not want any more data (STOP_SENDING) -/
  stop : Bool := false
  /-- the connection is lost: reset or timed out -/
  lost : Bool := false
  /-- bytes read by the proxy -/
  taken : Nat := 0
  /-- everything the proxy has written -/
  written : Bytes := []
  ended : Option Ending := none
  /-- `CloseRead` was called -/
  rclosed : Bool := false
  /-- `Close` was called on something that is closed entirely by it -/
  closed : Bool := false
  deadline : Bool := false
  expired : Bool := false
deriving DecidableEq, Repr

def Side.endAs (s : Side) (e : Ending) : Side := { s with ended := s.ended.or (some e) }

/-- `Close`. A TCP connection with unread data is reset. TLS sends a close notification. A QUIC stream is closed
for writing only (netw/quic.go:590-594, 485-487). -/
def Side.close (s : Side) : Side :=
  match s.link with
  | .tcp => { s.endAs (if s.lost ∨ s.taken < s.sent.length then .abort else .orderly) with closed := true }
  | .tls => { s.endAs (if s.lost then .abort else .orderly) with closed := true }
  | .quic | .send => s.endAs (if s.lost ∨ s.stop then .abort else .orderly)
  | .recv => s

/-- backend.go:324-335 `closeWrite`; `none` is an error. -/
def Side.closeWrite (s : Side) : Option Side :=
  match s.link with
  | .tcp | .tls => if s.lost ∨ s.closed then none else some (s.endAs .orderly)
  | .quic | .send => if s.stop then none else some (s.endAs (if s.lost then .abort else .orderly))
  | .recv => some s

/-- backend.go:337-348 `closeRead`; `none` is an error. `*tls.Conn` has no `CloseRead`. -/
def Side.closeRead (s : Side) : Option Side :=
  match s.link with
  | .tcp => if s.lost ∨ s.closed then none else some { s with rclosed := true }
  | .tls => some s
  | .quic | .recv => some { s with rclosed := true }
  | .send => some s

/-- `SetReadDeadline` (netw/quic.go:468-470 for `send`). -/
def Side.setDeadline (s : Side) : Side :=
  match s.link with
  | .send => s
  | _ => { s with deadline := true }

/-- Whether `Read` fails before anything else. -/
def Side.readErr (s : Side) : Bool :=
  match s.link with
  | .send => false
  | _ => s.closed || s.rclosed || s.lost || s.reset || s.expired

/-- Whether `Read` returns `io.EOF` once everything was read (netw/quic.go:461-463 for `send`). -/
def Side.atEOF (s : Side) : Bool :=
  match s.link with
  | .send => true
  | _ => s.fin

/-- Whether `Write` fails (netw/quic.go:481-483 for `recv`). -/
def Side.writeErr (s : Side) : Bool :=
  match s.link with
  | .recv => true
  | _ => s.ended.isSome || s.lost || s.stop

/-- One call of `forward`: copying, with the bytes read and not yet written, or returned. -/
inductive Dir where
  | copying (buf : Bytes)
  | returned (err : Bool)
deriving DecidableEq, Repr

/-- `up` is from the first argument of `bridgeConns` to the second (backend.go:289), `down` the other way
(backend.go:286). -/
inductive Which where
  | up
  | down
deriving DecidableEq, Repr

def Which.flip : Which → Which
  | .up => .down
  | .down => .up

/-- Each side is named by the direction that reads from it. -/
structure St where
  side : Which → Side
  dir : Which → Dir

def St.inn (s : St) (w : Which) : Side := s.side w
def St.out (s : St) (w : Which) : Side := s.side w.flip

def init (client server : Link) : St where
  side w := { link := match w with | .up => client | .down => server }
  dir _ := .copying []

/-- backend.go:272-279. -/
structure Cfg where
  serverCloseEnds : Option Bool := none
  clientCloseEnds : Option Bool := none
deriving DecidableEq, Repr

def Cfg.closeWhenDone (c : Cfg) : Which → Bool
  | .up => c.clientCloseEnds.getD false
  | .down => c.serverCloseEnds.getD true

/-- config.go:942-950: the defaults in mode QUIC. -/
def Cfg.quicDefaults (c : Cfg) : Cfg where
  serverCloseEnds := some (c.serverCloseEnds.getD false)
  clientCloseEnds := some (c.clientCloseEnds.getD false)

def St.set (s : St) (w : Which) (inn out : Side) (d : Dir) : St where
  side w' := if w' = w then inn else out
  dir w' := if w' = w then d else s.dir w'

/-- The two sides at the end of `forward` (backend.go:299-322) after `io.Copy` returned with or without error. -/
def finishSides (closeWhenDone : Bool) (inn out : Side) (err : Bool) : Side × Side :=
  if err ∨ closeWhenDone then (inn.close, out.close)
  else
    match out.closeWrite with
    | none => (inn.close, out.close)
    | some out' =>
      match inn.closeRead with
      | none => (inn.close, out'.close)
      | some inn' => (inn', out'.setDeadline)

/-- The end of `forward`. It returns the error of `io.Copy`. -/
def St.finish (s : St) (closeWhenDone : Bool) (w : Which) (inn out : Side) (err : Bool) : St :=
  s.set w (finishSides closeWhenDone inn out err).1 (finishSides closeWhenDone inn out err).2 (.returned err)

inductive Op where
  /-- what the peers do -/
  | peerSend (w : Which) (b : Bytes)
  | peerFin (w : Which)
  | peerReset (w : Which)
  | peerStop (w : Which)
  | lose (w : Which)
  /-- the read deadline, if one is set, passes -/
  | expire (w : Which)
  /-- `io.Copy` reads up to `n + 1` bytes -/
  | read (w : Which) (n : Nat)
  /-- `io.Copy` writes its buffer; if that fails, `k` bytes may still get through -/
  | write (w : Which) (k : Nat)
deriving DecidableEq, Repr

def St.onSide (s : St) (w : Which) (f : Side → Side) : St :=
  { s with side := fun w' => if w' = w then f (s.side w') else s.side w' }

/-- A peer sends nothing after it has ended or broken off its stream, nor on a stream it only receives. -/
def Side.canSend (s : Side) : Bool := !s.fin && !s.reset && !s.lost && s.link != .send

def St.step (c : Cfg) (s : St) : Op → St
  | .peerSend w b => s.onSide w fun x => if x.canSend then { x with sent := x.sent ++ b } else x
  | .peerFin w => s.onSide w fun x => if x.canSend then { x with fin := true } else x
  | .peerReset w => s.onSide w fun x => if x.canSend then { x with reset := true } else x
  | .peerStop w => s.onSide w fun x => { x with stop := true }
  | .lose w => s.onSide w fun x => { x with lost := true }
  | .expire w => s.onSide w fun x => if x.deadline then { x with expired := true } else x
  | .read w n =>
    match s.dir w with
    | .copying [] =>
      if (s.inn w).readErr then s.finish (c.closeWhenDone w) w (s.inn w) (s.out w) true
      else if (s.inn w).taken < (s.inn w).sent.length then
        let chunk := ((s.inn w).sent.drop (s.inn w).taken).take (n + 1)
        s.set w { s.inn w with taken := (s.inn w).taken + chunk.length } (s.out w) (.copying chunk)
      else if (s.inn w).atEOF then s.finish (c.closeWhenDone w) w (s.inn w) (s.out w) false
      else s
    | _ => s
  | .write w k =>
    match s.dir w with
    | .copying (b :: bs) =>
      if (s.out w).writeErr then
        let gone := if (s.out w).ended.isSome ∨ (s.out w).link = .recv then 0 else k
        s.finish (c.closeWhenDone w) w (s.inn w)
          { s.out w with written := (s.out w).written ++ (b :: bs).take gone } true
      else s.set w (s.inn w) { s.out w with written := (s.out w).written ++ (b :: bs) } (.copying [])
    | _ => s

def St.run (c : Cfg) (s : St) (ops : List Op) : St := ops.foldl (St.step c) s

end Verif.Relay
