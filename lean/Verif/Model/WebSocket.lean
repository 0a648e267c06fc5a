/-!
# WebSocket bridging

Model of `Proxy.webSocketHandler`, `proxy/websocket.go:44-156`: the loop from the WebSocket to the TCP
server (108-129), the loop back (131-152), and the end of the handler when one of the loops (or the
idle timer, 84-106) is done (154, with the deferred closes).

Bytes are numbers. What the WebSocket library delivers is a list of messages, each a list of chunks as
read by `io.Copy`; the end of the list is the end of the connection. A write to the server takes some
of the bytes; less than all is an error. What the server sends is a list of bytes; `Read` returns 1 to
1024 of them, or fails. Steps of the two loops and of the handler interleave. Once the handler has
returned both connections are closed: reads and writes fail.
-/

namespace Verif.WebSocket

abbrev Bytes := List Nat

structure Msg where
  binary : Bool
  chunks : List Bytes
  deriving DecidableEq, Repr

structure State where
  /-- messages not yet started -/
  inq : List Msg
  /-- chunks left of the current binary message -/
  cur : List Bytes
  inRun : Bool
  /-- written to the server -/
  toSrv : Bytes
  /-- not yet read from the server -/
  outq : Bytes
  outRun : Bool
  /-- messages sent to the client -/
  toCli : List Bytes
  /-- the handler has returned -/
  down : Bool
  /-- some read or write failed other than by the end of the input -/
  failed : Bool
  deriving DecidableEq, Repr

def init (ms : List Msg) (srv : Bytes) : State :=
  ⟨ms, [], true, [], srv, true, [], false, false⟩

inductive Op where
  /-- the loop from the WebSocket; a write takes at most `n` bytes -/
  | inStep (n : Nat)
  /-- reading from the WebSocket fails -/
  | inFail
  /-- the loop back: `Read` returns at most `n + 1` bytes; `eof`: together with an error; `ok`: the
  message can be sent -/
  | outStep (n : Nat) (eof ok : Bool)
  /-- reading from the server fails -/
  | outFail
  /-- `<-done`, then the deferred closes -/
  | finish
  /-- the idle timer makes the handler return -/
  | idle
  deriving DecidableEq, Repr

/-- One step of websocket.go:117-128. -/
def inStep (s : State) (n : Nat) : State :=
  if !s.inRun then s
  else if s.down then { s with inRun := false, failed := true }
  else
    match s.cur with
    | c :: t =>
      if c.length ≤ n then { s with toSrv := s.toSrv ++ c, cur := t }
      else { s with toSrv := s.toSrv ++ c.take n, inRun := false, failed := true }
    | [] =>
      match s.inq with
      | [] => { s with inRun := false }
      | m :: t => if m.binary then { s with inq := t, cur := m.chunks } else { s with inq := t }

/-- One step of websocket.go:141-151. -/
def outStep (s : State) (n : Nat) (eof ok : Bool) : State :=
  if !s.outRun then s
  else if s.down then { s with outRun := false, failed := true }
  else
    match s.outq with
    | [] => { s with outRun := false }
    | b :: t =>
      let k := min (min (n + 1) 1024) (b :: t).length
      let s1 := { s with outq := (b :: t).drop k }
      if !ok then { s1 with outRun := false, failed := true }
      else
        let s2 := { s1 with toCli := s1.toCli ++ [(b :: t).take k] }
        if eof && s2.outq.isEmpty then { s2 with outRun := false } else s2

def step (s : State) : Op → State
  | .inStep n => inStep s n
  | .inFail => if s.inRun then { s with inRun := false, failed := true } else s
  | .outStep n eof ok => outStep s n eof ok
  | .outFail => if s.outRun then { s with outRun := false, failed := true } else s
  | .finish => if !s.inRun || !s.outRun then { s with down := true } else s
  | .idle => { s with down := true }

def run : List Op → State → State
  | [], s => s
  | o :: os, s => run os (step s o)

end Verif.WebSocket
