/-!
# QUIC connections: list of streams and close callback

Model of `proxy/internal/netw/quic.go`: `removeStream` 186-192, `AcceptStream`, `AcceptUniStream`,
`OpenStream`, `OpenStreamSync`, `OpenUniStream`, `OpenUniStreamSync` 346-434, `markReadDone` 542-549,
`markWriteDone` 551-558, `Read` 560-573, `Write` 575-588, `Close` 590-594, `CancelRead` and
`CancelWrite` 596-604, `CloseRead` and `CloseWrite` 606-613 of streams; `OnClose` 251-259 and `Close`
261-270 of connections.

Streams and callbacks are named by numbers (pointers in Go). Opening a stream and appending it is one
step: nobody has the stream before `append`. Marking a side as done and removing the stream are two
steps: between them the stream's mutex is held, so that other calls that mark the same stream wait (the
step does nothing and can be tried again). Byte counters and waiting for limiters are left out; a
limiter's error returns before the stream is touched and marks nothing.
-/

namespace Verif.QuicConn

inductive Kind where
  | bidi
  | sendOnly
  | recvOnly
  deriving DecidableEq, Repr

/-- How a call ends a side. -/
inductive Why where
  /-- end of stream, reset, or connection lost; a closing or cancelling call -/
  | final
  /-- the deadline passed: the stream is as before -/
  | timeout
  deriving DecidableEq, Repr

inductive Event where
  | opened (id : Nat) (k : Kind)
  | readEnd (id : Nat) (w : Why)
  | writeEnd (id : Nat) (w : Why)
  deriving DecidableEq, Repr

structure State where
  /-- `c.streams` -/
  streams : List Nat
  /-- streams with `readDone` -/
  rd : List Nat
  /-- streams with `writeDone` -/
  wr : List Nat
  /-- streams about to be removed; their mutexes are held -/
  removing : List Nat
  next : Nat
  log : List Event
  deriving DecidableEq, Repr

def init : State := ⟨[], [], [], [], 0, []⟩

/-- What a `Read` or `Write` call returns. -/
inductive Res where
  | ok
  | limiter
  | err (w : Why)
  deriving DecidableEq, Repr

inductive Op where
  | open (k : Kind)
  | read (id : Nat) (r : Res)
  | write (id : Nat) (r : Res)
  | close (id : Nat)
  | cancelRead (id : Nat)
  | cancelWrite (id : Nat)
  /-- `removeStream` -/
  | remove (id : Nat)
  deriving DecidableEq, Repr

/-- `markReadDone`, quic.go:542-549. -/
def markRead (s : State) (id : Nat) (w : Why) : State :=
  if id < s.next ∧ id ∉ s.removing then
    { s with rd := id :: s.rd, log := .readEnd id w :: s.log
             removing := if id ∈ s.wr then id :: s.removing else s.removing }
  else s

/-- `markWriteDone`, quic.go:551-558. -/
def markWrite (s : State) (id : Nat) (w : Why) : State :=
  if id < s.next ∧ id ∉ s.removing then
    { s with wr := id :: s.wr, log := .writeEnd id w :: s.log
             removing := if id ∈ s.rd then id :: s.removing else s.removing }
  else s

/-- The calls of a stream and of its connection: the opening calls quic.go:346-434, `Read` quic.go:560-573,
`Write` quic.go:575-588, `Close` and `CloseWrite` quic.go:590-594, 611-613, `CancelRead` and `CloseRead`
quic.go:596-599, 606-609, `CancelWrite` quic.go:601-604, `removeStream` quic.go:186-192. -/
def step (s : State) : Op → State
  | .open k =>
    { s with streams := s.streams ++ [s.next], next := s.next + 1, log := .opened s.next k :: s.log }
  | .read id (.err w) => markRead s id w
  | .read _ _ => s
  | .write id (.err w) => markWrite s id w
  | .write _ _ => s
  | .close id => markWrite s id .final
  | .cancelRead id => markRead s id .final
  | .cancelWrite id => markWrite s id .final
  | .remove id =>
    if id ∈ s.removing then
      { s with streams := s.streams.filter fun x => decide (x ≠ id)
               removing := s.removing.filter fun x => decide (x ≠ id) }
    else s

def run : List Op → State → State
  | [], s => s
  | o :: os, s => run os (step s o)

/-! ## The close callback -/

/-- `slot` is `c.onClose`; `running` are callbacks taken by a `Close` call and not called yet;
`waiters` are goroutines started by `OnClose` that wait for the connection's context. -/
structure CState where
  slot : Option Nat
  running : List Nat
  waiters : Nat
  ctxDone : Bool
  calls : List Nat
  registered : List Nat
  deriving DecidableEq, Repr

def cinit : CState := ⟨none, [], 0, false, [], []⟩

inductive COp where
  /-- `OnClose(f)` -/
  | onClose (f : Nat)
  /-- the critical section of `Close` -/
  | close
  /-- a `Close` call runs its callback and then closes the connection -/
  | call (f : Nat)
  /-- the connection's context is done: closed by us, by the peer, or lost -/
  | lost
  /-- a goroutine of `OnClose` wakes up and calls `Close` -/
  | wake
  deriving DecidableEq, Repr

/-- The critical section of `Close`, quic.go:262-265. -/
def take (s : CState) : CState :=
  match s.slot with
  | none => s
  | some f => { s with slot := none, running := f :: s.running }

/-- `OnClose`, quic.go:251-259, and `Close`, quic.go:261-270. -/
def cstep (s : CState) : COp → CState
  | .onClose f => { s with slot := some f, waiters := s.waiters + 1, registered := f :: s.registered }
  | .close => take s
  | .call f =>
    if f ∈ s.running then
      { s with running := s.running.erase f, calls := f :: s.calls, ctxDone := true }
    else s
  | .lost => { s with ctxDone := true }
  | .wake => if s.ctxDone ∧ 0 < s.waiters then take { s with waiters := s.waiters - 1 } else s

def crun : List COp → CState → CState
  | [], s => s
  | o :: os, s => crun os (cstep s o)

end Verif.QuicConn
