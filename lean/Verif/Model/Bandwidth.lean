import Verif.Model.Rate
/-
Bandwidth limits: proxy/config.go:168-191, proxy/proxy.go:414-428, 1185-1187, proxy/quic.go:175-177,
proxy/internal/netw/netw.go:141-146, 201-232 and proxy/internal/netw/quic.go:560-588, with the token
bucket of golang.org/x/time/rate v0.8.0.

Times are nanoseconds, and tokens are billionths of a byte in exact arithmetic; the library computes
with floating point numbers. The limits are whole numbers of bytes per second, not negative.
Reservations are not given back when a connection is closed while it waits. Operations happen one
after the other, as the mutex of the bucket has it.
-/
namespace Verif.Bandwidth

open Rate (unit waitTime)

/-- `rate.Limiter`. -/
structure Limiter where
  rate : Nat
  burst : Nat
  tokens : Int
  last : Nat
deriving DecidableEq, Repr

/-- proxy.go:415, 425-426 -/
def newLimiter (limit : Nat) : Limiter :=
  let burst := max limit (2 ^ 17)
  ⟨limit, burst, ((burst * unit : Nat) : Int), 0⟩

/-- `Limiter.advance`: the tokens at a time. -/
def advance (l : Limiter) (t : Nat) : Int :=
  min ((l.burst * unit : Nat) : Int) (l.tokens + ((l.rate * (t - l.last) : Nat) : Int))

/-- `Limiter.WaitN` without a deadline: the time when it returns, or none for an error. With limit 0
the burst is used up (`reserveN`). -/
def waitN (l : Limiter) (t n : Nat) : Limiter × Option Nat :=
  if l.burst < n then (l, none)
  else if l.rate = 0 then ({ l with burst := l.burst - n }, some t)
  else
    let tok := advance l t - ((n * unit : Nat) : Int)
    ({ l with tokens := tok, last := t }, some (t + waitTime l.rate tok))

/-- A `Read` or `Write` that has been called: by which connection, with a buffer of which length, and
when `WaitN` returns. -/
structure Call where
  id : Nat
  len : Nat
  granted : Nat
deriving DecidableEq, Repr

/-- A call that has returned: when, and with how many bytes. -/
structure Done where
  call : Call
  time : Nat
  bytes : Nat
deriving DecidableEq, Repr

/-- One direction of all connections that share a limit: the bucket, calls that have not returned,
calls that have, the calls that failed, and all calls that were admitted with their time. -/
structure State where
  lim : Limiter
  pending : List Call := []
  done : List Done := []
  failed : List Nat := []
  log : List (Nat × Call) := []
deriving DecidableEq, Repr

/-- What happens: a connection calls `Read` or `Write` with a buffer; the system has transferred some
of it. -/
inductive Op where
  | call (id len t : Nat)
  | transfer (id bytes t : Nat)
deriving DecidableEq, Repr

/-- netw.go:201-232, quic.go:560-588: `WaitN` is called with the length of the buffer, before it is
known how much there is to read. -/
def call (s : State) (id len t : Nat) : State :=
  match waitN s.lim t len with
  | (_, none) => { s with failed := id :: s.failed }
  | (l, some a) =>
    { s with lim := l, pending := ⟨id, len, a⟩ :: s.pending, log := (t, ⟨id, len, a⟩) :: s.log }

/-- A call of the connection whose waiting is over. -/
def ready (id bytes t : Nat) (c : Call) : Bool := c.id == id && c.granted ≤ t && bytes ≤ c.len

/-- One step. -/
def step (s : State) : Op → State
  | .call id len t => call s id len t
  | .transfer id bytes t =>
    match s.pending.find? (ready id bytes t) with
    | none => s
    | some c =>
      { s with pending := s.pending.eraseP (ready id bytes t), done := ⟨c, t, bytes⟩ :: s.done }

def run : State → List Op → State
  | s, [] => s
  | s, o :: os => run (step s o) os

/-- proxy.go:424-427 -/
def init (limit : Nat) : State := { lim := newLimiter limit }

end Verif.Bandwidth
