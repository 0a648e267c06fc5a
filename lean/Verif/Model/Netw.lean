/-
Model of proxy/internal/netw/netw.go (Conn) and of the close callback shared with
proxy/internal/netw/quic.go (QUICConn).
-/
namespace Verif.Netw

abbrev Bytes := List UInt8

/-! ## Peek / Read / Write (netw.go:183-230) -/

/-- The fields of `netw.Conn` (netw.go:83-100) that matter for data transfer. `unread` is
what the peer has sent or will send and the proxy has not yet taken from the socket;
`written` is what the underlying connection accepted. -/
structure Conn where
  unread : Bytes
  peekBuf : Bytes := []
  written : Bytes := []
  bytesReceived : Nat := 0
  bytesSent : Nat := 0
deriving DecidableEq, Repr

/-- A call on the connection, with everything the environment decides:
* `peek want avail`: `Peek` of a `want` byte buffer while `avail` more bytes arrive before
  the 30 s deadline or the end of the stream;
* `read len limited avail`: `Read` into `len` bytes; `limited` means the ingress limiter's
  `WaitN` fails (netw.go:203); `avail` is how many bytes the socket has ready, 0 with an
  error or EOF;
* `write b limited accepted`: `Write` of `b`; the socket accepts `accepted` bytes. -/
inductive Op where
  | peek (want avail : Nat)
  | read (len : Nat) (limited : Bool) (avail : Nat)
  | write (b : Bytes) (limited : Bool) (accepted : Nat)
deriving Repr

/-- What the caller sees. -/
inductive Out where
  /-- bytes copied by `Peek`, and whether it returned an error -/
  | peeked (b : Bytes) (err : Bool)
  /-- bytes returned by `Read` -/
  | read (b : Bytes)
  /-- number of bytes `Write` reports -/
  | wrote (n : Nat)
deriving DecidableEq, Repr

/-- netw.go:183-230: `Peek`, `Read` and `Write`. The limiter only delays or fails calls, so
it appears as the `limited` flag. Deadlines are part of `avail`. -/
def Conn.step (c : Conn) : Op → Conn × Out
  | .peek want avail =>
    let have_ := c.peekBuf.length
    let c' :=
      if want > have_ then
        -- io.ReadFull reads at most want-have bytes
        let n := min (want - have_) avail
        { c with peekBuf := c.peekBuf ++ c.unread.take n, unread := c.unread.drop n }
      else c
    let got := c'.peekBuf.take want
    (c', .peeked got (got.length < want))
  | .read len limited avail =>
    if limited then (c, .read [])
    else if c.peekBuf.length > 0 then
      let b := c.peekBuf.take len
      ({ c with peekBuf := c.peekBuf.drop len,
                bytesReceived := c.bytesReceived + b.length }, .read b)
    else
      let b := c.unread.take (min len avail)
      ({ c with unread := c.unread.drop (min len avail),
                bytesReceived := c.bytesReceived + b.length }, .read b)
  | .write b limited accepted =>
    if limited then (c, .wrote 0)
    else
      let n := min b.length accepted
      ({ c with written := c.written ++ b.take n, bytesSent := c.bytesSent + n }, .wrote n)

/-- A sequence of calls. -/
def Conn.run (c : Conn) : List Op → Conn × List Out
  | [] => (c, [])
  | op :: ops =>
    let (c1, o) := c.step op
    let (c2, os) := c1.run ops
    (c2, o :: os)

/-! ## Close callbacks (netw.go:177-181, 232-242 and netw/quic.go:251-270) -/

/-- State of the close callback: `onClose` is the registered callback (identified by a
number), `taken` the callbacks that some `Close` call took under the lock but has not yet
called, `ran` the callbacks called so far. -/
structure Closer where
  onClose : Option Nat := none
  taken : List Nat := []
  ran : List Nat := []
deriving DecidableEq, Repr

/-- Atomic steps of concurrent goroutines:
* `register f`: `OnClose(f)` (netw.go:177-181; netw/quic.go:251-254);
* `closeTake`: the locked section of `Close` (netw.go:233-236; netw/quic.go:262-265);
* `closeRun i`: some goroutine that took a callback now calls it (netw.go:238-240;
  netw/quic.go:266-268). -/
inductive CloseOp where
  | register (f : Nat)
  | closeTake
  | closeRun (i : Nat)
deriving Repr

def Closer.step (s : Closer) : CloseOp → Closer
  | .register f => { s with onClose := some f }
  | .closeTake =>
    match s.onClose with
    | some f => { s with onClose := none, taken := s.taken ++ [f] }
    | none => { s with onClose := none }
  | .closeRun i =>
    match s.taken[i]? with
    | some f => { s with taken := s.taken.eraseIdx i, ran := s.ran ++ [f] }
    | none => s

def Closer.run (s : Closer) (ops : List CloseOp) : Closer := ops.foldl Closer.step s

/-! ## In-flight accounting around the close callback (proxy.go:1140-1153, 1182-1183;
quic.go:129-167) -/

/-- One connection: whether the backend annotation is set (proxy.go:1182, quic.go:166),
whether the handler has already counted it (proxy.go:1183, quic.go:165), the registered callback, how many closers
took it but have not run it, and the backend's in-flight count. -/
structure Flight where
  registered : Bool := false
  annotated : Bool := false
  counted : Bool := false
  pending : Bool := false
  inFlight : Int
deriving DecidableEq, Repr

/-- Steps: the handler registers the callback (proxy.go:1141), annotates the backend
and increments (in this order for TCP, in the opposite order for QUIC); any goroutine may
close (take, then run the callback of proxy.go:1141-1153). For QUIC a goroutine closes as
soon as the peer goes away (netw/quic.go:251-259). -/
inductive FlightOp where
  | register | annotate | count | closeTake | closeRun
deriving DecidableEq, Repr

/-- proxy.go:1141-1153, 1182-1183 and quic.go:130-141, 165-166. A second `count` is ignored,
so that every list of operations is a legal schedule. -/
def Flight.step (s : Flight) : FlightOp → Flight
  | .register => { s with registered := true }
  | .annotate => { s with annotated := true }
  | .count => if ¬ s.counted then { s with counted := true, inFlight := s.inFlight + 1 } else s
  | .closeTake => if s.registered then { s with registered := false, pending := true } else s
  | .closeRun =>
    if s.pending then
      { s with pending := false, inFlight := if s.annotated then s.inFlight - 1 else s.inFlight }
    else s

end Verif.Netw
