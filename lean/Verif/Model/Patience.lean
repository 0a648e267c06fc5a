import Verif.Model.Hello

/-!
# How long a client can hold a connection before it is served

Model of the deadlines of a TCP connection from `Accept` until it is handed to a backend or to the
HTTP server: `Peek` (netw.go:183-199), `peekClientHello` (hello.go:43-64), `handleConnection`
(proxy.go:1120-1214), `handleACMEConnection` (proxy.go:1232-1241), `authorizeTLSConnection`
(proxy.go:1243-1288), and of the deadlines of the HTTP server, http.go:39-56.

Times are seconds. What a client does is when each of its bytes becomes readable: `c i` is the arrival
of byte number `i`. Computation takes no time; a write of an alert never blocks (seven bytes); the
accept loop is not modelled.

Not part of the model: `connLimit.Wait` (`Verif.Model.Rate`), dialing (`Verif.Model.Dial`), relaying
(`Verif.Model.Bridge`), QUIC, where quic-go closes connections that are idle for 30 s (netw/quic.go:47).
The bandwidth limiters delay reads during the handshake; the context of the handshake ends these too,
because it closes the connection.
-/

namespace Verif.Patience

open Verif.Hello (Bytes Result parseBody)

inductive Arrival where
  | byte (t : Nat) (b : UInt8)
  | eof (t : Nat)
  | never
  deriving DecidableEq, Repr

abbrev Client := Nat → Arrival

/-- A read that is ready at time `t` succeeds if the deadline, if there is one, is later. -/
def inTime (dl : Option Nat) (t : Nat) : Bool :=
  match dl with
  | none => true
  | some d => t < d

/-- `io.ReadFull` of `n` bytes from byte number `p` on, at time `now`, with the read deadline `dl`: the
bytes that were read and when it returned; `none` if it never returns. -/
def readFull (c : Client) (dl : Option Nat) : Nat → Nat → Nat → Option (Bytes × Nat)
  | 0, _, now => some ([], now)
  | n + 1, p, now =>
    match c p with
    | .byte t b =>
      if inTime dl (max now t) then
        (readFull c dl n (p + 1) (max now t)).map fun r => (b :: r.1, r.2)
      else some ([], max now (dl.getD 0))
    | .eof t => if inTime dl (max now t) then some ([], max now t) else some ([], max now (dl.getD 0))
    | .never => dl.map fun d => ([], max now d)

/-- The seconds of netw.go:187. -/
def peekTimeout : Nat := 30

/-- The second `Peek`, hello.go:60-64, for a record of `len` bytes, at time `now`. -/
def peekBody (c : Client) (len p now : Nat) : Option (Result × Nat) :=
  match readFull c (some (now + peekTimeout)) len p now with
  | none => none
  | some (b, t) => some (if b.length < len then .err else parseBody b, t)

/-- hello.go:49-59, after the first `Peek` returned the bytes `h` at time `now`; the rest of the
record starts at byte number `p`. -/
def afterHeader (c : Client) (h : Bytes) (p now : Nat) : Option (Result × Nat) :=
  match h with
  | [b0, _, _, b3, b4] =>
    if b0 ≠ 0x16 then some (.err, now)
    else if b3.toNat * 256 + b4.toNat > 16384 then some (.err, now)
    else peekBody c (b3.toNat * 256 + b4.toNat) p now
  | _ => some (.err, now)

/-- The first `Peek`, hello.go:45-48, with the deadline `d`. -/
def peekHeader (c : Client) (d p now : Nat) : Option (Result × Nat) :=
  match readFull c (some d) 5 p now with
  | none => none
  | some (h, t) => afterHeader c h (p + 5) t

/-- `peekClientHello` at time `now`. If the peer is trusted to send a PROXY header, of `hdr` bytes, then
the first read from the connection waits for it under the deadline of that read (`proxyproto.Conn`, no
`ReadHeaderTimeout`); a header that does not arrive is the error of the read. Without one `hdr` is 0. -/
def awaitHello (c : Client) (hdr now : Nat) : Option (Result × Nat) :=
  match readFull c (some (now + peekTimeout)) hdr 0 now with
  | none => none
  | some (h, t) => if h.length < hdr then some (.err, t) else peekHeader c (now + peekTimeout) hdr t

/-- What `handleConnection` does with a ClientHello, proxy.go:1163-1213. -/
inductive Next where
  /-- no backend, or the address is not allowed -/
  | refuse
  | passthrough
  | acme
  /-- all modes that end in `authorizeTLSConnection`; `ok`: authorized after the handshake -/
  | tls (ok : Bool)
  deriving DecidableEq, Repr

inductive Outcome where
  | closed
  | served
  deriving DecidableEq, Repr

structure Conn where
  client : Client
  /-- the number of bytes of the PROXY header, if the peer is one of the trusted proxies -/
  hdr : Option Nat
  /-- `numOpen >= p.cfg.MaxOpen` -/
  full : Bool
  start : Nat
  next : Verif.Hello.ClientHello → Next
  /-- when the messages of the client complete the TLS handshake that started at a given time -/
  handshake : Nat → Option Nat

/-- The seconds of proxy.go:1233 and 1247. -/
def handshakeTimeout : Nat := 120

/-- `HandshakeContext` with a context of two minutes: whether it succeeded, and when it returned. -/
def handshake (k : Conn) (now : Nat) : Bool × Nat :=
  match k.handshake now with
  | some t => if max now t < now + handshakeTimeout then (true, max now t) else (false, now + handshakeTimeout)
  | none => (false, now + handshakeTimeout)

def afterHello (k : Conn) (now : Nat) : Next → Outcome × Nat
  | .refuse => (.closed, now)
  | .passthrough => (.served, now)
  | .acme => (.closed, (handshake k now).2)
  | .tls ok => (if (handshake k now).1 && ok then .served else .closed, (handshake k now).2)

/-- proxy.go:1154-1158: the log line of a connection above the limit contains `conn.RemoteAddr()`, which
for a trusted peer waits for the PROXY header; there is no deadline yet. -/
def tooMany (k : Conn) : Option (Outcome × Nat) :=
  match k.hdr with
  | none => some (.closed, k.start)
  | some h => (readFull k.client none h 0 k.start).map fun r => (.closed, r.2)

def inspect (k : Conn) : Option (Outcome × Nat) :=
  match awaitHello k.client (k.hdr.getD 0) k.start with
  | none => none
  | some (.ok h, t) => some (afterHello k t (k.next h))
  | some (.err, t) => some (.closed, t)
  -- the deferred `recover` closes it
  | some (.panic, t) => some (.closed, t)

/-- `handleConnection`, proxy.go:1120-1214: when it closed the connection or started to serve it. -/
def handle (k : Conn) : Option (Outcome × Nat) := if k.full then tooMany k else inspect k

/-! ## The HTTP server -/

/-- `ReadHeaderTimeout`, http.go:46. -/
def readHeaderTimeout : Nat := 30
/-- `IdleTimeout`, http.go:47. -/
def idleTimeout : Nat := 30

/-- A request of a client, relative to what came before it: after how many seconds of waiting it starts,
how many more seconds its header takes (`none`: it is never complete), and how long it is served. -/
structure Req where
  first : Option Nat
  header : Option Nat
  serve : Nat
  deriving DecidableEq, Repr

/-- A wait for something that happens after `d` seconds, with a timeout: whether it was in time, and the
seconds spent. -/
def waitFor (timeout : Nat) : Option Nat → Bool × Nat
  | none => (false, timeout)
  | some d => if d < timeout then (true, d) else (false, timeout)

/-- The header of a request that has begun (`conn.readRequest` in net/http). -/
def readHeader (r : Req) : Bool × Nat := waitFor readHeaderTimeout r.header

/-- `conn.serve` of net/http for HTTP/1.1 from the end of a response on: the number of requests
that are served and when the connection is closed. A client that sends nothing more is `[]`. -/
def keepAlive (now : Nat) : List Req → Nat × Nat
  | [] => (0, now + idleTimeout)
  | r :: rs =>
    if (waitFor idleTimeout r.first).1 then
      if (readHeader r).1 then
        let n := keepAlive (now + (waitFor idleTimeout r.first).2 + (readHeader r).2 + r.serve) rs
        (n.1 + 1, n.2)
      else (0, now + (waitFor idleTimeout r.first).2 + (readHeader r).2)
    else (0, now + (waitFor idleTimeout r.first).2)

/-- The first request: its header has one deadline from the start. -/
def firstHeader (r : Req) : Bool × Nat :=
  waitFor readHeaderTimeout (r.first.bind fun a => r.header.map (a + ·))

/-- `conn.serve` from the start. -/
def serveHTTP (now : Nat) : List Req → Nat × Nat
  | [] => (0, now + readHeaderTimeout)
  | r :: rs =>
    if (firstHeader r).1 then
      let n := keepAlive (now + (firstHeader r).2 + r.serve) rs
      (n.1 + 1, n.2)
    else (0, now + (firstHeader r).2)

end Verif.Patience
