/-
The forward rate limit of a backend: proxy/config.go:339-342, 1124-1127, proxy/proxy.go:1289-1316,
1319-1331, 1364-1373, proxy/quic.go:187-193 and proxy/backend-http.go:240-251, with the token bucket
of golang.org/x/time/rate.

Times are nanoseconds. The bucket is in exact arithmetic: the library computes with floating point
numbers, and rounds the time to wait down to a nanosecond. A reservation is not given back when the
one who waits gives up, which the library tries to do.
-/
namespace Verif.Rate

/-- `rate.Limiter`: the limit per second, which is also the burst (config.go:1127); the tokens, in
billionths; the time of the last reservation. -/
structure Limiter where
  rate : Nat
  tokens : Int
  last : Nat
deriving DecidableEq, Repr

/-- A billion. -/
def unit : Nat := 1000000000

/-- config.go:1124-1126: the limit in force. -/
def limitOf (configured : Nat) : Nat := if configured = 0 then 5 else configured

/-- config.go:1127 `rate.NewLimiter`. -/
def newLimiter (configured : Nat) : Limiter :=
  ⟨limitOf configured, ((limitOf configured * unit : Nat) : Int), 0⟩

/-- `Limiter.advance`: the tokens at a time. -/
def advance (l : Limiter) (t : Nat) : Int :=
  min ((l.rate * unit : Nat) : Int) (l.tokens + ((l.rate * (t - l.last) : Nat) : Int))

/-- `durationFromTokens`, for tokens that are missing. -/
def waitTime (rate : Nat) (tokens : Int) : Nat :=
  if tokens < 0 then ((-tokens).toNat + rate - 1) / rate else 0

/-- `Limiter.reserveN` for one token, as `Limiter.Wait` uses it without a deadline: the time when
`Wait` returns. -/
def reserve (l : Limiter) (t : Nat) : Limiter × Nat :=
  let tok := advance l t - (unit : Int)
  (⟨l.rate, tok, t⟩, t + waitTime l.rate tok)

/-- A connection of an HTTP client: whether it is a QUIC connection, when `Wait` returned for it, the
flag `requestFlagKey`, and how many of its requests have read the flag before it was set and have not
set it yet. -/
structure Conn where
  id : Nat
  quic : Bool
  since : Nat
  flag : Bool
  seen : Nat
deriving DecidableEq, Repr

/-- A backend: its limiter, the open HTTP connections, the times when `Wait` has returned, and the
times when something was forwarded, newest first. -/
structure State where
  lim : Limiter
  conns : List Conn
  admitted : List Nat
  forwarded : List Nat
deriving DecidableEq, Repr

def init (configured : Nat) : State := ⟨newLimiter configured, [], [], []⟩

inductive Op where
  /-- a connection in mode TCP, TLS, TLSPASSTHROUGH or QUIC -/
  | relay (t : Nat)
  /-- a connection to a backend in mode HTTP or HTTPS -/
  | connect (id : Nat) (quic : Bool) (t : Nat)
  /-- a request on it reaches backend-http.go:243 -/
  | request (id : Nat) (t : Nat)
  /-- a request that has found the flag unset sets it (line 245) and is forwarded -/
  | setFlag (id : Nat) (t : Nat)
deriving DecidableEq, Repr

def find (cs : List Conn) (id : Nat) : Option Conn := cs.find? fun k => k.id = id

def update (cs : List Conn) (id : Nat) (f : Conn → Conn) : List Conn :=
  cs.map fun k => if k.id = id then f k else k

/-- A request has read the flag. -/
def markSeen (k : Conn) : Conn := { k with seen := k.seen + 1 }

/-- A request that has read the flag sets it. -/
def markFlag (k : Conn) : Conn := { k with flag := true, seen := k.seen - 1 }

/-- `be.connLimit.Wait` and then the connection or request is forwarded. -/
def waitForward (s : State) (t : Nat) : State :=
  let r := reserve s.lim t
  { s with lim := r.1, admitted := r.2 :: s.admitted, forwarded := r.2 :: s.forwarded }

/-- backend-http.go:243-251. The connection in the request's context is the `*tls.Conn` that
`handleHTTPConnection` has handed over (proxy.go:1315, http.go:50-52), which is not an
`annotatedConnection` (util.go:56-75): the type assertion fails and nothing is done. For HTTP/3 it
is the `*netw.QUICConn` (quic.go:602), which is one. -/
def request (s : State) (k : Conn) (t : Nat) : State :=
  if !k.quic then { s with forwarded := t :: s.forwarded }
  else if !k.flag then { s with conns := update s.conns k.id markSeen }
  else waitForward s t

/-- One step. Nothing happens on a connection before `Wait` has returned for it (proxy.go:1296,
quic.go:187). -/
def step (s : State) : Op → State
  | .relay t => waitForward s t
  | .connect id quic t =>
    match find s.conns id with
    | some _ => s
    | none =>
      let r := reserve s.lim t
      { s with lim := r.1, admitted := r.2 :: s.admitted
               conns := ⟨id, quic, r.2, false, 0⟩ :: s.conns }
  | .request id t =>
    match find s.conns id with
    | none => s
    | some k => if t < k.since then s else request s k t
  | .setFlag id t =>
    match find s.conns id with
    | none => s
    | some k =>
      if t < k.since || k.seen = 0 then s
      else
        { s with conns := update s.conns id markFlag
                 forwarded := t :: s.forwarded }

def run : State → List Op → State
  | s, [] => s
  | s, o :: os => run (step s o) os

end Verif.Rate
