/-!
# The loops that accept connections

Model of `Proxy.acceptLoop` (proxy/proxy.go:949-963) and `Proxy.quicAcceptLoop` (proxy/quic.go:101-117), and for comparison of
`Serve` of net/http, which the plain HTTP port uses (proxy.go:910-919, http.go:58-62).

The listener is a parameter: what its calls return, one after the other, and how long they take, in milliseconds. Everything else
takes no time. net/http is written down from memory (Go 1.23): after a temporary error it waits, 5 ms the first time, twice as long
each further time, at most a second.
-/
namespace Verif.Spin

/-- What a call of `Accept` returns. -/
inductive Answer
  | conn (c : Nat)
  /-- the listener was closed: `net.ErrClosed`; `quic.ErrServerClosed`, `context.Canceled` or "closing" -/
  | closed
  /-- another error: no file descriptor is left, the socket has failed -/
  | failed
  deriving DecidableEq, Repr

/-- The answer of each call, and how long it takes. -/
abbrev Listener := Nat → Answer × Nat

structure St where
  running : Bool := true
  now : Nat := 0
  /-- the connections that got a handler -/
  handled : List Nat := []
  /-- when the lines "ERR TLS Accept", "ERR QUIC Accept" or "http: Accept error" were written -/
  lines : List Nat := []
  /-- `tempDelay` of net/http -/
  delay : Nat := 0
  deriving DecidableEq, Repr

/-- One round of proxy.go:951-962 and of quic.go:103-115. -/
def round (s : St) (a : Answer × Nat) : St :=
  if s.running then
    match a.1 with
    | .conn c => { s with now := s.now + a.2, handled := s.handled ++ [c] }
    | .closed => { s with now := s.now + a.2, running := false }
    | .failed => { s with now := s.now + a.2, lines := s.lines ++ [s.now + a.2] }
  else s

/-- The loop after `n` rounds. -/
def loop (l : Listener) : Nat → St
  | 0 => {}
  | n + 1 => round (loop l n) (l n)

/-- `if tempDelay == 0 { 5ms } else { *= 2 }; if max := 1s; …` -/
def nextDelay (d : Nat) : Nat := if d = 0 then 5 else min (2 * d) 1000

/-- One round of net/http. -/
def httpRound (s : St) (a : Answer × Nat) : St :=
  if s.running then
    match a.1 with
    | .conn c => { s with now := s.now + a.2, handled := s.handled ++ [c], delay := 0 }
    | .closed => { s with now := s.now + a.2, running := false }
    | .failed =>
      { s with now := s.now + a.2 + nextDelay s.delay, lines := s.lines ++ [s.now + a.2], delay := nextDelay s.delay }
  else s

def httpLoop (l : Listener) : Nat → St
  | 0 => {}
  | n + 1 => httpRound (httpLoop l n) (l n)

end Verif.Spin
