import Verif.Model.Dispatch
import Verif.Model.Http
import Verif.Model.Rate
/-
What the documentation of the configuration calls the same: blocked addresses and unknown server names
(proxy/config.go:241-242), mode LOCAL and modes HTTP and HTTPS without addresses (config.go:302-305), the
streams of a QUIC connection and TLS connections (config.go:316-320). The first two are statements about
`Verif.Model.Dispatch`, `Verif.Model.Config` and `Verif.Model.Http`; here is the third.
-/
namespace Verif.Same

open Verif.Rate (Limiter newLimiter reserve)

/-- A backend in mode TCP or TLS, as far as its rate limit goes: the limiter, the open QUIC connections
with the time when `Wait` has returned for them, and the times when its servers were dialed, newest
first. -/
structure State where
  lim : Limiter
  conns : List (Nat × Nat)
  dialed : List Nat
deriving DecidableEq, Repr

def init (configured : Nat) : State := ⟨newLimiter configured, [], []⟩

inductive Op where
  /-- a TLS connection is authorized -/
  | tls (t : Nat)
  /-- a QUIC connection passes the IP check -/
  | quic (id : Nat) (t : Nat)
  /-- the client opens a stream of it -/
  | stream (id : Nat) (t : Nat)
deriving DecidableEq, Repr

/-- proxy.go:1325-1337: `be.connLimit.Wait` and `be.dial`. -/
def tlsConn (s : State) (t : Nat) : State :=
  let r := reserve s.lim t
  { s with lim := r.1, dialed := r.2 :: s.dialed }

/-- quic.go:187-193: `be.connLimit.Wait`, once for the connection. -/
def quicConn (s : State) (id t : Nat) : State :=
  let r := reserve s.lim t
  { s with lim := r.1, conns := (id, r.2) :: s.conns }

/-- quic.go:316-352 and 359-381 `handleQUICTCPStream`: `be.dial`. Streams are accepted once `Wait` has
returned. -/
def stream (s : State) (since t : Nat) : State :=
  if t < since then s else { s with dialed := t :: s.dialed }

def step (s : State) : Op → State
  | .tls t => tlsConn s t
  | .quic id t => quicConn s id t
  | .stream id t =>
    match s.conns.lookup id with
    | none => s
    | some since => stream s since t

def run : State → List Op → State
  | s, [] => s
  | s, o :: os => run (step s o) os

end Verif.Same
