import Verif.Model.Config
/-
What the proxy remembers about its clients and shows on the console: the events and the metrics of
server names. What it remembers for logins is in the models of the identity providers.

The texts of errors of other packages are parameters. `idnaToUnicode` is left out: it maps names to
names.
-/
namespace Verif.Memory

open Verif.Config (Table Route route)

/-- metrics.go:59-66 `recordEvent`, also proxy.go:157-163. -/
def record : List (String × Nat) → String → List (String × Nat)
  | [], msg => [(msg, 1)]
  | (k, n) :: t, msg => if k = msg then (k, n + 1) :: t else (k, n) :: record t msg

/-- metrics.go:72-98 `setCounters`: the server names that have metrics. -/
def setCounters (names : List String) (name : String) : List String :=
  if names.contains name then names else name :: names

/-- What may be recorded once the backend is known. The name is always the connection's. -/
inductive Kind where
  /-- proxy.go:885, 1224 and quic.go:180 -/
  | checkIP (err : String)
  /-- proxy.go:596, 1252 -/
  | noCert
  /-- proxy.go:606 -/
  | revoked (sum : String)
  /-- proxy.go:611 -/
  | ocsp (sum err : String)
  /-- proxy.go:616 -/
  | certDenied (sum : String)
  /-- proxy.go:620 -/
  | certAllowed (sum : String)
  /-- proxy.go:1072 -/
  | staple
  /-- backend-sso.go:335 -/
  | ssoDenied (user : String)
  /-- backend-sso.go:340 -/
  | ssoAllowed (user : String)
  /-- the others: "tls handshake failed", "dial error", the error of a rate limit (proxy.go:1254-1376,
  quic.go:160-434), those of logins -/
  | fixed (text : String)
deriving DecidableEq, Repr

def Kind.text (name : String) : Kind → String
  | .checkIP err => name ++ " CheckIP " ++ err
  | .noCert => "deny no cert to " ++ name
  | .revoked sum => "deny X509 [" ++ sum ++ "] to " ++ name ++ " (revoked)"
  | .ocsp sum err => "deny X509 [" ++ sum ++ "] to " ++ name ++ " (OCSP:" ++ err ++ ")"
  | .certDenied sum => "deny X509 [" ++ sum ++ "] to " ++ name
  | .certAllowed sum => "allow X509 [" ++ sum ++ "] to " ++ name
  | .staple => "ocsp staple error for " ++ name
  | .ssoDenied user => "deny SSO " ++ user ++ " to " ++ name
  | .ssoAllowed user => "allow SSO " ++ user ++ " to " ++ name
  | .fixed text => text

/-- A connection: the configuration it meets, what its first message says (`none`: it cannot be read),
whether it is one too many, and what happens once its backend is known. -/
structure Arrival where
  table : Table
  down : Nat → Bool
  defaultName : String
  full : Bool
  hello : Option (String × List String)
  after : List Kind

structure State where
  events : List (String × Nat)
  metrics : List String
deriving Repr

/-- proxy.go:1120-1186 `handleConnection`: what is recorded, in order, and the name that metrics are
kept for. Those of QUIC connections (quic.go:117-190) differ in the order only. -/
def seen (a : Arrival) : List String × Option String :=
  if a.full then (["tcp connection", "too many open connections"], none)
  else match a.hello with
    | none => (["tcp connection", "invalid ClientHello"], none)
    | some (sni, protos) =>
      let name := if sni = "" then a.defaultName else sni
      let first := if sni = "" then ["tcp connection", "no SNI"] else ["tcp connection"]
      match route a.table a.down name protos with
      | .unexpectedSNI => (first ++ ["unexpected SNI"], none)
      | .shutdown => (first ++ ["backend shutdown"], none)
      | .to _ => (first ++ a.after.map (Kind.text name), some name)

def step (s : State) (a : Arrival) : State where
  events := (seen a).1.foldl record s.events
  metrics := match (seen a).2 with
    | none => s.metrics
    | some n => setCounters s.metrics n

def run (s : State) (as : List Arrival) : State := as.foldl step s

end Verif.Memory
