import Verif.Model.Defaults
/-
The numbers of the configuration that decide whether anybody is served at all: `maxOpen`
(proxy/config.go:792-798, proxy/unix.go:32-42, proxy/proxy.go:1140, 1154-1159), `forwardRateLimit`
(proxy/config.go:1124-1127, proxy/proxy.go:1288-1300), `forwardTimeout` (proxy/config.go:1098-1100, 1163-1165,
proxy/backend.go:83-175) and `forceReAuth` (proxy/backend-sso.go:270-290, proxy/internal/cookiemanager/cookiemanager.go:
64-75), on the way of one request through a backend in mode HTTP with single sign-on.

`Config.Check` looks at none of these numbers, except that it replaces 0. Times are nanoseconds. The rest of the way of
a request (names, addresses, certificates, access lists) is in other models and left out. The limiter is a fresh one.
-/
namespace Verif.Numbers

/-- The numbers as they are written in the configuration; 0 is left out. -/
structure Numbers where
  maxOpen : Int := 0
  rate : Int := 0
  timeout : Int := 0
  forceReAuth : Int := 0
  /-- `forwardTimeout` of the path overrides -/
  overrides : List Int := []
deriving DecidableEq, Repr

/-- config.go:792-798; `limit` is the result of `openFileLimit` (unix.go:32-42), `none` an error. Go rounds towards 0. -/
def maxOpenOf (limit : Option Nat) (n : Int) : Option Int :=
  if n ≠ 0 then some n
  else match limit with
    | none => none
    | some l => some ((l / 2 : Nat) - 100)

/-- `Config.Check` for these numbers; `none`: the configuration is refused. -/
def check (limit : Option Nat) (n : Numbers) : Option Numbers :=
  match maxOpenOf limit n.maxOpen with
  | none => none
  | some m => some { n with
      maxOpen := m
      rate := Defaults.rateOf n.rate
      timeout := Defaults.timeoutOf n.timeout
      overrides := n.overrides.map Defaults.timeoutOf }

/-- proxy.go:1140, 1154: `open` connections are there when one more is accepted; it is counted first. -/
def admitted (n : Numbers) (opn : Nat) : Bool := decide (((opn + 1 : Nat) : Int) < n.maxOpen)

/-- config.go:1127, proxy.go:1296: `Limiter.Wait` of golang.org/x/time/rate v0.8.0 on a fresh limiter asks for one
token and fails if this is more than the burst, which is the same number as the limit. -/
def waits (n : Numbers) : Bool := decide (1 ≤ n.rate)

/-- backend.go:87, 98 -/
def timeoutFor (n : Numbers) (override : Option Nat) : Int :=
  match override.bind (n.overrides[·]?) with
  | some t => t
  | none => n.timeout

/-- backend.go:146-155: `Dialer.DialContext` with a timeout that is not 0 has the deadline `now + timeout`, as has
`context.WithTimeout`; `latency` is the time until the server has answered. -/
def dials (n : Numbers) (override : Option Nat) (latency : Nat) : Bool :=
  decide ((latency : Int) < timeoutFor n override)

/-- cookiemanager.go:64-75: the time in the token of a login is in whole seconds. -/
def issuedAt (second login : Nat) : Nat := login / second * second

/-- backend-sso.go:286 for a user who has logged in on this host: whether they have to log in again. -/
def reauth (second : Nat) (n : Numbers) (login now : Nat) : Bool :=
  decide (n.forceReAuth ≠ 0) && decide (n.forceReAuth < (now : Int) - (issuedAt second login : Int))

/-- A request of a logged-in user: how many other connections are open, when they have logged in, when the request
comes, the path override it falls under, and the time in which the server can be connected. -/
structure Visit where
  opn : Nat := 0
  login : Nat
  now : Nat
  override : Option Nat := none
  latency : Nat
deriving DecidableEq, Repr

/-- What becomes of it. -/
inductive Outcome where
  | refused
  | limiterError
  | loginAgain
  | dialError
  | forwarded
deriving DecidableEq, Repr

/-- proxy.go:1140-1159, 1296, backend-sso.go:286, backend.go:83-175, in this order. -/
def visit (second : Nat) (n : Numbers) (v : Visit) : Outcome :=
  if admitted n v.opn = false then .refused
  else if waits n = false then .limiterError
  else if reauth second n v.login v.now then .loginAgain
  else if dials n v.override v.latency = false then .dialError
  else .forwarded

/-- A user who logs in whenever they are asked to, and comes back `delays` later each time: what they get in the end;
`none` if they are still logging in. -/
def logins (second : Nat) (n : Numbers) (v : Visit) : List Nat → Option Outcome
  | [] => none
  | d :: ds =>
    match visit second n { v with login := v.now, now := v.now + d } with
    | .loginAgain => logins second n { v with login := v.now, now := v.now + d } ds
    | o => some o

end Verif.Numbers
