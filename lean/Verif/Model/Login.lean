/-!
# From a protected page to the login page and back, with passkeys

Model of `proxy/backend-sso.go`: `enforceSSOPolicy` (the part that asks for a login), `serveLogin`,
`serveLogout` with a URL token; of `proxy/internal/tokenmanager/urltoken.go`; and of
`proxy/internal/passkeys/manager.go`: `RequestLogin` 210-256, the nonce part of `HandleCallback`
258-285, the URL token part 293-305 and the answer of `setAuthToken` 746-776.

Browsers are numbers. A browser presents the session cookie that the proxy set for the host of the
request (`jar`); `sessions` remembers all that were ever set. Session ids and nonces are random in
the code and fresh numbers here. A token is identified with its claims; it is valid if it was issued
(URL tokens do not expire, see C43).

Simplifications: a URL is a host and the rest; `url.Parse` and `String` give back the same URL; ports
are part of the host; whether the passkey itself is accepted (`Verif.Model.Passkey`) is an input of the
step; a login with the other identity provider on the way (modes "RegisterNewID" and "RefreshID",
manager.go:308-325) returns to the same page with the same token and is left out.
-/

namespace Verif.Login

abbrev Str := List Char

structure Url where
  host : Str
  rest : Str
  deriving DecidableEq, Repr

/-- A URL token, urltoken.go:65-81. -/
structure Tok where
  url : Url
  email : Option Str
  sid : Nat
  deriving DecidableEq, Repr

/-- `nonceData`, manager.go:160-164, with its key in the map. -/
structure Nonce where
  id : Nat
  created : Nat
  url : Url
  hint : Str
  deriving DecidableEq, Repr

inductive Event where
  /-- the browser was told to log in to see this page, as the user with this email address if it is
  not empty -/
  | asked (b : Nat) (u : Url) (hint : Str) (t : Nat)
  /-- the browser was sent to the login page with this nonce -/
  | requested (b id : Nat) (u : Url) (hint : Str) (t : Nat)
  /-- the browser exchanged the nonce for a URL token -/
  | accepted (b id : Nat) (u : Url) (hint : Str) (t : Nat)
  /-- the browser is logged in and told to go to this page -/
  | finished (b : Nat) (u : Url) (t : Nat)
  deriving DecidableEq, Repr

structure State where
  jar : List ((Nat × Str) × Nat)
  sessions : List ((Nat × Str) × Nat)
  tokens : List Tok
  /-- `m.nonces` -/
  nonces : List Nonce
  next : Nat
  log : List Event
  deriving DecidableEq, Repr

def init : State := ⟨[], [], [], [], 0, []⟩

/-- `sessionID`, urltoken.go:43-62: the session cookie of the browser for this host, or a new one.
The answer sets it either way. -/
def session (s : State) (b : Nat) (host : Str) : Nat × State :=
  match s.jar.lookup (b, host) with
  | some sid => (sid, s)
  | none => (s.next, { s with jar := ((b, host), s.next) :: s.jar,
                              sessions := ((b, host), s.next) :: s.sessions, next := s.next + 1 })

/-- `URLToken`, urltoken.go:65-81, for a request of `b` to `host`. -/
def urlToken (s : State) (b : Nat) (host : Str) (u : Url) (email : Option Str) : State :=
  let (sid, s) := session s b host
  { s with tokens := ⟨u, email, sid⟩ :: s.tokens }

/-- `ValidateURLToken`, urltoken.go:85-104. -/
def validateURL (s : State) (b : Nat) (host : Str) (tok : Tok) : Option Url × State :=
  if tok ∈ s.tokens then
    let (sid, s) := session s b host
    (if sid = tok.sid then some tok.url else none, s)
  else (none, s)

/-- `RequestLogin`, manager.go:210-256. -/
def requestLogin (s : State) (b : Nat) (u : Url) (hint : Str) (t : Nat) : State :=
  { s with nonces := ⟨s.next, t, u, hint⟩ :: s.nonces, next := s.next + 1,
           log := .requested b s.next u hint t :: s.log }

inductive Op where
  /-- A GET request for a page that needs a login, backend-sso.go:286-307; also the pages of
  `serveSSOStatus` 191-199 and `servePermissionDenied` 244-251, which offer one. `hint` is the email
  address of an earlier login. -/
  | ask (b : Nat) (host rest : Str) (hint : Option Str) (t : Nat)
  /-- `serveLogin`, backend-sso.go:203-220, and `serveLogout` with `u`, backend-sso.go:222-237 -/
  | login (b : Nat) (host : Str) (tok : Tok) (t : Nat)
  /-- `ManageKeys` of a user who is not logged in, or not recently, manager.go:536-556 -/
  | manage (b : Nat) (host rest : Str) (hint : Option Str) (t : Nat)
  /-- `HandleCallback` with a nonce, manager.go:258-285 -/
  | callback (b : Nat) (host : Str) (id : Nat) (t : Nat)
  /-- modes "Check" and "AddKey" of `HandleCallback`, manager.go:293-305, 406-472, with a valid
  passkey -/
  | finish (b : Nat) (host : Str) (tok : Tok) (t : Nat)
  /-- the session cookie expires or is deleted -/
  | forget (b : Nat) (host : Str)
  deriving DecidableEq, Repr

def step (s : State) : Op → State
  | .ask b host rest hint t =>
    let s := urlToken s b host ⟨host, rest⟩ hint
    { s with log := .asked b ⟨host, rest⟩ (hint.getD []) t :: s.log }
  | .login b host tok t =>
    match validateURL s b host tok with
    | (none, s) => s
    | (some u, s) => requestLogin s b u (tok.email.getD []) t
  | .manage b host rest hint t =>
    requestLogin { s with log := .asked b ⟨host, rest⟩ (hint.getD []) t :: s.log } b ⟨host, rest⟩
      (hint.getD []) t
  | .callback b host id t =>
    let ns := s.nonces.filter fun n => !(n.created + 300 < t)
    let found := ns.find? fun n => n.id = id
    let s := { s with nonces := ns.filter fun n => n.id ≠ id }
    match found with
    | none => s
    | some n =>
      let s := urlToken s b host n.url (some n.hint)
      { s with log := .accepted b id n.url n.hint t :: s.log }
  | .finish b host tok t =>
    match validateURL s b host tok with
    | (none, s) => s
    | (some u, s) => { s with log := .finished b u t :: s.log }
  | .forget b host => { s with jar := s.jar.filter fun e => e.1 ≠ (b, host) }

def run : List Op → State → State
  | [], s => s
  | o :: os, s => run os (step s o)

end Verif.Login
