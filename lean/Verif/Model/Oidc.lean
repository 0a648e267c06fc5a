import Verif.Model.Token

/-!
# OpenID Connect: the client and the local server

Model of `proxy/internal/oidc/client.go` (`RequestLogin`, `HandleCallback`) and
`proxy/internal/oidc/server.go` (`vacuum`, `ServeAuthorization`, `ServeToken`, `ServeUserInfo`).

Both are state machines whose atomic steps are the critical sections of the Go code, so that all
interleavings of concurrent requests are covered. Every step writes the outputs the outside world
can see to a log, newest first.

Simplifications:
* random strings (states, codes, access tokens) are natural numbers chosen by the environment;
* times are seconds; the creation time recorded with a code or a state is the time of the
  critical section that stores it (the Go code reads the clock just before);
* the identity provider's HTTP answers are values chosen by the environment.
-/

namespace Verif.Oidc

open Verif.Token (Str)

/-- A Go map with keys that are numbers: at most the first entry of a key counts. -/
abbrev Tbl (α : Type) := List (Nat × α)

def Tbl.get {α : Type} (t : Tbl α) (k : Nat) : Option α := t.lookup k
def Tbl.del {α : Type} (t : Tbl α) (k : Nat) : Tbl α := t.filter (·.1 ≠ k)
def Tbl.put {α : Type} (t : Tbl α) (k : Nat) (v : α) : Tbl α := (k, v) :: Tbl.del t k

/-! ## Client -/

namespace Client

/-- `oauthState`, client.go:100-106. The code verifier is not modelled. -/
structure Pending where
  created : Nat
  url : Str
  host : Str
  seen : Bool
  deriving DecidableEq, Repr

/-- The user information received from the provider, client.go:259-272. -/
structure Info where
  sub : Str
  email : Str
  emailVerified : Option Bool
  nonce : Option Nat -- `none` is the empty string
  hd : Str
  deriving DecidableEq, Repr

/-- The provider's answers: the ID token of the token endpoint, if any, and the answer of the
userinfo endpoint; `none` stands for any error. -/
structure Answer where
  tokenOk : Bool
  idToken : Option (Option Info) -- outer `none`: no ID token; inner `none`: does not parse
  tokenType : Str -- in lower case
  userinfo : Option Info
  deriving DecidableEq, Repr

structure Config where
  hostedDomain : Str
  userinfoEndpoint : Bool -- configured
  deriving DecidableEq, Repr

/-- client.go:273-305. -/
def Answer.info (cfg : Config) (a : Answer) : Option Info :=
  if !a.tokenOk then none else
  match a.idToken with
  | some i => i
  | none =>
    if cfg.userinfoEndpoint && (a.tokenType = [] || a.tokenType = "bearer".toList) then a.userinfo
    else none

/-- The checks on the identity, client.go:315-330, and those of `SetAuthTokenCookie`
(cookiemanager.go:65). -/
def identityOk (cfg : Config) (i : Info) : Bool :=
  !(i.email = []) &&
  !(i.emailVerified = some false) &&
  (if cfg.hostedDomain = [] then true
   else !(i.hd = [] || (cfg.hostedDomain ≠ ['*'] && i.hd ≠ cfg.hostedDomain))) &&
  !(i.sub = [])

/-- What the outside world sees. -/
inductive Event where
  | requested (nonce : Nat) (url host : Str) (t : Nat) -- login request, cookie set to `nonce`
  | began (thread nonce : Nat) (cookie : Option Nat) (t : Nat) -- callback passed the state check
  | login (thread nonce : Nat) (sub email host url : Str) -- login cookie set, redirected to `url`
  deriving DecidableEq, Repr

structure State where
  states : Tbl Pending
  running : Tbl Nat -- callbacks between the two critical sections, with their `state` parameter
  log : List Event

def init : State := ⟨[], [], []⟩

inductive Op where
  | request (nonce t : Nat) (url host : Str)
  | begin (thread t : Nat) (param : Nat) (cookie : Option Nat)
  | finish (thread : Nat) (a : Answer)

/-- `for k, v := range p.states { if time.Since(v.Created) > 5*time.Minute { delete } }`,
client.go:209-213. -/
def vacuum (t : Nat) (s : Tbl Pending) : Tbl Pending :=
  s.filter fun kv => !(kv.2.created + 300 < t)

/-- The steps of the client. -/
def step (cfg : Config) (s : State) : Op → State
  -- `RequestLogin`, client.go:149-202
  | .request nonce t url host =>
    { s with
      states := s.states.put nonce { created := t, url, host, seen := false }
      log := .requested nonce url host t :: s.log }
  -- the first half of `HandleCallback`, client.go:204-226
  | .begin thread t param cookie =>
    let states := vacuum t s.states
    match states.get param with
    | none => { s with states }
    | some p =>
      let states' := states.put param { p with seen := true }
      if p.seen || cookie ≠ some param then { s with states := states' }
      else { states := states', running := s.running.put thread param,
             log := .began thread param cookie t :: s.log }
  -- the second half, client.go:227-359
  | .finish thread a =>
    match s.running.get thread with
    | none => s
    | some nonce =>
      let s := { s with running := s.running.del thread }
      match a.info cfg with
      | none => s
      | some i =>
        let n := i.nonce.getD nonce
        match s.states.get n with
        | none => s
        | some p =>
          let s := { s with states := s.states.del n }
          if identityOk cfg i then { s with log := .login thread n i.sub i.email p.host p.url :: s.log }
          else s

def run (cfg : Config) : List Op → State → State
  | [], s => s
  | o :: os, s => run cfg os (step cfg s o)

end Client

/-! ## Server -/

namespace Server

/-- `Client`, server.go:140-144. -/
structure ClientCfg where
  id : Str
  secret : Str
  uris : List Str
  deriving DecidableEq, Repr

/-- `codeData`, server.go. The signed token is not modelled here (see `Verif.Token`). -/
structure Code where
  created : Nat
  clientID : Str
  access : Nat
  deriving DecidableEq, Repr

/-- `accessData`. The claims are those put in the token. -/
structure Access where
  created : Nat
  clientID : Str
  claims : Token.Claims
  deriving DecidableEq, Repr

/-- Authorization request; `user` is `none` when nobody is logged in. -/
structure AuthzReq where
  user : Option Token.Claims
  responseType : Str
  clientID : Str
  uri : Str
  uriParses : Bool -- `url.Parse` accepts it
  deriving DecidableEq, Repr

/-- Token request. -/
structure TokenReq where
  post : Bool
  grant : Str
  code : Nat
  clientID : Str
  secret : Str
  uri : Str
  deriving DecidableEq, Repr

inductive Event where
  -- a code has been sent to `uri`, for a login with claims `user` and a token with `claims`
  | issued (code access : Nat) (clientID uri : Str) (user claims : Token.Claims) (t : Nat)
  -- the token endpoint has returned the tokens of `code`
  | exchanged (code access : Nat) (clientID secret uri : Str) (t : Nat)
  -- the userinfo endpoint has returned `claims`
  | info (access : Nat) (claims : Token.Claims) (t : Nat)
  deriving DecidableEq, Repr

structure State where
  codes : Tbl Code
  access : Tbl Access
  vacs : List Nat -- times at which requests have called `vacuum`
  log : List Event

def init : State := ⟨[], [], [], []⟩

/-- server.go:146-160. -/
def vacuum (t : Nat) (s : State) : State :=
  { s with
    codes := s.codes.filter fun kv => !(kv.2.created + 120 < t)
    access := s.access.filter fun kv => !(kv.2.created + 120 < t)
    vacs := t :: s.vacs }

/-- The client check of the authorization endpoint, server.go:239-245. -/
def authzClient (clients : List ClientCfg) (id uri : Str) : Bool :=
  clients.any fun c => c.id = id && c.uris.contains uri

/-- The client check of the token endpoint, server.go:354-360. -/
def tokenClient (clients : List ClientCfg) (id secret uri : Str) : Bool :=
  clients.any fun c => c.id = id && c.secret = secret && c.uris.contains uri

/-- Claims not returned by the userinfo endpoint, server.go:424-433. -/
def filtered : List String := ["iss", "aud", "iat", "exp", "nbf", "scope", "sid", "nonce"]

def userinfo (c : Token.Claims) : Token.Claims :=
  c.filter fun kv => !filtered.contains kv.1

/-- Critical sections. Every request first calls `vacuum` (time `t0`), then enters the second
critical section at a later time `t`. -/
inductive Op where
  | vacuum (t : Nat)
  | authorize (t : Nat) (r : AuthzReq) (code access : Nat) (claims : Token.Claims)
  | token (t0 : Nat) (r : TokenReq)
  | userinfo (t0 : Nat) (access : Nat)

def step (clients : List ClientCfg) (s : State) : Op → State
  | .vacuum t => vacuum t s
  -- `ServeAuthorization`, server.go:225-336; `claims` are those of `Token.oidcToken`
  | .authorize t r code access claims =>
    match r.user with
    | none => s
    | some u =>
      if r.responseType ≠ "code".toList then s
      else if !authzClient clients r.clientID r.uri then s
      else if !r.uriParses then s
      else
        { s with
          codes := s.codes.put code { created := t, clientID := r.clientID, access }
          access := s.access.put access { created := t, clientID := r.clientID, claims }
          log := .issued code access r.clientID r.uri u claims t :: s.log }
  -- `ServeToken`, server.go:338-400
  | .token t0 r =>
    if !r.post || r.grant ≠ "authorization_code".toList then s
    else if !tokenClient clients r.clientID r.secret r.uri then s
    else
      match s.codes.get r.code with
      | none => { s with codes := s.codes.del r.code }
      | some d =>
        let s := { s with codes := s.codes.del r.code }
        if d.clientID ≠ r.clientID then s
        else { s with log := .exchanged r.code d.access r.clientID r.secret r.uri t0 :: s.log }
  -- `ServeUserInfo`, server.go:402-451
  | .userinfo t0 a =>
    match s.access.get a with
    | none => { s with access := s.access.del a }
    | some d =>
      { s with access := s.access.del a, log := .info a (Oidc.Server.userinfo d.claims) t0 :: s.log }

def run (clients : List ClientCfg) : List Op → State → State
  | [], s => s
  | o :: os, s => run clients os (step clients s o)

end Server

end Verif.Oidc
