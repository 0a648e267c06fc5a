/-!
# OCSP: verification of peers, stapling of own certificates

Model of `proxy/internal/ocspcache/ocsp.go` and of its use for stapling, proxy/proxy.go:1050-1074.

Simplifications:
* a certificate is its identity `raw` (the cache key is the SHA-256 of the raw bytes, assumed
  collision free), serial number and OCSP server URLs;
* the network, the clock, and everything other goroutines and the LRU policy do to the shared
  cache are an environment: before every access number `i` of the cache, `other i` may change it
  in any way, `now i` is the clock;
* `ocsp.ParseResponse(body, issuer)` (golang.org/x/crypto/ocsp) checks the signature against the
  issuer and returns the only status in the response, for whatever serial number it is;
  `ocsp.ParseResponseForCert` additionally selects the status for the certificate's serial.
-/

namespace Verif.Ocsp

structure Cert where
  raw : Nat
  serial : Nat
  servers : List Nat
  deriving DecidableEq, Repr

/-- `ocsp.Response.Status`. -/
inductive Status where
  | good
  | revoked
  | unknown
  | other
  deriving DecidableEq, Repr

/-- `ocsp.Response`; `signer` is the identity of the certificate its signature was checked
against. -/
structure Resp where
  serial : Nat
  status : Status
  next : Nat
  signer : Nat
  deriving DecidableEq, Repr

/-- ocsp.go:47-52. -/
inductive Err where
  | revoked
  | unknown
  | protocol
  | internal
  deriving DecidableEq, Repr

/-- A Go `(*ocsp.Response, error)` pair, or a nil dereference. -/
inductive Res where
  | resp (r : Resp)
  | nilResp
  | err (e : Err)
  | panic
  deriving DecidableEq, Repr

/-- `lru.TwoQueueCache[string, *ocsp.Response]`; a value may be a nil pointer. -/
abbrev Cache := List (Nat × Option Resp)

def Cache.get (c : Cache) (k : Nat) : Option (Option Resp) := c.lookup k

def Cache.add (c : Cache) (k : Nat) (v : Option Resp) : Cache :=
  (k, v) :: c.filter fun p => p.1 ≠ k

structure Env where
  now : Nat → Nat
  other : Nat → Cache → Cache
  /-- `ocsp.CreateRequest` succeeds. -/
  create : Cert → Cert → Bool
  /-- `fetchOneOCSP`, ocsp.go:225-252: what the server answers after parsing. -/
  fetch : Nat → Cert → Cert → Nat → Except Err Resp
  /-- `ocsp.ParseResponseForCert` of the stapled bytes. -/
  staple : Cert → Cert → Option Resp

/-- What the proxy relied on: a cached or a fetched response about a certificate. -/
inductive Event where
  | cached (cert issuer : Cert) (r : Resp) (t : Nat)
  | fetched (cert issuer : Cert) (server : Nat) (r : Resp) (t : Nat)
  | stapled (cert issuer : Cert) (r : Resp) (t : Nat)
  | failed (cert issuer : Cert) (e : Err)
  deriving DecidableEq, Repr

/-- The shared cache and the number of accesses so far. -/
structure State where
  cache : Cache
  tick : Nat
  log : List Event

/-- The loop of `fetchOCSP`, ocsp.go:212-222: `last` is `(ocspResp, err)` so far. Returns the
server that gave the answer too. -/
def fetchLoop (env : Env) (i : Nat) (cert issuer : Cert) :
    List Nat → Option (Nat × Except Err Resp) → Option (Nat × Except Err Resp)
  | [], last => last
  | s :: ss, _ =>
    match env.fetch i cert issuer s with
    | .error e => fetchLoop env i cert issuer ss (some (s, .error e))
    | .ok r =>
      if r.status = .unknown then fetchLoop env i cert issuer ss (some (s, .ok r))
      else some (s, .ok r)

/-- `Response`, ocsp.go:194-204, with `fetchOCSP`, ocsp.go:206-223. -/
def response (env : Env) (s : State) (cert issuer : Cert) (margin : Nat) : Res × State :=
  let c := env.other s.tick s.cache
  let t := env.now s.tick
  let s1 : State := { s with cache := c, tick := s.tick + 1 }
  let miss : Res × State :=
    if !env.create cert issuer then
      (.err .internal, { s1 with log := .failed cert issuer .internal :: s.log })
    else
      match fetchLoop env s.tick cert issuer cert.servers none with
      | none => (.nilResp, { s1 with cache := (env.other s1.tick c).add cert.raw none,
                                     tick := s1.tick + 1 })
      | some (_, .error e) => (.err e, { s1 with log := .failed cert issuer e :: s.log })
      | some (srv, .ok r) =>
        (.resp r, { s1 with cache := (env.other s1.tick c).add cert.raw (some r)
                            tick := s1.tick + 1
                            log := .fetched cert issuer srv r (env.now s1.tick) :: s.log })
  match c.get cert.raw with
  | some none => (.panic, s1)
  | some (some r) =>
    if t + margin < r.next then (.resp r, { s1 with log := .cached cert issuer r t :: s.log })
    else miss
  | none => miss

/-- The outcome of one chain, ocsp.go:148-181: `good` when the loop reaches the end. -/
inductive ChainRes where
  /-- `sawGood`: at least one certificate was found good, so `lastError` was set to nil. -/
  | good (sawGood : Bool)
  | bad (e : Err)
  | panic
  deriving DecidableEq, Repr

/-- The issuer of a certificate followed by `rest` in its chain, ocsp.go:153-156. -/
def issuerOf (cert : Cert) : List Cert → Cert
  | [] => cert
  | c :: _ => c

def checkChain (env : Env) : State → List Cert → Bool → ChainRes × State
  | s, [], g => (.good g, s)
  | s, cert :: rest, g =>
    if cert.servers = [] then checkChain env s rest g
    else
      match response env s cert (issuerOf cert rest) 0 with
      | (.err .internal, s') => checkChain env s' rest g
      | (.err e, s') => (.bad e, s')
      | (.nilResp, s') => (.panic, s')
      | (.panic, s') => (.panic, s')
      | (.resp r, s') =>
        match r.status with
        | .revoked => (.bad .revoked, s')
        | .unknown => (.bad .unknown, s')
        | .good => checkChain env s' rest true
        | .other => (.bad .protocol, s')

/-- The result of `VerifyChains`. -/
inductive Verdict where
  | accept
  | refuse (e : Err)
  | panic
  deriving DecidableEq, Repr

def lastErr : Option Err → Verdict
  | none => .accept
  | some e => .refuse e

/-- The loop over the chains, ocsp.go:147-184. `last` is `lastError`. -/
def checkChains (env : Env) : State → List (List Cert) → Option Err → Verdict × State
  | s, [], last => (lastErr last, s)
  | s, ch :: chs, last =>
    match checkChain env s ch false with
    | (.panic, s') => (.panic, s')
    | (.bad e, s') => checkChains env s' chs (some e)
    | (.good true, s') => (.accept, s')
    | (.good false, s') => (lastErr last, s')

/-- The stapled response, ocsp.go:135-145: refused, or the state to go on with. -/
def useStaple (env : Env) (s : State) (chains : List (List Cert)) : Verdict × State :=
  match chains with
  | (cert :: issuer :: _) :: _ =>
    match env.staple cert issuer with
    | none => (.accept, s)
    | some r =>
      if env.now s.tick < r.next ∧ r.status = .good then
        let c := env.other s.tick s.cache
        let s1 : State := { s with cache := c, tick := s.tick + 1 }
        let add : Verdict × State :=
          (.accept, { s1 with cache := (env.other s1.tick c).add cert.raw (some r)
                              tick := s1.tick + 1
                              log := .stapled cert issuer r (env.now s.tick) :: s.log })
        match c.get cert.raw with
        | some none => (.panic, s1)
        | some (some q) => if q.status = .revoked then (.refuse .revoked, s1) else add
        | none => add
      else (.accept, s)
  | _ => (.accept, s)

/-- `VerifyChains`, ocsp.go:134-187; `stapled` tells whether a response was stapled at all. -/
def verifyChains (env : Env) (s : State) (chains : List (List Cert)) (stapled : Bool) :
    Verdict × State :=
  if stapled then
    match useStaple env s chains with
    | (.accept, s') => checkChains env s' chains none
    | r => r
  else checkChains env s chains none

/-- Stapling of an own certificate during a handshake, proxy.go:1055-1074: the staple attached,
if any, or a panic. `issuer` is the second certificate, when there is one. -/
inductive Staple where
  | none
  | attached (r : Resp)
  | panic
  deriving DecidableEq, Repr

def stapleOwn (env : Env) (s : State) (cert : Cert) (issuer : Option Cert) : Staple × State :=
  match issuer with
  | none => (.none, s)
  | some i =>
    match response env s cert i 3600 with
    | (.resp r, s') => (if r.status = .good then .attached r else .none, s')
    | (.err _, s') => (.none, s')
    | (.nilResp, s') => (.panic, s')
    | (.panic, s') => (.panic, s')

/-- `flush`, ocsp.go:117-132: what is written to storage; `none` is a nil dereference (in the
goroutine of `FlushLoop`, where nothing recovers from it). -/
def flush (now : Nat) : Cache → Option (List (Nat × Resp))
  | [] => some []
  | (_, none) :: _ => none
  | (k, some r) :: c =>
    match flush now c with
    | none => none
    | some items => if r.next < now then some items else some ((k, r) :: items)

/-- `load`, ocsp.go:90-102, into an empty cache; `parses` is the success of `ParseResponse` on
the stored bytes. -/
def load (parses : Resp → Bool) (now : Nat) (items : List (Nat × Resp)) : Cache :=
  items.foldl (fun c it => if parses it.2 && decide (now < it.2.next) then c.add it.1 (some it.2)
    else c) []

end Verif.Ocsp
