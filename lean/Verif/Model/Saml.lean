/-!
# SAML service provider

Model of `proxy/internal/saml/saml.go`: `RequestLogin` (108-149), `HandleCallback` (151-261) and
`readCerts` (263-286).

The provider is a state machine whose steps are the critical sections under `p.mu` together with
what follows them up to the response (nothing else is shared). The log lists what the outside
world sees, newest first.

Simplifications: login request ids (12 random bytes in hex) are numbers; the XML document is
opaque, `validate` is everything up to and including `dsigCtx.Validate` (base64, XML parsing,
selection of the first `Assertion` child, signature check) and returns the contents of the signed
element that are read afterwards; times are natural numbers; errors of the cookie manager and of
`url.Parse` on the configured URL (checked in `New`) are left out.
-/

namespace Verif.Saml

abbrev Str := List Char

/-- `samlState`, saml.go:78-82. -/
structure Pending where
  created : Nat
  url : Str
  host : Str
  deriving DecidableEq, Repr

/-- What is read from the validated element `v`, saml.go:188, 208-255; a time is `none` when it
does not parse. -/
structure Assertion where
  inResponseTo : Option Nat
  recipient : Str
  audience : Str
  notBefore : Option Nat
  notOnOrAfter : Option Nat
  nameID : Str
  deriving DecidableEq, Repr

/-- `ACSURL` and the host in it, without the port (saml.go:212-221). -/
structure Config where
  acsURL : Str
  host : Str

def Config.self (c : Config) : Str := "https://".toList ++ c.host ++ "/".toList

inductive Event where
  | requested (id : Nat) (browser : Nat) (url host : Str) (t : Nat)
  | login (id : Nat) (browser : Nat) (sub host url : Str) (doc : Nat) (t : Nat)
  deriving DecidableEq, Repr

structure State where
  states : List (Nat × Pending)
  log : List Event

def init : State := ⟨[], []⟩

/-- `p.states[id]`. -/
def lookup (l : List (Nat × Pending)) (id : Nat) : Option Pending := l.lookup id

def del (l : List (Nat × Pending)) (id : Nat) : List (Nat × Pending) := l.filter fun p => p.1 ≠ id

/-- Removal of old states, saml.go:191-195. -/
def vacuum (t : Nat) (l : List (Nat × Pending)) : List (Nat × Pending) :=
  l.filter fun p => ¬ (p.2.created + 300 < t)

inductive Op where
  /-- `RequestLogin` from a browser. -/
  | request (browser id : Nat) (t : Nat) (url host : Str)
  /-- `HandleCallback` from a browser: `t` at the critical section, `now` at the time checks. -/
  | callback (browser doc : Nat) (post : Bool) (t now : Nat)

/-- The checks after the critical section, saml.go:208-239. -/
def accept (cfg : Config) (a : Assertion) (now : Nat) : Bool :=
  if a.recipient ≠ cfg.acsURL then false
  else if a.audience ≠ cfg.self then false
  else
    match a.notBefore with
    | none => false
    | some t =>
      if now < t then false
      else
        match a.notOnOrAfter with
        | none => false
        | some t' => if t' < now then false else !a.nameID.isEmpty

def step (cfg : Config) (validate : Nat → Option Assertion) (s : State) : Op → State
  | .request b id t url host =>
    { states := (id, ⟨t, url, host⟩) :: del s.states id
      log := .requested id b url host t :: s.log }
  | .callback b doc post t now =>
    if !post then s
    else
      match validate doc with
      | none => s
      | some a =>
        let st := vacuum t s.states
        match a.inResponseTo with
        | none => { s with states := st }
        | some id =>
          match lookup st id with
          | none => { s with states := st }
          | some p =>
            let st' := del st id
            if accept cfg a now then
              { states := st', log := .login id b a.nameID p.host p.url doc now :: s.log }
            else { s with states := st' }

def run (cfg : Config) (validate : Nat → Option Assertion) : List Op → State → State
  | [], s => s
  | o :: os, s => run cfg validate os (step cfg validate s o)

/-! ## Certificates of the identity provider -/

/-- A PEM block. -/
structure Block where
  isCert : Bool
  bytes : Nat
  deriving DecidableEq, Repr

inductive CertsRes where
  | ok (certs : List Nat)
  | err
  | panic
  deriving DecidableEq, Repr

/-- `readCerts`, saml.go:263-286. `decode` is `pem.Decode` (nil block: `none`), `parse` is
`x509.ParseCertificate`. The fuel is the length of the input; `pem.Decode` always consumes. -/
def readCerts (decode : Str → Option (Block × Str)) (parse : Nat → Option Nat) :
    Nat → Str → List Nat → CertsRes
  | _, [], acc => .ok acc.reverse
  | 0, _ :: _, _ => .err
  | n + 1, b, acc =>
    match decode b with
    | none => .panic -- block is nil, block.Type
    | some (blk, rest) =>
      if blk.isCert then
        match parse blk.bytes with
        | none => .err
        | some c => readCerts decode parse n rest (c :: acc)
      else readCerts decode parse n rest acc

end Verif.Saml
