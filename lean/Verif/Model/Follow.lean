/-!
# Following the configuration file

Model of `configLoop` (main.go:129-145), of `ReadConfig` (proxy/config.go:1191-1208), of the first lines of
`Reconfigure` (proxy/proxy.go:281-295), and of the certificates that a configuration names: `loadCerts`
(proxy/proxy.go:1502-1516, called at config.go:1046, 1094, 1158 and proxy.go:583, 674, 692) and `readCerts`
of SAML providers (internal/saml/saml.go:263-283, called at saml.go:85).

Simplifications: a configuration is a number for all that is not a certificate, and the list of its entries for
certificates; YAML and `Check` are parameters, and so is which texts are certificates. What `Reconfigure`
does with the rest of a configuration is in `Verif.Model.Reconf` and `Verif.Model.Restart`. Times are seconds.
-/

namespace Verif.Follow

abbrev Str := List Char

/-- The files at one moment. -/
abbrev Files := Str → Option Str

structure Cfg where
  other : Nat
  /-- the entries of `rootCAs` of `clientAuth`, of `forwardRootCAs`, and `certs` of SAML providers -/
  cas : List Str
deriving DecidableEq, Repr

/-- What does not change while the proxy runs. -/
structure Env where
  /-- the name of the configuration file -/
  file : Str
  /-- YAML, and the other checks of `Check` -/
  parse : Str → Option Cfg
  /-- the text contains certificates, and nothing that is none -/
  pem : Str → Bool

/-- proxy.go:1503-1511, saml.go:264-272: the name of a file, or the certificates themselves. -/
def content (fs : Files) : Str → Option Str
  | '/' :: s => fs ('/' :: s)
  | s => some s

/-- proxy.go:1502-1516. -/
def load (e : Env) (fs : Files) (s : Str) : Option Str :=
  match content fs s with
  | none => none
  | some b => if e.pem b then some b else none

/-- All of a configuration: the certificates, or an error. -/
def loadAll (e : Env) (fs : Files) : List Str → Option (List Str)
  | [] => some []
  | s :: t =>
    match load e fs s with
    | none => none
    | some b => (loadAll e fs t).map (b :: ·)

/-- `ReadConfig`; `Check` loads the certificates, and forgets them. -/
def readConfig (e : Env) (fs : Files) : Option Cfg :=
  match fs e.file with
  | none => none
  | some text =>
    match e.parse text with
    | none => none
    | some c => if (loadAll e fs c.cas).isSome then some c else none

/-- The configuration in force, and the certificates that it trusts. -/
structure Running where
  cfg : Cfg
  trusted : List Str
deriving DecidableEq, Repr

/-- `Reconfigure`: nothing happens if the configuration is the same (proxy.go:285-287). -/
def reconfigure (e : Env) (fs : Files) (c : Cfg) (r : Running) : Running :=
  if c = r.cfg then r
  else match loadAll e fs c.cas with
    | none => r
    | some b => ⟨c, b⟩

/-- One round of the loop, main.go:135-143: the file is read at `read`, and `Reconfigure` loads the certificates
at `take`. -/
structure Round where
  read : Nat
  take : Nat
deriving DecidableEq, Repr

def round (e : Env) (w : Nat → Files) (r : Running) (t : Round) : Running :=
  match readConfig e (w t.read) with
  | none => r
  | some c => reconfigure e (w t.take) c r

/-- `configLoop`. -/
def loop (e : Env) (w : Nat → Files) (r : Running) (ts : List Round) : Running := ts.foldl (round e w) r

/-- `New` and `Start`, main.go:73-101. -/
def start (e : Env) (w : Nat → Files) (t : Round) : Option Running :=
  match readConfig e (w t.read) with
  | none => none
  | some c => (loadAll e (w t.take) c.cas).map (Running.mk c)

end Verif.Follow
