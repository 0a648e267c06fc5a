import Verif.Model.Reconf
import Verif.Model.Discovery
/-
What is decided when the proxy starts and what when a configuration is reloaded: `New` (proxy/proxy.go:171-229),
`Start` (proxy.go:904-940), `startQUIC` (quic.go:59-99), and which of it `Reconfigure` (proxy.go:281-863) changes.

Simplifications: keys and certificates are not modelled here; addresses can always be listened on; the storage of
`CacheDir` and the TPM are left out.
-/
namespace Verif.Restart

open Verif.Config (Config Env)
open Verif.Reconf (Ext Proxy reconfigure)

/-- The fields of `Config` that only `New` and `Start` look at, after `Check` (config.go:106-149, 789-791). -/
structure Settings where
  httpAddr : String
  tlsAddr : String
  email : String
  acceptTOS : Bool
deriving DecidableEq, Repr

structure Full where
  cfg : Config
  set : Settings
deriving DecidableEq, Repr

/-- A running proxy. -/
structure Running where
  core : Proxy
  /-- where ACME's HTTP challenges are answered -/
  http : Option String
  tls : String
  /-- the address of `quicTransport`, if there is one -/
  quic : Option String
  /-- given to the certificate authority: `autocert.Manager.Email` and `Prompt` -/
  email : String
  accepts : Bool

/-- proxy.go:904-930 with `p.cfg`, and 204-215. -/
def start (x : Ext) (f : Full) : Option Running :=
  match reconfigure x f.cfg {} with
  | (some _, _) => none
  | (none, p) =>
    some {
      core := p
      http := if f.set.httpAddr = "" then none else some f.set.httpAddr
      tls := f.set.tlsAddr
      quic := if (p.cfg.bind (·.enableQUIC)) = some true then some f.set.tlsAddr else none
      email := f.set.email
      accepts := f.set.acceptTOS }

/-- proxy.go:281-863: the error, and the proxy afterwards. -/
def reload (x : Ext) (f : Full) (r : Running) : Option String × Running :=
  let (e, p) := reconfigure x f.cfg r.core
  (e, { r with core := p })

/-- One after the other, whether they are accepted or not. -/
def reloads : List (Ext × Full) → Running → Running
  | [], r => r
  | (x, f) :: t, r => reloads t (reload x f r).2

/-- quic.go:72-84 `GetConfigForClient`: the backend that answers a client that names a server and protocols. -/
def configForClient (p : Proxy) (n : String) : List String → Option Nat
  | [] => none
  | proto :: ps =>
    match p.table n proto with
    | some i =>
      if (p.cfg.bind (·.backends[i]?)).map (·.mode) ≠ some "TLSPASSTHROUGH" then some i
      else configForClient p n ps
    | none => configForClient p n ps

/-- The backend that answers over QUIC. -/
def overQUIC (r : Running) (n : String) (protos : List String) : Option Nat :=
  if r.quic.isSome then configForClient r.core n protos else none

/-- proxy.go:705-734: `http3Server` of a backend. -/
def http3Server (cfg : Config) (be : Verif.Config.Backend) : Bool :=
  be.mode ∈ ["CONSOLE", "LOCAL", "HTTP", "HTTPS"] && (cfg.enableQUIC == some true) &&
    (be.alpnProtos.getD []).contains "h3"

/-- The Alt-Svc header of backend `i` for a request (backend-http.go:397-414). -/
def altSvc (p : Proxy) (i : Nat) (negotiated : Option String) (host : Path.Str) : Option Path.Str :=
  match p.cfg with
  | none => none
  | some cfg =>
    match cfg.backends[i]? with
    | none => none
    | some be => Discovery.altSvc
        { http3Server := http3Server cfg be, alpn := be.alpnProtos, negotiated := negotiated, host := host }

end Verif.Restart
