import Verif.Model.Dispatch
/-
Model of `Proxy.Reconfigure` (proxy/proxy.go:281-863) as a sequence of fallible steps with
their effects, and of `Proxy.reAuthorize` (proxy.go:865-901).
-/
namespace Verif.Reconf

open Verif.Config (Config BWLimit Backend Table tableOf check bad Route)
open Verif.Dispatch (World Cert IP checkIP authorize)

/-! ## Bandwidth limiters (proxy.go:414-428) -/

/-- `rate.Limiter`: the configured rate and burst. Token bookkeeping is not modelled. -/
structure Limiter where
  limit : Nat
  burst : Nat
deriving DecidableEq, Repr

/-- proxy.go:415, 418-421, 425-426: the burst is at least 128 KiB. -/
def mkLimiter (v : Nat) : Limiter := ⟨v, max v 131072⟩

/-- `Proxy.bwLimits`: name to (ingress, egress). The limiters are shared by pointer: a backend
stores the key under which it found its limiters, so a later `SetLimit` is seen by it. -/
abbrev BwMap := String → Option (Limiter × Limiter)

def BwMap.set (m : BwMap) (n : String) (v : Limiter × Limiter) : BwMap :=
  fun n' => if n' = n then some v else m n'

/-- proxy.go:414-428. Updating in place and creating have the same effect on the map. -/
def setLimits (lower : String → String) : List BWLimit → BwMap → BwMap
  | [], m => m
  | l :: ls, m =>
    setLimits lower ls (m.set (lower l.name) (mkLimiter l.ingress, mkLimiter l.egress))

/-! ## Reconfigure -/

/-- The outside world as seen by `Reconfigure`: results of the constructors it calls. -/
structure Ext where
  env : Verif.Config.Env
  oidcOK : Verif.Config.OIDC → Bool := fun _ => true
  samlOK : Verif.Config.SAML → Bool := fun _ => true
  passkeyOK : Verif.Config.Passkey → Bool := fun _ => true
  pkiOK : Verif.Config.PKI → Bool := fun _ => true
  /-- `PKIManager.CACert` of the named authority succeeds -/
  caCertOK : String → Bool := fun _ => true
  /-- `loadCerts` succeeds -/
  loadOK : String → Bool := fun _ => true
  /-- `sshca.New` succeeds -/
  sshOK : Verif.Config.SSHCA → Bool := fun _ => true

/-- The fields of `Proxy` that decide what connections experience. `limitKey i` is the key
under which backend `i` found its limiters; `retired` lists the configurations whose backends
were told to close; `reauths` counts the `reAuthorize` goroutines started.
Not modelled: log lines, events, internal HTTP servers started for a configuration that is
then rejected (nothing is ever sent to them), and files created by `pki.New`/`sshca.New`. -/
structure Proxy where
  cfg : Option Config := none
  table : Table := fun _ _ => none
  defServerName : String := ""
  pkis : List String := []
  bw : BwMap := fun _ => none
  limitKey : Nat → Option String := fun _ => none
  retired : List Config := []
  reauths : Nat := 0

/-- The limiters of backend number `i` of the running configuration
(proxy.go:450-452 and backend.go, `SetLimiters`). -/
def Proxy.limitsOf (p : Proxy) (i : Nat) : Option (Limiter × Limiter) :=
  match p.limitKey i with
  | none => none
  | some k => p.bw k

/-- proxy.go:360-390: a passkey provider delegates to one registered before it; `seen` are
the providers registered so far. -/
def passkeyLoop (x : Ext) : List String → List Verif.Config.Passkey → Option String
  | _, [] => none
  | seen, pp :: t =>
    (bad (pp.identityProvider ∉ seen) "invalid identityProvider").or <|
    (bad (x.passkeyOK pp = false) "passkeys.NewManager").or <|
    passkeyLoop x (seen ++ [pp.name]) t

/-- proxy.go:309-412: identity providers and certificate authorities. -/
def providers (x : Ext) (cfg : Config) : Option String :=
  (cfg.oidc.findSome? fun o => bad (x.oidcOK o = false) "oidc.New").or <|
  (cfg.saml.findSome? fun s => bad (x.samlOK s = false) "saml.New").or <|
  (passkeyLoop x (cfg.oidc.map (·.name) ++ cfg.saml.map (·.name)) cfg.passkeys).or <|
  cfg.pki.findSome? fun q => bad (x.pkiOK q = false) "pki.New"

/-- proxy.go:570-586, 661-677, 678-696. -/
def rootCAs (x : Ext) (cfg : Config) (cas : List String) : Option String :=
  cas.findSome? fun n =>
    if n ∈ cfg.pki.map (·.name) then bad (x.caCertOK n = false) "CACert"
    else bad (x.loadOK n = false) "loadCerts"

/-- The keys of `identityProviders` (proxy.go:309-390). -/
def _root_.Verif.Config.Config.providerNames (cfg : Config) : List String :=
  cfg.oidc.map (·.name) ++ cfg.saml.map (·.name) ++ cfg.passkeys.map (·.name)

/-- proxy.go:431-734, the error returns of the loop over backends. -/
def buildBackend (x : Ext) (cfg : Config) (be : Backend) : Option String :=
  (match be.sso with
    | none => none
    | some s => bad (s.provider ∉ cfg.providerNames) "unknown identity provider").or <|
  (match be.clientAuth with
    | none => none
    | some ca => rootCAs x cfg ca.rootCAs).or <|
  (rootCAs x cfg be.forwardRootCAs).or <|
  be.pathOverrides.findSome? fun (po : Verif.Config.PathOverride) => rootCAs x cfg po.forwardRootCAs

/-- proxy.go:450-452: the key is looked up as written in the configuration. -/
def limitKeys (m : BwMap) (bs : List Backend) (i : Nat) : Option String :=
  match bs[i]? with
  | none => none
  | some be => if (m be.bwLimit).isSome then some be.bwLimit else none

/-- proxy.go:281-863 `Reconfigure`. `some e` is the returned error; the second component is
the proxy afterwards, also when an error is returned. -/
def reconfigure (x : Ext) (raw : Config) (p : Proxy) : Option String × Proxy :=
  if p.cfg = some raw then (none, p)
  else match check x.env raw with
    | .error e => (some e, p)
    | .ok cfg =>
      match providers x cfg with
      | some e => (some e, p)
      | none =>
        let bw := setLimits x.env.toLower cfg.bwLimits p.bw
        match cfg.backends.findSome? (buildBackend x cfg) with
        | some e => (some e, { p with bw := bw })
        | none =>
          match cfg.ssh.findSome? fun s => bad (x.sshOK s = false) "sshca.New" with
          | some e => (some e, { p with bw := bw })
          | none =>
            (none, {
              cfg := some cfg
              table := tableOf cfg.backends
              defServerName := cfg.defaultServerName
              pkis := cfg.pki.map (·.name)
              bw := bw
              limitKey := limitKeys bw cfg.backends
              retired := p.retired ++ p.cfg.toList
              reauths := p.reauths + 1 })

/-- A history of reconfigurations, each with the state of the outside world at that time. -/
def history : List (Ext × Config) → Proxy → Proxy
  | [], p => p
  | (x, raw) :: t, p => history t (reconfigure x raw p).2

/-! ## reAuthorize (proxy.go:865-901) -/

/-- What is recorded on an open inbound connection: the server name once known, the negotiated
protocol ("" when not recorded), the mode of its backend once recorded, the remote address and
the client certificate. -/
structure Open where
  serverName : Option String
  proto : String := ""
  oldMode : Option String := none
  addr : Option IP := none
  cert : Option Cert := none
deriving Repr

inductive Fate where
  | keep
  | close
  /-- a nil pointer is dereferenced; `reAuthorize` runs in its own goroutine without
  `recover`, so the process ends -/
  | crash
deriving DecidableEq, Repr

/-- proxy.go:866-899, one iteration. -/
def reauth1 (w : World) (c : Open) : Fate :=
  match c.serverName with
  | none => .keep
  | some sn =>
    match w.route sn [c.proto] with
    | .to b =>
      let be := w.be b
      match c.oldMode with
      | none => .crash  -- oldBE is nil, 879 reads oldBE.Mode
      | some m =>
        if be.mode ≠ m then .close
        else if ¬ checkIP be.denyIPs be.allowIPs c.addr then .close
        else match be.clientAuth with
          | none => .keep
          | some none => .keep  -- backend.go:219: nil ACL
          | some (some acl) =>
            match c.cert with
            | none => .crash  -- backend.go:222 reads cert.Subject
            | some crt => if authorize (some acl) crt then .keep else .close
    | _ => .crash  -- be is nil, 875 calls be.logErrorF, which reads be.LogFilter (logging.go:74)

/-- proxy.go:865-901: the fates of the connections in order, up to and including the first
crash. -/
def reAuthorize (w : World) : List Open → List Fate
  | [] => []
  | c :: cs =>
    match reauth1 w c with
    | .crash => [.crash]
    | f => f :: reAuthorize w cs

end Verif.Reconf
