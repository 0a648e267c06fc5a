import Verif.Model.Certs
import Verif.Model.Dispatch
/-
Model of the names for which the certificate manager (autocert, proxy/proxy.go:204-214, without HostPolicy) is asked for
a certificate: in handshakes with clients (`baseTLSConfig`, proxy.go:1032-1079, after the lookups of
proxy.go:1163-1230 and quic.go:74-84) and for requests for client certificates by servers (`getClientCert`,
proxy.go:641-659), while the configuration is reloaded.

A handshake on the ACME protocol (proxy.go:1195-1199) only looks up a certificate that autocert made for the
validation before; it is not an event here.
-/
namespace Verif.Acme

open Verif.Dispatch (IP Cidr)

/-- What a configuration says about certificates: the backends, their IP rules, `tlsCertificates` (config.go:203-214),
and `acceptTOS`. -/
structure Conf where
  cfg : Config.Config
  rules : Nat → Option (List Cidr) × Option (List Cidr) := fun _ => (none, none)
  entries : List Certs.Entry := []
  acceptTOS : Bool := true

/-- A connection on its way: what its ClientHello says, the configuration that was in force when its backend was
looked up, that backend, the server name (`serverNameKey`, proxy.go:1173, quic.go:144), and whether its handshake
took place. -/
structure Conn where
  sni : String
  protos : List String
  addr : Option IP
  quic : Bool
  conf : Conf
  backend : Nat
  serverName : String
  shaken : Bool := false

/-- The certificate manager is asked for a certificate: the name, the connection, the configuration in force now, and
whether it is a client certificate. -/
structure Asked where
  name : String
  conn : Conn
  now : Conf
  client : Bool

structure St where
  conf : Conf
  conns : List Conn := []
  asked : List Asked := []

inductive Op where
  /-- a new configuration is in force -/
  | reload (c : Conf)
  /-- a ClientHello arrives over TCP -/
  | tcp (sni : String) (protos : List String) (addr : Option IP)
  /-- a ClientHello arrives over QUIC -/
  | quic (sni : String) (protos : List String) (addr : Option IP)
  /-- connection `i` gets to the certificate in its handshake -/
  | shake (i : Nat)
  /-- a server to which connection `i` is relayed asks the proxy for a certificate -/
  | request (i : Nat)

/-- The name that a ClientHello without server name gets (proxy.go:1168-1172, 1036-1038). -/
def Conf.nameOf (c : Conf) (sni : String) : String := if sni = "" then c.cfg.defaultServerName else sni

/-- proxy.go:1161-1230, from the ClientHello to the handshake: the backend whose TLS configuration is used. -/
def acceptTCP (c : Conf) (sni : String) (protos : List String) (addr : Option IP) : Option Nat :=
  match Config.route (Config.tableOf c.cfg.backends) (fun _ => false) (c.nameOf sni) protos with
  | .to b =>
    match c.cfg.backends[b]? with
    | none => none
    | some be =>
      if be.mode = "TLSPASSTHROUGH" then none
      else if protos = ["acme-tls/1"] ∧ sni ≠ "" then none
      else if ¬ Dispatch.checkIP (c.rules b).1 (c.rules b).2 addr then none
      else some b
  | _ => none

/-- quic.go:74-84 `GetConfigForClient`. -/
def acceptQUIC (c : Conf) (sni : String) : List String → Option Nat
  | [] => none
  | p :: ps =>
    match Config.tableOf c.cfg.backends sni p with
    | none => acceptQUIC c sni ps
    | some b =>
      match c.cfg.backends[b]? with
      | none => acceptQUIC c sni ps
      | some be => if be.mode ≠ "TLSPASSTHROUGH" then some b else acceptQUIC c sni ps

/-- proxy.go:1032-1079 in the handshake of a connection. -/
def certName (now : Conf) (sni : String) : Option String :=
  match Certs.getCertificate now.entries now.cfg.defaultServerName.toList now.acceptTOS true sni.toList with
  | .managed n => some (String.ofList n)
  | _ => none

/-- The handshake of a connection; a failed one ends it, which is not modelled (it is not used any more). -/
def St.shake (s : St) (i : Nat) (c : Conn) : St :=
  { s with
    conns := s.conns.set i { c with shaken := true }
    asked := match certName s.conf c.sni with
      | some n => s.asked ++ [⟨n, c, s.conf, false⟩]
      | none => s.asked }

/-- proxy.go:641-659 `getClientCert`. -/
def St.request (s : St) (c : Conn) : St :=
  { s with asked := s.asked ++ [⟨c.serverName, c, s.conf, true⟩] }

def St.onConn (s : St) (c : Conn) (i : Nat) : Op → St
  | .shake _ => if c.shaken then s else s.shake i c
  | .request _ => if c.shaken then s.request c else s
  | _ => s

def step (s : St) : Op → St
  | .reload c => { s with conf := c }
  | .tcp sni protos addr =>
    match acceptTCP s.conf sni protos addr with
    | none => s
    | some b =>
      { s with conns := s.conns ++ [⟨sni, protos, addr, false, s.conf, b, s.conf.nameOf sni, false⟩] }
  | .quic sni protos addr =>
    match acceptQUIC s.conf sni protos with
    | none => s
    | some b => { s with conns := s.conns ++ [⟨sni, protos, addr, true, s.conf, b, sni, false⟩] }
  | .shake i =>
    match s.conns[i]? with
    | none => s
    | some c => s.onConn c i (.shake i)
  | .request i =>
    match s.conns[i]? with
    | none => s
    | some c => s.onConn c i (.request i)

def run (c : Conf) (ops : List Op) : St := ops.foldl step { conf := c }

end Verif.Acme
