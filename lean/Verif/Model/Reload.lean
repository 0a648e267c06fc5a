import Verif.Model.Reconf
/-
Model of what is recorded on a TCP connection while it is handled (proxy/proxy.go:1119-1287), which is what
`reAuthorize` sees when a new configuration is taken over.
-/
namespace Verif.Reload

open Verif.Dispatch (World Be Conn Cert checkIP handshake authorizeTLS)
open Verif.Reconf (Open)

/-- How far the handling of a connection is. -/
inductive Phase where
  /-- counted, the ClientHello is not read yet (proxy.go:1140-1166) -/
  | accepted
  /-- the server name is recorded (proxy.go:1173) -/
  | named
  /-- the backend is recorded (proxy.go:1182); TLS handshake, or connected to a passthrough backend -/
  | routed
  /-- handshake done, protocol and certificate recorded (proxy.go:1275-1276), authorized -/
  | served
deriving DecidableEq, Repr

/-- proxy.go:1193-1211, 1243-1287: a connection whose TLS ends here, after the handshake. -/
def afterHandshake (w : World) (c : Conn) (n sni : String) (protos : List String) (b : Nat) : Option Open :=
  if (w.be b).mode = "TLSPASSTHROUGH" then none
  else if protos = ["acme-tls/1"] ∧ sni ≠ "" then none
  else if ¬ checkIP (w.be b).denyIPs (w.be b).allowIPs c.addr then none
  else
    match handshake w (w.be b) (w.be b).nextProtosTCP false c.client, authorizeTLS w b n c.client with
    | some (proto, cert), some _ =>
      some { serverName := some n, proto := proto, oldMode := some (w.be b).mode, addr := c.addr, cert := cert }
    | _, _ => none

/-- What is recorded once the backend is known. -/
def afterRouting (w : World) (c : Conn) (n sni : String) (protos : List String) (b : Nat) : Phase → Option Open
  | .served => afterHandshake w c n sni protos b
  | _ => some { serverName := some n, oldMode := some (w.be b).mode, addr := c.addr }

/-- What is recorded once the name is known. -/
def afterHello (w : World) (c : Conn) (n sni : String) (protos : List String) : Phase → Option Open
  | .named => some { serverName := some n, addr := c.addr }
  | ph =>
    match w.route n protos with
    | .to b => afterRouting w c n sni protos b ph
    | _ => none

/-- The annotations of the connection in the given phase; `none` if it does not get there. -/
def recorded (w : World) (c : Conn) : Phase → Option Open
  | .accepted => some { serverName := none, addr := c.addr }
  | ph =>
    if (c.numOpen : Int) ≥ w.maxOpen then none
    else
      match c.hello with
      | none => none
      | some (sni, protos) => afterHello w c (if sni = "" then w.defaultServerName else sni) sni protos ph

end Verif.Reload
