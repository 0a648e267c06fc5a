import Verif.Model.Dispatch
import Verif.Model.Hello
/-
Model of the way of a TCP connection from its first bytes to its backend: `acceptProxyHeader`
(proxy/proxy.go:1105-1117), the PROXY protocol wrapper (proxy.go:1136-1139), `peekClientHello` and
`handleConnection` put together.
-/
namespace Verif.Front

open Verif.Dispatch (IP Cidr World Client Event)
open Verif.Hello (Bytes)

/-- What go-proxyproto finds at the beginning of a connection (the library is a parameter of the model):
no header, a header without addresses (LOCAL), a header with the address of the client (`none` if it is
not an IP address), or something broken. -/
inductive Pre where
  | plain
  | noAddress (rest : Bytes)
  | proxy (src : Option IP) (rest : Bytes)
  | bad
deriving DecidableEq, Repr

/-- proxy.go:1105-1117 `acceptProxyHeader`; `peer` is `none` for an address that is not a TCP one. -/
def acceptProxyHeader (nets : List Cidr) (peer : Option IP) : Bool :=
  match peer with
  | none => false
  | some ip => nets.any (·.contains ip)

/-- proxy.go:1136-1139 with `proxyproto.Conn`: the address that `RemoteAddr` returns, and the bytes that
`Read` returns (`none` if it returns an error). -/
def unwrap (read : Bytes → Pre) (nets : List Cidr) (peer : Option IP) (bytes : Bytes) : Option IP × Option Bytes :=
  if acceptProxyHeader nets peer then
    match read bytes with
    | .plain => (peer, some bytes)
    | .noAddress rest => (peer, some rest)
    | .proxy src rest => (src, some rest)
    | .bad => (peer, none)
  else (peer, some bytes)

/-- Go strings are byte strings. -/
def name (b : Bytes) : String := String.ofList (b.map fun x => Char.ofNat x.toNat)

/-- proxy.go:1161-1166: what is known of the client after `peekClientHello`. A panic is recovered
(proxy.go:1121-1127) and closes the connection like an error. -/
def hello (bytes : Option Bytes) : Option (String × List String) :=
  match bytes with
  | none => none
  | some b =>
    match (Hello.peekClientHello b).res with
    | .ok h => some (name h.serverName, h.alpnProtos.map name)
    | _ => none

/-- A TCP connection as it arrives: the address of the peer, everything it sends, and the rest as in
`Dispatch.Conn`. -/
structure Arrival where
  peer : Option IP
  bytes : Bytes
  numOpen : Nat
  client : Client
  waitOK : Bool := true
  chanOK : Bool := true
  dialOK : Bool := true

/-- proxy.go:1119-1216 `handleConnection`, from the first byte. -/
def handle (read : Bytes → Pre) (nets : List Cidr) (w : World) (a : Arrival) : List Event :=
  let u := unwrap read nets a.peer a.bytes
  Dispatch.handleConnection w
    { numOpen := a.numOpen, hello := hello u.2, addr := u.1, client := a.client, waitOK := a.waitOK,
      chanOK := a.chanOK, dialOK := a.dialOK }

end Verif.Front
