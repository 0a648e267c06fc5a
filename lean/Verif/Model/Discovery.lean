import Verif.Model.Endpoints
/-
Model of the discovery document of the local OpenID Connect server, `ProviderServer.ServeConfig`
(proxy/internal/oidc/server.go:162-223), of the issuer name it is given (proxy/proxy.go:508-511), and of
the `Alt-Svc` header (`setAltSvc`, proxy/backend-http.go:397-414). The lists of supported features, the
JSON encoding and the HTTP headers are left out.
-/
namespace Verif.Discovery

open Verif.Path (Str)

/-- The text before and after the last colon. -/
def cutLastColon (s : Str) : Option (Str × Str) :=
  if ':' ∈ s then
    some ((s.reverse.dropWhile (· ≠ ':')).tail.reverse, (s.reverse.takeWhile (· ≠ ':')).reverse)
  else none

/-- The part of `SplitHostPort` for addresses that start with '[': the first ']' must be followed by the
last ':'. -/
def splitBracket (rest before port : Str) : Option (Str × Str) :=
  let host := rest.takeWhile (· ≠ ']')
  if before ≠ '[' :: host ++ [']'] then none
  else if '[' ∈ rest ∨ ']' ∈ port then none
  else some (host, port)

/-- Go net `SplitHostPort` (server.go:164, backend-http.go:407): host and port, `none` on error. -/
def splitHostPort (s : Str) : Option (Str × Str) :=
  match cutLastColon s with
  | none => none
  | some (before, port) =>
    match s with
    | '[' :: rest => splitBracket rest before port
    | _ => if ':' ∈ before then none else if '[' ∈ s ∨ ']' ∈ s then none else some (before, port)

/-- The URLs of the document. -/
structure Doc where
  issuer : Str
  authorization : Str
  token : Str
  userinfo : Str
  jwks : Str
deriving DecidableEq, Repr

/-- proxy.go:511: the issuer of a backend with these server names. -/
def issuer (serverNames : List String) (pre : Str) : Str :=
  "https://".toList ++ (serverNames.headD "").toList ++ pre

/-- server.go:163-166. -/
def hostPart (host : Str) : Str :=
  match splitHostPort host with
  | some (h, _) => h
  | none => host

/-- server.go:162-172 `ServeConfig` for a request with this Host header. -/
def serveConfig (iss pre host : Str) : Doc :=
  let h := hostPart host
  { issuer := iss
    authorization := "https://".toList ++ h ++ pre ++ "/authorization".toList
    token := "https://".toList ++ h ++ pre ++ "/token".toList
    userinfo := "https://".toList ++ h ++ pre ++ "/userinfo".toList
    jwks := "https://".toList ++ h ++ pre ++ "/jwks".toList }

/-! ## Alt-Svc -/

/-- Go strconv `Atoi` up to 18 digits (longer numbers, here unbounded, are out of range in the only use
anyway): an optional sign and decimal digits. `none` is an error or a negative number. -/
def digits : Str → Option Nat
  | [] => none
  | l => if l.all Char.isDigit then some (l.foldl (fun n c => 10 * n + (c.toNat - 48)) 0) else none

def atoi : Str → Option Nat
  | '+' :: t => digits t
  | '-' :: t => (digits t).bind fun n => if n = 0 then some 0 else none
  | t => digits t

/-- What `setAltSvc` looks at: whether the backend has an HTTP/3 server, its protocols, the protocol of
the connection (if it uses TLS), and the Host header. -/
structure AltReq where
  http3Server : Bool
  alpn : Option (List String)
  negotiated : Option String
  host : Str

/-- backend-http.go:407-410: the port, in text. -/
def portText (host : Str) : Str :=
  match splitHostPort host with
  | some (_, p) => if p = [] then "443".toList else p
  | none => "443".toList

/-- backend-http.go:397-414 `setAltSvc`: the value of the header, if it is set. -/
def altSvc (r : AltReq) : Option Str :=
  if !r.http3Server then none
  else if r.negotiated = some "h3" then none
  else if !((r.alpn.getD []).contains "h3") then none
  else
    match atoi (portText r.host) with
    | some n =>
      if 0 < n ∧ n < 65536 then some ("h3=\":".toList ++ (toString n).toList ++ "\"; ma=2592000;".toList)
      else none
    | none => none

/-- backend-http.go:540-542: the `Alt-Svc` header of a forwarded response; `old` is what the server
behind the proxy has set. -/
def altSvcResponse (r : AltReq) (status : Nat) (old : Str) : Str :=
  if 200 ≤ status ∧ status < 400 ∧ old = [] then (altSvc r).getD old else old

end Verif.Discovery
