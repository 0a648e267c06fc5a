/-!
# Cookies of the proxy in a browser

Model of the cookies written and deleted by `proxy/internal/cookiemanager/cookiemanager.go`
(`SetAuthTokenCookie` 94-105, `SetIDTokenCookie` 132-142, `SetNonce` 145-155, `Nonce` 157-170,
`ClearCookies` 172-191) and `proxy/internal/tokenmanager/urltoken.go` (52-60), of the browser that
stores them, and of the choice made by `ValidateAuthTokenCookie` 193-209.

The browser is the one of RFC 6265 (sections 5.1.3, 5.3, 5.4): all cookies here have path "/", so the
path is left out; a cookie is identified by its name, its domain and whether it is for one host only.
The domains of providers are taken not to be public suffixes. Expired cookies are never sent; when the
browser evicts them does not matter. A stored token is what the proxy put in (`Verif.Model.Token` is
about its contents).
-/

namespace Verif.Cookies

abbrev Str := List Char

/-- Values: a login token made by a provider, or another value. -/
inductive Val where
  | login (provider issuer : Str) (exp : Nat) (id : Nat)
  | text (id : Nat)
  deriving DecidableEq, Repr

/-- A `Set-Cookie` header. -/
structure SetCookie where
  name : String
  /-- empty when there is none -/
  domain : Str
  value : Val
  /-- `none` is a session cookie -/
  expires : Option Nat
  /-- `MaxAge: -1` -/
  delete : Bool
  deriving DecidableEq, Repr

/-- A stored cookie. -/
structure Cookie where
  name : String
  domain : Str
  hostOnly : Bool
  value : Val
  expires : Option Nat
  deriving DecidableEq, Repr

/-- RFC 6265, 5.1.3. -/
def domainMatch (host domain : Str) : Bool :=
  host == domain || ('.' :: domain).isSuffixOf host

/-- RFC 6265, 5.3: the domain and the host-only flag of a cookie set by `host`, `none` when the
browser ignores it. -/
def place (host : Str) (sc : SetCookie) : Option (Str × Bool) :=
  if sc.domain = [] then some (host, true)
  else if domainMatch host sc.domain then some (sc.domain, false)
  else none

/-- Replace in place, or else append. -/
def put (c : Cookie) : List Cookie → List Cookie
  | [] => [c]
  | x :: xs =>
    if x.name = c.name ∧ x.domain = c.domain ∧ x.hostOnly = c.hostOnly then c :: xs
    else x :: put c xs

/-- RFC 6265, 5.3. The list is in order of creation; a cookie that is replaced keeps its place. -/
def store (jar : List Cookie) (host : Str) (sc : SetCookie) : List Cookie :=
  match place host sc with
  | none => jar
  | some (d, ho) =>
    if sc.delete then
      jar.filter fun x => !(x.name = sc.name && x.domain = d && x.hostOnly = ho)
    else put ⟨sc.name, d, ho, sc.value, sc.expires⟩ jar

/-- RFC 6265, 5.4: the cookies in a request to `host`, in this order. -/
def send (jar : List Cookie) (host : Str) (now : Nat) : List Cookie :=
  jar.filter fun c =>
    (if c.hostOnly then host == c.domain else domainMatch host c.domain) &&
      match c.expires with
      | none => true
      | some e => decide (now < e)

/-- `CookieManager`, cookiemanager.go:47-52. -/
structure Cm where
  provider : Str
  issuer : Str
  domain : Str
  deriving DecidableEq, Repr

/-- cookiemanager.go:70-105. The token is good for 20 hours, the cookie for 24. -/
def authCookie (cm : Cm) (now id : Nat) : SetCookie :=
  ⟨"TLSPROXYAUTH", cm.domain, .login cm.provider cm.issuer (now + 20 * 3600) id,
    some (now + 24 * 3600), false⟩

/-- cookiemanager.go:132-142. -/
def idCookie (now id : Nat) : SetCookie :=
  ⟨"TLSPROXYIDTOKEN", [], .text id, some (now + 24 * 3600), false⟩

/-- `SetNonce`, cookiemanager.go:145-155. -/
def nonceCookie (cm : Cm) (id : Nat) : SetCookie :=
  ⟨"TLSPROXYNONCE", cm.domain, .text id, none, false⟩

/-- `Nonce`, cookiemanager.go:157-166. -/
def takeNonce (cm : Cm) : SetCookie := ⟨"TLSPROXYNONCE", cm.domain, .text 0, none, true⟩

/-- `sessionID`, urltoken.go:52-60. -/
def sidCookie (now id : Nat) : SetCookie :=
  ⟨"TLSPROXYSID", [], .text id, some (now + 30 * 24 * 3600), false⟩

/-- `ClearCookies`, cookiemanager.go:172-191. -/
def clear (cm : Cm) : List SetCookie :=
  [⟨"TLSPROXYAUTH", cm.domain, .text 0, none, true⟩, ⟨"TLSPROXYIDTOKEN", [], .text 0, none, true⟩]

/-- What one answer of the proxy does to the cookies. -/
inductive Act where
  /-- a login completed on `host`: saml.go, oidc/client.go, passkeys/manager.go:746-776 -/
  | login (cm : Cm) (now id : Nat)
  /-- backend-sso.go:129-143 -/
  | idToken (now id : Nat)
  | setNonce (cm : Cm) (id : Nat)
  | takeNonce (cm : Cm)
  | session (now id : Nat)
  /-- `serveLogout`, backend-sso.go:222-225; also mode "Switch", manager.go:483 -/
  | logout (cm : Cm)
  deriving DecidableEq, Repr

def Act.cookies : Act → List SetCookie
  | .login cm now id => [authCookie cm now id]
  | .idToken now id => [idCookie now id]
  | .setNonce cm id => [nonceCookie cm id]
  | .takeNonce cm => [Verif.Cookies.takeNonce cm]
  | .session now id => [sidCookie now id]
  | .logout cm => clear cm

/-- A response from a host. -/
structure Step where
  host : Str
  act : Act
  deriving DecidableEq, Repr

/-- The browser after a history, newest first. -/
def jar : List Step → List Cookie
  | [] => []
  | s :: h => s.act.cookies.foldl (fun j sc => store j s.host sc) (jar h)

/-- `req.Cookie`: the first with the name. -/
def cookie (cs : List Cookie) (name : String) : Option Val :=
  (cs.find? fun c => c.name = name).map (·.value)

/-- `ValidateAuthTokenCookie`, cookiemanager.go:193-209: the login that a request to `host`
shows to a backend with this provider. -/
def loggedIn (cm : Cm) (j : List Cookie) (host : Str) (now : Nat) : Option Nat :=
  match cookie (send j host now) "TLSPROXYAUTH" with
  | some (.login p i e id) =>
    if now < e ∧ i = cm.issuer ∧ p = cm.provider then some id else none
  | _ => none

end Verif.Cookies
