/-!
# What the login page says

Model of the pages that ask users to log in or tell them that access is denied, as far as they say where a user is and
where they go: `URLToken` (proxy/internal/tokenmanager/urltoken.go:65-81), `enforceSSOPolicy` and
`servePermissionDenied` (proxy/backend-sso.go:239-268, 293-329), the template (proxy/login-template.html:155-184),
`guessIDP` (proxy/proxy.go:1562-1573), the places where it is used (309-360), `oidc.New` and `RequestLogin`
(internal/oidc/client.go:109-147, 181-200), and `samlAuthnRequest.URL` (internal/saml/saml.go:325-350).

`URL.String` and `URL.Hostname` are those of net/url. `idna.Lookup.ToUnicode` is a parameter. In the path and query, a
character is a byte. Re-encoding leaves the path of the SAML URL as it is. The page is HTML, whose escaping is undone by the
browser.
-/
namespace Verif.Signpost

abbrev Str := List Char

/-- The host without a port of digits. -/
def cutPort (host : Str) : Str :=
  match host.reverse.dropWhile Char.isDigit with
  | ':' :: rest => rest.reverse
  | _ => host

/-- `URL.Hostname` -/
def hostname (host : Str) : Str :=
  let h := cutPort host
  if h.head? = some '[' ∧ h.getLast? = some ']' then (h.drop 1).dropLast else h

/-- The characters that `escape` keeps with `encodeHost`. -/
def hostOK (c : Char) : Bool :=
  c.isAlphanum || "!$&'()*+,;=:[]<>\"-_.~".toList.contains c

def hexDigit (n : Nat) : Char := "0123456789ABCDEF".toList.getD n '0'

def pct (b : UInt8) : Str := ['%', hexDigit (b.toNat / 16), hexDigit (b.toNat % 16)]

/-- `escape(h, encodeHost)`, byte by byte -/
def escapeHost (h : Str) : Str :=
  h.flatMap fun c => if hostOK c then [c] else (String.utf8EncodeChar c).flatMap pct

/-- `URL.String` of a URL with scheme https; `rest` is the path and the query. -/
def urlString (host rest : Str) : Str := "https://".toList ++ escapeHost host ++ rest

/-- urltoken.go:67-71: the URL for display, which is also the link of the page (login-template.html:158). -/
def link (uni : Str → Option Str) (host rest : Str) : Str :=
  match uni (hostname host) with
  | some h => urlString h rest
  | none => urlString host rest

/-- urltoken.go:72, 77: the URL in the token, where the login comes back to. -/
def target (host rest : Str) : Str := urlString host rest

/-- backend-sso.go:324-326, 263-265 -/
def text (url : Str) : Str := if url.length > 100 then url.take 97 ++ "...".toList else url

/-! ## Providers -/

/-- proxy.go:1562-1573 -/
def guessIDP (url : Str) : Str :=
  if "https://accounts.google.com/".toList.isPrefixOf url then "google".toList
  else if "https://facebook.com/".toList.isPrefixOf url then "facebook".toList
  else if "https://github.com/".toList.isPrefixOf url then "github".toList
  else []

/-- The button of the page, login-template.html:160-183. -/
def button (idp : Str) : Str :=
  if idp = "google".toList then "Continue with Google".toList
  else if idp = "facebook".toList then "Continue with Facebook".toList
  else if idp = "github".toList then "Continue with GitHub".toList
  else "Login".toList

inductive Provider where
  | oidc (discoveryURL authEndpoint : Str)
  | saml (ssoURL : Str)

/-- proxy.go:334, 357 -/
def actualIDP : Provider → Str
  | .oidc _ auth => guessIDP auth
  | .saml u => guessIDP u

/-- client.go:109-147: the endpoint that is used; `doc` is the one in the discovery document, if it can be had. -/
def authEndpoint (discoveryURL auth : Str) (doc : Option Str) : Option Str :=
  if discoveryURL ≠ [] then doc else some auth

/-- Where the login redirects to: client.go:181-200 and saml.go:341-349. `q` is the query, after what is there. -/
def location (p : Provider) (doc : Option Str) (q : Str) : Option Str :=
  match p with
  | .oidc d auth => (authEndpoint d auth doc).map fun ep => ep ++ '?' :: q
  | .saml u => some (u.takeWhile (fun c => c ≠ '?' ∧ c ≠ '#') ++ '?' :: q ++ u.dropWhile (· ≠ '#'))

end Verif.Signpost
