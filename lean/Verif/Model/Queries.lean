import Verif.Model.OcspHttp
import Verif.Model.Redirect

/-!
# What the parties of a login write into URLs and forms

Model of the places where parameters are added to URLs or put into forms: `RequestLogin` of OIDC providers
(internal/oidc/client.go:178-199) with `HandleCallback` (228-237), `ServeAuthorization` of the local OIDC server
(internal/oidc/server.go:225-335), `RequestLogin` of SAML providers with `samlAuthnRequest.URL`
(internal/saml/saml.go:126-152 and 307-350), and the passkey manager (internal/passkeys/manager.go:249-255, 279-284
and 426-440).

From memory of the standard library: `url.QueryEscape`, `QueryUnescape`, `ParseQuery`, `Values.Encode`, the parts of
`url.Parse` and `String` that concern the query, and `xml.EscapeText` with the order of attributes and elements of
`xml.Marshal`.

Simplifications: each character of a URL or form is one byte. What comes before the query in a URL is written as it was
read, and so is the fragment (that is so for the usual ones). `Values` is the list of its pairs: the order of pairs with
the same key is that of the slice; the order of different keys has no meaning before `Encode`, which sorts them.
Deflate and base64 are one parameter. Random strings and digests are parameters.
-/

namespace Verif.Queries
open Verif.Path (Str)
open Verif.OcspHttp (unhex)
open Verif.Redirect (upperHex)

/-! ## net/url -/

/-- Go net/url `shouldEscape(c, encodeQueryComponent)`, negated. -/
def plainChar (c : Char) : Bool :=
  ('a' ≤ c && c ≤ 'z') || ('A' ≤ c && c ≤ 'Z') || ('0' ≤ c && c ≤ '9') || c == '-' || c == '_' || c == '.' || c == '~'

def escapeChar (c : Char) : Str :=
  if plainChar c then [c]
  else if c = ' ' then ['+']
  else ['%', upperHex (c.toNat / 16), upperHex (c.toNat % 16)]

/-- `url.QueryEscape`. -/
def escape (s : Str) : Str := s.flatMap escapeChar

/-- `url.QueryUnescape`: `none` is an error. -/
def unescape : Str → Option Str
  | [] => some []
  | '%' :: a :: b :: t =>
    match unhex a, unhex b, unescape t with
    | some x, some y, some r => some (Char.ofNat (16 * x + y) :: r)
    | _, _, _ => none
  | ['%', _] => none
  | ['%'] => none
  | c :: t => (unescape t).map ((if c = '+' then ' ' else c) :: ·)

/-- `strings.Cut`, the second part is empty if there is no separator. -/
def cut (sep : Char) : Str → Str × Str
  | [] => ([], [])
  | c :: t => if c = sep then ([], t) else (c :: (cut sep t).1, (cut sep t).2)

/-- The text between separators. -/
def fields (sep : Char) : Str → List Str
  | [] => [[]]
  | c :: t =>
    if c = sep then [] :: fields sep t
    else match fields sep t with
      | [] => [[c]]
      | f :: fs => (c :: f) :: fs

abbrev Pair := Str × Str

/-- One round of the loop of `parseQuery`. -/
def readPair (f : Str) : Option Pair :=
  if ';' ∈ f then none
  else if f = [] then none
  else
    match unescape (cut '=' f).1, unescape (cut '=' f).2 with
    | some k, some v => some (k, v)
    | _, _ => none

/-- `url.ParseQuery` and `URL.Query`, which leave out what is malformed; `Request.ParseForm` for a query or a form. -/
def parseQuery (q : Str) : List Pair := (fields '&' q).filterMap readPair

/-- All values of a key. -/
def values (k : Str) (l : List Pair) : List Str := (l.filter (·.1 = k)).map (·.2)

/-- `Values.Get`, `Form.Get`. -/
def get (k : Str) (l : List Pair) : Str := (values k l).head?.getD []

/-- `Values.Del`. -/
def del (k : Str) (l : List Pair) : List Pair := l.filter (·.1 ≠ k)

/-- `Values.Set`. -/
def set (k v : Str) (l : List Pair) : List Pair := (k, v) :: del k l

/-- The order of strings. -/
def less : Str → Str → Bool
  | _, [] => false
  | [], _ :: _ => true
  | a :: s, b :: t => a.toNat < b.toNat || (a = b && less s t)

def insert (p : Pair) : List Pair → List Pair
  | [] => [p]
  | q :: l => if less q.1 p.1 then q :: insert p l else p :: q :: l

/-- Pairs in the order of their keys; pairs with the same key stay in order. -/
def sort (l : List Pair) : List Pair := l.foldr insert []

def pairText (p : Pair) : Str := escape p.1 ++ '=' :: escape p.2

def join : List Str → Str
  | [] => []
  | [s] => s
  | s :: t => s ++ '&' :: join t

/-- `Values.Encode`. -/
def encode (l : List Pair) : Str := join ((sort l).map pairText)

/-- The parts of a URL: what is before the query, the query, and the fragment. -/
structure Url where
  base : Str
  query : Str
  force : Bool
  frag : Str
deriving DecidableEq, Repr

/-- `url.Parse`. -/
def parseUrl (s : Str) : Url :=
  let rest := (cut '#' s).1
  { base := (cut '?' rest).1, query := (cut '?' rest).2,
    force := rest.getLast? = some '?' && rest.count '?' = 1, frag := (cut '#' s).2 }

/-- `URL.String`. -/
def Url.text (u : Url) : Str :=
  u.base ++ ((if u.force || u.query ≠ [] then '?' :: u.query else []) ++ (if u.frag ≠ [] then '#' :: u.frag else []))

/-! ## OIDC -/

/-- What a provider's configuration and one login put into the URL. -/
structure Login where
  authEndpoint : Str
  clientID : Str
  scopes : List Str
  redirectURL : Str
  hostedDomain : Str
  hint : Str
  selectAccount : Bool
  /-- hex.EncodeToString, client.go:160 -/
  nonce : Str
  /-- base64.RawURLEncoding, client.go:187 -/
  challenge : Str

/-- client.go:177-180 and 184, `strings.Join(scopes, " ")`. -/
def joinScopes : List Str → Str
  | [] => []
  | [s] => s
  | s :: t => s ++ ' ' :: joinScopes t

def scopeText (l : List Str) : Str := joinScopes (if l = [] then ["openid".toList, "email".toList] else l)

/-- client.go:181-198. -/
def authURL (l : Login) : Str :=
  l.authEndpoint ++ "?".toList ++ "response_type=code".toList ++
    "&client_id=".toList ++ escape l.clientID ++
    "&scope=".toList ++ escape (scopeText l.scopes) ++
    "&redirect_uri=".toList ++ escape l.redirectURL ++
    "&state=".toList ++ l.nonce ++
    "&nonce=".toList ++ l.nonce ++
    "&code_challenge=".toList ++ l.challenge ++
    "&code_challenge_method=S256".toList ++
    (if l.hostedDomain ≠ [] then "&hd=".toList ++ escape l.hostedDomain else []) ++
    (if l.hint ≠ [] then "&login_hint=".toList ++ escape l.hint else []) ++
    (if l.selectAccount then "&prompt=select_account".toList else [])

/-- client.go:229-237: the body of the request for a token. -/
def tokenForm (code clientID secret redirectURL verifier : Str) : Str :=
  encode [("code".toList, code), ("client_id".toList, clientID), ("client_secret".toList, secret),
    ("redirect_uri".toList, redirectURL), ("grant_type".toList, "authorization_code".toList),
    ("code_verifier".toList, verifier)]

/-- server.go:328-335: where the local server sends the browser. -/
def codeURL (redirectURI state code scope : Str) : Str :=
  let u := parseUrl redirectURI
  { u with query := encode (set "scope".toList scope (set "code".toList code
      (set "state".toList state (parseQuery u.query)))) }.text

/-- server.go:232-252: what `ServeAuthorization` takes from its form: client, URI and state, or an error. -/
def authorize (clients : List (Str × List Str)) (form : List Pair) : Option (Str × Str × Str) :=
  if get "response_type".toList form ≠ "code".toList then none
  else if clients.any (fun c => c.1 = get "client_id".toList form && c.2.contains (get "redirect_uri".toList form)) then
    some (get "client_id".toList form, get "redirect_uri".toList form, get "state".toList form)
  else none

/-! ## SAML -/

/-- The characters that XML allows (encoding/xml `isInCharacterRange`). -/
def xmlAllowed (c : Char) : Bool :=
  c == '\t' || c == '\n' || c == '\r' || (32 ≤ c.toNat && c.toNat ≤ 0xD7FF) || (0xE000 ≤ c.toNat && c.toNat ≤ 0xFFFD) ||
    0x10000 ≤ c.toNat

/-- `xml.EscapeText`. -/
def xmlChar (c : Char) : Str :=
  if c = '"' then "&#34;".toList
  else if c = '\'' then "&#39;".toList
  else if c = '&' then "&amp;".toList
  else if c = '<' then "&lt;".toList
  else if c = '>' then "&gt;".toList
  else if c = '\t' then "&#x9;".toList
  else if c = '\n' then "&#xA;".toList
  else if c = '\r' then "&#xD;".toList
  else if xmlAllowed c then [c]
  else [Char.ofNat 0xFFFD]

def xmlText (s : Str) : Str := s.flatMap xmlChar

def attrText (a : Pair) : Str := ' ' :: (a.1 ++ '=' :: '"' :: (xmlText a.2 ++ ['"']))

/-- A start tag. -/
def tagText (name : Str) (attrs : List Pair) : Str := '<' :: (name ++ (attrs.flatMap attrText ++ ['>']))

def endText (name : Str) : Str := '<' :: '/' :: (name ++ ['>'])

structure AuthnRequest where
  id : Str
  issueInstant : Str
  destination : Str
  acsURL : Str
  entityID : Str
deriving DecidableEq, Repr

/-- saml.go:128-143 and 307-323: what `xml.Marshal` makes of the structure. The names of the elements are those of the
tags, not the values of XMLName. -/
def marshal (r : AuthnRequest) : Str :=
  tagText "AuthnRequest".toList
    [("xmlns".toList, "urn:oasis:names:tc:SAML:2.0:protocol".toList), ("ID".toList, r.id),
     ("Version".toList, "2.0".toList), ("IssueInstant".toList, r.issueInstant), ("Destination".toList, r.destination),
     ("ProtocolBinding".toList, "urn:oasis:names:tc:SAML:2.0:bindings:HTTP-POST".toList),
     ("AssertionConsumerServiceURL".toList, r.acsURL)] ++
  (tagText "Issuer".toList
    [("xmlns".toList, "urn:oasis:names:tc:SAML:2.0:assertion".toList),
     ("Format".toList, "urn:oasis:names:tc:SAML:2.0:nameid-format:entity".toList)] ++
  (xmlText r.entityID ++ (endText "Issuer".toList ++ endText "AuthnRequest".toList)))

/-- saml.go:325-350; `pack` is deflate and base64. -/
def samlURL (pack : Str → Str) (r : AuthnRequest) : Str :=
  let u := parseUrl r.destination
  { u with query := encode (set "SAMLRequest".toList (pack (marshal r)) (parseQuery u.query)) }.text

/-! ## Passkeys -/

/-- manager.go:249-255: where a login begins. (The host is in `Verif.Model.Login`.) -/
def passkeyURL (endpoint nonce : Str) : Str :=
  let u := parseUrl endpoint
  { u with query := encode (set "nonce".toList nonce (set "get".toList "Login".toList (parseQuery u.query))) }.text

/-- manager.go:279-284: the query of the page itself, from that of the request. -/
def passkeyPage (query token : Str) : Str :=
  encode (set "redirect".toList token (del "nonce".toList (parseQuery query)))

/-- manager.go:426-433: the query to have the identity confirmed again. -/
def refreshPage (query email : Str) : Str :=
  encode (set "email".toList email (set "get".toList "RefreshID".toList (parseQuery query)))

end Verif.Queries
