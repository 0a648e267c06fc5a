/-!
# Tokens the proxy signs and the checks it makes on them

Model of `proxy/internal/cookiemanager/cookiemanager.go`,
`proxy/internal/tokenmanager/urltoken.go`, the token part of
`proxy/internal/oidc/server.go:ServeAuthorization` / `applyRewriteRules` and
`proxy/backend-sso.go:checkCookies`.

Simplifications:
* a signed token is identified with its claims, and its signature is valid exactly when the proxy
  issued a token with these claims before (ideal signatures; a key that has been rotated away
  only makes more tokens invalid, see `Verif.Model.Keys`). Different base64 or ECDSA encodings
  of one signature are the same token;
* claims are association lists, claim values are null, numbers, strings, lists of strings or Booleans;
* the SHA-256 hex digest of the host and the IDNA conversion are parameters.
-/

namespace Verif.Token

abbrev Str := List Char

/-- JSON values that occur as claims. -/
inductive Val where
  | null
  | num (n : Nat)
  | str (s : Str)
  | list (l : List Str)
  | bool (b : Bool)
  deriving DecidableEq, Repr

/-- `jwt.MapClaims`. -/
abbrev Claims := List (String × Val)

/-- `c[k]`; `none` is the nil of a missing key. -/
def get (c : Claims) (k : String) : Option Val := c.lookup k

/-- `c[k] = v`. -/
def set (c : Claims) (k : String) (v : Val) : Claims := (k, v) :: c.filter (·.1 ≠ k)

/-- `CookieManager`, cookiemanager.go:47-62. The domain is only used in cookie attributes. -/
structure Cm where
  provider : Str
  issuer : Str
  deriving DecidableEq, Repr

abbrev hour : Nat := 3600

/-- The claims literal of `SetAuthTokenCookie`, cookiemanager.go:70-81. -/
def baseClaims (hash : Str → Str) (cm : Cm) (now : Nat) (user email sid host : Str) : Claims :=
  [ ("iat", .num now),
    ("exp", .num (now + 20 * hour)),
    ("iss", .str cm.issuer),
    ("aud", .str cm.issuer),
    ("sub", .str user),
    ("email", .str email),
    ("proxyauth", .str cm.issuer),
    ("provider", .str cm.provider),
    ("hhash", .str (hash host)),
    ("sid", .str sid) ]

/-- The loop over the extra claims, cookiemanager.go:82-89. `extra` is the map in the order the
iteration visits it. -/
def addExtra (claims : Claims) (extra : Claims) : Claims :=
  extra.foldl (fun c kv => if (get c kv.1).isSome then c else set c kv.1 kv.2) claims

/-- `SetAuthTokenCookie`, cookiemanager.go:64-106; `none` is the error return. -/
def authToken (hash : Str → Str) (cm : Cm) (now : Nat) (user email sid host : Str)
    (extra : Claims) : Option Claims :=
  if user = [] || email = [] then none
  else some (addExtra (baseClaims hash cm now user email sid host) extra)

/-- `"https://" + host + "/"`, cookiemanager.go:263. -/
def audience (host : Str) : Str := "https://".toList ++ host ++ "/".toList

/-- `audienceForToken`, cookiemanager.go:266-280, on a host without port; `uni` is
`idna.Lookup.ToUnicode`, `none` on error. -/
def audienceForToken (uni : Str → Option Str) (host : Str) : Val :=
  match uni host with
  | none => .str (audience host)
  | some u => if u = host then .str (audience host) else .list [audience host, audience u]

/-- Claims of the login token that are not copied to ID tokens, cookiemanager.go:116-121. -/
def notCopied : List String := ["scope", "proxyauth", "source", "hhash"]

/-- The claims of the token made by `SetIDTokenCookie`, cookiemanager.go:108-127. -/
def idToken (uni : Str → Option Str) (host : Str) (now : Nat) (auth : Claims) : Claims :=
  let c := auth.filter fun kv => !notCopied.contains kv.1
  set (set c "iat" (.num now)) "aud" (audienceForToken uni host)

/-- The claims of a URL token, urltoken.go:65-81. The callers pass either no extra claims or an
email address (backend-sso.go:193, 246, 293-302; passkeys/manager.go:274). -/
def urlToken (email : Option Str) (url sid : Str) : Claims :=
  let c : Claims := match email with
    | none => []
    | some e => [("email", .str e)]
  set (set c "url" (.str url)) "sid" (.str sid)

/-- One rewrite rule, oidc/server.go:102-109. Expansion, regular expression and formatting are one
function from the claims collected so far to the new value, `none` when the rule does not apply
(oidc/server.go:466-483). -/
structure Rule where
  apply : Claims → Option Str
  output : String

/-- `applyRewriteRules`, oidc/server.go:453-487: `buf` starts as the user's claims. -/
def rewrite : List Rule → Claims → Claims → Claims
  | [], _, out => out
  | r :: rs, buf, out =>
    match r.apply buf with
    | none => rewrite rs buf out
    | some v => rewrite rs (set buf r.output (.str v)) (set out r.output (.str v))

/-- oidc/server.go:297. -/
def profileClaims : List String :=
  ["name", "family_name", "given_name", "middle_name", "nickname", "preferred_username",
   "profile", "picture", "website", "gender", "birthdate", "zoneinfo", "locale"]

/-- The loop of oidc/server.go:297-301; nil is a missing claim or a JSON null. -/
def copyClaims (user : Claims) (out : Claims) (names : List String) : Claims :=
  names.foldl (fun c n => match get user n with
    | none => c
    | some .null => c
    | some v => set c n v) out

/-- Parameters of an authorization request that influence the token. -/
structure AuthzReq where
  clientID : Str
  nonce : Str
  email : Bool -- "email" is one of the requested scopes
  profile : Bool
  deriving DecidableEq, Repr

/-- The claims of the token made by `ServeAuthorization`, oidc/server.go:273-307. -/
def oidcToken (issuer : Str) (rules : List Rule) (now : Nat) (q : AuthzReq) (user : Claims) :
    Claims :=
  let sub : Str := match get user "sub" with
    | some (.str s) => s
    | _ => []
  let c : Claims :=
    [ ("iat", .num now), ("exp", .num (now + 300)), ("iss", .str issuer),
      ("aud", .str q.clientID), ("sub", .str sub), ("scope", .str "openid".toList) ]
  let c := if q.nonce = [] then c else set c "nonce" (.str q.nonce)
  let c := if q.email then
      set (set c "email" ((get user "email").getD .null)) "email_verified" (.bool true)
    else c
  let c := if q.profile then copyClaims user c profileClaims else c
  let sc : Str := "openid".toList ++ (if q.email then " email".toList else []) ++
    (if q.profile then " profile".toList else [])
  let c := set c "scope" (.str sc)
  rewrite rules user c

/-! ## Validation -/

/-- Claim checks of the jwt library that do not depend on options: `exp` and `nbf`, if present,
must be numbers, and the time must be before the former and not before the latter. -/
def timesOk (now : Nat) (c : Claims) : Bool :=
  (match get c "exp" with
   | none => true
   | some (.num e) => now < e
   | some _ => false) &&
  (match get c "nbf" with
   | none => true
   | some (.num n) => n ≤ now
   | some _ => false)

/-- `jwt.WithIssuer`: the claim is required and must be equal. -/
def issOk (iss : Str) (c : Claims) : Bool := get c "iss" = some (.str iss)

/-- `jwt.WithAudience`: one of the audiences must be equal. -/
def audOk (aud : Str) (c : Claims) : Bool :=
  match get c "aud" with
  | some (.str a) => a = aud
  | some (.list l) => l.contains aud
  | _ => false

/-- `ValidateToken` without options, tokenmanager.go:429-432: the signature is that of an issued
token, and the times are right. -/
def validate (issued : List Claims) (now : Nat) (tok : Claims) : Option Claims :=
  if issued.contains tok && timesOk now tok then some tok else none

/-- `ValidateAuthTokenCookie`, cookiemanager.go:193-209; `tok` is the value of the cookie. -/
def validateAuthToken (issued : List Claims) (cm : Cm) (now : Nat) (tok : Claims) :
    Option Claims :=
  match validate issued now tok with
  | none => none
  | some c =>
    if !(issOk cm.issuer c && audOk cm.issuer c) then none
    else if get c "proxyauth" ≠ some (.str cm.issuer) ||
        get c "provider" ≠ some (.str cm.provider) then none
    else match get c "sub" with
      | some (.str s) => if s = [] then none else some c
      | _ => none

/-- `ValidateIDTokenCookie`, cookiemanager.go:211-231; `host` is the request's host without
port, `auth` the claims of the login token. -/
def validateIDToken (issued : List Claims) (cm : Cm) (host : Str) (now : Nat) (auth : Claims)
    (tok : Claims) : Bool :=
  match validate issued now tok with
  | none => false
  | some c =>
    issOk cm.issuer c && audOk (audience host) c &&
      get c "sub" = get auth "sub" && get c "sid" = get auth "sid"

/-- `ValidateAuthorizationHeader`, cookiemanager.go:233-246, on the token after "Bearer ". -/
def validateBearer (issued : List Claims) (cm : Cm) (host : Str) (now : Nat) (tok : Claims) :
    Option Claims :=
  match validate issued now tok with
  | none => none
  | some c =>
    if !(issOk cm.issuer c && audOk (audience host) c) then none
    else if (get c "proxyauth").isSome then none
    else some c

/-- `sessionID`, urltoken.go:43-62: the session cookie, or else a fresh value. -/
def sessionID (cookie : Option Str) (fresh : Str) : Str := cookie.getD fresh

/-- `ValidateURLToken`, urltoken.go:85-104; the result is the string that `url.Parse` gets. -/
def validateURL (issued : List Claims) (cookie : Option Str) (fresh : Str) (now : Nat)
    (tok : Claims) : Option (Str × Claims) :=
  match validate issued now tok with
  | none => none
  | some c =>
    if get c "sid" ≠ some (.str (sessionID cookie fresh)) then none
    else match get c "url" with
      | some (.str u) => some (u, c)
      | _ => none

/-! ## `checkCookies` -/

/-- A request as `checkCookies` sees it. -/
structure Req where
  host : Str
  bearer : Option Claims -- token of the Authorization header
  authCookie : Option Claims
  idCookie : Option Claims

/-- Outcome of `checkCookies`, backend-sso.go:108-145. -/
inductive Outcome where
  | claims (c : Option Claims) -- continue, with these claims in the context
  | newIDToken (c : Claims) -- set this ID token cookie and redirect to the same URL
  deriving DecidableEq, Repr

/-- backend-sso.go:108-145. `names` are the backend's server names, `gen` is
`GenerateIDTokens`. -/
def checkCookies (uni : Str → Option Str) (issued : List Claims) (cm : Cm) (gen : Bool)
    (names : List Str) (now : Nat) (r : Req) : Outcome :=
  match r.bearer.bind (validateBearer issued cm r.host now) with
  | some c => .claims (some c)
  | none =>
    match r.authCookie.bind (validateAuthToken issued cm now) with
    | none => .claims none
    | some auth =>
      match get auth "email" with
      | some (.str e) =>
        if e = [] then .claims none
        else if !gen then .claims (some auth)
        else if !names.contains r.host then .claims (some auth)
        else if (match r.idCookie with
            | none => false
            | some t => validateIDToken issued cm r.host now auth t) then .claims (some auth)
        else .newIDToken (idToken uni r.host now auth)
      | _ => .claims none

end Verif.Token
