import Verif.Model.Oidc
/-!
# What the clients of the local OpenID Connect server can do

On top of `Verif.Model.Oidc` (the maps of codes and access tokens of proxy/internal/oidc/server.go and their critical
sections): the requests as they arrive at the token endpoint (server.go:338-400), what is answered, and what the discovery
document (server.go:60-71, 162-205) says about it. Each request runs without interruption, between any others. Texts in
requests stand for the numbers that are the keys of these maps. The ID token is in `Verif.Model.Token`.
-/
namespace Verif.RelyingParty

open Verif.Oidc Verif.Oidc.Server
open Verif.Token (Str)

/-- A request to the token endpoint: whether it is a POST, name and password of its Authorization header (RFC 7617), and
the parameters of its body. -/
structure Request where
  post : Bool
  basic : Option (Str × Str)
  form : List (Str × Str)
deriving DecidableEq, Repr

/-- `req.Form.Get` -/
def get (k : Str) (f : List (Str × Str)) : Str := (f.lookup k).getD []

/-- server.go:344-352: what is read of a request. `num` is the key that a text stands for. -/
def tokenReq (num : Str → Nat) (r : Request) : TokenReq where
  post := r.post
  grant := get "grant_type".toList r.form
  code := num (get "code".toList r.form)
  clientID := get "client_id".toList r.form
  secret := get "client_secret".toList r.form
  uri := get "redirect_uri".toList r.form

/-- server.go:374-386: the part of the answer that is about the access token. -/
structure Answer where
  access : Nat
  expiresIn : Nat
deriving DecidableEq, Repr

/-- The answer, by the new entry of the log. -/
def tokenAnswer (s s' : State) : Option Answer :=
  match s'.log with
  | .exchanged _ a _ _ _ _ :: l => if l.length = s.log.length then some ⟨a, 90⟩ else none
  | _ => none

/-- server.go:338-400 `ServeToken` at time `t` (seconds); `none` is status 400. -/
def serveToken (clients : List ClientCfg) (num : Str → Nat) (s : State) (t : Nat) (r : Request) : State × Option Answer :=
  let s' := step clients (vacuum t s) (.token t (tokenReq num r))
  (s', tokenAnswer s s')

/-- The claims in the answer. -/
def infoAnswer (s s' : State) : Option Token.Claims :=
  match s'.log with
  | .info _ c _ :: l => if l.length = s.log.length then some c else none
  | _ => none

/-- server.go:402-451 `ServeUserInfo` at time `t` for a request with an access token. -/
def serveUserInfo (clients : List ClientCfg) (s : State) (t a : Nat) : State × Option Token.Claims :=
  let s' := step clients (vacuum t s) (.userinfo t a)
  (s', infoAnswer s s')

/-- server.go:60-71, 174-205: the methods for the authentication of clients in the discovery document
(`token_endpoint_auth_methods_supported`); `none`: the document does not name any. -/
def authMethods : Option (List String) := none

end Verif.RelyingParty
