import Verif.Model.Keys
/-
Model of `TokenManager.ServeJWKS` (proxy/internal/tokenmanager/tokenmanager.go:453-508): the published
form of the signing keys. The JSON encoding, the entity tag and the HTTP headers are left out.
-/
namespace Verif.Jwks

abbrev Str := List Char

/-- A public key: the coordinates of a point, the bytes of an Ed25519 key, or modulus and exponent. -/
inductive Pub where
  | ec (x y : Nat)
  | ed (raw : List Nat)
  | rsa (n e : Nat)
  /-- any other type of key -/
  | other
deriving DecidableEq, Repr

structure Key where
  id : Str
  pub : Pub
deriving DecidableEq, Repr

/-- tokenmanager.go:436-451 `jwk`. Absent fields are empty. -/
structure Jwk where
  kty : Str
  use : Str
  kid : Str
  alg : Str
  crv : Str := []
  x : Str := []
  y : Str := []
  n : Str := []
  e : Str := []
deriving DecidableEq, Repr

/-- Go math/big `Int.Bytes`: big-endian, without leading zeros (tokenmanager.go:465-466, 483-484). -/
def bigBytes (n : Nat) : List Nat :=
  if h : n = 0 then [] else bigBytes (n / 256) ++ [n % 256]
termination_by n
decreasing_by omega

/-- The alphabet of `base64.RawURLEncoding`. -/
def alphabet : Str := "ABCDEFGHIJKLMNOPQRSTUVWXYZabcdefghijklmnopqrstuvwxyz0123456789-_".toList

def digit (n : Nat) : Char := alphabet.getD (n % 64) 'A'

/-- Go encoding/base64 `EncodeToString` for `RawURLEncoding` (tokenmanager.go:465-484): three bytes are put
together to a number that is then cut into four digits. -/
def encode : List Nat → Str
  | [] => []
  | [a] =>
    let v := a * 65536
    [digit (v / 262144), digit (v / 4096)]
  | [a, b] =>
    let v := a * 65536 + b * 256
    [digit (v / 262144), digit (v / 4096), digit (v / 64)]
  | a :: b :: c :: t =>
    let v := a * 65536 + b * 256 + c
    digit (v / 262144) :: digit (v / 4096) :: digit (v / 64) :: digit v :: encode t

/-- tokenmanager.go:457-487: one turn of the loop. -/
def jwkOf (k : Key) : Option Jwk :=
  match k.pub with
  | .ec x y =>
    some { kty := "EC".toList, use := "sig".toList, kid := k.id, alg := "ES256".toList, crv := "P-256".toList,
           x := encode (bigBytes x), y := encode (bigBytes y) }
  | .ed raw =>
    some { kty := "OKP".toList, use := "sig".toList, kid := k.id, alg := "EdDSA".toList,
           crv := "Ed25519".toList, x := encode raw }
  | .rsa n e =>
    some { kty := "RSA".toList, use := "sig".toList, kid := k.id, alg := "RS256".toList,
           n := encode (bigBytes n), e := encode (bigBytes e) }
  | .other => none

/-- tokenmanager.go:453-490 `ServeJWKS`. -/
def serveJWKS (keys : List Key) : List Jwk := keys.filterMap jwkOf

end Verif.Jwks
