import Verif.Model.Authdata
/-!
# Public keys and signatures of passkeys

Model of `verifySignature` and `signedBytes` (proxy/internal/passkeys/webauthn.go:277-350), of what registering a passkey
does with the authenticator data (proxy/internal/passkeys/manager.go:863-914), and of how a login uses the registered key
(manager.go:976-985, 1010-1030). Challenges, origins, users and the database are in `Verif.Model.Passkey`.

The libraries are parameters: SHA-256, the verification of ECDSA and RSA signatures, the test whether a point is on
P-256, and the CBOR decoder (github.com/fxamacker/cbor v2.7.0), which gives a map from integer labels to items. How items
are stored in fields of Go structures is written down here from the documentation of the decoder. Errors are `false` or
`none`.
-/
namespace Verif.Assertion

abbrev Bytes := List UInt8

/-- An item of a CBOR map. -/
inductive Item where
  | int (i : Int)
  | bytes (b : Bytes)
  /-- an array of numbers below 256, which the decoder stores in a `[]byte` too -/
  | list (b : Bytes)
  | null
  | other
deriving DecidableEq, Repr

/-- A CBOR map with integer labels. -/
abbrev Map := Int → Option Item

structure Lib where
  /-- `cbor.UnmarshalFirst` for a `cbor.RawMessage` -/
  first : Bytes → Option (Bytes × Bytes)
  /-- `cbor.Unmarshal` as far as it does not depend on the types of the fields; `none`: not a map -/
  cbor : Bytes → Option Map
  sha256 : Bytes → Bytes
  /-- `elliptic.P256().IsOnCurve` -/
  onCurve : Nat → Nat → Bool
  /-- `ecdsa.VerifyASN1` with P-256 -/
  ecdsa : Nat → Nat → Bytes → Bytes → Bool
  /-- `rsa.VerifyPKCS1v15` with SHA-256 -/
  rsa : Nat → Int → Bytes → Bytes → Bool

/-- A field of type `int`: it stays 0 if there is no such label or the item is null; another item, or a number that does
not fit, is an error. -/
def intField (c : Map) (label : Int) : Option Int :=
  match c label with
  | none => some 0
  | some .null => some 0
  | some (.int i) => if -9223372036854775808 ≤ i ∧ i ≤ 9223372036854775807 then some i else none
  | _ => none

/-- A field of type `[]byte`. -/
def bytesField (c : Map) (label : Int) : Option Bytes :=
  match c label with
  | none => some []
  | some .null => some []
  | some (.bytes b) => some b
  | some (.list b) => some b
  | _ => none

/-- webauthn.go:277-283 -/
def signedBytes (lib : Lib) (authData clientDataJSON : Bytes) : Bytes := authData ++ lib.sha256 clientDataJSON

/-- webauthn.go:297-325 -/
def verifyEC (lib : Lib) (c : Map) (hashed signature : Bytes) : Bool :=
  match intField c 1, intField c 3, intField c (-1), bytesField c (-2), bytesField c (-3) with
  | some _, some alg, some curve, some x, some y =>
    if alg ≠ -7 then false
    else if curve ≠ 1 then false
    else if !lib.onCurve (Authdata.beNat x) (Authdata.beNat y) then false
    else lib.ecdsa (Authdata.beNat x) (Authdata.beNat y) hashed signature
  | _, _, _, _, _ => false

/-- webauthn.go:326-346 -/
def verifyRSA (lib : Lib) (c : Map) (hashed signature : Bytes) : Bool :=
  match intField c 1, intField c 3, bytesField c (-1), intField c (-2) with
  | some _, some alg, some n, some e =>
    if alg ≠ -257 then false
    else lib.rsa (Authdata.beNat n) e hashed signature
  | _, _, _, _ => false

/-- webauthn.go:286-350 -/
def verifySignature (lib : Lib) (coseKey authData clientDataJSON signature : Bytes) : Bool :=
  let hashed := lib.sha256 (signedBytes lib authData clientDataJSON)
  match lib.cbor coseKey with
  | none => false
  | some c =>
    match intField c 1 with
    | none => false
    | some kty =>
      if kty = 2 then verifyEC lib c hashed signature
      else if kty = 3 then verifyRSA lib c hashed signature
      else false

/-- `userKey`, manager.go, without times and transports. -/
structure UserKey where
  id : Bytes
  publicKey : Bytes
  rpIdHash : Bytes
deriving DecidableEq, Repr

/-- manager.go:863-914: the keys of the user afterwards; `hash` is the hash of the host. The attestation statement is not
looked at, and neither is the public key. -/
def register (lib : Lib) (hash : Bytes) (authData : Bytes) (ks : List UserKey) : Option (List UserKey) :=
  match Authdata.parse lib.first authData with
  | .ok d =>
    if d.rp ≠ hash then none
    else if !d.up then none
    else if !d.uv then none
    else
      match d.creds with
      | none => none
      | some c => some (ks ++ [⟨c.id, c.cose, d.rp⟩])
  | _ => none

/-- manager.go:976-985 and 1010-1030: the key with which the user has logged in. -/
def login (lib : Lib) (ks : List UserKey) (kid authData clientDataJSON signature : Bytes) : Option UserKey :=
  match Authdata.parse lib.first authData with
  | .ok d =>
    if !d.up then none
    else if !d.uv then none
    else
      match ks.find? (fun k => k.id == kid) with
      | none => none
      | some k =>
        if d.rp ≠ k.rpIdHash then none
        else if verifySignature lib k.publicKey authData clientDataJSON signature then some k
        else none
  | _ => none

/-- webauthn.go:99-110: the algorithms that authenticators may choose from. -/
def offered : List Int := [-7, -257]

end Verif.Assertion
