import Verif.Model.Jwks
import Verif.Model.OcspHttp

/-!
# Signatures of tokens

Model of the second part of `CreateToken` (proxy/internal/tokenmanager/tokenmanager.go:342-345, 369-372), of
`tpmSigningMethod.Sign` (374-415), `getKey` (417-426) and `ValidateToken` (429-432), with the parts of encoding/asn1,
math/big and golang-jwt 5.2.1 that they use: `asn1.Unmarshal` of a list of integers, `Int.FillBytes`,
`Token.SignedString`, `Parser.ParseWithClaims`, and `Sign` and `Verify` of the signing methods.

Which key signs is in `Verif.Model.Keys`; the claims and their times are in `Verif.Model.Token`.

Simplifications: JSON is a parameter (`Codec`), and so is the mathematics of signatures (`Crypto`), and what the TPM and
the library sign with a key (`Device`). Each character of a text is one byte.
-/

namespace Verif.Sign

abbrev Bytes := List Nat
abbrev Str := List Char

/-! ## asn1.Unmarshal into []*big.Int -/

/-- The bytes of a long length, `n` of them (encoding/asn1 `parseTagAndLength`): at most 2^31, without leading zeros. -/
def longLength : Nat → Nat → Bytes → Option (Nat × Bytes)
  | 0, acc, b => some (acc, b)
  | _ + 1, _, [] => none
  | n + 1, acc, x :: b =>
    if acc ≥ 2 ^ 23 then none
    else if acc * 256 + x = 0 then none
    else longLength n (acc * 256 + x) b

/-- The length of an element: indefinite ones and ones that could be shorter are refused. -/
def derLength : Bytes → Option (Nat × Bytes)
  | [] => none
  | n :: b =>
    if n < 128 then some (n, b)
    else if n = 128 then none
    else match longLength (n - 128) 0 b with
      | none => none
      | some (l, b) => if l < 128 then none else some (l, b)

/-- An element with the given first byte: its content, and what follows. -/
def element (tag : Nat) : Bytes → Option (Bytes × Bytes)
  | [] => none
  | t :: b =>
    if t ≠ tag then none
    else match derLength b with
      | none => none
      | some (l, b) => if l ≤ b.length then some (b.take l, b.drop l) else none

/-- `Int.SetBytes`. -/
def setBytes (b : Bytes) : Nat := b.foldl (fun a x => a * 256 + x) 0

/-- encoding/asn1 `checkInteger`. -/
def checkInteger : Bytes → Bool
  | [] => false
  | [_] => true
  | a :: b :: _ => !((a = 0 && b < 128) || (a = 255 && b ≥ 128))

/-- encoding/asn1 `parseBigInt`. -/
def parseBigInt (b : Bytes) : Option Int :=
  if !checkInteger b then none
  else if b.head?.getD 0 ≥ 128 then some (-((setBytes (b.map (255 - ·)) : Int) + 1))
  else some (setBytes b)

/-- encoding/asn1 `parseSequenceOf`; the first argument is at least the number of elements. -/
def integers : Nat → Bytes → Option (List Int)
  | _, [] => some []
  | 0, _ :: _ => none
  | n + 1, b =>
    match element 2 b with
    | none => none
    | some (c, rest) =>
      match parseBigInt c, integers n rest with
      | some i, some l => some (i :: l)
      | _, _ => none

/-- tokenmanager.go:394-396: what follows the list is ignored. -/
def unmarshal (sig : Bytes) : Option (List Int) :=
  match element 48 sig with
  | none => none
  | some (c, _) => integers c.length c

/-- `Int.FillBytes` of a buffer of `sz` bytes; `none` is a panic. -/
def fillBytes (sz : Nat) (i : Int) : Option Bytes :=
  let b := Jwks.bigBytes i.natAbs
  if b.length ≤ sz then some (List.replicate (sz - b.length) 0 ++ b) else none

/-! ## Keys and methods -/

inductive Pub where
  /-- the size of the curve, and the point -/
  | ec (bits q : Nat)
  | rsa (n : Nat)
  | ed (q : Nat)
deriving DecidableEq, Repr

structure Key where
  id : Str
  pub : Pub
  /-- `*tpm.Key` -/
  tpm : Bool
deriving DecidableEq, Repr

/-- The types of methods of golang-jwt. -/
inductive Method where
  | es (bits keySize hash : Nat)
  | rs (hash : Nat)
  | ed
  /-- PS256 and the like -/
  | ps (hash : Nat)
  /-- HMAC -/
  | hs (hash : Nat)
  | none
deriving DecidableEq, Repr

/-- `jwt.GetSigningMethod`: all methods that the library registers. -/
def methods : List (Str × Method) :=
  [("ES256".toList, .es 256 32 256), ("ES384".toList, .es 384 48 384), ("ES512".toList, .es 521 66 512),
   ("RS256".toList, .rs 256), ("RS384".toList, .rs 384), ("RS512".toList, .rs 512), ("EdDSA".toList, .ed),
   ("PS256".toList, .ps 256), ("PS384".toList, .ps 384), ("PS512".toList, .ps 512),
   ("HS256".toList, .hs 256), ("HS384".toList, .hs 384), ("HS512".toList, .hs 512), ("none".toList, .none)]

def getMethod (alg : Str) : Option Method := methods.lookup alg

/-- The mathematics. -/
structure Crypto where
  /-- SHA-256 and the like -/
  hash : Nat → Bytes → Bytes
  /-- `ecdsa.Verify` -/
  ecdsa : Nat → Bytes → Nat → Nat → Bool
  /-- `rsa.VerifyPKCS1v15`, with the hash function -/
  pkcs1 : Nat → Nat → Bytes → Bytes → Bool
  /-- `rsa.VerifyPSS` -/
  pss : Nat → Nat → Bytes → Bytes → Bool
  /-- `ed25519.Verify` -/
  ed25519 : Nat → Bytes → Bytes → Bool

/-- What is signed with the private keys; `none` is an error. -/
structure Device where
  /-- `tpm.Key.Sign` of an ECDSA key -/
  tpmEc : Key → Bytes → Option Bytes
  /-- `ecdsa.Sign` -/
  softEc : Key → Bytes → Option (Nat × Nat)
  /-- `tpm.Key.Sign` or `rsa.SignPKCS1v15` -/
  rsa : Key → Nat → Bytes → Option Bytes
  ed : Key → Bytes → Option Bytes

inductive Res (α : Type) where
  | ok (a : α)
  | err
  | panic
deriving DecidableEq, Repr

def ofOption {α : Type} : Option α → Res α
  | some a => .ok a
  | none => .err

/-- tokenmanager.go:400-404: both halves are filled. -/
def halves (sz : Nat) (r s : Int) : Res Bytes :=
  match fillBytes sz r, fillBytes sz s with
  | some a, some b => .ok (a ++ b)
  | _, _ => .panic

/-- tokenmanager.go:394-404. -/
def fromDer (sz : Nat) (sig : Bytes) : Res Bytes :=
  match unmarshal sig with
  | some [r, s] => halves sz r s
  | _ => .err

/-- tokenmanager.go:383-404. -/
def tpmEcSign (c : Crypto) (d : Device) (bits hash : Nat) (k : Key) (msg : Bytes) : Res Bytes :=
  match k.pub with
  | .ec kbits _ =>
    if bits ≠ kbits then .err
    else match d.tpmEc k (c.hash hash msg) with
      | none => .err
      | some sig => fromDer (bits / 8) sig
  | _ => .err

/-- golang-jwt `SigningMethodECDSA.Sign`: the curve is checked after signing, and the size of a half is rounded up. -/
def softEcSign (c : Crypto) (d : Device) (bits hash : Nat) (k : Key) (msg : Bytes) : Res Bytes :=
  match k.pub with
  | .ec kbits _ =>
    match d.softEc k (c.hash hash msg) with
    | none => .err
    | some (r, s) => if bits ≠ kbits then .err else halves ((bits + 7) / 8) r s
  | _ => .err

def rsaSign (c : Crypto) (d : Device) (hash : Nat) (k : Key) (msg : Bytes) : Res Bytes :=
  match k.pub with
  | .rsa _ => ofOption (d.rsa k hash (c.hash hash msg))
  | _ => .err

def edSign (d : Device) (k : Key) (msg : Bytes) : Res Bytes :=
  match k.pub with
  | .ed _ => ofOption (d.ed k msg)
  | _ => .err

/-- tokenmanager.go:378-415, and `Sign` of the library for other keys. The methods of the last line are not reached:
`CreateToken` finds no key for them. -/
def sign (c : Crypto) (d : Device) (m : Method) (k : Key) (msg : Bytes) : Res Bytes :=
  match m with
  | .es bits _ hash => if k.tpm then tpmEcSign c d bits hash k msg else softEcSign c d bits hash k msg
  | .rs hash => rsaSign c d hash k msg
  | .ed => if k.tpm then .err else edSign d k msg
  | _ => .err

/-! ## Tokens -/

/-- What a header says. -/
structure Header where
  alg : Option Str
  kid : Option Str
deriving DecidableEq, Repr

/-- encoding/json, for headers and claims. -/
structure Codec (γ : Type) where
  writeHeader : Header → Bytes
  readHeader : Bytes → Option Header
  writeClaims : γ → Bytes
  readClaims : Bytes → Option γ

def ascii (s : Str) : Bytes := s.map Char.toNat

/-- `Token.SigningString`. -/
def signingString {γ : Type} (j : Codec γ) (h : Header) (cl : γ) : Str :=
  Jwks.encode (j.writeHeader h) ++ '.' :: Jwks.encode (j.writeClaims cl)

/-- tokenmanager.go:334-345, 369-372, with the key that has been chosen. -/
def createToken {γ : Type} (j : Codec γ) (c : Crypto) (d : Device) (haveTpm : Bool) (alg : Str) (k : Key) (cl : γ) : Res Str :=
  let alg := if alg = [] then (if haveTpm then "ES256".toList else "EdDSA".toList) else alg
  match getMethod alg with
  | none => .err
  | some m =>
    let text := signingString j ⟨some alg, some k.id⟩ cl
    match sign c d m k (ascii text) with
    | .ok sig => .ok (text ++ '.' :: Jwks.encode sig)
    | .err => .err
    | .panic => .panic

/-- tokenmanager.go:417-426; a header without `kid` matches no key. -/
def getKey (keys : List Key) (h : Header) : Option Key :=
  keys.find? fun k => h.kid = some k.id

/-- `Verify` of golang-jwt. The keys of HMAC are bytes, which none of ours are; that of "none" is a constant. -/
def verify (c : Crypto) (m : Method) (pub : Pub) (msg sig : Bytes) : Bool :=
  match m, pub with
  | .es _ keySize hash, .ec _ q =>
    if sig.length ≠ 2 * keySize then false
    else c.ecdsa q (c.hash hash msg) (setBytes (sig.take keySize)) (setBytes (sig.drop keySize))
  | .rs hash, .rsa n => c.pkcs1 n hash (c.hash hash msg) sig
  | .ps hash, .rsa n => c.pss n hash (c.hash hash msg) sig
  | .ed, .ed q => c.ed25519 q msg sig
  | _, _ => false

/-- strings.Split(s, "."). -/
def splitDots : Str → List Str
  | [] => [[]]
  | c :: s =>
    if c = '.' then [] :: splitDots s
    else match splitDots s with
      | [] => [[c]]
      | a :: t => (c :: a) :: t

/-- tokenmanager.go:430. -/
def validMethods : List Str := ["ES256".toList, "RS256".toList, "EdDSA".toList]

/-- `ParseUnverified` and the checks of `ParseWithClaims` up to the signature. -/
def checkParts {γ : Type} (j : Codec γ) (c : Crypto) (keys : List Key) (a b s : Str) : Option γ :=
  match (OcspHttp.decode64 a).bind j.readHeader, (OcspHttp.decode64 b).bind j.readClaims with
  | some h, some cl =>
    match h.alg with
    | none => none
    | some alg =>
      match getMethod alg with
      | none => none
      | some m =>
        if !validMethods.contains alg then none
        else match OcspHttp.decode64 s, getKey keys h with
          | some sig, some k => if verify c m k.pub (ascii (a ++ '.' :: b)) sig then some cl else none
          | _, _ => none
  | _, _ => none

/-- tokenmanager.go:429-432, but for the claims. -/
def validateToken {γ : Type} (j : Codec γ) (c : Crypto) (keys : List Key) (t : Str) : Option γ :=
  match splitDots t with
  | [a, b, s] => checkParts j c keys a b s
  | _ => none

end Verif.Sign
