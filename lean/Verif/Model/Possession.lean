import Verif.Model.PemRead
/-!
# Whose key a certificate is issued for

Model of `handleRequestCert` (proxy/internal/pki/http.go:344-409) with `ValidateCertificateRequest` (proxy/internal/pki/pki.go:725-734),
and of the request that the page of the browser makes (`MakeCSR`, proxy/internal/pki/clientwasm/impl/impl.go:78; the service worker
sends it as it is).

`x509.ParseCertificateRequest` and `CheckSignature` are parameters; a key is a number. Keys that `IssueCertificate` refuses, and its
other errors, are left out: what it stores is in `Verif.Model.Pki`.
-/
namespace Verif.Possession

open Verif.Path (Str)

/-- What is used of an `x509.CertificateRequest`. -/
structure Csr where
  key : Nat
  cn : Str
  dns : List Str
  deriving DecidableEq, Repr

structure Env where
  /-- `x509.ParseCertificateRequest` -/
  parse : List Nat → Option Csr
  /-- `CheckSignature` of the request in these bytes -/
  check : List Nat → Bool

/-- pki.go:725-734 `ValidateCertificateRequest`. -/
def validate (e : Env) (raw : List Nat) : Option Csr :=
  match e.parse raw with
  | none => none
  | some cr => if e.check raw then some cr else none

structure Post where
  /-- the claims of the login, if there are any, and their address, if there is one -/
  claims : Option (Option Str)
  method : Str
  csrf : Str
  ctype : Str
  /-- `none` is an error while it is read -/
  body : Option Str

structure Issued where
  key : Nat
  cn : Str
  emails : List Str
  dns : List Str
  deriving DecidableEq, Repr

inductive Out
  | internal
  | bad
  | issue (c : Issued)
  deriving DecidableEq, Repr

/-- http.go:386-399 -/
def template (email : Str) (cr : Csr) : Issued :=
  { key := cr.key, cn := if cr.cn = [] then email else email ++ ("::".toList ++ cr.cn), emails := [email], dns := cr.dns }

/-- http.go:368-399 -/
def handleBody (e : Env) (email : Str) (body : Option Str) : Out :=
  match body with
  | none => .internal
  | some s =>
    match Pem.decode s with
    | none => .bad
    | some ((_, raw), _) =>
      match validate e raw with
      | none => .bad
      | some cr => .issue (template email cr)

/-- http.go:344-409 `handleRequestCert`. -/
def handle (e : Env) (p : Post) : Out :=
  match p.claims with
  | none => .internal
  | some email =>
    if p.method ≠ "POST".toList then .bad
    else if p.csrf ≠ "1".toList then .bad
    else if p.ctype ≠ "application/x-pem-file".toList then .bad
    else handleBody e (email.getD []) p.body

/-- impl.go:78 -/
def makeCSR (cut : Str → List Str) (raw : List Nat) : Str := Pem.encodeBlock cut "CERTIFICATE REQUEST".toList raw

end Verif.Possession
